import Verif.Model.Reading
/-! Lemmas about splitting a byte list into packets. -/
namespace AF.Reading

theorem packets_short {k : Nat} {hk : 0 < k} {bs : List Byte} (h : bs.length < k) :
    packets k hk bs = [] := by
  rw [packets]; simp; omega

theorem packets_cons {k : Nat} {hk : 0 < k} {bs : List Byte} (h : k ≤ bs.length) :
    packets k hk bs = bs.take k :: packets k hk (bs.drop k) := by
  rw [packets]; simp [h]

theorem packets_length (k : Nat) (hk : 0 < k) (bs : List Byte) :
    (packets k hk bs).length = bs.length / k := by
  fun_induction packets k hk bs with
  | case1 bs h ih =>
    simp only [List.length_cons, ih, List.length_drop]
    rw [← Nat.div_eq_sub_div hk h]
  | case2 bs h => simp; rw [Nat.div_eq_of_lt (by omega)]

theorem packets_mem (k : Nat) (hk : 0 < k) (bs : List Byte) :
    ∀ p ∈ packets k hk bs, p.length = k := by
  fun_induction packets k hk bs with
  | case1 bs h ih =>
    intro p hp
    rcases List.mem_cons.1 hp with rfl | hp
    · simp; omega
    · exact ih p hp
  | case2 bs h => simp

theorem packets_drop (k : Nat) (hk : 0 < k) (bs : List Byte) (b : Nat) :
    packets k hk (bs.drop (k * b)) = (packets k hk bs).drop b := by
  induction b generalizing bs with
  | zero => simp
  | succ b ih =>
    by_cases h : k ≤ bs.length
    · rw [packets_cons h, List.drop_succ_cons, ← ih, List.drop_drop]
      congr 2; rw [Nat.mul_succ]; omega
    · rw [packets_short (bs := bs) (by omega), packets_short]
      · simp
      · simp; omega

theorem packets_take (k : Nat) (hk : 0 < k) (bs : List Byte) (m : Nat) :
    packets k hk (bs.take (k * m)) = (packets k hk bs).take m := by
  induction m generalizing bs with
  | zero => simp; rw [packets_short]; simpa using hk
  | succ m ih =>
    by_cases h : k ≤ bs.length
    · have hk2 : k ≤ k * (m + 1) := Nat.le_mul_of_pos_right _ (by omega)
      rw [packets_cons h, List.take_succ_cons, packets_cons (by simp; omega), ← ih]
      rw [List.take_take, List.drop_take]
      congr 1
      · congr 1; omega
      · congr 2; rw [Nat.mul_succ]; omega
    · rw [packets_short (bs := bs) (by omega), packets_short]
      · simp
      · simp; omega

section flat
variable {β δ : Type} (f : β → List δ) (n : Nat)

theorem flatMap_length_of (l : List β) (h : ∀ x ∈ l, (f x).length = n) :
    (l.flatMap f).length = l.length * n := by
  induction l with
  | nil => simp
  | cons a l ih =>
    simp only [List.flatMap_cons, List.length_append, List.length_cons]
    rw [h a (by simp), ih (fun x hx => h x (by simp [hx])), Nat.succ_mul]; omega

theorem flatMap_drop_of (l : List β) (h : ∀ x ∈ l, (f x).length = n) (b : Nat) :
    (l.drop b).flatMap f = (l.flatMap f).drop (b * n) := by
  induction b generalizing l with
  | zero => simp
  | succ b ih =>
    cases l with
    | nil => simp
    | cons a l =>
      simp only [List.drop_succ_cons, List.flatMap_cons]
      rw [ih l (fun x hx => h x (by simp [hx])), List.drop_append, List.drop_eq_nil_of_le (as := f a)
        (by rw [h a (by simp), Nat.succ_mul]; omega), h a (by simp), Nat.succ_mul]
      simp

theorem flatMap_take_of (l : List β) (h : ∀ x ∈ l, (f x).length = n) (b : Nat) :
    (l.take b).flatMap f = (l.flatMap f).take (b * n) := by
  induction b generalizing l with
  | zero => simp
  | succ b ih =>
    cases l with
    | nil => simp
    | cons a l =>
      simp only [List.take_succ_cons, List.flatMap_cons]
      rw [ih l (fun x hx => h x (by simp [hx])), List.take_append, List.take_of_length_le
        (l := f a) (by rw [h a (by simp), Nat.succ_mul]; omega), h a (by simp), Nat.succ_mul]
      simp

end flat
end AF.Reading
