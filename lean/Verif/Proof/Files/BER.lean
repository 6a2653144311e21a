import Verif.Model.Files.CAF
/-!
# Packet sizes in CAF files
-/
namespace AF.Files
open AF

theorem c7f32 (i : Nat) : (0x7f : BitVec 32).getLsbD i = decide (i < 7) := by
  by_cases h : i < 32
  · have : ∀ i < 32, (0x7f : BitVec 32).getLsbD i = decide (i < 7) := by decide
    exact this i h
  · rw [BitVec.getLsbD_of_ge _ _ (by omega)]; simp; omega

theorem c80_32 (i : Nat) : (0x80 : BitVec 32).getLsbD i = decide (i = 7) := by
  by_cases h : i < 32
  · have : ∀ i < 32, (0x80 : BitVec 32).getLsbD i = decide (i = 7) := by decide
    exact this i h
  · rw [BitVec.getLsbD_of_ge _ _ (by omega)]; simp; omega

theorem c7f8 (i : Nat) : (0x7f : BitVec 8).getLsbD i = decide (i < 7) := by
  by_cases h : i < 8
  · have : ∀ i < 8, (0x7f : BitVec 8).getLsbD i = decide (i < 7) := by decide
    exact this i h
  · rw [BitVec.getLsbD_of_ge _ _ (by omega)]; simp; omega

theorem ber_more (x : BitVec 32) : (x ||| 0x80).setWidth 8 &&& (0x80 : BitVec 8) ≠ 0 := by
  intro h
  have := congrArg (·.getLsbD 7) h
  simp only [BitVec.getLsbD_and, BitVec.getLsbD_setWidth, BitVec.getLsbD_or, c80_32] at this
  simp at this

theorem ber_last (x : BitVec 32) : (x &&& 0x7f).setWidth 8 &&& (0x80 : BitVec 8) = 0 := by
  apply BitVec.eq_of_getLsbD_eq
  intro i hi
  have : ∀ i < 8, (0x80 : BitVec 8).getLsbD i = decide (i = 7) := by decide
  simp only [BitVec.getLsbD_and, BitVec.getLsbD_setWidth, c7f32, this i hi, BitVec.getLsbD_zero]
  by_cases h : i = 7
  · subst h; simp
  · simp [h]

theorem ber_low1 (x : BitVec 32) : ((x ||| 0x80).setWidth 8 &&& (0x7f : BitVec 8)).setWidth 32 = x &&& 0x7f := by
  apply BitVec.eq_of_getLsbD_eq
  intro i hi
  simp only [BitVec.getLsbD_and, BitVec.getLsbD_setWidth, BitVec.getLsbD_or, c7f32, c7f8, c80_32]
  by_cases h : i < 7
  · have : i < 8 := by omega
    have h7 : i ≠ 7 := by omega
    simp [h, this, hi, h7]
  · simp [h]

theorem ber_low2 (x : BitVec 32) : ((x &&& 0x7f).setWidth 8 &&& (0x7f : BitVec 8)).setWidth 32 = x &&& 0x7f := by
  apply BitVec.eq_of_getLsbD_eq
  intro i hi
  simp only [BitVec.getLsbD_and, BitVec.getLsbD_setWidth, c7f32, c7f8]
  by_cases h : i < 7
  · have : i < 8 := by omega
    simp [h, this, hi]
  · simp [h]

theorem ber_and (x : BitVec 32) : x &&& 0x7f &&& 0x7f = x &&& 0x7f := by
  rw [BitVec.and_assoc, BitVec.and_self]

/-- Seven more bits. -/
theorem ber_join (v : BitVec 32) (n : Nat) : (v >>> (n + 7)) <<< 7 ||| (v >>> n &&& 0x7f) = v >>> n := by
  apply BitVec.eq_of_getLsbD_eq
  intro i hi
  simp only [BitVec.getLsbD_or, BitVec.getLsbD_shiftLeft, BitVec.getLsbD_and, BitVec.getLsbD_ushiftRight, c7f32]
  by_cases h : i < 7
  · simp [h]
  · have e : n + 7 + (i - 7) = n + i := by omega
    simp [h, hi, e]

/-- The mask tests of the encoder. -/
theorem ber_mask {v : BitVec 32} {m : BitVec 32} {k : Nat} (hm : m.toNat = 2 ^ k - 1) (hk : k ≤ 32) (h : v &&& m = v) : v.toNat < 2 ^ k := by
  have := congrArg BitVec.toNat h
  rw [BitVec.toNat_and, hm, Nat.and_two_pow_sub_one_eq_mod] at this
  rw [← this]
  exact Nat.mod_lt _ (Nat.two_pow_pos k)

theorem ber_top {v : BitVec 32} {n : Nat} (h : v.toNat < 2 ^ (n + 7)) : (0 : BitVec 32) <<< 7 ||| (v >>> n &&& 0x7f) = v >>> n := by
  have e : v >>> (n + 7) = 0 := by
    apply BitVec.eq_of_toNat_eq
    rw [BitVec.toNat_ushiftRight, Nat.shiftRight_eq_div_pow, Nat.div_eq_of_lt h]
    rfl
  have := ber_join v n
  rw [e] at this
  exact this

theorem berLoop_more (x : BitVec 32) (rest : List Byte) (r : BitVec 32) {n : Nat} (hn : n < 5) :
    berLoop ((x ||| 0x80).setWidth 8 :: rest) r n = berLoop rest (r <<< 7 ||| (x &&& 0x7f)) (n + 1) := by
  rw [berLoop]
  rw [if_neg (by omega), if_pos (ber_more x), ber_low1]

theorem berLoop_last (x : BitVec 32) (rest : List Byte) (r : BitVec 32) {n : Nat} (hn : n < 5) :
    berLoop ((x &&& 0x7f).setWidth 8 :: rest) r n = (r <<< 7 ||| (x &&& 0x7f), n + 1) := by
  rw [berLoop]
  rw [if_neg (by omega), if_neg (by rw [ber_last]; simp), ber_low2]

/-- Every packet size comes back, and only its own bytes are used. -/
theorem ber_roundtrip (v : BitVec 32) (rest : List Byte) : berDecode (berEncode v ++ rest) = (v, (berEncode v).length) := by
  have s0 : v >>> 0 = v := by simp
  have j0 := ber_join v 0
  have j7 := ber_join v 7
  have j14 := ber_join v 14
  have j21 := ber_join v 21
  rw [s0] at j0
  unfold berDecode berEncode
  split
  · rename_i h
    have e : [BitVec.setWidth 8 v] ++ rest = (v &&& 0x7f).setWidth 8 :: rest := by rw [h]; rfl
    have t := ber_top (n := 0) (ber_mask (k := 7) rfl (by decide) h)
    rw [s0] at t
    rw [e, berLoop_last _ _ _ (by decide), t]
    rfl
  split
  · rename_i h
    simp only [List.cons_append, List.nil_append]
    rw [berLoop_more _ _ _ (by decide), berLoop_last _ _ _ (by decide),
      ber_top (n := 7) (ber_mask (k := 14) rfl (by decide) h), j0]
    rfl
  split
  · rename_i h
    simp only [List.cons_append, List.nil_append]
    rw [berLoop_more _ _ _ (by decide), berLoop_more _ _ _ (by decide), berLoop_last _ _ _ (by decide),
      ber_top (n := 14) (ber_mask (k := 21) rfl (by decide) h), ber_and, j7, j0]
    rfl
  split
  · rename_i h
    simp only [List.cons_append, List.nil_append]
    rw [berLoop_more _ _ _ (by decide), berLoop_more _ _ _ (by decide), berLoop_more _ _ _ (by decide), berLoop_last _ _ _ (by decide),
      ber_top (n := 21) (ber_mask (k := 28) rfl (by decide) h), ber_and, ber_and, j14, j7, j0]
    rfl
  · simp only [List.cons_append, List.nil_append]
    rw [berLoop_more _ _ _ (by decide), berLoop_more _ _ _ (by decide), berLoop_more _ _ _ (by decide), berLoop_more _ _ _ (by decide),
      berLoop_last _ _ _ (by decide),
      ber_top (n := 28) (by have := v.isLt; omega), ber_and, ber_and, ber_and, j21, j14, j7, j0]
    rfl

theorem berEncode_pos (v : BitVec 32) : 1 ≤ (berEncode v).length ∧ (berEncode v).length ≤ 5 := by
  unfold berEncode
  repeat' split
  all_goals simp

/-- A table of sizes comes back. -/
theorem berSizes_ok (ns : List Nat) (h : ∀ n ∈ ns, 0 < n ∧ n < 2 ^ 32) :
    ∀ fuel, (ns.flatMap fun n => berEncode (BitVec.ofNat 32 n)).length ≤ fuel →
      berSizes fuel (ns.flatMap fun n => berEncode (BitVec.ofNat 32 n)) = ns := by
  induction ns with
  | nil => intro fuel _; cases fuel <;> rfl
  | cons n ns ih =>
    intro fuel hf
    rw [List.flatMap_cons, List.length_append] at hf
    have hp := berEncode_pos (BitVec.ofNat 32 n)
    obtain ⟨fuel, rfl⟩ : ∃ k, fuel = k + 1 := ⟨fuel - 1, by omega⟩
    rw [List.flatMap_cons, berSizes, ber_roundtrip, if_neg (by
      intro e
      have := congrArg List.length (List.append_eq_nil_iff.1 e).1
      rw [List.length_nil] at this
      omega)]
    dsimp only
    have hn := h n (by simp)
    have hz : (BitVec.ofNat 32 n).toNat = n := by rw [BitVec.toNat_ofNat]; omega
    rw [if_neg (by intro e; rw [e] at hz; simp at hz; omega), hz, List.drop_left, ih (fun m hm => h m (by simp [hm])) fuel (by omega)]

theorem ber_last_nat (x : BitVec 32) : ((x &&& 0x7f).setWidth 8).toNat = x.toNat % 128 := by
  rw [BitVec.toNat_setWidth, BitVec.toNat_and]
  have : x.toNat &&& (0x7f : BitVec 32).toNat = x.toNat % 128 := Nat.and_two_pow_sub_one_eq_mod x.toNat 7
  rw [this]
  omega

theorem ber_more_nat {x : BitVec 32} (h : x.toNat < 128) : ((x ||| 0x80).setWidth 8).toNat = x.toNat + 128 := by
  rw [BitVec.toNat_setWidth, BitVec.toNat_or, Nat.or_comm]
  have : (0x80 : BitVec 32).toNat ||| x.toNat = 128 + x.toNat := (Nat.two_pow_add_eq_or_of_lt (i := 7) h 1).symm
  rw [this]
  omega

theorem ber_mid_nat (x : BitVec 32) : (((x &&& 0x7f) ||| 0x80).setWidth 8).toNat = x.toNat % 128 + 128 := by
  have e : (x &&& 0x7f).toNat = x.toNat % 128 := by
    rw [BitVec.toNat_and]; exact Nat.and_two_pow_sub_one_eq_mod x.toNat 7
  rw [ber_more_nat (by omega), e]

theorem ber_lt {v m : BitVec 32} {k : Nat} (hm : m.toNat = 2 ^ k - 1) (h : v &&& m = v) : v.toNat < 2 ^ k := by
  have := congrArg BitVec.toNat h
  rw [BitVec.toNat_and, hm, Nat.and_two_pow_sub_one_eq_mod] at this
  have := Nat.mod_lt v.toNat (Nat.two_pow_pos k)
  omega

theorem ber_shift (v : BitVec 32) (k : Nat) : (v >>> k).toNat = v.toNat / 2 ^ k := by
  rw [BitVec.toNat_ushiftRight, Nat.shiftRight_eq_div_pow]

theorem ber_digits (v : BitVec 32) :
    1 ≤ (berEncode v).length ∧ (berEncode v).length ≤ 5 ∧
    (berEncode v).foldl (fun a b => a * 128 + b.toNat % 128) 0 = v.toNat ∧
    ∀ i (hi : i < (berEncode v).length), (128 ≤ (berEncode v)[i].toNat ↔ i + 1 < (berEncode v).length) := by
  have hv := v.isLt
  have s0 := ber_last_nat v
  have l7 := ber_mid_nat (v >>> 7)
  have l14 := ber_mid_nat (v >>> 14)
  have l21 := ber_mid_nat (v >>> 21)
  have h7 := ber_shift v 7
  have h14 := ber_shift v 14
  have h21 := ber_shift v 21
  have h28 := ber_shift v 28
  unfold berEncode
  split
  · rename_i h
    have hl := ber_lt (k := 7) rfl h
    have e : (v.setWidth 8).toNat = v.toNat := by rw [BitVec.toNat_setWidth]; omega
    refine ⟨by simp, by simp, ?_, ?_⟩
    · simp only [List.foldl_cons, List.foldl_nil, e]; omega
    · intro i hi
      obtain rfl : i = 0 := by simpa using hi
      simp only [List.getElem_cons_zero, e, List.length_cons, List.length_nil]
      omega
  split
  · rename_i h
    have hl := ber_lt (k := 14) rfl h
    have t := ber_more_nat (x := v >>> 7) (by omega)
    refine ⟨by simp, by simp, ?_, ?_⟩
    · simp only [List.foldl_cons, List.foldl_nil, t, s0]; omega
    · intro i hi
      match i, hi with
      | 0, _ => simp only [List.getElem_cons_zero, t, List.length_cons, List.length_nil]; omega
      | 1, _ => simp only [List.getElem_cons_succ, List.getElem_cons_zero, s0, List.length_cons, List.length_nil]; omega
  split
  · rename_i h
    have hl := ber_lt (k := 21) rfl h
    have t := ber_more_nat (x := v >>> 14) (by omega)
    refine ⟨by simp, by simp, ?_, ?_⟩
    · simp only [List.foldl_cons, List.foldl_nil, t, s0, l7]; omega
    · intro i hi
      match i, hi with
      | 0, _ => simp only [List.getElem_cons_zero, t, List.length_cons, List.length_nil]; omega
      | 1, _ => simp only [List.getElem_cons_succ, List.getElem_cons_zero, l7, List.length_cons, List.length_nil]; omega
      | 2, _ => simp only [List.getElem_cons_succ, List.getElem_cons_zero, s0, List.length_cons, List.length_nil]; omega
  split
  · rename_i h
    have hl := ber_lt (k := 28) rfl h
    have t := ber_more_nat (x := v >>> 21) (by omega)
    refine ⟨by simp, by simp, ?_, ?_⟩
    · simp only [List.foldl_cons, List.foldl_nil, t, s0, l7, l14]; omega
    · intro i hi
      match i, hi with
      | 0, _ => simp only [List.getElem_cons_zero, t, List.length_cons, List.length_nil]; omega
      | 1, _ => simp only [List.getElem_cons_succ, List.getElem_cons_zero, l14, List.length_cons, List.length_nil]; omega
      | 2, _ => simp only [List.getElem_cons_succ, List.getElem_cons_zero, l7, List.length_cons, List.length_nil]; omega
      | 3, _ => simp only [List.getElem_cons_succ, List.getElem_cons_zero, s0, List.length_cons, List.length_nil]; omega
  · have t := ber_more_nat (x := v >>> 28) (by omega)
    refine ⟨by simp, by simp, ?_, ?_⟩
    · simp only [List.foldl_cons, List.foldl_nil, t, s0, l7, l14, l21]; omega
    · intro i hi
      match i, hi with
      | 0, _ => simp only [List.getElem_cons_zero, t, List.length_cons, List.length_nil]; omega
      | 1, _ => simp only [List.getElem_cons_succ, List.getElem_cons_zero, l21, List.length_cons, List.length_nil]; omega
      | 2, _ => simp only [List.getElem_cons_succ, List.getElem_cons_zero, l14, List.length_cons, List.length_nil]; omega
      | 3, _ => simp only [List.getElem_cons_succ, List.getElem_cons_zero, l7, List.length_cons, List.length_nil]; omega
      | 4, _ => simp only [List.getElem_cons_succ, List.getElem_cons_zero, s0, List.length_cons, List.length_nil]; omega

end AF.Files
