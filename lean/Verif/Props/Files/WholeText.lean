import Verif.Proof.Files.Whole
import Verif.Proof.Files.NIST
/-!
# C51 for NIST files
-/
namespace AF.Files
open AF AF.Setup AF.Spec.Walk

theorem find_some {key : List Byte} : ∀ {text r : List Byte}, findAfter key text = some r → ∃ a, text = a ++ (key ++ r)
  | [], r, h => by
    unfold findAfter at h
    split at h
    · rename_i hk
      cases h
      exact ⟨[], by rw [hk]; rfl⟩
    · cases h
  | b :: s, r, h => by
    unfold findAfter at h
    split at h
    · rename_i hp
      cases h
      obtain ⟨t, ht⟩ := List.isPrefixOf_iff_prefix.mp hp
      refine ⟨[], ?_⟩
      rw [← ht, List.drop_left]
      rfl
    · obtain ⟨a, ha⟩ := find_some h
      exact ⟨b :: a, by rw [ha]; rfl⟩

theorem isSpace_iff (b : Byte) : isSpace b = true ↔ Blank b := by
  unfold isSpace Blank
  have : b = 32 ↔ b.toNat = 32 := by
    rw [← BitVec.toNat_inj]; rfl
  simp only [Bool.or_eq_true, Bool.and_eq_true, decide_eq_true_eq, this]

theorem isDigit_iff (b : Byte) : isDigit b = true ↔ Digit b := by
  unfold isDigit Digit
  simp only [Bool.and_eq_true, decide_eq_true_eq]

theorem digitsValue_lt : ∀ (ds : List Byte), (∀ b ∈ ds, Digit b) → digitsValue ds < 10 ^ ds.length := by
  have key : ∀ (ds : List Byte) (v : Nat), (∀ b ∈ ds, Digit b) →
      ds.foldl (fun v d => 10 * v + (d.toNat - 48)) v + 1 ≤ (v + 1) * 10 ^ ds.length := by
    intro ds
    induction ds with
    | nil => intro v _; simp
    | cons d ds ih =>
      intro v h
      have hd := h d (by simp)
      have := ih (10 * v + (d.toNat - 48)) fun b hb => h b (by simp [hb])
      rw [List.foldl_cons, List.length_cons]
      refine Nat.le_trans this ?_
      have e : (v + 1) * 10 ^ (ds.length + 1) = (10 * (v + 1)) * 10 ^ ds.length := by
        rw [Nat.pow_succ, Nat.mul_comm _ 10, ← Nat.mul_assoc, Nat.mul_comm (v + 1) 10]
      rw [e]
      refine Nat.mul_le_mul_right _ ?_
      have := hd.2
      omega
  intro ds h
  have := key ds 0 h
  unfold digitsValue
  omega

theorem dropWhile_spaces : ∀ (bl s : List Byte), (∀ b ∈ bl, Blank b) → (∀ b, s.head? = some b → ¬ Blank b) → (bl ++ s).dropWhile isSpace = s
  | [], [], _, _ => rfl
  | [], b :: s, _, h => by
    have : isSpace b = false := by
      have := h b rfl
      rw [← isSpace_iff] at this
      simpa using this
    rw [List.nil_append, List.dropWhile_cons_of_neg (by simp [this])]
  | b :: bl, s, hb, h => by
    rw [List.cons_append, List.dropWhile_cons_of_pos ((isSpace_iff b).mpr (hb b (by simp)))]
    exact dropWhile_spaces bl s (fun c hc => hb c (by simp [hc])) h

theorem takeDigits : ∀ (ds s : List Byte), (∀ b ∈ ds, Digit b) → (∀ b, s.head? = some b → ¬ Digit b) →
    (ds ++ s).takeWhile isDigit = ds ∧ (ds ++ s).dropWhile isDigit = s
  | [], [], _, _ => ⟨rfl, rfl⟩
  | [], b :: s, _, h => by
    have : isDigit b = false := by
      have := h b rfl
      rw [← isDigit_iff] at this
      simpa using this
    rw [List.nil_append, List.dropWhile_cons_of_neg (by simp [this]), List.takeWhile_cons_of_neg (by simp [this])]
    exact ⟨rfl, rfl⟩
  | b :: bl, s, hb, h => by
    have hbd := (isDigit_iff b).mpr (hb b (by simp))
    rw [List.cons_append, List.dropWhile_cons_of_pos hbd, List.takeWhile_cons_of_pos hbd]
    obtain ⟨h1, h2⟩ := takeDigits bl s (fun c hc => hb c (by simp [hc])) h
    rw [h1, h2]
    exact ⟨rfl, rfl⟩

theorem scan_number {k : Nat} (hk : k ≤ 9) {s rest : List Byte} (h : NumberAt k s rest) :
    ∃ x : Int, scanInt s = .int x rest ∧ -10 ^ k < x ∧ x < 10 ^ k := by
  obtain ⟨bl, sg, ds, rfl, hbl, hsg, hds, hlen, hdig, hrest⟩ := h
  obtain ⟨d, ds', hcons⟩ := List.exists_cons_of_ne_nil hds
  have hd : Digit d := hdig d (by rw [hcons]; simp)
  have hnb : ∀ b, (sg ++ (ds ++ rest)).head? = some b → ¬ Blank b := by
    intro b hb
    rcases hsg with rfl | rfl | rfl
    · rw [hcons] at hb
      cases hb
      intro hbl
      rcases hbl with e | e <;> have := hd.1 <;> omega
    · cases hb
      unfold Blank
      decide
    · cases hb
      unfold Blank
      decide
  obtain ⟨t1, t2⟩ := takeDigits ds rest hdig hrest
  have hv : (digitsValue ds : Int) < 10 ^ k := by
    have h1 := digitsValue_lt ds hdig
    have h2 : 10 ^ ds.length ≤ 10 ^ k := Nat.pow_le_pow_right (by decide) hlen
    have h3 : digitsValue ds < 10 ^ k := by omega
    exact_mod_cast h3
  have h9 : (10 : Int) ^ k ≤ 1000000000 := by
    have h : (10 : Nat) ^ k ≤ 10 ^ 9 := Nat.pow_le_pow_right (by decide) hk
    have e : ((10 ^ k : Nat) : Int) = (10 : Int) ^ k := Int.natCast_pow 10 k
    rw [← e]
    have e9 : (10 : Nat) ^ 9 = 1000000000 := rfl
    omega
  generalize (10 : Int) ^ k = K at *
  have hsign : takeSign (sg ++ (ds ++ rest)) = (decide (sg = [45]), ds ++ rest) := by
    rcases hsg with rfl | rfl | rfl
    · rw [hcons]
      show takeSign (d :: (ds' ++ rest)) = _
      have e1 : d ≠ 45 := by rintro rfl; exact absurd hd (by unfold Digit; decide)
      have e2 : d ≠ 43 := by rintro rfl; exact absurd hd (by unfold Digit; decide)
      show (if d = 45 then (true, ds' ++ rest) else if d = 43 then (false, ds' ++ rest) else (false, d :: (ds' ++ rest))) = _
      rw [if_neg e1, if_neg e2]
      rfl
    · rfl
    · rfl
  unfold scanInt
  rw [dropWhile_spaces bl _ hbl hnb]
  dsimp only
  rw [hsign]
  dsimp only
  rw [t1, t2, if_neg hds]
  generalize digitsValue ds = v at *
  by_cases hs : sg = [45]
  · rw [if_neg (by simp [hs]; omega)]
    exact ⟨_, rfl, by simp [hs]; omega, by simp [hs]; omega⟩
  · rw [if_neg (by simp [hs]; omega)]
    exact ⟨_, rfl, by simp [hs]; omega, by simp [hs]; omega⟩

theorem scan_word {s : List Byte} (h : ∃ b ∈ s, ¬ Blank b) : ∃ w, scanWord s = some w := by
  have : ∀ s : List Byte, (∃ b ∈ s, ¬ Blank b) → ∃ c t, s.dropWhile isSpace = c :: t ∧ isSpace c = false := by
    intro s
    induction s with
    | nil => rintro ⟨b, hb, _⟩; cases hb
    | cons a s ih =>
      rintro ⟨b, hb, hn⟩
      by_cases ha : isSpace a = true
      · rw [List.dropWhile_cons_of_pos ha]
        refine ih ⟨b, ?_, hn⟩
        rcases List.mem_cons.mp hb with rfl | hb
        · exact absurd ((isSpace_iff b).mp ha) hn
        · exact hb
      · rw [List.dropWhile_cons_of_neg ha]
        exact ⟨a, s, rfl, by simpa using ha⟩
  obtain ⟨c, t, hc, hs⟩ := this s h
  unfold scanWord
  rw [hc, List.takeWhile_cons_of_pos (by simp [hs])]
  exact ⟨_, rfl⟩

theorem nistInt_def {file : List Byte} {p k : Nat} {text : List Byte} {name : String} {key : List Byte} (hk : k ≤ 9) (hkey : key = ascii ("\n" ++ name))
    (hf : NumberField text name k) (cur : Option Int) :
    Def file p (nistInt text key cur) fun r q => q = p ∧ (r = none ∨ ∃ x : Int, r = some (some x) ∧ -10 ^ k < x ∧ x < 10 ^ k) := by
  unfold nistInt
  split
  · exact Def.pure ⟨rfl, .inl rfl⟩
  · rename_i rest hr
    obtain ⟨a, ha⟩ := find_some hr
    obtain ⟨r, hn⟩ := hf a rest (by rw [ha, hkey])
    obtain ⟨x, hx, h1, h2⟩ := scan_number hk hn
    rw [hx]
    exact Def.pure ⟨rfl, .inr ⟨x, rfl, h1, h2⟩⟩

theorem nistString_def {file : List Byte} {p k : Nat} {text : List Byte} {name : String} {key : List Byte} (hk : k ≤ 9) (hkey : key = ascii ("\n" ++ name))
    (hf : WordField text name k) (cur : Option Int × Option (List Byte)) :
    Def file p (nistString text key cur) fun r q => q = p ∧ (r = none ∨ ∃ (x : Int) (w : List Byte), r = some (some x, some w)) := by
  unfold nistString
  split
  · exact Def.pure ⟨rfl, .inl rfl⟩
  · rename_i rest hr
    obtain ⟨a, ha⟩ := find_some hr
    obtain ⟨r, hn, hw⟩ := hf a rest (by rw [ha, hkey])
    obtain ⟨x, hx, h1, h2⟩ := scan_number hk hn
    obtain ⟨w, hw⟩ := scan_word hw
    rw [hx]
    dsimp only
    rw [hw]
    exact Def.pure ⟨rfl, .inr ⟨x, w, rfl⟩⟩

/-- C51: a NIST file all of whose fields have values is opened or refused. -/
theorem C51_nist_defined (h : Endian) (file : List Byte) (hw : NistWhole file) (p : Nat) : nistRead h file p ≠ .error .undefined := by
  refine Def.not_undefined (Q := fun _ _ => True) ?_
  unfold nistRead
  refine (Def.seek 0).bind fun _ q hq => ?_
  subst hq
  refine (Def.read'' 1024).bind fun header q hq => ?_
  refine Def.ite (fun _ => Def.fail) fun hl => Def.ite (fun _ => Def.fail) fun _ => ?_
  have ht : cstring header = (file.take 1024).takeWhile (· ≠ 0) := by rw [hq.1]; rfl
  rw [ht]
  obtain ⟨f1, f2, f3, f4, f5, f6, f7⟩ := hw
  generalize (file.take 1024).takeWhile (· ≠ 0) = text at *
  dsimp only
  refine (nistInt_def (by decide) rfl f1 _).bind fun r q1 hr => ?_
  rcases hr.2 with rfl | ⟨channels, rfl, _, _⟩
  · exact Def.fail
  refine Def.bind (P := fun a _ => a = channels) (Def.pure rfl) fun c _ hc => ?_
  rw [hc]
  refine Def.ite (fun _ => Def.fail) fun _ => ?_
  refine (nistInt_def (by decide) rfl f2 _).bind fun r q2 hr => ?_
  rcases hr.2 with rfl | ⟨nbytes, rfl, hb1, hb2⟩
  · exact Def.fail
  refine Def.bind (P := fun a _ => a = nbytes) (Def.pure rfl) fun c _ hc => ?_
  rw [hc]
  rw [if_neg (by omega)]
  refine (nistString_def (by decide) rfl f3 _).bind fun r q3 hr => ?_
  have hi1 : ∃ x : Int, (r.getD (some channels, none)).fst = some x := by
    rcases hr.2 with rfl | ⟨x, w, rfl⟩
    · exact ⟨_, rfl⟩
    · exact ⟨x, rfl⟩
  have hs1 : ∀ v, r = some v → ∃ w, (r.getD (some channels, none)).snd = some w := by
    rintro v hv
    rcases hr.2 with e | ⟨x, w, rfl⟩
    · rw [e] at hv; cases hv
    · exact ⟨w, rfl⟩
  generalize (r.getD (some channels, none)).fst = intval at hi1 ⊢
  generalize (r.getD (some channels, none)).snd = strval at hs1 ⊢
  obtain ⟨i1, rfl⟩ := hi1
  refine Def.bind (P := fun _ _ => True) ?_ fun fo q4 _ => ?_
  · split
    · exact Def.pure trivial
    · obtain ⟨w, rfl⟩ := hs1 _ rfl
      refine Def.bind (P := fun _ _ => True) (Def.pure trivial) fun _ _ _ => ?_
      repeat' refine Def.ite (fun _ => Def.pure trivial) fun _ => ?_
      exact Def.pure trivial
  split
  · refine (nistString_def (by decide) rfl f4 _).bind fun r2 q5 hr2 => ?_
    have hi2 : ∃ x : Int, (r2.getD (some i1, strval)).fst = some x := by
      rcases hr2.2 with rfl | ⟨x, w, rfl⟩
      · exact ⟨_, rfl⟩
      · exact ⟨x, rfl⟩
    have hs2 : ∀ v, r2 = some v → ∃ w, (r2.getD (some i1, strval)).snd = some w := by
      rintro v hv
      rcases hr2.2 with e | ⟨x, w, rfl⟩
      · rw [e] at hv; cases hv
      · exact ⟨w, rfl⟩
    generalize (r2.getD (some i1, strval)).fst = intval at hi2 ⊢
    generalize (r2.getD (some i1, strval)).snd = strval2 at hs2 ⊢
    obtain ⟨i2, rfl⟩ := hi2
    refine Def.bind (P := fun _ _ => True) ?_ fun fo2 q6 _ => ?_
    · split
      · obtain ⟨w, rfl⟩ := hs2 _ rfl
        refine Def.bind (P := fun _ _ => True) (Def.pure trivial) fun _ _ _ => ?_
        refine Def.ite (fun _ => ?_) fun _ => Def.pure trivial
        exact Def.bind (P := fun _ _ => True) (Def.pure trivial) fun _ _ _ => Def.pure trivial
      · exact Def.pure trivial
    split
    · refine (nistInt_def (by decide) rfl f5 _).bind fun r3 q7 hr3 => ?_
      have hi3 : ∃ x : Int, r3.getD (some i2) = some x := by
        rcases hr3.2 with rfl | ⟨x, rfl, _⟩
        · exact ⟨_, rfl⟩
        · exact ⟨x, rfl⟩
      generalize r3.getD (some i2) = intval at hi3 ⊢
      obtain ⟨i3, rfl⟩ := hi3
      refine Def.bind (P := fun _ _ => True) ?_ fun fo3 q8 _ => ?_
      · split
        · exact Def.pure trivial
        · refine Def.bind (P := fun _ _ => True) (Def.pure trivial) fun _ _ _ => ?_
          exact Def.ite (fun _ => Def.pure trivial) fun _ => Def.ite (fun _ => Def.pure trivial) fun _ => Def.pure trivial
      split
      · refine (nistInt_def (by decide) rfl f6 _).bind fun r4 q9 hr4 => ?_
        rcases hr4.2 with rfl | ⟨rate, rfl, _⟩
        · exact Def.fail
        refine Def.bind (P := fun _ _ => True) (Def.pure trivial) fun _ _ _ => ?_
        refine Def.ite (fun _ => Def.fail) fun _ => ?_
        refine (nistInt_def (by decide) rfl f7 _).bind fun r5 q10 hr5 => ?_
        rcases hr5.2 with rfl | ⟨count, rfl, _⟩
        · exact Def.fail
        refine Def.bind (P := fun _ _ => True) (Def.pure trivial) fun _ _ _ => ?_
        refine Def.ite (fun _ => Def.fail) fun _ => ?_
        exact Def.length.bind fun _ _ _ => Def.pure trivial
      · exact Def.fail
    · exact Def.fail
  · exact Def.fail

end AF.Files
