import Verif.Model.Extended
import Verif.Spec.Double
/-!
# The extended-precision encoding denotes the double exactly
-/
namespace AF.Extended
open AF AF.Convert AF.Spec

def p (z : Int) : Rat := (2 : Rat) ^ z

theorem p_add (a b : Int) : p (a + b) = p a * p b := Rat.zpow_add (by decide) a b
theorem p_zero : p 0 = 1 := by simp [p]
theorem p_nat (n : Nat) : p (n : Int) = ((2 ^ n : Nat) : Rat) := by
  simp [p, Rat.zpow_natCast]
theorem p_pos (z : Int) : 0 < p z := Rat.zpow_pos (by decide)
theorem p_neg (z : Int) : p z * p (-z) = 1 := by rw [← p_add, Int.add_right_neg, p_zero]

theorem p_lt {a b : Int} (h : a < b) : p a < p b := by
  have : p b = p a * p (b - a) := by rw [← p_add]; congr 1; omega
  have h1 : p 1 ≤ p (b - a) := by
    obtain ⟨n, hn⟩ := Int.eq_ofNat_of_zero_le (show 0 ≤ b - a by omega)
    rw [hn, show (1 : Int) = ((1 : Nat) : Int) from rfl, p_nat, p_nat]
    exact_mod_cast Nat.pow_le_pow_right (by decide) (by omega)
  have h2 : p 1 = 2 := by simp [p]
  have := p_pos a
  have h3 : p a * 2 ≤ p a * p (b - a) := Rat.mul_le_mul_of_nonneg_left (by grind) (by grind)
  grind

theorem mul_den (q : Rat) : q * (q.den : Rat) = (q.num : Rat) := by
  have this := Rat.num_divInt_den q
  have h2 : (q.den : Rat) ≠ 0 := by have := q.den_pos; exact_mod_cast (by omega : q.den ≠ 0)
  rw [Rat.divInt_eq_div, Rat.div_def] at this
  conv => lhs; lhs; rw [← this]
  rw [Rat.intCast_natCast]
  grind

theorem p_le {a b : Int} (h : a ≤ b) : p a ≤ p b := by
  rcases Int.lt_or_eq_of_le h with h | h
  · have := p_lt h; grind
  · subst h; grind

theorem lt_of_p {a b : Int} (h : p a < p b) : a < b := by
  apply Decidable.byContradiction; intro hc
  have := p_le (show b ≤ a by omega)
  grind

theorem frexp_spec (q : Rat) (h : 0 < q) :
    1 / 2 ≤ (frexp q).1 ∧ (frexp q).1 < 1 ∧ q = (frexp q).1 * p (frexp q).2 := by
  have hn : 0 < q.num := by have := (Rat.lt_iff 0 q).1 h; simpa using this
  have hd := q.den_pos
  have hq : q * (q.den : Rat) = (q.num : Rat) := mul_den q
  have hnn : (q.num.natAbs : Int) = q.num := by omega
  have n1 := Nat.log2_self_le (n := q.num.natAbs) (by omega)
  have n2 := Nat.lt_log2_self (n := q.num.natAbs)
  have d1 := Nat.log2_self_le (n := q.den) (by omega)
  have d2 := Nat.lt_log2_self (n := q.den)
  have hnq : ((q.num.natAbs : Nat) : Rat) = (q.num : Rat) := by
    rw [← Rat.intCast_natCast, hnn]
  have n1' : p (Nat.log2 q.num.natAbs : Int) ≤ (q.num : Rat) := by
    rw [p_nat, ← hnq]; exact_mod_cast n1
  have n2' : (q.num : Rat) < p ((Nat.log2 q.num.natAbs : Int) + 1) := by
    rw [show ((Nat.log2 q.num.natAbs : Int) + 1) = ((Nat.log2 q.num.natAbs + 1 : Nat) : Int) by omega, p_nat, ← hnq]
    exact_mod_cast n2
  have d1' : p (Nat.log2 q.den : Int) ≤ (q.den : Rat) := by
    rw [p_nat]; exact_mod_cast d1
  have d2' : (q.den : Rat) < p ((Nat.log2 q.den : Int) + 1) := by
    rw [show ((Nat.log2 q.den : Int) + 1) = ((Nat.log2 q.den + 1 : Nat) : Int) by omega, p_nat]
    exact_mod_cast d2
  unfold frexp
  generalize hA : (Nat.log2 q.num.natAbs : Int) = a at *
  generalize hB : (Nat.log2 q.den : Int) = b at *
  have p1 : p 1 = 2 := by simp [p]
  -- upper bound q < p (a+1-b)
  have up : q * p b < p (a + 1) := by
    have : q * p b ≤ q * (q.den : Rat) := Rat.mul_le_mul_of_nonneg_left d1' (by grind)
    grind
  have lo : p a < q * p (b + 1) := by
    have : q * (q.den : Rat) < q * p (b + 1) := Rat.mul_lt_mul_of_pos_left d2' h
    grind
  have key : q * p (-(a - b + 1)) * p (a + 1) = q * p b := by
    rw [Rat.mul_assoc, ← p_add]; congr 2; omega
  have f1 : q * p (-(a - b + 1)) < 1 := by
    apply Decidable.byContradiction; intro hc
    have : 1 * p (a + 1) ≤ q * p (-(a - b + 1)) * p (a + 1) :=
      Rat.mul_le_mul_of_nonneg_right (by grind) (by have := p_pos (a+1); grind)
    grind
  have f0 : 1 / 4 < q * p (-(a - b + 1)) := by
    apply Decidable.byContradiction; intro hc
    have h1 : q * p (-(a - b + 1)) * p (a + 1) ≤ 1 / 4 * p (a + 1) :=
      Rat.mul_le_mul_of_nonneg_right (by grind) (by have := p_pos (a+1); grind)
    have h2 : p (a + 1) = p a * 2 := by rw [p_add, p1]
    have h3 : p (b + 1) = p b * 2 := by rw [p_add, p1]
    rw [h3] at lo
    have : q * (p b * 2) = q * p b * 2 := by rw [Rat.mul_assoc]
    grind
  dsimp only
  change 1 / 2 ≤ q * p (-(if q * p (-(a - b + 1)) < 1 / 2 then _ else _)) ∧ q * p (-(if q * p (-(a - b + 1)) < 1 / 2 then _ else _)) < 1 ∧ q = q * p (-(if q * p (-(a - b + 1)) < 1 / 2 then _ else _)) * p (if q * p (-(a - b + 1)) < 1 / 2 then _ else _)
  have inv : ∀ z, q = q * p (-z) * p z := by
    intro z; rw [Rat.mul_assoc, ← p_add, Int.add_left_neg, p_zero, Rat.mul_one]
  refine ⟨?_, ?_, inv _⟩
  all_goals
    split
    · rename_i hlt
      have : q * p (-(a - b + 1 - 1)) = q * p (-(a - b + 1)) * 2 := by
        rw [Rat.mul_assoc]; congr 1; rw [← p1, ← p_add]; congr 1; omega
      grind
    · grind

theorem p_int {z : Int} (h : 0 ≤ z) : ∃ k : Int, p z = (k : Rat) ∧ 0 < k := by
  obtain ⟨n, rfl⟩ := Int.eq_ofNat_of_zero_le h
  refine ⟨((2 ^ n : Nat) : Int), ?_, ?_⟩
  · rw [p_nat, Rat.intCast_natCast]
  · have := Nat.two_pow_pos n; omega

theorem isDouble_of {i j : Int} (hi : 0 ≤ i) (hi' : i < 2 ^ 53) (hj : j ≤ 971)
    (hk : ∃ k : Int, (i : Rat) * p j = (k : Rat) * p (-1074)) : IsDouble ((i : Rat) * p j) := by
  by_cases h : -1074 ≤ j
  · exact ⟨i, j, by omega, h, hj, rfl⟩
  · obtain ⟨k, hk⟩ := hk
    have h0 : (k : Rat) = (i : Rat) * p (j + 1074) := by
      have := p_neg 1074
      have h2 : p (j + 1074) = p j * p 1074 := p_add _ _
      have h3 : p 1074 * p (-1074) = 1 := p_neg 1074
      rw [h2, ← Rat.mul_assoc, hk]
      grind
    have h1 : p (j + 1074) ≤ p 0 := p_le (by omega)
    rw [p_zero] at h1
    have h2 := p_pos (j + 1074)
    have hi0 : (0 : Rat) ≤ (i : Rat) := by exact_mod_cast hi
    have h3 : (i : Rat) * p (j + 1074) ≤ (i : Rat) * 1 := Rat.mul_le_mul_of_nonneg_left h1 hi0
    have h4 : 0 ≤ (i : Rat) * p (j + 1074) := Rat.mul_nonneg hi0 (by grind)
    have hk1 : (k : Rat) ≤ (i : Rat) := by grind
    have hk0 : (0 : Rat) ≤ (k : Rat) := by grind
    have hk1 : k ≤ i := by exact_mod_cast hk1
    have hk0 : 0 ≤ k := by exact_mod_cast hk0
    exact ⟨k, -1074, by omega, by omega, by omega, hk⟩

/-- What `frexp` yields for a positive double. -/
theorem frexp_double {q : Rat} (h : 0 < q) (hd : IsDouble q) :
    -1074 < (frexp q).2 ∧ (frexp q).2 ≤ 1024 ∧ (∃ k : Int, (frexp q).1 * p 53 = (k : Rat)) ∧
    ∃ k : Int, q = (k : Rat) * p (-1074) := by
  obtain ⟨f1, f2, f3⟩ := frexp_spec q h
  generalize (frexp q).1 = f at *
  generalize (frexp q).2 = E at *
  obtain ⟨m, e, hm, he1, he2, hq⟩ := hd
  change q = (m : Rat) * p e at hq
  have hpe := p_pos e
  have hpE := p_pos E
  have hm0 : 0 < m := by
    apply Decidable.byContradiction; intro hc
    have hc' : (m : Rat) ≤ 0 := by exact_mod_cast (by omega : m ≤ 0)
    have := Rat.mul_le_mul_of_nonneg_right hc' (show 0 ≤ p e by grind)
    grind
  have hm1 : (1 : Rat) ≤ (m : Rat) := by exact_mod_cast (by omega : 1 ≤ m)
  have p53 : p 53 = ((2 ^ 53 : Nat) : Rat) := p_nat 53
  have hm2 : (m : Rat) < p 53 := by
    have hz : m < ((2 ^ 53 : Nat) : Int) := by omega
    rw [p53, ← Rat.intCast_natCast]; exact_mod_cast hz
  have a1 : p e ≤ q := by
    have := Rat.mul_le_mul_of_nonneg_right hm1 (show 0 ≤ p e by grind)
    grind
  have a2 : q < p (53 + e) := by
    have := Rat.mul_lt_mul_of_pos_right hm2 hpe
    rw [p_add]; grind
  have a3 : q < p E := by
    have := Rat.mul_lt_mul_of_pos_right f2 hpE
    grind
  have a4 : p (E - 1) ≤ q := by
    have := Rat.mul_le_mul_of_nonneg_right f1 (show 0 ≤ p E by grind)
    have h2 : p E = p (E - 1) * 2 := by
      have : p 1 = 2 := by simp [p]
      rw [← this, ← p_add]; congr 1; omega
    grind
  have b1 : e < E := lt_of_p (by grind)
  have b2 : E - 1 < 53 + e := lt_of_p (by grind)
  refine ⟨by omega, by omega, ?_, ?_⟩
  · obtain ⟨k, hk, _⟩ := p_int (show 0 ≤ e - E + 53 by omega)
    refine ⟨m * k, ?_⟩
    have hf : f = q * p (-E) := by
      have := p_neg E
      rw [f3, Rat.mul_assoc, this, Rat.mul_one]
    rw [hf, hq, Rat.mul_assoc, Rat.mul_assoc, ← p_add, ← p_add, Rat.intCast_mul, ← hk]
    congr 2; omega
  · obtain ⟨k, hk, _⟩ := p_int (show 0 ≤ e + 1074 by omega)
    refine ⟨m * k, ?_⟩
    rw [hq, Rat.intCast_mul, ← hk, Rat.mul_assoc, ← p_add]
    congr 2; omega

theorem fToU {f : Int} (h0 : 0 ≤ f) (h1 : f < 2 ^ 32) : floatToUnsigned f = f.toNat := by
  unfold floatToUnsigned wrapS wrapU
  have e1 : Int.bmod (f - 2147483648) (2 ^ 64) = f - 2147483648 := by
    apply Int.bmod_eq_of_le <;> omega
  have e2 : Int.bmod (f - 2147483648 + 2147483647) (2 ^ 64) = f - 1 := by
    rw [Int.bmod_eq_of_le] <;> omega
  rw [e1, e2]
  omega

theorem uToF {u : Nat} (h1 : u < 2 ^ 32) : unsignedToFloat u = u := by
  unfold unsignedToFloat wrapS wrapU
  have : Int.bmod ((((u : Int) - 2147483647 - 1)) % ((2 ^ 64 : Nat) : Int)) (2 ^ 64) = (u : Int) - 2147483647 - 1 := by
    rw [Int.emod_bmod]
    apply Int.bmod_eq_of_le <;> omega
  rw [this]; omega

/-- The words of a positive double denote it exactly. -/
theorem finiteWords_spec {q : Rat} (h : 0 < q) (hd : IsDouble q) (sign : Int) :
    ∃ hi lo : Nat, finiteWords sign q = (sign + (frexp q).2 + 16382, hi, lo) ∧ hi < 2 ^ 32 ∧ lo < 2 ^ 32 ∧
      2 ^ 31 ≤ hi ∧
      q = (hi : Rat) * p ((frexp q).2 - 32) + (lo : Rat) * p ((frexp q).2 - 64) ∧
      IsDouble ((hi : Rat) * p ((frexp q).2 - 32)) ∧ IsDouble ((lo : Rat) * p ((frexp q).2 - 64)) := by
  obtain ⟨b1, b2, ⟨k, hk⟩, ⟨k2, hk2⟩⟩ := frexp_double h hd
  obtain ⟨f1, f2, f3⟩ := frexp_spec q h
  unfold finiteWords
  rcases hfr : frexp q with ⟨f, E⟩
  simp only [hfr] at b1 b2 hk f1 f2 f3 ⊢
  have hE : ¬ (E + 16382 < 0) := by omega
  rw [if_neg hE]
  dsimp only
  have p32 : p 32 = 2 ^ 32 := rfl
  generalize hA : f * 2 ^ 32 = A
  have A0 : 2 ^ 31 ≤ A := by grind
  have A1 : A < 2 ^ 32 := by grind
  have hfl := Rat.floor_le A
  have hfl2 := Rat.lt_floor_add_one A
  generalize hH : A.floor = H at *
  have H0 : (2:Int) ^ 31 ≤ H := by rw [← hH, Rat.le_floor_iff]; exact_mod_cast A0
  have H1 : H < 2 ^ 32 := by
    have : (H : Rat) < 2 ^ 32 := by grind
    exact Rat.intCast_lt_intCast.1 (show (H : Rat) < ((2 ^ 32 : Int) : Rat) from this)
  have hB : (A - (H : Rat)) * 2 ^ 32 = ((k * 2 ^ 11 - H * 2 ^ 32 : Int) : Rat) := by
    have p53 : p 53 = 9007199254740992 := by rw [show (53 : Int) = ((53 : Nat) : Int) from rfl, p_nat]; rfl
    rw [p53] at hk
    have : ((k * 2 ^ 11 - H * 2 ^ 32 : Int) : Rat) = (k : Rat) * 2048 - (H : Rat) * 4294967296 := by
      rw [Rat.intCast_sub, Rat.intCast_mul, Rat.intCast_mul]; rfl
    rw [this, ← hk, ← hA]
    grind
  rw [hB, Rat.floor_intCast]
  generalize hL : k * 2 ^ 11 - H * 2 ^ 32 = L at *
  have L0 : (0 : Rat) ≤ (L : Rat) := by rw [← hB]; grind
  have L1 : (L : Rat) < 2 ^ 32 := by rw [← hB]; grind
  have L0 : 0 ≤ L := by exact_mod_cast L0
  have L1 : L < 2 ^ 32 := Rat.intCast_lt_intCast.1 (show (L : Rat) < ((2 ^ 32 : Int) : Rat) from L1)
  rw [fToU (by omega) H1, fToU L0 L1]
  have cH : ((H.toNat : Nat) : Rat) = (H : Rat) := by
    rw [← Rat.intCast_natCast, Int.toNat_of_nonneg (by omega)]
  have cL : ((L.toNat : Nat) : Rat) = (L : Rat) := by
    rw [← Rat.intCast_natCast, Int.toNat_of_nonneg L0]
  have e32 : p E = p (E - 32) * 4294967296 := by
    rw [show (4294967296 : Rat) = p 32 from rfl, ← p_add]; congr 1; omega
  have e64 : p (E - 32) = p (E - 64) * 4294967296 := by
    rw [show (4294967296 : Rat) = p 32 from rfl, ← p_add]; congr 1; omega
  have hq : q = (H : Rat) * p (E - 32) + (L : Rat) * p (E - 64) := by
    rw [f3, e32, e64, ← hB, ← hA]; grind
  have mH : ∃ k : Int, (H : Rat) * p (E - 32) = (k : Rat) * p (-1074) := by
    by_cases hc : -1074 ≤ E - 32
    · obtain ⟨t, ht, _⟩ := p_int (show 0 ≤ E - 32 + 1074 by omega)
      refine ⟨H * t, ?_⟩
      rw [Rat.intCast_mul, ← ht, Rat.mul_assoc, ← p_add]; congr 2; omega
    · -- then the low word is zero
      obtain ⟨t, ht, _⟩ := p_int (show 0 ≤ 32 - E - 1074 by omega)
      have hAi : A = ((k2 * t : Int) : Rat) := by
        have hf : f = q * p (-E) := by
          have := p_neg E
          rw [f3, Rat.mul_assoc, this, Rat.mul_one]
        rw [← hA, hf, hk2, Rat.intCast_mul, ← ht, show (2 : Rat) ^ 32 = p 32 from rfl, Rat.mul_assoc, Rat.mul_assoc, ← p_add, ← p_add]
        congr 2; omega
      have : H = k2 * t := by rw [← hH, hAi, Rat.floor_intCast]
      have hL0 : (L : Rat) = 0 := by rw [← hB, hAi, this]; grind
      refine ⟨k2, ?_⟩
      rw [← hk2, hq, hL0]; grind
  refine ⟨H.toNat, L.toNat, by rw [Int.add_assoc], by omega, by omega, by omega, ?_⟩
  rw [cH, cL]
  refine ⟨hq, ?_, ?_⟩
  · have : (H : Rat) * p (E - 32) = ((H * 2 ^ 21 : Int) : Rat) * p (E - 53) := by
      rw [Rat.intCast_mul, Rat.mul_assoc]; congr 1
      rw [show (((2 ^ 21 : Int)) : Rat) = p 21 from rfl, ← p_add]; congr 1; omega
    rw [this]
    apply isDouble_of (by omega) (by omega) (by omega)
    rw [← this]; exact mH
  · apply isDouble_of (by omega) (by omega) (by omega)
    obtain ⟨t, ht⟩ := mH
    refine ⟨k2 - t, ?_⟩
    rw [Rat.intCast_sub]
    grind

set_option maxRecDepth 4000 in
/-- The words read from stored bytes. -/
theorem decode_store (rnd : Rat → Dbl) (x : Int) (s : Bool) (hi lo : Nat) (h0 : 0 ≤ x) (h1 : x < 32768)
    (hh : hi < 2 ^ 32) (hl : lo < 2 ^ 32) :
    decode rnd (byteAt (store ((if s then 0x8000 else 0) + x) hi lo)) =
      (let f : Dbl :=
        if x = 0 ∧ hi = 0 ∧ lo = 0 then .fin 0
        else if x = 0x7fff then .inf false
        else Dbl.add rnd (rnd ((hi : Rat) * p (x - 16414))) (rnd ((lo : Rat) * p (x - 16446)))
       if s then neg f else f) := by
  have eb : ((if s = true then (0x8000 : Int) else 0) + x) = (if s = true then 0x8000 else 0) + x := rfl
  generalize hX : ((if s = true then (0x8000 : Int) else 0) + x) = X at *
  have b0 : (byteAt (store X hi lo) 0).toNat = ((X / 256) % 256).toNat := by
    simp [byteAt, store, BitVec.toNat_ofInt, sar]
  have b1 : (byteAt (store X hi lo) 1).toNat = (X % 256).toNat := by
    simp [byteAt, store, BitVec.toNat_ofInt]
  have b2 : (byteAt (store X hi lo) 2).toNat = hi / 2 ^ 24 % 256 := by
    simp [byteAt, store, Nat.shiftRight_eq_div_pow]
  have b3 : (byteAt (store X hi lo) 3).toNat = hi / 2 ^ 16 % 256 := by
    simp [byteAt, store, Nat.shiftRight_eq_div_pow]
  have b4 : (byteAt (store X hi lo) 4).toNat = hi / 2 ^ 8 % 256 := by
    simp [byteAt, store, Nat.shiftRight_eq_div_pow]
  have b5 : (byteAt (store X hi lo) 5).toNat = hi % 256 := by
    simp [byteAt, store]
  have b6 : (byteAt (store X hi lo) 6).toNat = lo / 2 ^ 24 % 256 := by
    simp [byteAt, store, Nat.shiftRight_eq_div_pow]
  have b7 : (byteAt (store X hi lo) 7).toNat = lo / 2 ^ 16 % 256 := by
    simp [byteAt, store, Nat.shiftRight_eq_div_pow]
  have b8 : (byteAt (store X hi lo) 8).toNat = lo / 2 ^ 8 % 256 := by
    simp [byteAt, store, Nat.shiftRight_eq_div_pow]
  have b9 : (byteAt (store X hi lo) 9).toNat = lo % 256 := by
    simp [byteAt, store]
  unfold decode
  rw [b0, b1, b2, b3, b4, b5, b6, b7, b8, b9]
  have eh : ((hi / 2 ^ 24 % 256 * 256 + hi / 2 ^ 16 % 256) * 256 + hi / 2 ^ 8 % 256) * 256 + hi % 256 = hi := by omega
  have el : ((lo / 2 ^ 24 % 256 * 256 + lo / 2 ^ 16 % 256) * 256 + lo / 2 ^ 8 % 256) * 256 + lo % 256 = lo := by omega
  have ex : (((X / 256 % 256).toNat % 128 * 256 + (X % 256).toNat : Nat) : Int) = x := by
    cases s <;> simp at hX <;> omega
  have es : (128 ≤ (X / 256 % 256).toNat) ↔ s = true := by
    cases s <;> simp at hX <;> simp <;> omega
  rw [eh, el, ex]
  dsimp only
  rw [uToF hh, uToF hl, Rat.intCast_natCast, Rat.intCast_natCast]
  simp only [es]
  have q1 : x - 16383 - 31 = x - 16414 := by omega
  have q2 : x - 16414 - 32 = x - 16446 := by omega
  rw [q1, q2]
  rfl

theorem isDouble_neg {q : Rat} (h : IsDouble q) : IsDouble (-q) := by
  obtain ⟨m, e, h1, h2, h3, h4⟩ := h
  exact ⟨-m, e, by omega, h2, h3, by rw [h4, Rat.intCast_neg, Rat.neg_mul]⟩

theorem roundtrip (rnd : Rat → Dbl) (hr : ExactOnDoubles rnd) {q : Rat} (hd : IsDouble q) :
    decode rnd (byteAt (encode (.fin q))) = .fin q := by
  unfold encode
  dsimp only
  by_cases h0 : q = 0
  · subst h0
    have := decode_store rnd 0 false 0 0 (by decide) (by decide) (by decide) (by decide)
    simpa using this
  have key : ∀ (s : Bool) (r : Rat), 0 < r → IsDouble r → ∀ sg : Int, sg = (if s then 0x8000 else 0) →
      decode rnd (byteAt (if r = 0 then store 0 0 0
        else if (frexp r).2 > 16384 then store (sg + 0x7fff) 0 0
        else match finiteWords sg r with | (expon, hi, lo) => store expon hi lo)) =
        if s then .fin (-r) else .fin r := by
    intro s r hr0 hrd sg hsg
    obtain ⟨hi, lo, hw, hh, hl, hh31, hq, d1, d2⟩ := finiteWords_spec hr0 hrd sg
    obtain ⟨g1, g2, _, _⟩ := frexp_double hr0 hrd
    have hne : r ≠ 0 := by grind
    rw [if_neg hne, if_neg (by omega), hw]
    dsimp only
    subst hsg
    rw [Int.add_assoc, decode_store rnd ((frexp r).2 + 16382) s hi lo (by omega) (by omega) hh hl]
    dsimp only
    rw [if_neg (show ¬((frexp r).2 + 16382 = 0 ∧ hi = 0 ∧ lo = 0) by omega), if_neg (show ¬((frexp r).2 + 16382 = 0x7fff) by omega)]
    rw [show (frexp r).2 + 16382 - 16414 = (frexp r).2 - 32 by omega, show (frexp r).2 + 16382 - 16446 = (frexp r).2 - 64 by omega]
    rw [hr _ d1, hr _ d2]
    simp only [Dbl.add]
    rw [← hq, hr _ hrd]
    cases s <;> simp [neg]
  by_cases hneg : q < 0
  · have := key true (-q) (by grind) (isDouble_neg hd) 0x8000 rfl
    simp only [hneg, if_true]
    rw [this]
    simp
  · have := key false q (by grind) hd 0 rfl
    simp only [hneg, if_false]
    rw [this]
    simp

end AF.Extended
