import Verif.Proof.Rate
/-!
# The rounding of doubles is a rounding to nearest
-/
namespace AF.Convert
open AF.Spec AF.Convert.Dbl

theorem two_pos (x : Int) : (0 : Rat) < (2 : Rat) ^ x := Rat.zpow_pos (by decide +kernel)

theorem two_add (x y : Int) : (2 : Rat) ^ (x + y) = (2 : Rat) ^ x * (2 : Rat) ^ y := Rat.zpow_add (by decide +kernel) x y

theorem two_nat (k : Nat) : (2 : Rat) ^ ((k : Nat) : Int) = (((2 ^ k : Nat)) : Rat) := by
  rw [Rat.zpow_natCast]
  induction k with
  | zero => rfl
  | succ k ih => rw [Rat.pow_succ, ih, Nat.pow_succ, Rat.natCast_mul]; rfl

theorem two_mono {x y : Int} (h : x ≤ y) : (2 : Rat) ^ x ≤ (2 : Rat) ^ y := by
  obtain ⟨k, hk⟩ := Int.eq_ofNat_of_zero_le (show 0 ≤ y - x by omega)
  have e : y = x + (k : Int) := by omega
  rw [e, two_add, two_nat]
  have h1 : ((1 : Nat) : Rat) ≤ ((2 ^ k : Nat) : Rat) := Rat.natCast_le_natCast.2 Nat.one_le_two_pow
  have := Rat.mul_le_mul_of_nonneg_left h1 (Rat.le_of_lt (two_pos x))
  have e1 : ((1 : Nat) : Rat) = 1 := rfl
  rw [e1, Rat.mul_one] at this
  exact this

theorem two_lt {x y : Int} (h : (2 : Rat) ^ x < (2 : Rat) ^ y) : x < y := by
  by_cases hxy : x < y
  · exact hxy
  · have := two_mono (show y ≤ x by omega)
    exact absurd h (by grind)

theorem num_positive {a : Rat} (h : 0 < a) : 0 < a.num := by
  have := Rat.num_nonneg.2 (Rat.le_of_lt h)
  have : a.num ≠ 0 := fun h0 => by
    have := Rat.num_eq_zero.1 h0
    rw [this] at h
    exact absurd h (by decide)
  omega

theorem mul_den (a : Rat) : a * (a.den : Rat) = (a.num : Rat) := by
  have h : (a.den : Rat) ≠ 0 := fun h => by
    have h : ((a.den : Nat) : Rat) = ((0 : Nat) : Rat) := h
    have := Rat.natCast_inj.1 h
    exact a.den_nz this
  have := Rat.num_divInt_den a
  rw [Rat.divInt_eq_div] at this
  have e : ((a.num : Rat) / ((a.den : Int) : Rat)) * (a.den : Rat) = (a.num : Rat) := Rat.div_mul_cancel h
  rw [this] at e
  exact e

/-- The exponent found from the lengths of the numerator and the denominator. -/
theorem exponent_bounds {a : Rat} (h : 0 < a) :
    (2 : Rat) ^ ((a.num.toNat.log2 : Int) - a.den.log2 - 52 + 51) < a ∧ a < (2 : Rat) ^ ((a.num.toNat.log2 : Int) - a.den.log2 - 52 + 53) := by
  have hn : 0 < a.num := num_positive h
  have hd := a.den_pos
  have hq : a * (a.den : Rat) = ((a.num.toNat : Nat) : Rat) := by
    have := mul_den a
    rw [this]
    have e : a.num = ((a.num.toNat : Nat) : Int) := by omega
    conv => lhs; rw [e]
    rfl
  have hn0 : a.num.toNat ≠ 0 := by omega
  generalize a.num.toNat = n at hq hn0 ⊢
  generalize a.den = d at hd hq ⊢
  have l1 : (2 : Rat) ^ ((n.log2 : Nat) : Int) ≤ (n : Rat) := by
    rw [two_nat]; exact Rat.natCast_le_natCast.2 (Nat.log2_self_le hn0)
  have l2 : (n : Rat) < (2 : Rat) ^ (((n.log2 + 1 : Nat)) : Int) := by
    rw [two_nat]; exact Rat.natCast_lt_natCast.2 Nat.lt_log2_self
  have k1 : (2 : Rat) ^ ((d.log2 : Nat) : Int) ≤ (d : Rat) := by
    rw [two_nat]; exact Rat.natCast_le_natCast.2 (Nat.log2_self_le (by omega))
  have k2 : (d : Rat) < (2 : Rat) ^ (((d.log2 + 1 : Nat)) : Int) := by
    rw [two_nat]; exact Rat.natCast_lt_natCast.2 Nat.lt_log2_self
  generalize n.log2 = L at l1 l2 ⊢
  generalize d.log2 = K at k1 k2 ⊢
  constructor
  · -- 2^L ≤ n = a d < a 2^(K+1)
    refine (Rat.mul_lt_mul_right (c := (2 : Rat) ^ (((K + 1 : Nat)) : Int)) (two_pos _)).1 ?_
    rw [← two_add, show (L : Int) - K - 52 + 51 + ((K + 1 : Nat) : Int) = L by omega]
    have := (Rat.mul_lt_mul_left (c := a) h).2 k2
    grind
  · refine (Rat.mul_lt_mul_right (c := (2 : Rat) ^ ((K : Nat) : Int)) (two_pos _)).1 ?_
    rw [← two_add, show (L : Int) - K - 52 + 53 + ((K : Nat) : Int) = ((L + 1 : Nat) : Int) by omega]
    have := Rat.mul_le_mul_of_nonneg_left k1 (Rat.le_of_lt h)
    grind

/-- The exponent of a positive number, before it is limited to those of subnormals. -/
def exponent (a : Rat) : Int :=
  if a < (2 : Rat) ^ ((a.num.toNat.log2 : Int) - a.den.log2 - 52 + 52) then (a.num.toNat.log2 : Int) - a.den.log2 - 52 - 1
  else (a.num.toNat.log2 : Int) - a.den.log2 - 52

theorem exponent_spec {a : Rat} (h : 0 < a) : (2 : Rat) ^ (exponent a + 52) ≤ a ∧ a < (2 : Rat) ^ (exponent a + 53) := by
  obtain ⟨l, u⟩ := exponent_bounds h
  unfold exponent
  generalize (a.num.toNat.log2 : Int) - a.den.log2 - 52 = e at *
  split
  · next hlt =>
    rw [show e - 1 + 52 = e + 51 by omega, show e - 1 + 53 = e + 52 by omega]
    exact ⟨Rat.le_of_lt l, hlt⟩
  · next hlt => exact ⟨Rat.not_lt.1 hlt, u⟩

/-- The rounding, with the exponent given. -/
theorem roundDouble_eq (q : Rat) (hq : q ≠ 0) {a : Rat} (ha : a = if q < 0 then -q else q) {e : Int}
    (he : e = if exponent a < -1074 then -1074 else exponent a) :
    roundDouble q = if (nearestEven (a / (2 : Rat) ^ e) : Rat) * (2 : Rat) ^ e ≥ 2 ^ 1024 then .inf (decide (q < 0))
      else .fin (if q < 0 then -((nearestEven (a / (2 : Rat) ^ e) : Rat) * (2 : Rat) ^ e) else (nearestEven (a / (2 : Rat) ^ e) : Rat) * (2 : Rat) ^ e) := by
  unfold roundDouble
  rw [if_neg hq]
  dsimp only
  rw [← ha]
  rw [show (if a < (2 : Rat) ^ ((a.num.toNat.log2 : Int) - a.den.log2 - 52 + 52) then (a.num.toNat.log2 : Int) - a.den.log2 - 52 - 1
    else (a.num.toNat.log2 : Int) - a.den.log2 - 52) = exponent a from rfl, ← he]

theorem nearestEven_int (k : Int) : nearestEven (k : Rat) = k := nearestEven_close (by grind) (by grind)

theorem abs_pos {q : Rat} (hq : q ≠ 0) : 0 < (if q < 0 then -q else q) := by split <;> grind

theorem roundDouble_exact : ExactOnDoubles roundDouble := by
  intro q ⟨m, x, hm, h1, h2, hqv⟩
  by_cases hq : q = 0
  · subst hq
    rfl
  · obtain ⟨a, ha⟩ : ∃ a, a = if q < 0 then -q else q := ⟨_, rfl⟩
    have hapos : 0 < a := by rw [ha]; exact abs_pos hq
    obtain ⟨e, he⟩ : ∃ e, e = if exponent a < -1074 then -1074 else exponent a := ⟨_, rfl⟩
    rw [roundDouble_eq q hq ha he]
    -- a is a whole multiple of 2^x
    obtain ⟨k, hk, hka⟩ : ∃ k : Int, k < 2 ^ 53 ∧ a = (k : Rat) * (2 : Rat) ^ x := by
      by_cases hneg : q < 0
      · refine ⟨-m, by omega, ?_⟩
        rw [ha, if_pos hneg, hqv, Rat.intCast_neg]
        grind
      · refine ⟨m, by omega, ?_⟩
        rw [ha, if_neg hneg, hqv]
    have hsmall : a < (2 : Rat) ^ (53 + x) := by
      have : (k : Rat) < (2 : Rat) ^ (53 : Int) := by
        have e : (2 : Rat) ^ (53 : Int) = (((2 : Int) ^ 53 : Int) : Rat) := by decide +kernel
        rw [e]
        exact Rat.intCast_lt_intCast.2 hk
      rw [two_add, hka]
      exact (Rat.mul_lt_mul_right (two_pos x)).2 this
    have hex : e ≤ x := by
      rw [he]
      split
      · exact h1
      · have := two_lt (Std.lt_of_le_of_lt (exponent_spec hapos).1 hsmall)
        omega
    obtain ⟨j, hj⟩ := Int.eq_ofNat_of_zero_le (show 0 ≤ x - e by omega)
    have hae : a / (2 : Rat) ^ e = ((k * (2 ^ j : Nat) : Int) : Rat) := by
      have h0 : (2 : Rat) ^ e ≠ 0 := by have := two_pos e; grind
      rw [hka, show x = (j : Int) + e by omega, two_add, two_nat, Rat.intCast_mul]
      have e2 : (((2 ^ j : Nat) : Int) : Rat) = ((2 ^ j : Nat) : Rat) := rfl
      rw [e2]
      generalize ((2 ^ j : Nat) : Rat) = y
      generalize (2 : Rat) ^ e = z at *
      grind
    have hback : (nearestEven (a / (2 : Rat) ^ e) : Rat) * (2 : Rat) ^ e = a := by
      have h0 : (2 : Rat) ^ e ≠ 0 := by have := two_pos e; grind
      rw [hae, nearestEven_int, ← hae]
      exact Rat.div_mul_cancel h0
    have hlim : a < 2 ^ 1024 := by
      have e0 : (2 : Rat) ^ (1024 : Int) = 2 ^ 1024 := by decide +kernel
      rw [← e0]
      exact Std.lt_of_lt_of_le hsmall (two_mono (by omega))
    rw [hback, if_neg (by generalize (2 : Rat) ^ 1024 = y at *; grind)]
    congr 1
    rw [ha]
    split <;> grind

theorem roundDouble_close (q : Rat) (h1 : 1 / 2 ^ 1022 ≤ q) (h2 : q ≤ 2 ^ 1023) :
    ∃ r, roundDouble q = .fin r ∧ r - q ≤ 1 / 2 ^ 53 * q ∧ q - r ≤ 1 / 2 ^ 53 * q := by
  have hpos : 0 < q := by
    have : (0 : Rat) < 1 / 2 ^ 1022 := by decide +kernel
    generalize (1 : Rat) / 2 ^ 1022 = y at *
    grind
  have hq : q ≠ 0 := by clear h1 h2; grind
  have hneg : ¬ q < 0 := by clear h1 h2; grind
  obtain ⟨l, u⟩ := exponent_spec hpos
  have he : exponent q = if exponent q < -1074 then -1074 else exponent q := by
    rw [if_neg]
    intro hlt
    have e0 : (2 : Rat) ^ (-1022 : Int) = 1 / 2 ^ 1022 := by decide +kernel
    rw [← e0] at h1
    have := two_lt (Std.lt_of_le_of_lt h1 u)
    omega
  rw [roundDouble_eq q hq (a := q) (by rw [if_neg hneg]) he]
  have ⟨x, y⟩ := nearestEven_half (q / (2 : Rat) ^ exponent q)
  have hp := two_pos (exponent q)
  have h0 : (2 : Rat) ^ exponent q ≠ 0 := by grind
  have hb : q / (2 : Rat) ^ exponent q * (2 : Rat) ^ exponent q = q := Rat.div_mul_cancel h0
  have hl : (2 : Rat) ^ (52 : Int) * (2 : Rat) ^ exponent q ≤ q := by
    rw [← two_add, show (52 : Int) + exponent q = exponent q + 52 by omega]
    exact l
  have e52 : (2 : Rat) ^ (52 : Int) = 2 ^ 52 := by decide +kernel
  rw [e52] at hl
  have mx := Rat.mul_le_mul_of_nonneg_right x (Rat.le_of_lt hp)
  have my := Rat.mul_le_mul_of_nonneg_right y (Rat.le_of_lt hp)
  generalize nearestEven (q / (2 : Rat) ^ exponent q) = k at *
  generalize q / (2 : Rat) ^ exponent q = b at *
  generalize (2 : Rat) ^ exponent q = z at *
  clear l u he h1
  have r1 : (k : Rat) * z - q ≤ 1 / 2 ^ 53 * q := by
    have : (k : Rat) * z - b * z ≤ 1 / 2 * z := by have : ((k : Rat) - b) * z = (k : Rat) * z - b * z := by grind
                                                   grind
    clear mx my x y h2
    grind
  have r2 : q - (k : Rat) * z ≤ 1 / 2 ^ 53 * q := by
    have : b * z - (k : Rat) * z ≤ 1 / 2 * z := by have : (b - (k : Rat)) * z = b * z - (k : Rat) * z := by grind
                                                   grind
    clear mx my x y h2
    grind
  have hlim : ¬ (k : Rat) * z ≥ 2 ^ 1024 := by
    have e0 : (2 : Rat) ^ 1024 = 2 * 2 ^ 1023 := by decide +kernel
    have e1 : (0 : Rat) < 2 ^ 1023 := by decide +kernel
    rw [e0]
    clear mx my x y r2 hl e52
    generalize (2 : Rat) ^ 1023 = w at *
    generalize (k : Rat) * z = g at *
    grind
  rw [if_neg hlim, if_neg hneg]
  exact ⟨_, rfl, r1, r2⟩

/-- **The rounding of IEEE binary64 is one of those assumed in C84.** -/
theorem roundDouble_nearest : Nearest roundDouble := ⟨roundDouble_exact, roundDouble_close⟩

end AF.Convert
