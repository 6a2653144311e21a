import Verif.Spec.Rate
import Verif.Proof.Reading
/-!
# Lemmas on positions scaled by sample rates
-/
namespace AF.Convert.Dbl
open AF.Spec

theorem isDouble_int {n : Int} (h : n.natAbs < 2 ^ 53) : IsDouble (n : Rat) :=
  ⟨n, 0, h, by decide, by decide, by simp [Rat.zpow_zero]⟩

theorem isDouble_zero : IsDouble 0 := isDouble_int (n := 0) (by decide)

theorem nearestEven_close {q : Rat} {n : Int} (h1 : q - n < 1 / 2) (h2 : (n : Rat) - q < 1 / 2) : nearestEven q = n := by
  have f : (q + 1 / 2).floor = n := by
    have a : n ≤ (q + 1 / 2).floor := Rat.le_floor_iff.2 (by grind)
    have b := Rat.floor_le (q + 1 / 2)
    have d : ((q + 1 / 2).floor : Rat) < ((n + 1 : Int) : Rat) := by
      rw [Rat.intCast_add]
      grind
    have := Rat.intCast_lt_intCast.1 d
    omega
  unfold nearestEven
  dsimp only
  rw [f, if_neg]
  intro h
  grind

theorem llrint_close {q : Rat} {n : Int} (h1 : q - n < 1 / 2) (h2 : (n : Rat) - q < 1 / 2) (hb : n.natAbs < 2 ^ 53) : llrint (.fin q) = n := by
  unfold llrint
  dsimp only
  rw [nearestEven_close h1 h2, if_pos (by omega)]

theorem usual_pos {r : Rat} (h : Usual r) : 0 < r := by
  have a : (0 : Rat) < 1 / 2 ^ 900 := by decide +kernel
  have := h.1
  grind

theorem usual_product {r n : Rat} (h : Usual r) (h1 : 1 ≤ n) (h2 : n ≤ 2 ^ 49) : 1 / 2 ^ 1022 ≤ n * r ∧ n * r ≤ 2 ^ 1023 := by
  have hp := usual_pos h
  have e1 : 1 * r ≤ n * r := Rat.mul_le_mul_of_nonneg_right h1 (by grind)
  have e2 : n * r ≤ 2 ^ 49 * r := Rat.mul_le_mul_of_nonneg_right h2 (by grind)
  have e3 : (2 ^ 49 : Rat) * r ≤ 2 ^ 49 * 2 ^ 900 := Rat.mul_le_mul_of_nonneg_left h.2 (by decide +kernel)
  have k1 : (1 : Rat) / 2 ^ 1022 ≤ 1 / 2 ^ 900 := by decide +kernel
  have k2 : (2 : Rat) ^ 49 * 2 ^ 900 ≤ 2 ^ 1023 := by decide +kernel
  have := h.1
  constructor
  · generalize (1 : Rat) / 2 ^ 1022 = x at *
    generalize (1 : Rat) / 2 ^ 900 = y at *
    grind
  · generalize (2 : Rat) ^ 1023 = x at *
    generalize (2 : Rat) ^ 49 * 2 ^ 900 = y at *
    generalize (2 : Rat) ^ 49 * r = z at *
    exact Rat.le_trans (Rat.le_trans e2 e3) k2

/-- Taking a position to another rate and back by the same rate. -/
theorem scale_same {rnd : Rat → Dbl} (hn : Nearest rnd) {r : Rat} (hr : Usual r) {n : Int} (h0 : 0 ≤ n) (h1 : n ≤ 2 ^ 49) :
    scale rnd n (.fin r) (.fin r) = n := by
  have hp := usual_pos hr
  have hr0 : r ≠ 0 := by grind
  have hb : n.natAbs < 2 ^ 53 := by omega
  have en : rnd n = .fin n := hn.exact _ (isDouble_int hb)
  unfold scale
  rw [en]
  unfold mul
  dsimp only
  by_cases hz : n = 0
  · subst hz
    rw [show ((0 : Int) : Rat) * r = 0 by grind, hn.exact 0 isDouble_zero]
    unfold div
    dsimp only
    rw [if_neg hr0, show (0 : Rat) / r = 0 by grind, hn.exact 0 isDouble_zero]
    decide +kernel
  · have n1 : (1 : Rat) ≤ n := by
      have : ((1 : Int) : Rat) ≤ n := Rat.intCast_le_intCast.2 (by omega)
      grind
    have n2 : (n : Rat) ≤ 2 ^ 49 := by
      have : (n : Rat) ≤ ((2 ^ 49 : Int) : Rat) := Rat.intCast_le_intCast.2 h1
      have e : ((2 ^ 49 : Int) : Rat) = 2 ^ 49 := by decide +kernel
      rw [e] at this
      exact this
    obtain ⟨l, u⟩ := usual_product hr n1 n2
    obtain ⟨a, ea, a1, a2⟩ := hn.close _ l u
    rw [ea]
    unfold div
    dsimp only
    rw [if_neg hr0]
    have hab : a / r * r = a := Rat.div_mul_cancel hr0
    generalize a / r = b at hab ⊢
    have b1 : b ≤ n + 1 / 2 ^ 53 * n := by
      refine Rat.le_of_mul_le_mul_right (c := r) ?_ hp
      grind
    have b2 : n - 1 / 2 ^ 53 * n ≤ b := by
      refine Rat.le_of_mul_le_mul_right (c := r) ?_ hp
      grind
    have k1 : (1 : Rat) / 2 ^ 1022 ≤ 1 / 2 := by decide +kernel
    have k2 : (2 : Rat) ^ 50 ≤ 2 ^ 1023 := by decide +kernel
    obtain ⟨d, ed, d1, d2⟩ := hn.close b (Rat.le_trans k1 (by grind)) (Rat.le_trans (by grind) k2)
    rw [ed]
    exact llrint_close (by grind) (by grind) hb

/-- The same for the number of frames. -/
theorem scaleTotal_same {rnd : Rat → Dbl} (hn : Nearest rnd) {r : Rat} (hr : Usual r) {n : Int} (h0 : 0 ≤ n) (h1 : n ≤ 2 ^ 49) :
    scaleTotal rnd n (.fin r) (.fin r) = n := by
  have hp := usual_pos hr
  have hr0 : r ≠ 0 := by grind
  have hb : n.natAbs < 2 ^ 53 := by omega
  unfold scaleTotal
  rw [hn.exact _ (isDouble_int hb)]
  unfold div
  dsimp only
  rw [if_neg hr0, show r / r = ((1 : Int) : Rat) by grind, hn.exact _ (isDouble_int (by decide))]
  unfold mul
  dsimp only
  rw [show (n : Rat) * ((1 : Int) : Rat) = n by grind, hn.exact _ (isDouble_int hb)]
  exact llrint_close (by grind) (by grind) hb

/-- A rate that means nothing. -/
theorem div_meaningless {rnd : Rat → Dbl} {r : Dbl} (h : Meaningless r) : div rnd r r = .nan := by
  cases r with
  | nan => rfl
  | inf s => rfl
  | fin q =>
    have : q = 0 := h
    subst this
    rfl

theorem mul_nan (rnd : Rat → Dbl) (x : Dbl) : mul rnd x .nan = .nan := by cases x <;> rfl

theorem scaleTotal_meaningless {rnd : Rat → Dbl} {r : Dbl} (h : Meaningless r) (n : Int) : scaleTotal rnd n r r = -2 ^ 63 := by
  unfold scaleTotal
  rw [div_meaningless h, mul_nan]
  rfl

theorem scale_meaningless {rnd : Rat → Dbl} (hn : Nearest rnd) {r : Dbl} (h : Meaningless r) (n : Int) (hb : n.natAbs < 2 ^ 53 ∨ n = -2 ^ 63) :
    scale rnd n r r = -2 ^ 63 := by
  have hd : IsDouble (n : Rat) := by
    rcases hb with hb | hb
    · exact isDouble_int hb
    · subst hb
      refine ⟨-2 ^ 52, 11, by decide, by decide, by decide, by decide +kernel⟩
  unfold scale
  rw [hn.exact _ hd]
  cases r with
  | nan => rfl
  | inf s =>
    unfold mul
    dsimp only
    split
    · rfl
    · rfl
  | fin q =>
    have : q = 0 := h
    subst this
    unfold mul
    dsimp only
    rw [Rat.mul_zero, hn.exact 0 isDouble_zero]
    rfl

theorem nearestEven_half (q : Rat) : (nearestEven q : Rat) - q ≤ 1 / 2 ∧ q - nearestEven q ≤ 1 / 2 := by
  have a := Rat.floor_le (q + 1 / 2)
  have b := Rat.lt_floor_add_one (q + 1 / 2)
  rw [Rat.intCast_add] at b
  unfold nearestEven
  dsimp only
  split
  · next h =>
    rw [Rat.intCast_sub]
    have := h.1
    constructor <;> grind
  · constructor <;> grind

theorem llrint_half {q : Rat} (h0 : 0 ≤ q) (h1 : q ≤ 2 ^ 60) : (llrint (.fin q) : Rat) - q ≤ 1 / 2 ∧ q - llrint (.fin q) ≤ 1 / 2 := by
  have ⟨a, b⟩ := nearestEven_half q
  have l : -2 ^ 63 ≤ nearestEven q := by
    have : ((-1 : Int) : Rat) ≤ nearestEven q := by grind
    have := Rat.intCast_le_intCast.1 this
    omega
  have u : nearestEven q < 2 ^ 63 := by
    have e : (((2 : Int) ^ 61 : Int) : Rat) = 2 ^ 61 := by decide +kernel
    have : (nearestEven q : Rat) ≤ ((2 ^ 61 : Int) : Rat) := by rw [e]; grind
    have := Rat.intCast_le_intCast.1 this
    omega
  unfold llrint
  dsimp only
  rw [if_pos ⟨l, u⟩]
  exact ⟨a, b⟩

theorem usual_double_product {x n : Rat} (h : Usual x) (h1 : 1 ≤ n) (h2 : n * x ≤ 2 ^ 48) :
    1 / 2 ^ 1022 ≤ 1 / 2 * (n * x) := by
  have hp := usual_pos h
  have e1 : 1 * x ≤ n * x := Rat.mul_le_mul_of_nonneg_right h1 (by grind)
  have k1 : (1 : Rat) / 2 ^ 1022 ≤ 1 / 2 * (1 / 2 ^ 900) := by decide +kernel
  have := h.1
  generalize (1 : Rat) / 2 ^ 1022 = y at *
  generalize (1 : Rat) / 2 ^ 900 = z at *
  grind

/-- The number of frames at another rate, to within half a frame and a little. -/
theorem scaleTotal_close {rnd : Rat → Dbl} (hn : Nearest rnd) {f v : Rat} (hf : Usual f) (hx : Usual (v / f)) {n : Int} (h0 : 0 ≤ n)
    (hN : n ≤ 2 ^ 49) (h1 : n * (v / f) ≤ 2 ^ 48) :
    (scaleTotal rnd n (.fin v) (.fin f) : Rat) - n * (v / f) ≤ 5 / 8 ∧ n * (v / f) - scaleTotal rnd n (.fin v) (.fin f) ≤ 5 / 8 := by
  have hp := usual_pos hf
  have hf0 : f ≠ 0 := by grind
  have hb : n.natAbs < 2 ^ 53 := by omega
  unfold scaleTotal
  rw [hn.exact _ (isDouble_int hb)]
  unfold div
  dsimp only
  rw [if_neg hf0]
  generalize v / f = x at *
  have hxp := usual_pos hx
  have k0 : (1 : Rat) / 2 ^ 1022 ≤ 1 / 2 ^ 900 := by decide +kernel
  have k9 : (2 : Rat) ^ 900 ≤ 2 ^ 1023 := by decide +kernel
  obtain ⟨d, ed, d1, d2⟩ := hn.close x (Rat.le_trans k0 hx.1) (Rat.le_trans hx.2 k9)
  rw [ed]
  unfold mul
  dsimp only
  by_cases hz : n = 0
  · subst hz
    rw [show ((0 : Int) : Rat) * d = 0 by grind, hn.exact 0 isDouble_zero]
    have : llrint (.fin 0) = 0 := by decide +kernel
    rw [this]
    constructor <;> grind
  · have n1 : (1 : Rat) ≤ n := by
      have : ((1 : Int) : Rat) ≤ n := Rat.intCast_le_intCast.2 (by omega)
      grind
    have m1 : n * (d - x) ≤ n * (1 / 2 ^ 53 * x) := Rat.mul_le_mul_of_nonneg_left d1 (by grind)
    have m2 : n * (x - d) ≤ n * (1 / 2 ^ 53 * x) := Rat.mul_le_mul_of_nonneg_left d2 (by grind)
    have l := usual_double_product hx n1 h1
    have hy : 0 ≤ n * x := by
      have : (0 : Rat) ≤ 1 / 2 ^ 1022 := by decide +kernel
      generalize (1 : Rat) / 2 ^ 1022 = y at *
      grind
    have e1 : n * (d - x) = n * d - n * x := by grind
    have e2 : n * (x - d) = n * x - n * d := by grind
    have e3 : n * (1 / 2 ^ 53 * x) = 1 / 2 ^ 53 * (n * x) := by grind
    rw [e1, e3] at m1
    rw [e2, e3] at m2
    generalize (n : Rat) * x = y at *
    generalize (n : Rat) * d = z at *
    have k2 : (2 : Rat) ^ 49 ≤ 2 ^ 1023 := by decide +kernel
    have l' : 1 / 2 ^ 1022 ≤ z := Rat.le_trans l (by clear l k0 k9 k2; grind)
    obtain ⟨g, eg, g1, g2⟩ := hn.close z l' (Rat.le_trans (by clear l l' k0 k9 k2; grind) k2)
    rw [eg]
    clear l l' k0 k9 k2
    have ⟨a, b⟩ := llrint_half (q := g) (by grind) (by grind)
    generalize llrint (.fin g) = w at *
    constructor <;> grind

end AF.Convert.Dbl
