import Verif.Model.FloatInt
namespace AF.Convert
namespace Dbl

/-- What is assumed of rounding: it never produces a NaN and never reverses the order. -/
structure Rounding (rnd : Rat → Dbl) : Prop where
  notNan : ∀ q, rnd q ≠ nan
  mono : ∀ p q, p ≤ q → lt (rnd q) (rnd p) = false

theorem truncRat_bounds (q : Rat) (lo hi : Int) (h1 : (lo : Rat) ≤ q) (h2 : q ≤ (hi : Rat)) :
    lo ≤ truncRat q ∧ truncRat q ≤ hi := by
  unfold truncRat
  split
  · next hq =>
    have a := Rat.floor_le (-q)
    have b := Rat.lt_floor_add_one (-q)
    have h3 : (-q).floor ≤ -lo := by
      rw [← Rat.intCast_le_intCast]; rw [Rat.intCast_neg]; grind
    have h4 : -hi ≤ (-q).floor := by
      rw [Rat.le_floor_iff, Rat.intCast_neg]; grind
    omega
  · next hq =>
    have h3 : lo ≤ q.floor := Rat.le_floor_iff.2 h1
    have h4 : q.floor ≤ hi := by
      rw [← Rat.intCast_le_intCast]; have := Rat.floor_le q; grind
    omega

theorem truncRat_err (q : Rat) : (truncRat q : Rat) - q < 1 ∧ q - (truncRat q : Rat) < 1 := by
  unfold truncRat
  split
  · next hq =>
    have a := Rat.floor_le (-q)
    have b := Rat.lt_floor (x := -q)
    rw [Rat.intCast_neg]
    grind
  · next hq =>
    have a := Rat.floor_le q
    have b := Rat.lt_floor (x := q)
    grind

theorem truncRat_mono {p q : Rat} (h : p ≤ q) : truncRat p ≤ truncRat q := by
  unfold truncRat
  split
  · split
    · have := Rat.floor_monotone (a := -q) (b := -p) (by grind)
      omega
    · have h1 : (0 : Int) ≤ (-p).floor := Rat.le_floor_iff.2 (by simp; grind)
      have h2 : (0 : Int) ≤ q.floor := Rat.le_floor_iff.2 (by simp; grind)
      omega
  · split
    · grind
    · exact Rat.floor_monotone h

/-- The value after clipping. -/
theorem clip_val (t : Dbl) (ht : t ≠ nan) (lo hi : Rat) (h : lo ≤ hi) :
    ∃ q, Dbl.max (Dbl.min t (fin hi)) (fin lo) = fin q ∧ lo ≤ q ∧ q ≤ hi := by
  cases t with
  | nan => exact absurd rfl ht
  | inf s =>
    cases s
    · exact ⟨hi, by simp [Dbl.max, Dbl.min, lt, Rat.not_lt.2 h], h, by grind⟩
    · exact ⟨lo, by simp [Dbl.max, Dbl.min, lt], by grind, h⟩
  | fin q =>
    simp only [Dbl.max, Dbl.min, lt, decide_eq_true_eq]
    by_cases h1 : hi < q
    · simp only [h1, if_true]
      simp only [lt, Rat.not_lt.2 h, decide_false, Bool.false_eq_true, if_false]
      exact ⟨hi, rfl, h, by grind⟩
    · simp only [h1, if_false]
      by_cases h2 : q < lo
      · simp only [lt, h2, decide_true, if_true]
        exact ⟨lo, rfl, by grind, h⟩
      · simp only [lt, h2, decide_false, Bool.false_eq_true, if_false]
        exact ⟨q, rfl, by grind, by grind⟩

theorem lin_notNan {rnd : Rat → Dbl} (hr : Rounding rnd) (m b : Rat) (hm : m ≠ 0) (x : Dbl) (hx : x ≠ nan) :
    add rnd (mul rnd (fin m) x) (fin b) ≠ nan := by
  cases x with
  | nan => exact absurd rfl hx
  | inf s => simp [mul, hm, add]
  | fin q =>
    simp only [mul]
    have := hr.notNan (m * q)
    cases h : rnd (m * q) with
    | nan => exact absurd h this
    | inf s => simp [add]
    | fin p => exact hr.notNan _

/-- `a ≤ b` for doubles that are not NaN. -/
def le (a b : Dbl) : Prop := lt b a = false

theorem negInf_le (c : Dbl) : le (inf true) c := by
  unfold le; cases c with
  | nan => rfl
  | inf s => cases s <;> rfl
  | fin q => rfl

theorem le_posInf (c : Dbl) : le c (inf false) := by
  unfold le; cases c with
  | nan => rfl
  | inf s => cases s <;> rfl
  | fin q => rfl

theorem le_cases {a b : Dbl} (ha : a ≠ nan) (hb : b ≠ nan) (h : le a b) :
    a = inf true ∨ b = inf false ∨ ∃ p q, a = fin p ∧ b = fin q ∧ p ≤ q := by
  unfold le at h
  cases a with
  | nan => exact absurd rfl ha
  | inf s =>
    cases s
    · cases b with
      | nan => exact absurd rfl hb
      | inf t => cases t <;> simp [lt] at h ⊢
      | fin q => simp [lt] at h
    · exact .inl rfl
  | fin p =>
    cases b with
    | nan => exact absurd rfl hb
    | inf t => cases t <;> simp [lt] at h ⊢
    | fin q => exact .inr (.inr ⟨p, q, rfl, rfl, by simpa [lt, Rat.not_lt] using h⟩)

theorem add_mono {rnd : Rat → Dbl} (hr : Rounding rnd) (a c : Dbl) (ha : a ≠ nan) (hc : c ≠ nan) (h : le a c) (b : Rat) :
    le (add rnd a (fin b)) (add rnd c (fin b)) := by
  rcases le_cases ha hc h with rfl | rfl | ⟨p, q, rfl, rfl, hpq⟩
  · exact negInf_le _
  · exact le_posInf _
  · exact hr.mono _ _ (by grind)

theorem mul_mono {rnd : Rat → Dbl} (hr : Rounding rnd) (m : Rat) (hm : 0 < m) (x y : Dbl) (hx : x ≠ nan) (hy : y ≠ nan)
    (h : le x y) : le (mul rnd (fin m) x) (mul rnd (fin m) y) := by
  have hm0 : m ≠ 0 := by grind
  have hmn : ¬ m < 0 := by grind
  rcases le_cases hx hy h with rfl | rfl | ⟨p, q, rfl, rfl, hpq⟩
  · have e : mul rnd (fin m) (inf true) = inf true := by simp [mul, hm0, hmn]
    rw [e]; exact negInf_le _
  · have e : mul rnd (fin m) (inf false) = inf false := by simp [mul, hm0, hmn]
    rw [e]; exact le_posInf _
  · exact hr.mono _ _ (Rat.mul_le_mul_of_nonneg_left hpq (by grind))

theorem mul_notNan {rnd : Rat → Dbl} (hr : Rounding rnd) (m : Rat) (hm : m ≠ 0) (x : Dbl) (hx : x ≠ nan) :
    mul rnd (fin m) x ≠ nan := by
  cases x with
  | nan => exact absurd rfl hx
  | inf s => simp [mul, hm]
  | fin q => exact hr.notNan _

/-- The clipped value as a function. -/
def clipVal (lo hi : Rat) : Dbl → Rat
  | nan => lo
  | inf true => lo
  | inf false => hi
  | fin q => if hi < q then hi else if q < lo then lo else q

theorem clip_eq (t : Dbl) (ht : t ≠ nan) (lo hi : Rat) (h : lo ≤ hi) :
    Dbl.max (Dbl.min t (fin hi)) (fin lo) = fin (clipVal lo hi t) := by
  cases t with
  | nan => exact absurd rfl ht
  | inf s => cases s <;> simp [Dbl.max, Dbl.min, lt, clipVal, Rat.not_lt.2 h]
  | fin q =>
    simp only [Dbl.max, Dbl.min, lt, decide_eq_true_eq, clipVal]
    by_cases h1 : hi < q
    · simp [h1, lt, Rat.not_lt.2 h]
    · by_cases h2 : q < lo <;> simp [h1, lt, h2]

theorem clipVal_mono (lo hi : Rat) (h : lo ≤ hi) {a b : Dbl} (ha : a ≠ nan) (hb : b ≠ nan) (hab : le a b) :
    clipVal lo hi a ≤ clipVal lo hi b := by
  rcases le_cases ha hb hab with rfl | rfl | ⟨p, q, rfl, rfl, hpq⟩
  · cases b with
    | nan => exact absurd rfl hb
    | inf s => cases s <;> simp [clipVal, h]
    | fin q => simp only [clipVal]; grind
  · cases a with
    | nan => exact absurd rfl ha
    | inf s => cases s <;> simp [clipVal, h]
    | fin q => simp only [clipVal]; grind
  · simp only [clipVal]; grind

theorem clipVal_range (lo hi : Rat) (h : lo ≤ hi) (t : Dbl) : lo ≤ clipVal lo hi t ∧ clipVal lo hi t ≤ hi := by
  cases t with
  | nan => exact ⟨by grind [clipVal], h⟩
  | inf s => cases s <;> simp [clipVal, h]
  | fin q => simp only [clipVal]; grind

end Dbl
open Dbl

theorem floatToIntSample_eq {rnd : Rat → Dbl} (hr : Rounding rnd) (o : FC) (m b : Rat) (hm : m ≠ 0) (lo hi : Int)
    (hle : lo ≤ hi) (hlo : -2 ^ (8 * o.storage - 1) ≤ lo) (hhi : hi < 2 ^ (8 * o.storage - 1)) (x : Dbl) (hx : x ≠ nan) :
    floatToIntSample rnd o m b lo hi x
      = some (truncRat (clipVal lo hi (add rnd (mul rnd (fin m) x) (fin b)))) := by
  have hle' : (lo : Rat) ≤ (hi : Rat) := Rat.intCast_le_intCast.2 hle
  have hn := lin_notNan hr m b hm x hx
  unfold floatToIntSample
  simp only [clip_eq _ hn _ _ hle', toInt]
  obtain ⟨h1, h2⟩ := clipVal_range lo hi hle' (add rnd (mul rnd (fin m) x) (fin b))
  obtain ⟨h3, h4⟩ := truncRat_bounds _ lo hi h1 h2
  rw [if_pos ⟨by omega, by omega⟩]

end AF.Convert
