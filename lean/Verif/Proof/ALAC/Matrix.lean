import Verif.Model.ALAC.Packet
import Verif.Spec.ALAC
import Verif.Proof.ALAC.Predictor
/-! # Samples into the predictor and back -/
namespace AF.ALAC

theorem range20 {x : Int} (h : InRange 20 x) : -2 ^ 23 ≤ x ∧ x < 2 ^ 23 := by
  simpa [InRange] using h

theorem range24 {x : Int} (h : InRange 24 x) : -2 ^ 23 ≤ x ∧ x < 2 ^ 23 := by
  simpa [InRange] using h

theorem range32 {x : Int} (h : InRange 32 x) : -2 ^ 31 ≤ x ∧ x < 2 ^ 31 := by
  simpa [InRange] using h

theorem fetch24 {x : Int} (h1 : -2 ^ 23 ≤ x) (h2 : x < 2 ^ 23) (k : Nat) :
    sar (wrapS 32 (wrapU 24 x * 256)) k = x * 256 / (2 ^ k : Nat) := by
  have e : wrapS 32 (wrapU 24 x * 256) = x * 256 := by
    unfold wrapS wrapU
    by_cases hx : 0 ≤ x
    · rw [show x % ((2 ^ 24 : Nat) : Int) = x by omega]
      apply Int.bmod_eq_of_le <;> omega
    · rw [show x % ((2 ^ 24 : Nat) : Int) = x + 2 ^ 24 by omega,
        show (x + 2 ^ 24) * 256 = x * 256 + ((2 ^ 32 : Nat) : Int) by omega, Int.add_bmod_right]
      apply Int.bmod_eq_of_le <;> omega
  unfold sar
  rw [e]

theorem fetch_20 {x : Int} (h : InRange 20 x) : fetch 20 x = x / 16 := by
  have h := range20 h
  unfold fetch
  rw [if_pos rfl, fetch24 (by omega) (by omega)]
  omega

theorem fetch_24 {x : Int} (h : InRange 24 x) : fetch 24 x = x := by
  have h := range24 h
  unfold fetch
  rw [if_neg (by omega), if_pos rfl, fetch24 (by omega) (by omega)]
  omega

/-- A fetched sample has `depth` bits. -/
theorem fetch_range {d : Nat} (hd : Depth d) {x : Int} (h : InRange d x) :
    -(2 ^ (d - 1) : Nat) ≤ fetch d x ∧ fetch d x < (2 ^ (d - 1) : Nat) := by
  rcases hd with rfl | rfl | rfl | rfl
  · simp [InRange, fetch] at h ⊢; omega
  · rw [fetch_20 h]; simp [InRange] at h ⊢; omega
  · rw [fetch_24 h]; simp [InRange] at h ⊢; omega
  · simp [InRange, fetch] at h ⊢; omega

theorem wrapS_eq {n : Nat} (hn : 1 ≤ n) {x : Int} (h : -(2 ^ (n - 1) : Nat) ≤ x ∧ x < (2 ^ (n - 1) : Nat)) : wrapS n x = x :=
  wrapS_small hn h.1 h.2

/-- Putting the bits shifted off back. -/
theorem store_back {d : Nat} (hd : Depth d) {x : Int} (h : InRange d x) :
    store d (8 * shiftBytes d) (sar (fetch d x) (8 * shiftBytes d)) (shiftedOff (8 * shiftBytes d) (fetch d x)) = kept d x := by
  have hr := fetch_range hd h
  rcases hd with rfl | rfl | rfl | rfl
  · simp only [store, sar, kept, shiftBytes] at hr ⊢
    simp only [Nat.reduceEqDiff, Nat.reduceLeDiff, if_true, if_false, Nat.mul_zero, Nat.pow_zero, Int.ofNat_one, Int.ediv_one]
    rw [wrapS_eq (by omega) hr]; rfl
  · rw [fetch_20 h] at hr ⊢
    have h := range20 h
    simp only [store, sar, kept, shiftBytes] at hr ⊢
    simp only [Nat.reduceEqDiff, Nat.reduceLeDiff, if_true, if_false, Nat.mul_zero, Nat.pow_zero, Int.ofNat_one, Int.ediv_one]
    rw [wrapS_eq (by omega) (by omega)]; omega
  · rw [fetch_24 h]
    have h := range24 h
    simp only [store, sar, kept, shiftBytes, shiftedOff, lowBits]
    simp only [Nat.reduceEqDiff, if_true, if_false, Nat.le_refl]
    rw [wrapS_eq (by omega) (by omega)]; omega
  · have h := range32 h
    simp only [store, sar, kept, shiftBytes, shiftedOff, lowBits, fetch]
    simp only [Nat.reduceEqDiff, if_true, if_false]
    rw [wrapS_eq (by omega) (by omega)]; omega

/-- The same for an uncompressed element. -/
theorem store_raw {d : Nat} (hd : Depth d) {x : Int} (h : InRange d x) : store d 0 (fetch d x) 0 = kept d x := by
  have hr := fetch_range hd h
  rcases hd with rfl | rfl | rfl | rfl
  · simp only [store, kept]
    simp only [Nat.reduceEqDiff, if_true, if_false]
    rw [wrapS_eq (by omega) hr]; rfl
  · rw [fetch_20 h] at hr ⊢
    have h := range20 h
    simp only [store, kept] at hr ⊢
    simp only [Nat.reduceEqDiff, if_true, if_false]
    rw [wrapS_eq (by omega) (by omega)]; omega
  · rw [fetch_24 h]
    have h := range24 h
    simp only [store, kept]
    simp only [Nat.reduceEqDiff, if_true, if_false]
    rw [wrapS_eq (by omega) (by omega)]; omega
  · have h := range32 h
    simp only [store, kept, fetch]
    simp only [Nat.reduceEqDiff, if_false]
    rw [wrapS_eq (by omega) (by omega)]; omega

/-- The number of bits of a channel. -/
def monoBits (d : Nat) : Nat := d - 8 * shiftBytes d

theorem monoBits_range {d : Nat} (hd : Depth d) : 1 ≤ monoBits d ∧ monoBits d ≤ 20 := by
  rcases hd with rfl | rfl | rfl | rfl <;> decide

/-- The upper part of a sample fits. -/
theorem upper_range {d : Nat} (hd : Depth d) {x : Int} (h : InRange d x) :
    -(2 ^ (monoBits d - 1) : Nat) ≤ sar (fetch d x) (8 * shiftBytes d) ∧
      sar (fetch d x) (8 * shiftBytes d) < (2 ^ (monoBits d - 1) : Nat) := by
  have hr := fetch_range hd h
  rcases hd with rfl | rfl | rfl | rfl <;> simp only [monoBits, shiftBytes, sar] at hr ⊢ <;>
    simp only [Nat.reduceEqDiff, Nat.reduceLeDiff, if_true, if_false, Nat.le_refl] <;> omega

/-- The mixing is undone, and what it makes takes one bit more at most. -/
theorem unmix_mix {B l r : Int} {mixRes : Nat} (hB : B ≤ 2 ^ 28) (hm : mixRes ≤ 4) (hl : -B ≤ l ∧ l < B) (hr : -B ≤ r ∧ r < B) :
    (-(2 * B) ≤ (mix 2 mixRes l r).1 ∧ (mix 2 mixRes l r).1 < 2 * B) ∧
    (-(2 * B) ≤ (mix 2 mixRes l r).2 ∧ (mix 2 mixRes l r).2 < 2 * B) ∧
    unmix 2 mixRes (mix 2 mixRes l r).1 (mix 2 mixRes l r).2 = (l, r) := by
  have w : ∀ x : Int, -2 ^ 31 ≤ x → x < 2 ^ 31 → wrapS 32 x = x := fun x h1 h2 => wrapS_eq (by omega) (by omega)
  have hc : mixRes = 0 ∨ mixRes = 1 ∨ mixRes = 2 ∨ mixRes = 3 ∨ mixRes = 4 := by omega
  unfold mix unmix sar
  rcases hc with rfl | rfl | rfl | rfl | rfl
  · rw [if_neg (by simp), if_neg (by simp)]
    refine ⟨by dsimp only; omega, by dsimp only; omega, rfl⟩
  all_goals
    rw [if_pos (by simp), if_pos (by simp)]
    dsimp only
    rw [w (l - r) (by omega) (by omega)]
    rw [w (_ * l + _) (by omega) (by omega)]
    rw [w (_ * (l - r)) (by omega) (by omega)]
    refine ⟨by omega, by omega, ?_⟩
    rw [w (_ + _ - _) (by omega) (by omega)]
    rw [w (_ - (l - r)) (by omega) (by omega)]
    apply Prod.ext <;> dsimp only <;> omega

/-- The mixing is undone for all parameters that keep it within 32 bits. -/
theorem unmix_mix_all {w mixBits : Nat} {mixRes l r : Int} (hw : 1 ≤ w) (h : w + mixBits ≤ 30)
    (hm : -(2 ^ mixBits : Nat) ≤ mixRes ∧ mixRes ≤ (2 ^ mixBits : Nat)) (hl : IsInt w l) (hr : IsInt w r) :
    unmix mixBits mixRes (mix mixBits mixRes l r).1 (mix mixBits mixRes l r).2 = (l, r) := by
  by_cases h0 : mixRes = 0
  · unfold mix unmix
    rw [if_neg (by simp [h0]), if_neg (by simp [h0])]
  · unfold IsInt at hl hr
    have hM : (0 : Int) < (2 ^ mixBits : Nat) := by exact_mod_cast Nat.two_pow_pos _
    have hB0 : (0 : Int) < (2 ^ (w - 1) : Nat) := by exact_mod_cast Nat.two_pow_pos _
    have hMB : ((2 ^ mixBits : Nat) : Int) * (2 ^ (w - 1) : Nat) ≤ 2 ^ 29 := by
      rw [← Int.natCast_mul, ← Nat.pow_add]
      have := Nat.pow_le_pow_right (n := 2) (by omega) (show mixBits + (w - 1) ≤ 29 by omega)
      exact_mod_cast this
    have hB29 : ((2 ^ (w - 1) : Nat) : Int) ≤ 2 ^ 29 := by
      have := Nat.pow_le_pow_right (n := 2) (by omega) (show w - 1 ≤ 29 by omega)
      exact_mod_cast this
    have wr : ∀ x : Int, -2 ^ 31 ≤ x → x < 2 ^ 31 → wrapS 32 x = x := fun x h1 h2 => wrapS_eq (by omega) (by omega)
    unfold mix unmix sar
    rw [if_pos (by simpa using h0), if_pos (by simpa using h0)]
    dsimp only
    generalize ((2 ^ mixBits : Nat) : Int) = M at *
    generalize ((2 ^ (w - 1) : Nat) : Int) = B at *
    -- the products stay small
    have key : ∀ a x C : Int, -M ≤ a → a ≤ M → -C ≤ x → x ≤ C → 0 ≤ C → -(M * C) ≤ a * x ∧ a * x ≤ M * C := by
      intro a x C h1 h2 h3 h4 hC
      have e : (a * x).natAbs ≤ (M * C).natAbs := by
        rw [Int.natAbs_mul, Int.natAbs_mul]
        exact Nat.mul_le_mul (by omega) (by omega)
      have : 0 ≤ M * C := Int.mul_nonneg (by omega) hC
      omega
    have k1 := key mixRes (l - r) (2 * B) (by omega) (by omega) (by omega) (by omega) (by omega)
    have k2 : mixRes * l + (M - mixRes) * r = mixRes * (l - r) + M * r := by
      rw [Int.sub_mul, Int.mul_sub]; omega
    have k3 := key M r B (by omega) (by omega) (by omega) (by omega) (by omega)
    have e2 : M * (2 * B) = 2 * (M * B) := by rw [Int.mul_left_comm]
    rw [e2] at k1
    rw [k2]
    rw [wr (mixRes * (l - r) + M * r) (by omega) (by omega), wr (l - r) (by omega) (by omega),
      wr (mixRes * (l - r)) (by omega) (by omega)]
    have e3 : (mixRes * (l - r) + M * r) / M = mixRes * (l - r) / M + r := Int.add_mul_ediv_left _ _ (by omega)
    rw [e3]
    rw [show mixRes * (l - r) / M + r + (l - r) - mixRes * (l - r) / M = l by omega, wr l (by omega) (by omega),
      wr (l - (l - r)) (by omega) (by omega)]
    apply Prod.ext <;> dsimp only; omega

end AF.ALAC
