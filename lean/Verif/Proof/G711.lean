import Verif.Model.G711
import Verif.Proof.Table
/-! Segment analysis of the G.711 encoders. -/
namespace AF.G711

theorem search_cases (m : Int) : search m segEnd =
    if m ≤ 0xFF then 0 else if m ≤ 0x1FF then 1 else if m ≤ 0x3FF then 2 else if m ≤ 0x7FF then 3
    else if m ≤ 0xFFF then 4 else if m ≤ 0x1FFF then 5 else if m ≤ 0x3FFF then 6
    else if m ≤ 0x7FFF then 7 else 8 := by
  simp only [search, segEnd]
  repeat' split
  all_goals rfl

/-- What the shared part of both encoders computes: segment `s` and step `q` of a magnitude. -/
def codeOf (s q mask : Nat) : Nat := ((s <<< 4) ||| q) ^^^ mask

theorem ulaw_form (x : Int) (hx : x.natAbs ≤ 32768) : ∃ s q : Nat, s < 8 ∧ q < 16 ∧
    linear2ulaw x = codeOf s q (if x < 0 then 0x7F else 0xFF) ∧
    ((x.natAbs + 132 ≤ 32767) →
      ((16 + q) * 2 ^ (s + 3) ≤ x.natAbs + 132 ∧ x.natAbs + 132 < (17 + q) * 2 ^ (s + 3))) ∧
    (32767 < x.natAbs + 132 → s = 7 ∧ q = 15) := by
  have key : ∀ m : Int, 132 ≤ m → ∃ s q : Nat, s < 8 ∧ q < 16 ∧
      (∀ mask, (if search m segEnd ≥ 8 then 0x7F ^^^ mask
        else ((search m segEnd <<< 4) ||| lowBits (sar m (search m segEnd + 3)) 4) ^^^ mask) = codeOf s q mask) ∧
      (m ≤ 32767 → ((16 + q) * 2 ^ (s + 3) : Int) ≤ m ∧ m < (17 + q) * 2 ^ (s + 3)) ∧
      (32767 < m → s = 7 ∧ q = 15) := by
    intro m hm
    rw [search_cases]
    by_cases h8 : 32767 < m
    · refine ⟨7, 15, by omega, by omega, ?_, by omega, by omega⟩
      intro mask
      have e : (if m ≤ 0xFF then 0 else if m ≤ 0x1FF then 1 else if m ≤ 0x3FF then 2 else if m ≤ 0x7FF then 3
        else if m ≤ 0xFFF then 4 else if m ≤ 0x1FFF then 5 else if m ≤ 0x3FFF then 6
        else if m ≤ 0x7FFF then 7 else 8) = 8 := by
        repeat rw [if_neg (by omega)]
      rw [e]; rfl
    · simp only [lowBits, sar, codeOf]
      by_cases h : m ≤ 0xFF
      · refine ⟨0, ((m / 8) % 16).toNat, by omega, by omega, ?_, by omega, by omega⟩
        intro mask; simp [h]
      by_cases h1 : m ≤ 0x1FF
      · refine ⟨1, ((m / 16) % 16).toNat, by omega, by omega, ?_, by omega, by omega⟩
        intro mask; simp [h, h1]
      by_cases h2 : m ≤ 0x3FF
      · refine ⟨2, ((m / 32) % 16).toNat, by omega, by omega, ?_, by omega, by omega⟩
        intro mask; simp [h, h1, h2]
      by_cases h3 : m ≤ 0x7FF
      · refine ⟨3, ((m / 64) % 16).toNat, by omega, by omega, ?_, by omega, by omega⟩
        intro mask; simp [h, h1, h2, h3]
      by_cases h4 : m ≤ 0xFFF
      · refine ⟨4, ((m / 128) % 16).toNat, by omega, by omega, ?_, by omega, by omega⟩
        intro mask; simp [h, h1, h2, h3, h4]
      by_cases h5 : m ≤ 0x1FFF
      · refine ⟨5, ((m / 256) % 16).toNat, by omega, by omega, ?_, by omega, by omega⟩
        intro mask; simp [h, h1, h2, h3, h4, h5]
      by_cases h6 : m ≤ 0x3FFF
      · refine ⟨6, ((m / 512) % 16).toNat, by omega, by omega, ?_, by omega, by omega⟩
        intro mask; simp [h, h1, h2, h3, h4, h5, h6]
      · have h7 : m ≤ 0x7FFF := by omega
        refine ⟨7, ((m / 1024) % 16).toNat, by omega, by omega, ?_, by omega, by omega⟩
        intro mask; simp [h, h1, h2, h3, h4, h5, h6, h7]
  obtain ⟨s, q, hs, hq, h1, h2, h3⟩ := key (x.natAbs + 132) (by omega)
  refine ⟨s, q, hs, hq, ?_, ?_, ?_⟩
  · rw [← h1]
    unfold linear2ulaw
    by_cases hx0 : x < 0
    · have e : (0x84 : Int) - x = x.natAbs + 132 := by omega
      simp only [hx0, if_true, e]
    · have e : x + 0x84 = (x.natAbs : Int) + 132 := by omega
      simp only [hx0, if_false, e]
  · intro h
    have := h2 (by omega)
    exact_mod_cast this
  · intro h; exact h3 (by omega)

theorem alaw_key (m : Int) (hm : 0 ≤ m) (hm' : m ≤ 32767) : ∃ s q : Nat, s < 8 ∧ q < 16 ∧
      (∀ mask, (if search m segEnd ≥ 8 then 0x7F ^^^ mask
        else ((search m segEnd <<< 4) ||| (if search m segEnd < 2 then lowBits (sar m 4) 4
          else lowBits (sar m (search m segEnd + 3)) 4)) ^^^ mask) = codeOf s q mask) ∧
      (s = 0 → (16 * q : Int) ≤ m ∧ m < 16 * q + 16) ∧
      (s ≠ 0 → ((16 + q) * 2 ^ (s + 3) : Int) ≤ m ∧ m < (17 + q) * 2 ^ (s + 3)) := by
  rw [search_cases]
  simp only [lowBits, sar, codeOf]
  by_cases h : m ≤ 0xFF
  · refine ⟨0, ((m / 16) % 16).toNat, by omega, by omega, ?_, by omega, by omega⟩
    intro mask; simp [h]
  by_cases h1 : m ≤ 0x1FF
  · refine ⟨1, ((m / 16) % 16).toNat, by omega, by omega, ?_, by omega, by omega⟩
    intro mask; simp [h, h1]
  by_cases h2 : m ≤ 0x3FF
  · refine ⟨2, ((m / 32) % 16).toNat, by omega, by omega, ?_, by omega, by omega⟩
    intro mask; simp [h, h1, h2]
  by_cases h3 : m ≤ 0x7FF
  · refine ⟨3, ((m / 64) % 16).toNat, by omega, by omega, ?_, by omega, by omega⟩
    intro mask; simp [h, h1, h2, h3]
  by_cases h4 : m ≤ 0xFFF
  · refine ⟨4, ((m / 128) % 16).toNat, by omega, by omega, ?_, by omega, by omega⟩
    intro mask; simp [h, h1, h2, h3, h4]
  by_cases h5 : m ≤ 0x1FFF
  · refine ⟨5, ((m / 256) % 16).toNat, by omega, by omega, ?_, by omega, by omega⟩
    intro mask; simp [h, h1, h2, h3, h4, h5]
  by_cases h6 : m ≤ 0x3FFF
  · refine ⟨6, ((m / 512) % 16).toNat, by omega, by omega, ?_, by omega, by omega⟩
    intro mask; simp [h, h1, h2, h3, h4, h5, h6]
  · have h7 : m ≤ 0x7FFF := by omega
    refine ⟨7, ((m / 1024) % 16).toNat, by omega, by omega, ?_, by omega, by omega⟩
    intro mask; simp [h, h1, h2, h3, h4, h5, h6, h7]

/-- The magnitude the A-law encoder quantises. -/
def alawMag (x : Int) : Int := if 0 ≤ x then x else -x - 8

theorem alaw_form (x : Int) (h0 : 0 ≤ alawMag x) (h1 : alawMag x ≤ 32767) : ∃ s q : Nat, s < 8 ∧ q < 16 ∧
    linear2alaw x = codeOf s q (if x < 0 then 0x55 else 0xD5) ∧
    (s = 0 → (16 * q : Int) ≤ alawMag x ∧ alawMag x < 16 * q + 16) ∧
    (s ≠ 0 → ((16 + q) * 2 ^ (s + 3) : Int) ≤ alawMag x ∧ alawMag x < (17 + q) * 2 ^ (s + 3)) := by
  obtain ⟨s, q, hs, hq, h2, h3, h4⟩ := alaw_key (alawMag x) h0 h1
  refine ⟨s, q, hs, hq, ?_, h3, h4⟩
  rw [← h2]
  unfold linear2alaw alawMag
  by_cases hx0 : 0 ≤ x
  · have : ¬ x < 0 := by omega
    simp only [hx0, this, ge_iff_le, if_true, if_false]
  · have : x < 0 := by omega
    simp only [hx0, this, ge_iff_le, if_true, if_false]

theorem ulaw_dec_code : ∀ s, s < 8 → ∀ q, q < 16 →
    ulaw2linear (codeOf s q 0xFF) = ((2 * q + 33) * 2 ^ (s + 2) - 132 : Int) ∧
    ulaw2linear (codeOf s q 0x7F) = -((2 * q + 33) * 2 ^ (s + 2) - 132 : Int) ∧
    codeOf s q 0xFF < 256 ∧ codeOf s q 0x7F < 256 ∧ codeOf s q 0xFF ≠ 0x7F ∧
    (codeOf s q 0x7F = 0x7F → s = 0 ∧ q = 0) := by
  decide +kernel

theorem alaw_dec_code : ∀ s, s < 8 → ∀ q, q < 16 →
    alaw2linear (codeOf s q 0xD5) = (if s = 0 then (16 * q + 8 : Int) else (2 * q + 33) * 2 ^ (s + 2)) ∧
    alaw2linear (codeOf s q 0x55) = -(if s = 0 then (16 * q + 8 : Int) else (2 * q + 33) * 2 ^ (s + 2)) ∧
    codeOf s q 0xD5 < 256 ∧ codeOf s q 0x55 < 256 := by
  decide +kernel

/-- Midpoints of the segment intervals are ordered like the intervals. -/
theorem level_mono (s q s' q' : Nat) (hs : s < 8) (hs' : s' < 8) (hq : q < 16) (hq' : q' < 16) (m m' : Int)
    (h : m ≤ m') (h1 : ((16 + q) * 2 ^ (s + 3) : Int) ≤ m) (h2 : m' < ((17 + q') * 2 ^ (s' + 3) : Int)) :
    ((2 * q + 33) * 2 ^ (s + 2) : Int) ≤ (2 * q' + 33) * 2 ^ (s' + 2) := by
  have a : s = 0 ∨ s = 1 ∨ s = 2 ∨ s = 3 ∨ s = 4 ∨ s = 5 ∨ s = 6 ∨ s = 7 := by omega
  have b : s' = 0 ∨ s' = 1 ∨ s' = 2 ∨ s' = 3 ∨ s' = 4 ∨ s' = 5 ∨ s' = 6 ∨ s' = 7 := by omega
  rcases a with rfl | rfl | rfl | rfl | rfl | rfl | rfl | rfl <;>
  rcases b with rfl | rfl | rfl | rfl | rfl | rfl | rfl | rfl <;> omega

end AF.G711
