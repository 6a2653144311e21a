import Verif.Model.G711
import Verif.Proof.G711
/-!
# C01–C04: G.711 companding (`g711.c`)

Every theorem here quantifies over the complete domain: all 256 codes, all 65536 16-bit samples, or all pairs of
16-bit samples.  Finite tables are evaluated completely by the kernel and lifted by `forall_lt_of_check`.
-/
namespace AF.G711

/-! ## Specification: the ITU-T G.711 reconstruction levels, scaled to 16 bits -/

/-- μ-law magnitude of segment `s`, step `q`. -/
def muLevel (s q : Nat) : Int := (2 * q + 33) * 2 ^ (s + 2) - 132
/-- A-law magnitude of segment `s`, step `q`. -/
def aLevel (s q : Nat) : Int := if s = 0 then 16 * q + 8 else (2 * q + 33) * 2 ^ (s + 2)

/-- A sample is a 16-bit value. -/
def Is16 (x : Int) : Prop := -32768 ≤ x ∧ x ≤ 32767

/-! ## C01, C02: μ-law -/

/-- The decoder implements the G.711 μ-law level table: the code is the complement of sign, segment, step. -/
theorem C01_ulaw_decode_is_standard : ∀ c, c < 256 → ulaw2linear c =
    (if 255 - c < 128 then 1 else -1) * muLevel ((255 - c) % 128 / 16) ((255 - c) % 16) := by
  have h : ∀ c, c < 2 ^ 8 → ulaw2linear c =
    (if 255 - c < 128 then 1 else -1) * muLevel ((255 - c) % 128 / 16) ((255 - c) % 16) := by
    apply forall_lt_of_check
    decide +kernel
  exact h

/-- C01. Re-encoding a decoded μ-law byte gives that byte again; the redundant negative-zero code 0x7F
becomes the positive-zero code 0xFF. -/
theorem C01_ulaw_code_roundtrip : ∀ c, c < 256 →
    linear2ulaw (ulaw2linear c) = if c = 0x7F then 0xFF else c := by
  have h : ∀ c, c < 2 ^ 8 → linear2ulaw (ulaw2linear c) = if c = 0x7F then 0xFF else c := by
    apply forall_lt_of_check
    decide +kernel
  exact h

private theorem u_read_back (x : Int) (hx : Is16 x) : ∃ s q : Nat, s < 8 ∧ q < 16 ∧
    ulaw2linear (linear2ulaw x) = (if x < 0 then -1 else 1) * ((2 * q + 33) * 2 ^ (s + 2) - 132 : Int) ∧
    linear2ulaw x < 256 ∧
    ((x.natAbs + 132 ≤ 32767) →
      ((16 + q) * 2 ^ (s + 3) ≤ x.natAbs + 132 ∧ x.natAbs + 132 < (17 + q) * 2 ^ (s + 3))) ∧
    (32767 < x.natAbs + 132 → s = 7 ∧ q = 15) := by
  obtain ⟨s, q, hs, hq, h1, h2, h3⟩ := ulaw_form x (by have := hx.1; have := hx.2; omega)
  refine ⟨s, q, hs, hq, ?_, ?_, h2, h3⟩
  · have := ulaw_dec_code s hs q hq
    rw [h1]; split
    · rw [this.2.1]; omega
    · rw [this.1]; omega
  · have := ulaw_dec_code s hs q hq
    rw [h1]; split <;> omega

/-- The encoder only produces byte values. -/
theorem C01_ulaw_code_range (x : Int) (hx : Is16 x) : linear2ulaw x < 256 := by
  obtain ⟨_, _, _, _, _, h, _⟩ := u_read_back x hx
  exact h

/-- C01. Second-generation loss-freeness, for every sample: a value read back from a μ-law file, written to a
μ-law file again, reads back as the same value. -/
theorem C01_ulaw_second_generation (x : Int) (hx : Is16 x) :
    ulaw2linear (linear2ulaw (ulaw2linear (linear2ulaw x))) = ulaw2linear (linear2ulaw x) := by
  have h1 := C01_ulaw_code_range x hx
  rw [C01_ulaw_code_roundtrip _ h1]
  split
  · next h => rw [h]; decide +kernel
  · rfl

/-- C02. Error bound: below the clipping point the error is at most 1/32 of the biased magnitude (half a step);
above it the result is the extreme level with the sample's sign. -/
theorem C02_ulaw_error_bound (x : Int) (hx : Is16 x) :
    (x.natAbs ≤ 32635 → 32 * (ulaw2linear (linear2ulaw x) - x).natAbs ≤ x.natAbs + 132) ∧
    (32635 < x → ulaw2linear (linear2ulaw x) = 32124) ∧
    (x < -32635 → ulaw2linear (linear2ulaw x) = -32124) := by
  obtain ⟨s, q, hs, hq, h1, _, h2, h3⟩ := u_read_back x hx
  refine ⟨?_, ?_, ?_⟩
  · intro h
    have h2 := h2 (by omega)
    rw [h1]
    have : s = 0 ∨ s = 1 ∨ s = 2 ∨ s = 3 ∨ s = 4 ∨ s = 5 ∨ s = 6 ∨ s = 7 := by omega
    rcases this with rfl | rfl | rfl | rfl | rfl | rfl | rfl | rfl <;> split <;> omega
  · intro h
    obtain ⟨rfl, rfl⟩ := h3 (by omega)
    rw [h1, if_neg (by omega)]; rfl
  · intro h
    obtain ⟨rfl, rfl⟩ := h3 (by omega)
    rw [h1, if_pos (by omega)]; rfl

/-- C02. The sign is preserved. -/
theorem C02_ulaw_sign (x : Int) (hx : Is16 x) :
    (0 ≤ x → 0 ≤ ulaw2linear (linear2ulaw x)) ∧ (x ≤ 0 → ulaw2linear (linear2ulaw x) ≤ 0) := by
  obtain ⟨s, q, hs, hq, h1, _, h2, h3⟩ := u_read_back x hx
  rw [h1]
  have : s = 0 ∨ s = 1 ∨ s = 2 ∨ s = 3 ∨ s = 4 ∨ s = 5 ∨ s = 6 ∨ s = 7 := by omega
  rcases this with rfl | rfl | rfl | rfl | rfl | rfl | rfl | rfl <;> split <;> omega

private theorem u_mag_mono (x y : Int) (hx : Is16 x) (hy : Is16 y) (h : x.natAbs ≤ y.natAbs) :
    (ulaw2linear (linear2ulaw x)).natAbs ≤ (ulaw2linear (linear2ulaw y)).natAbs := by
  obtain ⟨s, q, hs, hq, h1, _, h2, h3⟩ := u_read_back x hx
  obtain ⟨s', q', hs', hq', h1', _, h2', h3'⟩ := u_read_back y hy
  have key : ((2 * q + 33) * 2 ^ (s + 2) : Int) ≤ (2 * q' + 33) * 2 ^ (s' + 2) := by
    by_cases hc : 32767 < y.natAbs + 132
    · obtain ⟨rfl, rfl⟩ := h3' hc
      have : s = 0 ∨ s = 1 ∨ s = 2 ∨ s = 3 ∨ s = 4 ∨ s = 5 ∨ s = 6 ∨ s = 7 := by omega
      rcases this with rfl | rfl | rfl | rfl | rfl | rfl | rfl | rfl <;> omega
    · have a := h2 (by omega)
      have b := h2' (by omega)
      exact level_mono s q s' q' hs hs' hq hq' (x.natAbs + 132 : Nat) (y.natAbs + 132 : Nat) (by omega)
        (by exact_mod_cast a.1) (by exact_mod_cast b.2)
  have pos : (132 : Int) ≤ (2 * q + 33) * 2 ^ (s + 2) := by
    have : s = 0 ∨ s = 1 ∨ s = 2 ∨ s = 3 ∨ s = 4 ∨ s = 5 ∨ s = 6 ∨ s = 7 := by omega
    rcases this with rfl | rfl | rfl | rfl | rfl | rfl | rfl | rfl <;> omega
  rw [h1, h1']
  generalize ((2 * q + 33) * 2 ^ (s + 2) : Int) = A at *
  generalize ((2 * q' + 33) * 2 ^ (s' + 2) : Int) = B at *
  split <;> split <;> omega

/-- C02. Larger samples never read back as smaller values. -/
theorem C02_ulaw_monotone (x y : Int) (hx : Is16 x) (hy : Is16 y) (h : x ≤ y) :
    ulaw2linear (linear2ulaw x) ≤ ulaw2linear (linear2ulaw y) := by
  have a := C02_ulaw_sign x hx
  have b := C02_ulaw_sign y hy
  by_cases h0 : 0 ≤ x
  · have := u_mag_mono x y hx hy (by omega)
    have := a.1 h0; have := b.1 (by omega); omega
  · by_cases h1 : y ≤ 0
    · have := u_mag_mono y x hy hx (by omega)
      have := a.2 (by omega); have := b.2 h1; omega
    · have := a.2 (by omega); have := b.1 (by omega); omega

example : Is16 (-1234) ∧ Is16 20000 ∧ ulaw2linear (linear2ulaw 20000) = 19836 ∧
    ulaw2linear (linear2ulaw (-1234)) = -1244 := by
  unfold Is16; decide +kernel

/-! ## C03, C04: A-law -/

/-- The decoder implements the G.711 A-law level table (even bits inverted on the wire). -/
theorem C03_alaw_decode_is_standard : ∀ c, c < 256 → alaw2linear c =
    (if (c ^^^ 0x55) < 128 then -1 else 1) * aLevel ((c ^^^ 0x55) % 128 / 16) ((c ^^^ 0x55) % 16) := by
  have h : ∀ c, c < 2 ^ 8 → alaw2linear c =
    (if (c ^^^ 0x55) < 128 then -1 else 1) * aLevel ((c ^^^ 0x55) % 128 / 16) ((c ^^^ 0x55) % 16) := by
    apply forall_lt_of_check
    decide +kernel
  exact h

/-- C03. Re-encoding a decoded A-law byte gives that byte again. -/
theorem C03_alaw_code_roundtrip : ∀ c, c < 256 → linear2alaw (alaw2linear c) = c := by
  have h : ∀ c, c < 2 ^ 8 → linear2alaw (alaw2linear c) = c := by
    apply forall_lt_of_check
    decide +kernel
  exact h

private theorem a_read_back (x : Int) (hx : Is16 x) (h0 : ¬ (-7 ≤ x ∧ x ≤ -1)) : ∃ s q : Nat, s < 8 ∧ q < 16 ∧
    alaw2linear (linear2alaw x) = (if x < 0 then -1 else 1) *
      (if s = 0 then (16 * q + 8 : Int) else (2 * q + 33) * 2 ^ (s + 2)) ∧
    linear2alaw x < 256 ∧
    (s = 0 → (16 * q : Int) ≤ alawMag x ∧ alawMag x < 16 * q + 16) ∧
    (s ≠ 0 → ((16 + q) * 2 ^ (s + 3) : Int) ≤ alawMag x ∧ alawMag x < (17 + q) * 2 ^ (s + 3)) := by
  have hx1 := hx.1; have hx2 := hx.2
  obtain ⟨s, q, hs, hq, h1, h2, h3⟩ := alaw_form x (by unfold alawMag; split <;> omega)
    (by unfold alawMag; split <;> omega)
  have := alaw_dec_code s hs q hq
  refine ⟨s, q, hs, hq, ?_, ?_, h2, h3⟩
  · rw [h1]
    by_cases hx0 : x < 0
    · rw [if_pos hx0, if_pos hx0, this.2.1, Int.neg_one_mul]
    · rw [if_neg hx0, if_neg hx0, this.1, Int.one_mul]
  · rw [h1]; split <;> omega

/-- The seven samples the encoder mistreats all get the code of −248. -/
private theorem a_bad (x : Int) (h : -7 ≤ x ∧ x ≤ -1) : linear2alaw x = 0x5A ∧ alaw2linear 0x5A = -248 := by
  have : x = -7 ∨ x = -6 ∨ x = -5 ∨ x = -4 ∨ x = -3 ∨ x = -2 ∨ x = -1 := by omega
  rcases this with rfl | rfl | rfl | rfl | rfl | rfl | rfl <;> decide +kernel

/-- The encoder only produces byte values. -/
theorem C03_alaw_code_range (x : Int) (hx : Is16 x) : linear2alaw x < 256 := by
  by_cases h : -7 ≤ x ∧ x ≤ -1
  · rw [(a_bad x h).1]; omega
  · obtain ⟨_, _, _, _, _, h, _⟩ := a_read_back x hx h
    exact h

/-- C03. Second-generation loss-freeness for every sample. -/
theorem C03_alaw_second_generation (x : Int) (hx : Is16 x) :
    linear2alaw (alaw2linear (linear2alaw x)) = linear2alaw x :=
  C03_alaw_code_roundtrip _ (C03_alaw_code_range x hx)

/-- The full C04 claim: the value read back is within one quantiser step (at least 16) of the sample. -/
def AlawErrorClaim : Prop :=
  ∀ x, Is16 x → (alaw2linear (linear2alaw x) - x).natAbs ≤ max 16 (x.natAbs / 16)

/-- C04 is false of the code: `-pcm_val - 8` is negative for samples −1..−7, whose step bits then read 15, so
−1 reads back as −248. -/
theorem C04_alaw_error_bound_fails : ¬ AlawErrorClaim := by
  intro h
  have := h (-1) (by unfold Is16; omega)
  revert this
  decide +kernel

/-- C04, all samples but −1..−7, with the sharp bound: half a step for non-negative samples, half a step plus the
encoder's offset of 8 for negative ones. Missing from the full claim: exactly the seven samples −1..−7. -/
theorem C04_alaw_error_bound (x : Int) (hx : Is16 x) (h0 : ¬ (-7 ≤ x ∧ x ≤ -1)) :
    (0 ≤ x → (alaw2linear (linear2alaw x) - x).natAbs ≤ max 8 (x.natAbs / 32)) ∧
    (x < 0 → (alaw2linear (linear2alaw x) - x).natAbs ≤ max 8 ((x.natAbs - 8) / 32) + 8) ∧
    (0 ≤ x → 0 ≤ alaw2linear (linear2alaw x)) ∧ (x < 0 → alaw2linear (linear2alaw x) < 0) := by
  obtain ⟨s, q, hs, hq, h1, _, h2, h3⟩ := a_read_back x hx h0
  rw [h1]
  unfold alawMag at h2 h3
  by_cases hx0 : 0 ≤ x
  · rw [if_pos hx0] at h2 h3
    rw [if_neg (by omega)]
    have : s = 0 ∨ s = 1 ∨ s = 2 ∨ s = 3 ∨ s = 4 ∨ s = 5 ∨ s = 6 ∨ s = 7 := by omega
    rcases this with rfl | rfl | rfl | rfl | rfl | rfl | rfl | rfl <;>
      (simp only [if_true, if_neg (show ¬ (1 : Nat) = 0 by decide), if_neg (show ¬ (2 : Nat) = 0 by decide),
        if_neg (show ¬ (3 : Nat) = 0 by decide), if_neg (show ¬ (4 : Nat) = 0 by decide),
        if_neg (show ¬ (5 : Nat) = 0 by decide), if_neg (show ¬ (6 : Nat) = 0 by decide),
        if_neg (show ¬ (7 : Nat) = 0 by decide)]; refine ⟨?_, ?_, ?_, ?_⟩ <;> omega)
  · rw [if_neg hx0] at h2 h3
    rw [if_pos (by omega)]
    have : s = 0 ∨ s = 1 ∨ s = 2 ∨ s = 3 ∨ s = 4 ∨ s = 5 ∨ s = 6 ∨ s = 7 := by omega
    rcases this with rfl | rfl | rfl | rfl | rfl | rfl | rfl | rfl <;>
      (simp only [if_true, if_neg (show ¬ (1 : Nat) = 0 by decide), if_neg (show ¬ (2 : Nat) = 0 by decide),
        if_neg (show ¬ (3 : Nat) = 0 by decide), if_neg (show ¬ (4 : Nat) = 0 by decide),
        if_neg (show ¬ (5 : Nat) = 0 by decide), if_neg (show ¬ (6 : Nat) = 0 by decide),
        if_neg (show ¬ (7 : Nat) = 0 by decide)]; refine ⟨?_, ?_, ?_, ?_⟩ <;> omega)

/-- Exactly the samples −1..−7 violate the C04 bound, and each reads back as −248. -/
theorem C04_alaw_failure_is_exactly (x : Int) (hx : Is16 x) :
    ((¬ (alaw2linear (linear2alaw x) - x).natAbs ≤ max 16 (x.natAbs / 16)) ↔ (-7 ≤ x ∧ x ≤ -1)) ∧
    ((-7 ≤ x ∧ x ≤ -1) → alaw2linear (linear2alaw x) = -248) := by
  by_cases h : -7 ≤ x ∧ x ≤ -1
  · have e : alaw2linear (linear2alaw x) = -248 := by rw [(a_bad x h).1, (a_bad x h).2]
    rw [e]
    exact ⟨⟨fun _ => h, fun _ => by omega⟩, fun _ => rfl⟩
  · have := C04_alaw_error_bound x hx h
    refine ⟨⟨fun h' => (h' ?_).elim, fun h' => absurd h' h⟩, fun h' => absurd h' h⟩
    by_cases hx0 : 0 ≤ x
    · have := this.1 hx0; omega
    · have := this.2.1 (by omega); omega

private theorem a_mag_mono (x y : Int) (hx : Is16 x) (hy : Is16 y) (h : alawMag x ≤ alawMag y)
    (hx' : ¬ (-7 ≤ x ∧ x ≤ -1)) (hy' : ¬ (-7 ≤ y ∧ y ≤ -1)) :
    (alaw2linear (linear2alaw x)).natAbs ≤ (alaw2linear (linear2alaw y)).natAbs := by
  obtain ⟨s, q, hs, hq, h1, _, h2, h3⟩ := a_read_back x hx hx'
  obtain ⟨s', q', hs', hq', h1', _, h2', h3'⟩ := a_read_back y hy hy'
  have key : (if s = 0 then (16 * q + 8 : Int) else (2 * q + 33) * 2 ^ (s + 2)) ≤
      (if s' = 0 then (16 * q' + 8 : Int) else (2 * q' + 33) * 2 ^ (s' + 2)) := by
    by_cases z : s = 0
    · rw [if_pos z]
      have h2 := h2 z
      by_cases z' : s' = 0
      · rw [if_pos z']; have h2' := h2' z'; omega
      · rw [if_neg z']
        have : s' = 1 ∨ s' = 2 ∨ s' = 3 ∨ s' = 4 ∨ s' = 5 ∨ s' = 6 ∨ s' = 7 := by omega
        rcases this with rfl | rfl | rfl | rfl | rfl | rfl | rfl <;> omega
    · have h3 := h3 z
      rw [if_neg z]
      by_cases z' : s' = 0
      · have h2' := h2' z'
        have : s = 1 ∨ s = 2 ∨ s = 3 ∨ s = 4 ∨ s = 5 ∨ s = 6 ∨ s = 7 := by omega
        rcases this with rfl | rfl | rfl | rfl | rfl | rfl | rfl <;> omega
      · rw [if_neg z']
        exact level_mono s q s' q' hs hs' hq hq' _ _ h h3.1 (h3' z').2
  have pos : (0 : Int) ≤ (if s = 0 then (16 * q + 8 : Int) else (2 * q + 33) * 2 ^ (s + 2)) := by
    split
    · omega
    · have : s = 1 ∨ s = 2 ∨ s = 3 ∨ s = 4 ∨ s = 5 ∨ s = 6 ∨ s = 7 := by omega
      rcases this with rfl | rfl | rfl | rfl | rfl | rfl | rfl <;> omega
  rw [h1, h1']
  generalize (if s = 0 then (16 * q + 8 : Int) else (2 * q + 33) * 2 ^ (s + 2)) = A at *
  generalize (if s' = 0 then (16 * q' + 8 : Int) else (2 * q' + 33) * 2 ^ (s' + 2)) = B at *
  split <;> split <;> omega

/-- C04. Away from −1..−7 the code is monotone. -/
theorem C04_alaw_monotone (x y : Int) (hx : Is16 x) (hy : Is16 y) (h : x ≤ y)
    (hx' : ¬ (-7 ≤ x ∧ x ≤ -1)) (hy' : ¬ (-7 ≤ y ∧ y ≤ -1)) :
    alaw2linear (linear2alaw x) ≤ alaw2linear (linear2alaw y) := by
  have a := (C04_alaw_error_bound x hx hx').2.2
  have b := (C04_alaw_error_bound y hy hy').2.2
  by_cases h0 : 0 ≤ x
  · have := a_mag_mono x y hx hy (by unfold alawMag; rw [if_pos h0, if_pos (by omega)]; omega) hx' hy'
    have := a.1 h0; have := b.1 (by omega); omega
  · by_cases h1 : 0 ≤ y
    · have := a.2 (by omega); have := b.1 h1; omega
    · have := a_mag_mono y x hy hx (by unfold alawMag; rw [if_neg h0, if_neg h1]; omega) hy' hx'
      have := a.2 (by omega); have := b.2 (by omega); omega

example : Is16 (-9) ∧ ¬ ((-7 : Int) ≤ -9 ∧ (-9 : Int) ≤ -1) ∧ alaw2linear (linear2alaw (-9)) = -8 := by
  unfold Is16; decide +kernel

end AF.G711
