import Verif.Proof.FLACWrite
import Verif.Proof.Setup
/-! # Which setups a FLAC file accepts (C71) -/
namespace AF.FLAC
open AF AF.Spec AF.Spec.FLAC AF.Setup

/-- The format of a FLAC file made from the format `f` of a setup. -/
def fileFormatOf (h : Endian) (f : AFmt) : AFmt :=
  ⟨f.rate, TWOSCOMP, f.sampleWidth, native h, Convert.defaultSigned (f.sampleWidth.toNat / 8), f.channels, 530⟩

/-- **C71.** Which setups `afOpenFile` accepts for a FLAC file — at most 8 channels of 16- or 24-bit signed integers, no other
compression and no metadata — and the format the file gets: the caller's channels, rate and width, in the machine's byte
order. -/
theorem C71_accepts (h : Endian) (s : Setup) (tr : TrackSetup) (hs : s.tracks = [tr]) (hid : tr.id = DEFAULT_TRACK) (f : AFmt) :
    FLAC.openWrite h s = some f ↔
      (tr.sampleFormatSet = true → tr.f.sampleFormat = TWOSCOMP) ∧ (tr.f.sampleWidth = 16 ∨ tr.f.sampleWidth = 24) ∧
      tr.f.channels ≤ 8 ∧ (tr.compressionSet = true → tr.f.compression = 530) ∧
      (tr.aesDataSet = false ∧ (tr.markersSet = true → tr.markers = []) ∧ (s.instrumentSet = true → s.instruments = []) ∧
        (s.miscellaneousSet = true → s.miscellaneous = [])) ∧
      f = fileFormatOf h tr.f := by
  have hone := theTrack_one hs hid
  have hset : ∀ w : Int, w = 16 ∨ w = 24 → tr.f.sampleWidth = w → (setSampleFormat tr.f TWOSCOMP tr.f.sampleWidth).2 =
      { tr.f with sampleFormat := TWOSCOMP, pcm := Convert.defaultSigned (tr.f.sampleWidth.toNat / 8) } := by
    intro w hw e
    rcases hw with rfl | rfl <;> simp [setSampleFormat, sampleSizeUncompressed, e, TWOSCOMP, UNSIGNED, FLOAT, DOUBLE]
  unfold FLAC.openWrite completeFLAC
  rw [hone]
  dsimp only
  by_cases h1 : tr.sampleFormatSet = true ∧ tr.f.sampleFormat ≠ TWOSCOMP
  · rw [if_pos h1]
    constructor
    · intro x; cases x
    · intro x; exact absurd (x.1 h1.1) h1.2
  rw [if_neg h1]
  by_cases h2 : tr.sampleWidthSet = true ∧ tr.f.sampleWidth ≠ 16 ∧ tr.f.sampleWidth ≠ 24
  · rw [if_pos h2]
    constructor
    · intro x; cases x
    · intro x; rcases x.2.1 with y | y
      · exact absurd y h2.2.1
      · exact absurd y h2.2.2
  rw [if_neg h2]
  have hcomp : (setSampleFormat tr.f TWOSCOMP tr.f.sampleWidth).2.compression = tr.f.compression := by
    simp only [setSampleFormat]; split <;> (try split) <;> (try split) <;> rfl
  have hwid : (setSampleFormat tr.f TWOSCOMP tr.f.sampleWidth).2.sampleWidth = tr.f.sampleWidth := by
    simp only [setSampleFormat, TWOSCOMP, UNSIGNED]; simp; split <;> rfl
  have hchan : (setSampleFormat tr.f TWOSCOMP tr.f.sampleWidth).2.channels = tr.f.channels := by
    simp only [setSampleFormat, TWOSCOMP, UNSIGNED]; simp; split <;> rfl
  by_cases h3 : tr.compressionSet = true ∧ tr.f.compression ≠ 530
  · rw [if_pos (by rw [hcomp]; exact h3)]
    constructor
    · intro x; cases x
    · intro x; exact absurd (x.2.2.2.1 h3.1) h3.2
  rw [if_neg (by rw [hcomp]; exact h3)]
  generalize hg : ({ (setSampleFormat tr.f TWOSCOMP tr.f.sampleWidth).2 with byteOrder := native h, compression := 530 } : AFmt) = g
  have hwf : s.withFormat g = { s with tracks := [{ tr with f := g }] } := by
    unfold Setup.withFormat
    rw [onTrack_one hs, if_pos hid]
  have hnm : noMetadata (s.withFormat g) tr = true ↔ (tr.aesDataSet = false ∧ (tr.markersSet = true → tr.markers = []) ∧
      (s.instrumentSet = true → s.instruments = []) ∧ (s.miscellaneousSet = true → s.miscellaneous = [])) := by
    rw [hwf]
    unfold noMetadata
    cases tr.aesDataSet <;> cases tr.markersSet <;> cases s.instrumentSet <;> cases s.miscellaneousSet <;> simp [and_assoc]
  by_cases h4 : noMetadata (s.withFormat g) tr = true
  · have hmeta := hnm.mp h4
    rw [if_neg (by simp [h4])]
    have hcopy : (filesetupCopy (s.withFormat g) .flac 0 true).tracks.head? = some { tr with f := g } := by
      rw [hwf]
      unfold filesetupCopy
      cases s.trackSet <;> simp
    simp only [hcopy]
    have hck : codecOk h g = true ↔ (tr.f.sampleWidth = 16 ∨ tr.f.sampleWidth = 24) ∧ tr.f.channels ≤ 8 := by
      constructor
      · intro x
        rw [← hg] at x
        simp only [codecOk, hwid, hchan] at x
        simp only [Bool.and_eq_true, decide_eq_true_eq] at x
        exact ⟨x.1.2.2, x.1.1⟩
      · rintro ⟨x, y⟩
        rw [← hg, hset tr.f.sampleWidth x rfl]
        simp [codecOk, x, y]
    by_cases h5 : codecOk h g = true
    · rw [if_pos h5]
      have ⟨w1, w2⟩ := hck.mp h5
      have eg : g = fileFormatOf h tr.f := by
        rw [← hg, hset _ w1 rfl]; rfl
      constructor
      · intro x
        cases x
        exact ⟨fun y => Decidable.byContradiction fun z => h1 ⟨y, z⟩, w1, w2,
          fun y => Decidable.byContradiction fun z => h3 ⟨y, z⟩, hmeta, eg⟩
      · intro x
        rw [x.2.2.2.2.2, eg]
    · rw [if_neg h5]
      constructor
      · intro x; cases x
      · intro x; exact absurd (hck.mpr ⟨x.2.1, x.2.2.1⟩) h5
  · rw [if_pos (by simp [h4])]
    constructor
    · intro x; cases x
    · intro x; exact absurd (hnm.mpr x.2.2.2.2.1) h4

/-- An accepted setup: 2 channels, 24 bits. -/
def stereo24 : Setup := Setup.run (newSetup .little) [.fileFormat 16, .channels 1001 2, .sampleFormat 1001 401 24, .compression 1001 530]

example : FLAC.openWrite .little stereo24 = some ⟨44100, TWOSCOMP, 24, LITTLE, Convert.defaultSigned 3, 2, 530⟩ := by decide +kernel

/-- Nine channels are refused, as is 8 bits. -/
example : FLAC.openWrite .little (Setup.run stereo24 [.channels 1001 9]) = none ∧
    FLAC.openWrite .little (Setup.run stereo24 [.sampleFormat 1001 401 8]) = none := by decide +kernel

end AF.FLAC
