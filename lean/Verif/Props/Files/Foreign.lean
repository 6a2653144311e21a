import Verif.Proof.Opens
import Verif.Proof.ForeignSimple
import Verif.Proof.ForeignVOC
import Verif.Proof.ForeignWAVE
/-!
# C77: files that other programs wrote

For all files of the descriptions in `Spec/Foreign`: they open with the format, the number of frames and the sound that their
headers describe, and play the samples of this sound.
-/
namespace AF.Foreign
open AF AF.Setup AF.Files AF.Convert AF.Spec AF.Spec.Files AF.Spec.Formats AF.Spec.Setup AF.Spec.Foreign

variable (F32 : Files.Float32) (F64 : Files.Float64) (rnd : Rat → Dbl)

/-- C77, NeXT/Sun: any comment, a size that is right, unknown or too large. -/
theorem C77_next (x : Next) (ok : x.Ok) {k : Kind} (hk : nextKind x.encoding = some k) (fuel : Nat) :
    Opens F32 F64 rnd fuel x.file (described x.rate x.channels BIG k) x.sound (x.sound.length / (k.bytes * x.channels)) := by
  refine opens_of (u := .next) (next_kind (h := .little) hk 0 0).1 ok.channels.1 ?_ (by decide) fun h => next_read h x ok hk
  refine At.start (rest := x.file.drop 4) ?_
  unfold Next.file
  simp only [List.append_assoc]
  rfl

theorem avr_good (x : Avr) : Kind.Good x.kind := by
  unfold Avr.kind
  cases x.isSigned <;> cases x.sixteen
  · exact good_unsigned (by decide)
  · exact good_unsigned (by decide)
  · exact good_signed (by decide)
  · exact good_signed (by decide)

/-- C77, AVR: whatever the name, the loop, the key and the other fields are. -/
theorem C77_avr (x : Avr) (ok : x.Ok) (fuel : Nat) :
    Opens F32 F64 rnd fuel x.file (described x.rate x.channels BIG x.kind) x.sound x.frames := by
  refine opens_of (u := .avr) (avr_good x) (by unfold Avr.channels; split <;> decide) ?_ (by decide) fun h => avr_found h x ok
  refine At.start (rest := x.file.drop 4) ?_
  unfold Avr.file
  simp only [List.append_assoc]
  rfl

/-- C77, IRCAM: the signatures of all four machines in both byte orders; the numbers and the samples have the byte order that the
signature shows. -/
theorem C77_ircam (x : Ircam) (ok : x.Ok) {k : Kind} (hk : ircamKind x.packing = some k) (fuel : Nat) :
    Opens F32 F64 rnd fuel x.file (described (F32.dec (BitVec.ofNat 32 x.rate)) x.channels (if x.big then BIG else LITTLE) k) x.sound
      (x.sound.length / (k.bytes * x.channels)) := by
  refine opens_of (u := .ircam) (ircam_kind (h := .little) hk 0 0 0).1 (by have := ok.channels; omega) ?_ (by decide)
    fun h => ircam_found F32 h x ok hk
  have hnum : BitVec.ofNat 8 x.machine.number ∈ ([1, 2, 3, 4] : List Byte) := by
    cases x.machine <;> decide
  refine ⟨_, hnum, ?_⟩
  cases hsw : x.swapped
  · refine .inl (At.start (rest := x.file.drop 4) ?_)
    unfold Ircam.file
    rw [hsw]
    simp only [List.append_assoc]
    rfl
  · refine .inr (At.start (rest := x.file.drop 4) ?_)
    unfold Ircam.file
    rw [hsw]
    simp only [List.append_assoc]
    rfl

theorem voc_good {s : VocSound} {k : Kind} (hk : s.kind = some k) : Kind.Good k := by
  unfold VocSound.kind at hk
  split at hk
  · injection hk with hk; subst hk; exact good_unsigned (by decide)
  · injection hk with hk; subst hk; exact good_unsigned (by decide)
  · split at hk
    · injection hk with hk; subst hk; exact good_unsigned (by decide)
    · injection hk with hk; subst hk; exact good_signed (by decide)
    · injection hk with hk; subst hk; exact good_aLaw
    · injection hk with hk; subst hk; exact good_muLaw
    · cases hk

/-- C77, Creative Voice: any blocks that say nothing about the sound before it; after it, too, if the sound is in a block of
type 9. -/
theorem C77_voc_partial (x : Voc) (ok : x.Ok) {k : Kind} (hk : x.soundBlock.kind = some k)
    (ha : x.after = [] ∨ ∃ a b c d e, x.soundBlock = .new a b c d e) {fuel : Nat} (hfuel : x.file.length < fuel) :
    Opens F32 F64 rnd fuel x.file (described x.soundBlock.rate x.soundBlock.channels LITTLE k) x.sound
      (x.sound.length / (k.bytes * x.soundBlock.channels)) := by
  refine opens_of (u := .voc) (voc_good hk) ?_ ?_ (by decide) fun h => voc_found h x ok hk ha hfuel
  · have := ok.soundOk.fields
    cases hs : x.soundBlock with
    | old d => exact Nat.le_refl 1
    | extended a b c d e => unfold VocSound.channels; dsimp only; split <;> decide
    | new a b c d e =>
      rw [hs] at this
      exact this.2.1
  · refine At.start (rest := x.file.drop 20) ?_
    unfold Voc.file
    simp only [List.append_assoc]
    rfl

/-- C77, WAVE: unknown chunks of any contents and size anywhere, a format chunk of any length, plain or extensible, a fact chunk or
none, anything after the data. -/
theorem C77_wave (w : Wave) (ok : w.Ok) {k : Kind} (hk : w.fmt.kind = some k) {fuel : Nat} (hfuel : w.file.length < fuel) :
    Opens F32 F64 rnd fuel w.file (described w.rate w.channels LITTLE k) w.sound (w.frames k) := by
  refine opens_of (u := .wave) (waveFmt_good hk) ok.channels.1 ?_ (by decide) fun h => ?_
  · refine At.form (l := le 4 (w.chunks.length + 4)) rfl (le_length _ _) ⟨w.chunks, ?_⟩
    rfl
  · obtain ⟨s, p, h1, h2⟩ := wave_found h w ok hk hfuel
    refine ⟨s.t, p, ?_, h2⟩
    show (waveRead h fuel >>= fun s => pure s.t) w.file 0 = _
    rw [Rd.bind_ok h1]
    rfl


/-! ## Cases -/

/-- 24-bit stereo with a comment of seven bytes, an unknown size and half a frame at the end. -/
def exNext : Next := ⟨2 ^ 32 - 1, 4, 44100, 2, text "a sound", [1, 2, 3, 4, 5, 6, 7, 8, 9, 10, 11, 12, 13, 14, 15], []⟩
example : exNext.Ok ∧ nextKind exNext.encoding = some (signed 24) ∧ exNext.sound.length / ((signed 24).bytes * exNext.channels) = 2 :=
  ⟨⟨by decide, by decide, by decide, by decide, by decide +kernel⟩, rfl, rfl⟩

/-- The samples of its frames. -/
example : samplesOf (described 44100 2 BIG (signed 24)) exNext.sound 2 = [[66051, 263430], [460809, 658188]] := by decide +kernel

/-- Unsigned 16-bit stereo with bytes after the sound and something in the upper bits of the rate. -/
def exAvr : Avr := ⟨text "drums   ", true, true, false, 0xffff, 60, 22050, 0xff, 0, 1, 2, List.replicate 90 7, [1, 2, 3, 4, 5, 6, 7, 8], [9]⟩
example : exAvr.Ok := ⟨by decide, by decide, by decide, by decide⟩

/-- A file of a MIPS machine as a big-endian one wrote it: 8000 Hz, four channels of A-law. -/
def exIrcam : Ircam := ⟨.mips, true, 0x45fa0000, 4, 0x10001, List.replicate 1008 1, [1, 2, 3, 4, 5, 6, 7, 8]⟩
example : exIrcam.Ok ∧ exIrcam.big = true ∧ ircamKind exIrcam.packing = some aLaw :=
  ⟨⟨by decide, by decide, by decide, by decide +kernel, by decide +kernel⟩, rfl, rfl⟩

/-- A text, then stereo sound with the extended block. -/
def exVoc : Voc := ⟨[26, 0, 10, 1, 41, 17], [⟨5, [104, 105, 0]⟩], .extended 60000 0 true [⟨4, [1, 0]⟩] 200, [1, 2, 3, 4], []⟩
example : exVoc.Ok ∧ exVoc.soundBlock.kind = some (unsigned 8) ∧ exVoc.soundBlock.rate = 23121 :=
  ⟨⟨by decide, fun b hb => ⟨by revert b; decide, by revert b; decide⟩, fun b hb => (by cases hb),
    ⟨by decide, by decide, by decide, fun b hb => ⟨by revert b; decide, by revert b; decide⟩⟩, by decide +kernel⟩, rfl, by decide⟩

/-- A block of type 9 with more blocks after it. -/
def exVocNew : Voc := ⟨[26, 0, 20, 1, 31, 17], [], .new 44100 16 2 4 0, [1, 2, 3, 4, 5, 6, 7, 8], [⟨3, [10, 0, 165]⟩]⟩
example : exVocNew.Ok ∧ exVocNew.soundBlock.kind = some (signed 16) :=
  ⟨⟨by decide, fun b hb => (by cases hb), fun b hb => ⟨by revert b; decide, by revert b; decide⟩, ⟨by decide, (by decide : 44100 < 2 ^ 32 ∧ 1 ≤ 2 ∧ 2 < 256 ∧ 4 < 2 ^ 16)⟩, by decide +kernel⟩, rfl⟩

/-- Extensible 20-bit stereo in 24-bit containers, an odd chunk first, a fact chunk, an odd chunk between. -/
def exWave : Wave :=
  { fmt := .extensible 24 22 20 3 1 [], channels := 2, rate := 48000, byteRate := 288000, blockAlign := 6, fmtPad := []
    first := [⟨text "JUNK", [1, 2, 3], [0]⟩], second := [⟨text "bext", [], []⟩], third := [⟨text "PEAK", [7], [9]⟩]
    last := [⟨text "id3 ", [1], [0]⟩], fact := some (2, [5]), factPad := [0]
    sound := [1, 2, 3, 4, 5, 6, 7, 8, 9, 10, 11, 12], soundPad := [] }
theorem exWave_ok : exWave.Ok := by
  refine ⟨by decide, by decide, (by decide : 24 < 2 ^ 16 ∧ 20 < 2 ^ 16), fun c hc => ⟨⟨?_, ?_⟩, ?_⟩, rfl, fun n more h => by cases h; decide, rfl, by decide +kernel⟩
  all_goals revert c; decide
example : exWave.fmt.kind = some (signed 20) ∧ 0 < exWave.frames (signed 20) ∧
    exWave.frames (signed 20) * bytesPerFrame (described exWave.rate exWave.channels LITTLE (signed 20)) ≤ exWave.sound.length := by decide

/-! ## What does not hold -/

/-- The same with a fact chunk that says there are a thousand frames. -/
def exWaveFact : Wave := { exWave with fact := some (1000, [5]) }
theorem exWaveFact_ok : exWaveFact.Ok := by
  refine ⟨by decide, by decide, (by decide : 24 < 2 ^ 16 ∧ 20 < 2 ^ 16), fun c hc => ⟨⟨?_, ?_⟩, ?_⟩, rfl, fun n more h => by cases h; decide, rfl, by decide +kernel⟩
  all_goals revert c; decide

/-- Not so: that the number of frames is limited by the data. A fact chunk is believed, for uncompressed sound, too. -/
theorem C77_wave_fact_refuted (h : Endian) :
    ∃ t p, openRead F32 F64 rnd h 1000 exWaveFact.file 0 = .ok (t, p) ∧ t.frames = 1000 ∧ t.dataSize = 12 ∧ bytesPerFrame t.f = 6 := by
  obtain ⟨t, p, h1, h2, -⟩ := C77_wave F32 F64 rnd exWaveFact exWaveFact_ok (k := signed 20) rfl (fuel := 1000) (by decide +kernel) h (fun _ b => b)
  refine ⟨t, p, h1, h2.frames, h2.size, ?_⟩
  have e1 := h2.compression
  have e2 := h2.channels
  have e3 := (h2.sample rfl).2.1
  unfold bytesPerFrame
  rw [e1, e2, e3]
  decide

/-- A file that opens from what its reader reports. -/
theorem opened_from {h : Endian} {fuel : Nat} {file : List Byte} {u : FileFormat} {t : Trk} {p : Nat} (hid : identify file 0 = .ok (some u, 0))
    (hr : readInit F32 F64 rnd h fuel u file 0 = .ok (t, p)) (hc : codecCheck h t.f = some t.f) :
    openRead F32 F64 rnd h fuel file 0 = .ok (t, p) := by
  unfold openRead
  rw [Rd.bind_ok hid]
  dsimp only
  rw [Rd.bind_ok hr, hc]
  rfl

/-- A file whose sound is in a block of type 1 with a block after it. -/
def exVocAfter : Voc := ⟨[26, 0, 10, 1, 41, 17], [], .old 156, [1, 2, 3], [⟨5, [104, 105, 0]⟩]⟩

/-- Not so: that a block after a sound block of type 1 is not heard. It is, and so are its type and size. -/
theorem C77_voc_after_refuted :
    exVocAfter.Ok ∧ exVocAfter.soundBlock.kind = some (unsigned 8) ∧
    ∀ h, ∃ t p, openRead F32 F64 rnd h 1000 exVocAfter.file 0 = .ok (t, p) ∧ t.frames = 10 ∧
      audio exVocAfter.file t = [1, 2, 3, 5, 3, 0, 0, 104, 105, 0] := by
  refine ⟨⟨by decide, fun b hb => (by cases hb), fun b hb => ⟨by revert b; decide, by revert b; decide⟩, ⟨by decide, (by decide : 156 < 256)⟩,
    by decide +kernel⟩, rfl, fun h => ?_⟩
  refine ⟨⟨⟨10000, 402, 8, 502, defaultMapping 402 8, 1, 0⟩, 1, 1, 32, 0, 10, 10⟩, 43, ?_, rfl, by decide +kernel⟩
  refine opened_from F32 F64 rnd (u := .voc) (by decide +kernel) ?_ rfl
  show vocRead h 1000 exVocAfter.file 0 = _
  cases h <;> decide +kernel

/-- The first 16 bytes of an IRCAM file: VAX, 16-bit mono. -/
def exIrcamShort : List Byte := [0x64, 0xa3, 1, 0, 0, 0, 0xfa, 0x45, 1, 0, 0, 0, 2, 0, 0, 0]

/-- Not so: that an IRCAM file that ends within its header has no frames, or is refused. It has 2^63 - 504. -/
theorem C77_ircam_short_refuted (h : Endian) :
    ∃ t p, openRead F32 F64 rnd h 1000 exIrcamShort 0 = .ok (t, p) ∧ t.frames = 9223372036854775304 ∧ t.dataSize = -1008 := by
  have e0 : exIrcamShort.drop 0 = [0x64, 0xa3, 1, 0] ++ (num .little 4 0x45fa0000 ++ (num .little 4 1 ++ (num .little 4 2 ++ []))) := by decide +kernel
  have e1 := drop_step e0 (n := 4) rfl
  have e2 := drop_step e1 (num_length _ _ _)
  have e3 := drop_step e2 (num_length _ _ _)
  refine ⟨⟨⟨F32.dec 0x45fa0000, 401, 16, 502, defaultMapping 401 16, 1, 0⟩, 1, 2, 1024, 0, -1008, 9223372036854775304⟩, 16, ?_, rfl, rfl⟩
  refine opened_from F32 F64 rnd (u := .ircam) (by decide +kernel) ?_ rfl
  show ircamRead F32 h exIrcamShort 0 = _
  obtain ⟨m, hm⟩ : ∃ m, ircamMagics.find? (·.1 == [0x64, 0xa3, 1, 0]) = some (m, .little) := ⟨_, rfl⟩
  unfold ircamRead
  rw [Rd.bind_ok (a := ()) (p' := 0) rfl, Rd.bind_ok (Rd.read_ok (n := 4) e0 rfl), hm]
  dsimp only
  rw [Rd.bind_ok (field_num (k := .s4) e1 (show _ < 2 ^ 32 by decide)).2, Rd.bind_ok (field_num (k := .s4) e2 (show _ < 2 ^ 32 by decide)).2,
    Rd.bind_ok (field_num (k := .s4) e3 (show _ < 2 ^ 32 by decide)).2, if_neg (by decide)]
  rfl

end AF.Foreign
