import Verif.Props.Files.Foreign
import Verif.Proof.ForeignFormFiles
/-!
# C77: AIFF, AIFF-C and IFF 8SVX files that other programs wrote
-/
namespace AF.Foreign
open AF AF.Setup AF.Files AF.Convert AF.Spec AF.Spec.Files AF.Spec.Formats AF.Spec.Setup AF.Spec.Foreign

variable (F32 : Files.Float32) (F64 : Files.Float64) (rnd : Rat → Dbl)

/-- C77, AIFF and AIFF-C: the common chunk and the sound in either order, other chunks anywhere (texts, markers, an instrument, AES
data, anything unknown), a gap before the sound, all names of compressions, a rate that is any number that a `double` can hold. -/
theorem C77_aiff (hrnd : ExactOnDoubles rnd) (x : Aiff) (ok : x.Ok) {k : Kind} {order : Int} (hk : x.kind = some (k, order)) {fuel : Nat}
    (hfuel : x.file.length < fuel) :
    Opens F32 F64 rnd fuel x.file (described x.rate x.channels order k) x.sound x.frames := by
  have good : Kind.Good k := (aiff_kind (h := .little) hk x.rate x.channels x.frames).1
  refine opens_of (u := if x.aifc then .aiffc else .aiff) good ok.channels.1 ?_ (by split <;> decide) fun h => ?_
  · have hf : x.file = text "FORM" ++ be 4 (x.chunks.length + 4) ++ text (if x.aifc then "AIFC" else "AIFF") ++ x.chunks := rfl
    cases ha : x.aifc
    · rw [ha] at hf
      exact At.form (l := be 4 (x.chunks.length + 4)) rfl (be_length _ _) ⟨x.chunks, hf.symm⟩
    · rw [ha] at hf
      exact At.form (l := be 4 (x.chunks.length + 4)) rfl (be_length _ _) ⟨x.chunks, hf.symm⟩
  · obtain ⟨s, p, h1, h2⟩ := aiff_found hrnd h x ok hk hfuel
    refine ⟨s.t, p, ?_, h2⟩
    have : readInit F32 F64 rnd h fuel (if x.aifc then .aiffc else .aiff) = (aiffRead rnd h fuel >>= fun s => pure s.t) := by
      cases x.aifc <;> rfl
    rw [this, Rd.bind_ok h1]
    rfl

/-- C77, IFF 8SVX: one octave of one channel, not compressed; the header and the sound in either order, other chunks anywhere. -/
theorem C77_iff (x : Svx) (ok : x.Ok) {fuel : Nat} (hfuel : x.file.length < fuel) :
    Opens F32 F64 rnd fuel x.file (described x.rate 1 BIG (signed 8)) x.sound x.sound.length := by
  refine opens_of (u := .iff) (good_signed (by decide)) (Nat.le_refl _) ?_ (by decide) fun h => ?_
  · have hf : x.file = text "FORM" ++ be 4 (x.chunks.length + 4) ++ text "8SVX" ++ x.chunks := rfl
    exact At.form (l := be 4 (x.chunks.length + 4)) rfl (be_length _ _) ⟨x.chunks, hf.symm⟩
  · obtain ⟨s, p, h1, h2⟩ := iff_found h x ok hfuel
    refine ⟨s.t, p, ?_, h2⟩
    show (iffRead h fuel >>= fun s => pure s.t) x.file 0 = _
    rw [Rd.bind_ok h1]
    rfl

/-! ## Cases -/

/-- An AIFF-C file of little-endian samples: the sound first, with a gap of three bytes and an odd size; then markers; 44100 Hz. -/
def exAiff : Aiff :=
  { aifc := true, channels := 2, frames := 2, bits := 16, exponent := 16398, mantissa := 0xac44 * 2 ^ 48, compression := text "sowt"
    name := text "little", more := [0], commPad := [], gap := [7, 7, 7], blockSize := 0, sound := [1, 2, 3, 4, 5, 6, 7, 8], soundPad := [9]
    soundFirst := true, before := [⟨text "FVER", [0xa2, 0x80, 0x51, 0x40], []⟩]
    between := [⟨text "MARK", be 2 1 ++ (AMark.mk 5 1 (text "two") []).bytes, []⟩, ⟨text "NAME", text "odd", [0]⟩]
    after := [⟨text "INST", List.replicate 20 1, []⟩] }

theorem exAiff_rate : exAiff.rate = 44100 := by
  show ((0xac44 * 2 ^ 48 : Nat) : Rat) * (2 : Rat) ^ (((16398 : Nat) : Int) - 16446) = 44100
  rw [show (((16398 : Nat) : Int) - 16446) = -48 by decide]
  decide +kernel

theorem exAiff_ok : exAiff.Ok := by
  refine ⟨by decide, by decide, by decide, ⟨by decide, by decide, by decide +kernel, ?_⟩, by decide, by decide, by decide +kernel, by decide +kernel, ?_, by decide +kernel⟩
  · rw [exAiff_rate]
    exact ⟨44100, 0, by decide, by decide, by decide, by decide +kernel⟩
  · intro c hc
    have hc : c = ⟨text "FVER", [0xa2, 0x80, 0x51, 0x40], []⟩ ∨ c = ⟨text "MARK", be 2 1 ++ (AMark.mk 5 1 (text "two") []).bytes, []⟩ ∨
        c = ⟨text "NAME", text "odd", [0]⟩ ∨ c = ⟨text "INST", List.replicate 20 1, []⟩ := by
      simpa [exAiff] using hc
    rcases hc with rfl | rfl | rfl | rfl
    · exact ⟨⟨by decide, by decide⟩, by decide, fun h => absurd h (by decide), fun h => absurd h (by decide)⟩
    · refine ⟨⟨by decide, by decide⟩, by decide, fun h => absurd h (by decide), fun _ => ⟨[⟨5, 1, text "two", []⟩], [], rfl, by decide, ?_⟩⟩
      intro m hm
      rw [List.mem_singleton.1 hm]
      exact ⟨by decide, by decide⟩
    · exact ⟨⟨by decide, by decide⟩, by decide, fun h => absurd h (by decide), fun h => absurd h (by decide)⟩
    · exact ⟨⟨by decide, by decide⟩, by decide, fun _ => by decide, fun h => absurd h (by decide)⟩

example : exAiff.kind = some (signed 16, LITTLE) ∧ 0 < exAiff.frames ∧
    exAiff.frames * bytesPerFrame (described 44100 exAiff.channels LITTLE (signed 16)) ≤ exAiff.sound.length := by decide

/-- An 8SVX file with a text between the sound and the header. -/
def exSvx : Svx :=
  { oneShot := 3, repeated := 0, cycle := 0, rate := 8363, octaves := 1, compression := 0, volume := 0x10000, more := [], vhdrPad := []
    sound := [1, 255, 3], soundPad := [0], soundFirst := true, before := [], between := [⟨text "ANNO", text "odd", [0]⟩], after := [] }

theorem exSvx_ok : exSvx.Ok := by
  refine ⟨by decide, rfl, rfl, by decide, by decide, fun c hc => ?_, fun c hc => ?_, by decide +kernel⟩
  all_goals have hc : c = ⟨text "ANNO", text "odd", [0]⟩ := by simpa [exSvx] using hc
  · rw [hc]
    exact ⟨⟨by decide, by decide⟩, by decide⟩
  · rw [hc]
    decide

/-! ## What does not hold -/

/-- The same, compressed (Fibonacci-delta), with a channel chunk that says it is stereo. -/
def exSvxDelta : Svx := { exSvx with compression := 1, between := [⟨text "CHAN", [0, 0, 0, 6], []⟩] }

/-- Not so: that compressed or stereo 8SVX files are refused or read right. They open as uncompressed mono files: neither the
compression in the header nor the channel chunk is looked at. -/
theorem C77_iff_compressed_refuted (h : Endian) :
    exSvxDelta.compression = 1 ∧
    ∃ t p, openRead F32 F64 rnd h 1000 exSvxDelta.file 0 = .ok (t, p) ∧ t.f.compression = NONE ∧ t.f.channels = 1 ∧ t.frames = 3 := by
  refine ⟨rfl, ⟨⟨8363, 401, 8, 501, defaultMapping 401 8, 1, 0⟩, 1, 1, 20, 0, 3, 3⟩, 64, ?_, rfl, rfl, rfl⟩
  refine opened_from F32 F64 rnd (u := .iff) (by decide +kernel) ?_ rfl
  have : ∃ s, iffRead h 1000 exSvxDelta.file 0 = .ok (s, 64) ∧ s.t = ⟨⟨8363, 401, 8, 501, defaultMapping 401 8, 1, 0⟩, 1, 1, 20, 0, 3, 3⟩ := by
    refine ⟨⟨true, ⟨⟨8363, 401, 8, 501, defaultMapping 401 8, 1, 0⟩, 1, 1, 20, 0, 3, 3⟩, []⟩, ?_, rfl⟩
    cases h <;> rfl
  obtain ⟨s, e1, e2⟩ := this
  show (iffRead h 1000 >>= fun s => pure s.t) exSvxDelta.file 0 = _
  rw [Rd.bind_ok e1, e2]
  rfl

end AF.Foreign
