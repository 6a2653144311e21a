import Verif.Props.Files.Foreign
import Verif.Proof.ForeignCaf
/-!
# C77: Core Audio files that other programs wrote
-/
namespace AF.Foreign
open AF AF.Setup AF.Files AF.Convert AF.Spec AF.Spec.Files AF.Spec.Formats AF.Spec.Setup AF.Spec.Foreign

variable (F32 : Files.Float32) (F64 : Files.Float64) (rnd : Rat → Dbl)

/-- Whatever the size of a packet, the samples are taken to be next to each other. -/
theorem caf_opens (x : Caf) (ok : x.Shape) {k : Kind} {order : Int} (hk : x.kind = some (k, order)) {fuel : Nat} (hfuel : x.file.length < fuel) :
    Opens F32 F64 rnd fuel x.file (described (F64.dec x.rate) x.channels order k) x.sound (x.sound.length / (k.bytes * x.channels)) := by
  have good : Kind.Good k := (caf_kind (h := .little) hk (F64.dec x.rate) x.channels 1 ok.channels.2 ⟨false, blank, .none, none⟩).1
  refine opens_of (u := .caf) good ok.channels.1 ?_ (by decide) fun h => ?_
  · unfold Caf.file
    simp only [List.append_assoc]
    exact ⟨rfl, rfl⟩
  · obtain ⟨s, p, h1, h2⟩ := caf_found F64 h x ok hk hfuel
    refine ⟨s.t, p, ?_, h2⟩
    show (cafRead F64 h fuel >>= fun s => pure s.t) x.file 0 = _
    rw [Rd.bind_ok h1]
    rfl

/-- C77, Core Audio: integers of up to 32 bits and floats in either byte order, and G.711; any other chunks after the description and
after the sound; a sound whose size is given, or not. -/
theorem C77_caf (x : Caf) (ok : x.Ok) {k : Kind} {order : Int} (hk : x.kind = some (k, order)) {fuel : Nat} (hfuel : x.file.length < fuel) :
    Opens F32 F64 rnd fuel x.file (described (F64.dec x.rate) x.channels order k) x.sound (x.sound.length / (k.bytes * x.channels)) :=
  caf_opens F32 F64 rnd x ok.toShape hk hfuel

/-! ## Cases -/

/-- Three frames of little-endian 24-bit stereo, the size not given, after a channel layout and some free space. 44100 Hz. -/
def exCaf : Caf :=
  { rate := 0x40e5888000000000#64, format := text "lpcm", flags := 2, bytesPerPacket := 6, framesPerPacket := 1, channels := 2, bits := 24
    editCount := 1, sound := (List.range 18).map fun i => BitVec.ofNat 8 i, toEnd := true
    between := [⟨text "chan", List.replicate 12 0⟩, ⟨text "free", [1, 2, 3]⟩], after := [] }

theorem exCaf_ok : exCaf.Ok := by
  refine ⟨⟨by decide, by decide, by decide, by decide, by decide, fun _ => rfl, by decide +kernel⟩, rfl, ?_⟩
  · intro k o h
    have : (signed 24, LITTLE) = (k, o) := Option.some.inj h
    injection this with h1 h2
    rw [← h1]
    decide

example : exCaf.kind = some (signed 24, LITTLE) ∧ exCaf.sound.length / ((signed 24).bytes * exCaf.channels) = 3 := by decide

/-! ## What does not hold -/

/-- 24-bit samples in four bytes each: the number of bytes per packet says so. -/
def exCafWide : Caf :=
  { exCaf with bytesPerPacket := 8, sound := List.replicate 24 7, toEnd := false, between := [] }

/-- Not so: that the frames of a file whose samples take more bytes than they must are read right, or the file refused. The size of a
packet is not looked at: of these three frames of eight bytes each, the library makes four of six. -/
theorem C77_caf_wide_refuted (h : Endian) :
    exCafWide.bytesPerPacket * 3 = exCafWide.sound.length ∧
    ∃ t p, openRead F32 F64 rnd h 1000 exCafWide.file 0 = .ok (t, p) ∧ t.frames = 4 := by
  have sh : exCafWide.Shape := ⟨by decide, by decide, by decide, by decide, by decide, fun _ => rfl, by decide +kernel⟩
  obtain ⟨t, p, h1, h2, -⟩ := caf_opens F32 F64 rnd exCafWide sh (k := signed 24) (order := LITTLE) rfl (fuel := 1000) (by decide +kernel) h (fun _ b => b)
  exact ⟨by decide, t, p, h1, h2.frames⟩

end AF.Foreign
