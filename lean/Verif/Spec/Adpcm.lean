import Verif.Model.Adpcm
import Verif.Spec.Program
/-!
# Specification: what a program that reads an ADPCM file gets of the frames another program wrote
-/
namespace AF.Spec.Adpcm
open AF AF.Setup AF.Files AF.Convert AF.Spec AF.Spec.Program AF.Adpcm

/-- What the decoder makes of what the encoder makes of the frames, block for block: `Transcoded C fpp e xs ys`. -/
inductive Transcoded {ε : Type} (C : Codec ε) (fpp : Nat) : ε → List (List Int) → List (List Int) → Prop
  | done (e : ε) : Transcoded C fpp e [] []
  | block {e e' : ε} {xs ys : List (List Int)} {b : List Byte} {xss yss : List (List Int)} :
      xs.length = fpp → C.enc e xs = .ok (b, e') → C.dec b = .ok ys → ys.length = fpp → Transcoded C fpp e' xss yss → Transcoded C fpp e (xs ++ xss) (ys ++ yss)

/-- A 16-bit frame of `ch` channels. -/
def Frame16 (ch : Nat) (fr : List Int) : Prop := fr.length = ch ∧ ∀ x ∈ fr, -32768 ≤ x ∧ x ≤ 32767

/-- The frames as they come to the encoder: converted to 16 bits. -/
def to16 (v : Fmt) (fr : List Int) : List Int := fr.map (convertSample (bytesOf v) (v.sampleFormat == .unsigned) 2 false)

/-- A 16-bit frame as it is delivered in format `w`. -/
def from16 (w : Fmt) (fr : List Int) : List Byte :=
  userBytes w.byteOrder (bytesOf w) (fr.map (convertSample 2 false (bytesOf w) (w.sampleFormat == .unsigned)))

/-- What the reading program finds in the track `t` of the file: 16-bit frames `sound`, as many as reported; whatever it calls, the
answers are those of a cursor moving over them. -/
structure Plays {ε : Type} (h : Endian) (fm : Module → List Byte → List Byte) (C : Codec ε) (sound : List (List Int)) (file : List Byte)
    (t : Trk) : Prop where
  count : t.frames = sound.length
  fpp : 0 < t.fpp.toNat
  bpp : 0 < t.bpp.toNat
  sound : ∀ (w : Fmt) (calls : List (Spec.Call Fmt)), Integer w → Usable h t.f w →
    (∀ c ∈ calls, InRange sound.length c ∧ ∀ u, c = .setFormat u → Integer u ∧ Usable h t.f u) →
    Reading.observe (blockReader h fm file t C fpp bpp) w calls = .ok ((answers sound from16 ⟨0, w⟩ calls).map fun a => (a.1, a.2.map some))

end AF.Spec.Adpcm
