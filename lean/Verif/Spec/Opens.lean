import Verif.Spec.Files
import Verif.Spec.SfConvert
import Verif.Model.Codec
import Verif.Proof.SfConvert
/-!
# What opening a file for reading shall give

The format `f`, the bytes `sound` and the number of frames `n` that a file has by its format's definition.
-/
namespace AF.Spec.Foreign
open AF AF.Setup AF.Files AF.Convert AF.Spec AF.Spec.Files AF.Spec.Program AF.Spec.SfConvert

/-- The first `n` frames of a sound: the samples that its bytes are. -/
def samplesOf (f : AFmt) (sound : List Byte) (n : Nat) : List (List Int) :=
  (List.range n).map fun i => frameSamples f ((sound.drop (i * bytesPerFrame f)).take (bytesPerFrame f))

/-- The file opens (`openRead`: `afOpenFile`) on a machine of either byte order, reports the format and the number of frames, and
finds the sound. If there are any, and so many are there, any program that reads and seeks gets the samples of the sound. -/
def Opens (F32 : Files.Float32) (F64 : Files.Float64) (rnd : Rat → Dbl) (fuel : Nat) (file : List Byte) (f : AFmt) (sound : List Byte)
    (n : Nat) : Prop :=
  ∀ (h : Endian) (fm : Module → List Byte → List Byte), ∃ t p, openRead F32 F64 rnd h fuel file 0 = .ok (t, p) ∧
    SameSound f sound n file t ∧
    (0 < n ∧ n * bytesPerFrame f ≤ sound.length → PlaysBack h fm t.f (AF.SfConvert.own h t.f) (samplesOf f sound n) file t)

end AF.Spec.Foreign
