import Verif.Spec.Files
/-!
# Specification: what a file holds, whatever it says about the number of its bytes
-/
namespace AF.Spec.Files
open AF AF.Setup AF.Files

/-- Opening the file reports format `f` and `n` frames, and the bytes from the first frame on begin with `data`. This is
`SameSound` without the number of bytes that `afGetTrackBytes` gives: reading frames goes by the number of frames. -/
structure HoldsSound (f : AFmt) (data : List Byte) (n : Nat) (file : List Byte) (t : Trk) : Prop where
  rate : t.f.rate = f.rate
  channels : t.f.channels = f.channels
  compression : t.f.compression = f.compression
  sample : f.compression = NONE → t.f.sampleFormat = f.sampleFormat ∧ t.f.sampleWidth = f.sampleWidth ∧
    (8 < f.sampleWidth → t.f.byteOrder = f.byteOrder)
  decoded : f.compression ≠ NONE → t.f.sampleFormat = TWOSCOMP ∧ t.f.sampleWidth = 16
  frames : t.frames = n
  first : 0 ≤ t.first
  audio : data <+: file.drop t.first.toNat

end AF.Spec.Files
