import Verif.Model.Disk
/-!
# Specification: what opening a file again must report

`f` is the format of the track that was written, `data` the bytes of audio data that were written, `n` the number of
frames, `file` the bytes of the file, `t` what opening the file reports.
-/
namespace AF.Spec.Files
open AF AF.Setup AF.Files

/-- Bytes of one frame in a file whose frames stand alone: uncompressed, or one byte per sample for G.711. -/
def bytesPerFrame (f : AFmt) : Nat :=
  if f.compression = NONE then ((f.sampleWidth + 7) / 8 * f.channels).toNat else f.channels.toNat

/-- The format with its rate rounded down to a whole number, which is what most headers hold. -/
def wholeRate (f : AFmt) : AFmt := { f with rate := (f.rate.floor : Rat) }

/-- The format with the width of uncompressed samples rounded up to whole bytes. -/
def wholeBytes (f : AFmt) : AFmt := if f.compression = NONE then { f with sampleWidth := (f.sampleWidth + 7) / 8 * 8 } else f

/-- The bytes and frames that the events of a session carry. -/
def dataOf (evs : List Ev) : List Byte := evs.flatMap Ev.bytes
def framesOf (evs : List Ev) : Nat := (evs.map Ev.frames).sum

/-- The audio data of a file, found from what opening it reports. -/
def audio (file : List Byte) (t : Trk) : List Byte := (file.drop t.first.toNat).take t.dataSize.toNat

/-- The file reads back as what was written. -/
structure SameSound (f : AFmt) (data : List Byte) (n : Nat) (file : List Byte) (t : Trk) : Prop where
  rate : t.f.rate = f.rate
  channels : t.f.channels = f.channels
  compression : t.f.compression = f.compression
  /-- Uncompressed samples have the same type, size and, where it matters, byte order. -/
  sample : f.compression = NONE → t.f.sampleFormat = f.sampleFormat ∧ t.f.sampleWidth = f.sampleWidth ∧
    (8 < f.sampleWidth → t.f.byteOrder = f.byteOrder)
  /-- Compressed ones are decoded to 16 bits, whatever the setup said. -/
  decoded : f.compression ≠ NONE → t.f.sampleFormat = TWOSCOMP ∧ t.f.sampleWidth = 16
  frames : t.frames = n
  first : 0 ≤ t.first
  size : t.dataSize = data.length
  audio : audio file t = data

end AF.Spec.Files
