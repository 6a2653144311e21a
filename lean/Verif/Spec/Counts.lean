import Verif.Model.Disk
/-!
# The numbers an opened file reports

`afGetDataOffset` (`first`), `afGetFrameCount` (`frames`) and `afGetTrackBytes` (`dataSize`) of the track of a file opened for
reading.
-/
namespace AF.Spec.Counts
open AF AF.Files

/-- The frame count is a number of frames. The bound says that it is far from the largest 64-bit number, so that positions
computed from it stay within 64 bits. -/
def FrameCountOK (t : Trk) : Prop := 0 ≤ t.frames ∧ t.frames < 2 ^ 48

/-- The number of bytes is a number of bytes. -/
def BytesOK (t : Trk) : Prop := 0 ≤ t.dataSize

/-- The audio data begins in or behind the file's first byte. -/
def OffsetOK (t : Trk) : Prop := 0 ≤ t.first

end AF.Spec.Counts
