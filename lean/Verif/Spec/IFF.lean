import Verif.Model.Files.IFF
import Verif.Spec.WAVE
/-!
# Specification: IFF/8SVX files
-/
namespace AF.Spec.Files
open AF AF.Setup AF.Files

/-- `file` is an IFF file that the library left: a setup was built with calls `ops`, opened for writing on a host of
byte order `h` as `o` with track format `f`, the events `evs` followed and the file was closed, when its object was
`x`. -/
structure IffWritten (h : Endian) (ops : List Setup.Op) (o : Opened) (f : AFmt) (evs : List MEv) (file : List Byte) (x : IffObj) : Prop where
  fileFormat : (Setup.run (newSetup h) ops).fileFormat = .iff
  opened : ∃ s', openWrite h (Setup.run (newSetup h) ops) = (s', some o)
  format : o.f = [f]
  session : iffSession h o f evs = .ok (file, x)

/-- The numbers are within what the fields of the file hold, and every write is of whole frames (of one byte). -/
structure IffFits (o : Opened) (evs : List MEv) (file : List Byte) : Prop where
  whole : ∀ e ∈ evs, e.bytes.length = e.frames
  frames : framesOfM evs < 2 ^ 32
  length : file.length < 2 ^ 32
  misc : ∀ m ∈ o.handle.misc, 0 ≤ m.size ∧ m.size < 2 ^ 31

/-- The types of miscellaneous data that have a chunk of their own in an IFF file: copyright, author, name, annotation. -/
def iffTypes : List Int := [201, 202, 203, 204]

end AF.Spec.Files
