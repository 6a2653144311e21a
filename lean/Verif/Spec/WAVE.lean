import Verif.Model.Files.WAVE
import Verif.Spec.Chunks
/-!
# Specification: WAVE files
-/
namespace AF.Spec.Files
open AF AF.Setup AF.Files

/-- `file` is a WAVE file that the library left: a setup was built with calls `ops`, opened for writing on a host of
byte order `h` as `o` with track format `f`, the events `evs` followed and the file was closed, when its object was
`x`. -/
structure WaveWritten (h : Endian) (ops : List Op) (o : Opened) (f : AFmt) (evs : List MEv) (file : List Byte) (x : WaveObj) : Prop where
  fileFormat : (run (newSetup h) ops).fileFormat = .wave
  opened : ∃ s', openWrite h (run (newSetup h) ops) = (s', some o)
  format : o.f = [f]
  session : waveSession h o f evs = .ok (file, x)

/-- The markers of the (only) track of a handle, with names and comments: id, position, name, comment. -/
def marksOf (handle : Meta.Handle) (names : List (List (List Byte × List Byte))) : List (Int × Int × List Byte × List Byte) :=
  (handle.tracks.flatMap (·.markers)).zipWith (fun m n => (m.id, m.position, n.1, n.2)) names.flatten

/-- The numbers are within what the fields of the file hold. -/
structure WaveFits (o : Opened) (f : AFmt) (evs : List MEv) (file : List Byte) (x : WaveObj) : Prop where
  rate : f.rate < 2 ^ 32
  channels : f.channels < 2 ^ 16
  blocks : f.compression = IMA ∨ f.compression = MSADPCM → f.channels < 2 ^ 8
  frames : framesOfM evs < 2 ^ 32
  length : file.length + 1 < 2 ^ 32
  misc : ∀ m ∈ o.handle.misc, 0 ≤ m.size ∧ m.size < 2 ^ 31
  marks : ∀ m ∈ marksOf x.handle o.names, m.2.1 < 2 ^ 32
  ids : ((marksOf o.handle o.names).map (·.1)).Nodup

/-- Markers as a program gets them from a file that was opened. -/
def readMarks (ms : List RMark) : List (Int × Int × Option (List Byte) × Option (List Byte)) :=
  ms.map fun m => (m.id, m.position, cString m.name, cString m.comment)

/-- Miscellaneous data as a program gets it: type, size and bytes (zeros where nothing was ever written). -/
def miscContent (m : Meta.Misc) : Int × Int × List Byte :=
  (m.type, m.size, m.buffer.getD (List.replicate m.size.toNat 0))

/-- A chunk: a four-character id, the length in four bytes (least significant first), the contents. -/
def chunkLE (c : List Byte × List Byte) : List Byte := c.1 ++ leBytes 4 c.2.length ++ c.2

end AF.Spec.Files
