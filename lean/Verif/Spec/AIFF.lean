import Verif.Model.Files.AIFF
import Verif.Spec.WAVE
import Verif.Spec.Double
/-!
# Specification: AIFF and AIFF-C files
-/
namespace AF.Spec.Files
open AF AF.Setup AF.Files

/-- `file` is an AIFF file (`aifc = false`) or AIFF-C file that the library left: a setup was built with calls `ops`,
opened for writing on a host of byte order `h` as `o` with track format `f`, the events `evs` followed and the file was
closed, when its object was `x`. -/
structure AiffWritten (h : Endian) (aifc : Bool) (ops : List Setup.Op) (o : Opened) (f : AFmt) (evs : List MEv) (file : List Byte)
    (x : AiffObj) : Prop where
  fileFormat : (Setup.run (newSetup h) ops).fileFormat = if aifc then .aiffc else .aiff
  opened : ∃ s', openWrite h (Setup.run (newSetup h) ops) = (s', some o)
  format : o.f = [f]
  session : aiffSession h aifc o f evs = .ok (file, x)

/-- The numbers are within what the fields of the file hold. -/
structure AiffFits (o : Opened) (f : AFmt) (evs : List MEv) (file : List Byte) (x : AiffObj) : Prop where
  rate : IsDouble f.rate
  channels : f.channels < 2 ^ 16
  frames : framesOfM evs < 2 ^ 32
  length : file.length + 1 < 2 ^ 32
  misc : ∀ m ∈ o.handle.misc, 0 ≤ m.size ∧ m.size < 2 ^ 31
  marks : ∀ m ∈ marksOf x.handle o.names, m.2.1 < 2 ^ 32
  count : (marksOf x.handle o.names).length < 2 ^ 16

/-- A chunk of an IFF file: a four-character id, the length in four bytes (most significant first), the contents and a
zero byte if their length is odd. -/
def chunkBE (c : List Byte × List Byte) : List Byte :=
  c.1 ++ (leBytes 4 c.2.length).reverse ++ c.2 ++ if c.2.length % 2 = 0 then [] else [0]

/-- The file has the instrument and the loops that the instrument chunk is for, and its gain and the markers of its loops
are within what the fields hold. (The library checks the other parameters when they are set.) -/
structure InstrumentFits (hd : Meta.Handle) : Prop where
  ids : (Meta.getLoopIDs hd DEFAULT_INST).2 = [1, 2]
  gain : -2 ^ 15 ≤ (Meta.getInstParamLong hd DEFAULT_INST 307).toInt ∧ (Meta.getInstParamLong hd DEFAULT_INST 307).toInt < 2 ^ 15
  starts : ∀ l ∈ [1, 2], 0 ≤ Meta.getLoopStart hd DEFAULT_INST l ∧ Meta.getLoopStart hd DEFAULT_INST l < 2 ^ 16
  ends : ∀ l ∈ [1, 2], 0 ≤ Meta.getLoopEnd hd DEFAULT_INST l ∧ Meta.getLoopEnd hd DEFAULT_INST l < 2 ^ 16

end AF.Spec.Files
