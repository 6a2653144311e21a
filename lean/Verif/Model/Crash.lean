import Verif.Model.Files.WAVE
import Verif.Model.Files.AIFF
import Verif.Model.Files.IFF
/-!
# A program that dies while it writes a file

The library writes through `write(2)` without a buffer of its own (File.cpp:129-132), so that whatever it wrote is in the
file when the program dies; a crash of the machine, which may lose writes that the system had accepted, is not
described. The program dies between two events of a session (`Ev`, `MEv`) or while the audio data of one is being written: that
data goes out in order and in pieces (data.cpp:42-123, FileModule.cpp:50-59), so a write that was cut short is an event
with fewer bytes. Dying inside `afSyncFile` is described in Verif/Model/Torn.lean.
-/
namespace AF.Files
open AF AF.Setup

/-- The file that is left when the program dies after the events, without `afSyncFile` or `afCloseFile`. -/
def died {σ : Type} (update : Trk → σ → Disk → Disk × σ) (s : Disk × Trk × σ) (evs : List Ev) : List Byte :=
  (evs.foldl (step update) (s.1.seek s.2.1.first.toNat, s.2)).1.bytes

/-- The same with metadata calls. -/
def mdied {σ : Type} (update : Trk → σ → Disk → Disk × σ) (call : Meta.Op → σ → Except Abort σ) (s : Disk × Trk × σ)
    (evs : List MEv) : Except Abort (List Byte) := do
  let s ← mrun update call (s.1.seek s.2.1.first.toNat, s.2) evs
  return s.1.bytes

/-- `waveSession`, `aiffSession` and `iffSession` of a program that dies. -/
def waveDied (h : Endian) (o : Opened) (f : AFmt) (evs : List MEv) : Except Abort (List Byte) :=
  mdied (waveUpdate h) waveCall (waveInit h o.handle (o.names.headD []) f) evs
def aiffDied (h : Endian) (aifc : Bool) (o : Opened) (f : AFmt) (evs : List MEv) : Except Abort (List Byte) :=
  mdied (aiffUpdate h) aiffCall (aiffInit h aifc o.handle (o.names.headD []) f) evs
def iffDied (h : Endian) (o : Opened) (f : AFmt) (evs : List MEv) : Except Abort (List Byte) :=
  mdied (iffUpdate h) iffCall (iffInit h o.handle f) evs

end AF.Files
