import Verif.Model.Disk
import Verif.Model.Meta
/-!
# Formats made of chunks: reading tags, skipping, and sessions with metadata calls

What WAVE, AIFF, IFF and CAF have in common.
-/
namespace AF.Files
open AF AF.Setup

/-- `seek(n, SeekFromCurrent)` in a file being written (n may be anything; a seek before the beginning fails and leaves
the position). -/
def Disk.skip (n : Int) (d : Disk) : Disk := if 0 ≤ (d.pos : Int) + n then d.seek ((d.pos : Int) + n).toNat else d

namespace Rd
/-- `readTag` into a fresh `Tag` (FileHandle.cpp:473-482, Tag.h): four bytes, or four zeros when the file is too
short. -/
def tag : Rd (List Byte) := do
  let b ← read 4
  return if b.length = 4 then b else [0, 0, 0, 0]

/-- `readU32` into a variable that was set to zero before (FileHandle.cpp:356-378): a short read leaves the bytes that
were there in the first bytes of the variable, unswapped. -/
def u32Init (h o : Endian) : Rd Nat := fun file p =>
  match readField h o .s4 (file.drop p) with
  | some (x, _) => .ok (x.toNat, p + 4)
  | none => .ok ((uintOf h (file.drop p ++ List.replicate (4 - (file.drop p).length) 0)).toNat, p + (file.drop p).length)

/-- `seek(n, SeekFromCurrent)` -/
def skip (n : Nat) : Rd Unit := fun _ p => .ok ((), p + n)

/-- `m` repeated `n` times. -/
def times {α : Type} (m : Rd α) : Nat → Rd (List α)
  | 0 => pure []
  | n + 1 => do
    let a ← m
    let as ← times m n
    return a :: as
end Rd

/-- Events in the life of a track opened for writing, with the metadata calls of Verif/Model/Meta.lean. -/
inductive MEv
  | ev (e : Ev)
  | call (op : Meta.Op)

/-- One event, for a format whose `update` and metadata are given. -/
def mstep {σ : Type} (update : Trk → σ → Disk → Disk × σ) (call : Meta.Op → σ → Except Abort σ) (s : Disk × Trk × σ) :
    MEv → Except Abort (Disk × Trk × σ)
  | .ev e => .ok (step update s e)
  | .call op => do
    let x ← call op s.2.2
    return (s.1, s.2.1, x)

/-- A history of events. -/
def mrun {σ : Type} (update : Trk → σ → Disk → Disk × σ) (call : Meta.Op → σ → Except Abort σ) (s : Disk × Trk × σ) :
    List MEv → Except Abort (Disk × Trk × σ)
  | [] => .ok s
  | e :: es => do
    let s ← mstep update call s e
    mrun update call s es

/-- `session` with metadata calls: the file that is left, and the metadata the program had set when it closed it. -/
def msession {σ : Type} (update : Trk → σ → Disk → Disk × σ) (call : Meta.Op → σ → Except Abort σ) (s : Disk × Trk × σ)
    (evs : List MEv) : Except Abort (List Byte × σ) := do
  let s ← mrun update call (s.1.seek s.2.1.first.toNat, s.2) evs
  let s := step update s .sync
  return (s.1.bytes, s.2.2)

def MEv.bytes : MEv → List Byte
  | .ev e => e.bytes
  | .call _ => []
def MEv.frames : MEv → Nat
  | .ev e => e.frames
  | .call _ => 0

/-! ## Markers -/

/-- A marker of the track being written: `struct Marker` with its name and comment (C strings without their zero). -/
structure WMark where
  id : Int
  position : Int
  name : List Byte
  comment : List Byte
  deriving DecidableEq

/-- The markers of the track. -/
def wmarks (handle : Meta.Handle) (names : List (List Byte × List Byte)) : List WMark :=
  match handle.tracks with
  | [] => []
  | t :: _ => t.markers.zipWith (fun m n => ⟨m.id, m.position, n.1, n.2⟩) names

/-- A marker read from a file: `name` and `comment` are what was stored in the buffers. -/
structure RMark where
  id : Int
  position : Int
  name : List Byte
  comment : List Byte
  deriving DecidableEq

end AF.Files
