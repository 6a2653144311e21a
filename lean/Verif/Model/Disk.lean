import Verif.Model.Fields
import Verif.Model.Setup
/-!
# Files as byte arrays, and the life of a file opened for writing

What the header code of every format does to the disk: `File::read/write/seek/tell/length` (File.cpp:110-180) on a
regular file that accepts every write, and the order in which `afOpenFile`, `afWriteFrames`, `afSyncFile` and
`afCloseFile` use a format's `writeInit` and `update`.
-/
namespace AF.Files
open AF AF.Setup

/-- A file being written. -/
structure Disk where
  bytes : List Byte
  pos : Nat
  deriving DecidableEq

/-- `lseek` to an absolute position. -/
def Disk.seek (n : Nat) (d : Disk) : Disk := { d with pos := n }

/-- `write`: replaces or extends; a gap after the end is filled with zeros; writing nothing does nothing. -/
def Disk.write (bs : List Byte) (d : Disk) : Disk :=
  if bs = [] then d else
  { bytes := (d.bytes ++ List.replicate (d.pos - d.bytes.length) 0).take d.pos ++ bs ++ d.bytes.drop (d.pos + bs.length)
    pos := d.pos + bs.length }

/-! ## Writing fields: `writeU8 … writeU64` of a host of order `h` for a format of order `o` -/

/-- The C conversion to an unsigned field of `k` bytes, then `writeSwap` (FileHandle.cpp:380-385). -/
def fieldBytes (h o : Endian) (k : FieldSize) (x : Int) : List Byte := writeField h o k (BitVec.ofInt _ x)

/-- Four characters. -/
def tag (s : String) : List Byte := s.toList.map fun c => BitVec.ofNat 8 c.toNat

/-! ## Reading -/

/-- Ways of not getting a result: the library reports failure, or C says nothing (a variable that was never
assigned is used, a conversion out of range, …), or a loop has not finished after the number of rounds the model
allows. -/
inductive Err | fail | undefined | running
  deriving DecidableEq, Repr

/-- Code reading a file of given content, at a position. -/
def Rd (α : Type) := List Byte → Nat → Except Err (α × Nat)

instance : Monad Rd where
  pure a := fun _ p => .ok (a, p)
  bind m g := fun file p => match m file p with
    | .ok (a, p) => g a file p
    | .error e => .error e

namespace Rd
/-- `return AF_FAIL` -/
def fail {α : Type} : Rd α := fun _ _ => .error .fail
/-- undefined behaviour -/
def undefined {α : Type} : Rd α := fun _ _ => .error .undefined
/-- `seek(n, SeekFromBeginning)` -/
def seek (n : Nat) : Rd Unit := fun _ _ => .ok ((), n)
def tell : Rd Nat := fun _ p => .ok (p, p)
def length : Rd Nat := fun file p => .ok (file.length, p)
/-- `read`: the bytes available, at most `n`. -/
def read (n : Nat) : Rd (List Byte) := fun file p =>
  .ok ((file.drop p).take n, p + ((file.drop p).take n).length)
/-- `readU8 … readU64` (FileHandle.cpp:372-431): `none` when the file is too short. -/
def field? (h o : Endian) (k : FieldSize) : Rd (Option Nat) := fun file p =>
  match readField h o k (file.drop p) with
  | some (x, _) => .ok (some x.toNat, p + k.bytes)
  | none => .ok (none, p + (file.drop p).length)
/-- A field whose `readU32` result is not checked and whose variable is used afterwards. -/
def field (h o : Endian) (k : FieldSize) : Rd Nat := do
  match ← field? h o k with
  | some x => return x
  | none => undefined
/-- A loop: `body` either goes on with a new state or leaves with a result. Code with loops is modelled with a bound on
the number of rounds; it terminates on a file if some bound is enough. -/
def loop {σ α : Type} (body : σ → Rd (σ ⊕ α)) : Nat → σ → Rd α
  | 0, _ => fun _ _ => .error .running
  | n + 1, s => do
    match ← body s with
    | .inl s => loop body n s
    | .inr a => return a
end Rd

/-! ## Tracks and sessions -/

/-- The members of `Track` that headers are made from or set. -/
structure Trk where
  f : AFmt
  /-- `framesPerPacket`, `bytesPerPacket` -/
  fpp : Int
  bpp : Int
  /-- `fpos_first_frame`, `fpos_after_data` -/
  first : Int
  afterData : Int
  dataSize : Int
  /-- `totalfframes` -/
  frames : Int
  deriving DecidableEq

/-- AudioFormat.cpp:98-103 `computeBytesPerPacketPCM`. -/
def pcmBytesPerPacket (f : AFmt) : Int := (f.sampleWidth + 7).tdiv 8 * f.channels

/-- Track.cpp:173-177. `bytesPerPacket` and `framesPerPacket` are `size_t`: the arithmetic is unsigned, 64 bits. -/
def Trk.computeTotalFileFrames (t : Trk) : Trk :=
  if t.bpp ≠ 0 ∧ t.fpp ≠ 0 then
    { t with frames := wrapS 64 (wrapU 64 t.dataSize / wrapU 64 t.bpp * wrapU 64 t.fpp) } else t

/-- Conversion of a non-negative `double` to an unsigned integer. (Undefined when the value does not fit: the theorems
ask for rates that do.) -/
def toUnsigned (r : Rat) : Int := r.floor

/-- A track as `initFromSetup` leaves it (Track.cpp:62-86, FileHandle.cpp:233-262). -/
def Trk.ofFormat (f : AFmt) : Trk :=
  { f := f, fpp := 0, bpp := 0, first := 0, afterData := 0, dataSize := 0, frames := 0 }

/-- Events in the life of a track opened for writing: bytes of audio data reach the disk (with the number of frames
they are counted as), or `afSyncFile` is called. These are the histories in which every piece of data goes right behind
the previous one. Verif/Model/Writing.lean shows when the file modules do that: always between synchronisations; after
one, if it came on a whole number of packets and, for uncompressed data, below 2 GiB (`SyncOK`). Histories in which
`afSyncFile` loses the place (`C17_negation_large_pcm`, `C17_negation_pending_packet`) are not described here. -/
inductive Ev
  | data (bs : List Byte) (frames : Nat)
  | sync
  deriving DecidableEq

/-- One event, for a format whose `update` is given. Data is written where the last ended (data.cpp:80-86,
FileModule.cpp:50-59); on a sync the modules note the file position (`sync2`, e.g. PCM.cpp:129), then the header is
updated (openclose.cpp:408-443). -/
def step {σ : Type} (update : Trk → σ → Disk → Disk × σ) (s : Disk × Trk × σ) : Ev → Disk × Trk × σ
  | .data bs n =>
    let (d, t, x) := s
    ((d.seek (t.first + t.dataSize).toNat).write bs,
      { t with dataSize := t.dataSize + bs.length, frames := t.frames + n }, x)
  | .sync =>
    let (d, t, x) := s
    let t := { t with afterData := d.pos }
    let (d, x) := update t x d
    (d, t, x)

/-- The file left by opening (`writeInit` left the state `s`, then ModuleState.cpp:62-68 positions the file at the
first frame), the events, and `afCloseFile` (a last sync, openclose.cpp:445-462). -/
def session {σ : Type} (update : Trk → σ → Disk → Disk × σ) (s : Disk × Trk × σ) (evs : List Ev) : List Byte :=
  (step update (evs.foldl (step update) (s.1.seek s.2.1.first.toNat, s.2)) .sync).1.bytes

/-- All audio data and frames of a session. -/
def Ev.bytes : Ev → List Byte
  | .data bs _ => bs
  | .sync => []
def Ev.frames : Ev → Nat
  | .data _ n => n
  | .sync => 0

end AF.Files
