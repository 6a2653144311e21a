import Verif.Model.Crash
import Verif.Model.Files.Simple
import Verif.Model.Files.NIST
/-!
# A program that dies inside `afSyncFile`

`afSyncFile` brings the header up to date with a sequence of `write(2)` calls, each at a place of its own (File.cpp:129-132:
nothing is buffered). The program dies after some number of them. One call is taken to happen as a whole or not at all.

For each format, `…Writes` lists the calls that `update` makes, in the order of the code; that the whole list does
what `update` (the models in Verif/Model/Files) does is proved for every session (`…_all` in Verif/Proof/Torn.lean). They are
given the length that the file has when the sync begins.
-/
namespace AF.Files
open AF AF.Setup

/-- One call: where, and what. -/
abbrev Put : Type := Nat × List Byte

/-- File.cpp:129-132 after an `lseek`. -/
def put (file : List Byte) (w : Put) : List Byte := (((⟨file, 0⟩ : Disk).seek w.1).write w.2).bytes

/-- Several calls. -/
def puts (file : List Byte) (ws : List Put) : List Byte := ws.foldl put file

/-- The file left by a program that dies in the `afSyncFile` that follows the events, after `k` calls. The last
`afterData` (PCM.cpp:129) matters to no list below. -/
def diedIn {σ : Type} (update : Trk → σ → Disk → Disk × σ) (writes : Trk → σ → Nat → List Put) (s : Disk × Trk × σ)
    (evs : List Ev) (k : Nat) : List Byte :=
  let s := evs.foldl (step update) (s.1.seek s.2.1.first.toNat, s.2)
  puts s.1.bytes ((writes s.2.1 s.2.2 s.1.bytes.length).take k)

/-- The same with metadata calls. -/
def mdiedIn {σ : Type} (update : Trk → σ → Disk → Disk × σ) (call : Meta.Op → σ → Except Abort σ)
    (writes : Trk → σ → Nat → List Put) (s : Disk × Trk × σ) (evs : List MEv) (k : Nat) : Except Abort (List Byte) := do
  let s ← mrun update call (s.1.seek s.2.1.first.toNat, s.2) evs
  return puts s.1.bytes ((writes s.2.1 s.2.2 s.1.bytes.length).take k)

/-- NeXT.cpp:302-325: six calls. -/
def nextWrites (h : Endian) (t : Trk) : List Put :=
  [(0, tag ".snd"), (4, fieldBytes h .big .s4 t.first), (8, fieldBytes h .big .s4 t.dataSize),
   (12, fieldBytes h .big .s4 (nextEncoding t.f)), (16, fieldBytes h .big .s4 (toUnsigned t.f.rate)),
   (20, fieldBytes h .big .s4 t.f.channels)]

/-- AVR.cpp:250-260: three calls. -/
def avrWrites (h : Endian) (t : Trk) : List Put :=
  [(26, fieldBytes h .big .s4 t.frames), (30, fieldBytes h .big .s4 0), (34, fieldBytes h .big .s4 t.frames)]

/-- NIST.cpp:412-443, 461-467: one call. -/
def nistWrites (t : Trk) : List Put := [(0, nistHeader t)]

/-- WAVE.cpp:1360-1393: the entries of the INFO list from offset `o` on. Nothing is written for a buffer that the
program never filled. -/
def waveMiscWrites (h : Endian) : Nat → List Meta.Misc → List Put
  | _, [] => []
  | o, m :: ms =>
    (match waveMiscTag m.type with
     | none => []
     | some id =>
       [(o, id), (o + 4, fieldBytes h .little .s4 m.size)] ++
       match m.buffer with
       | some b => (o + 8, b) :: if m.size.tmod 2 ≠ 0 then [(o + 8 + b.length, fieldBytes h .little .s1 0)] else []
       | none => []) ++
    waveMiscWrites h (o + (waveMiscSize m).toNat) ms

/-- Bytes written one at a time, from offset `o` on. -/
def singly (o : Nat) : List Byte → List Put
  | [] => []
  | b :: bs => (o, [b]) :: singly (o + 1) bs

/-- WAVE.cpp:1245-1279: the frame count (1200-1228), the length of the data, the length of the file, the INFO list
(1301-1398), cue points and labels (1400-1500). These last are listed byte by byte, which is finer than the code: to die
between two of its calls is to die between two of these. -/
def waveWrites (h : Endian) (t : Trk) (x : WaveObj) (length : Nat) : List Put :=
  (if t.f.compression = NONE ∧ (t.f.sampleFormat = TWOSCOMP ∨ t.f.sampleFormat = UNSIGNED) then []
   else [(x.factOffset, tag "fact"), (x.factOffset + 4, fieldBytes h .little .s4 4),
         (x.factOffset + 8, fieldBytes h .little .s4 t.frames)]) ++
  [(x.dataSizeOffset, fieldBytes h .little .s4 t.dataSize), (4, fieldBytes h .little .s4 ((length : Int) - 8))] ++
  (if x.handle.misc.length = 0 then []
   else [(x.miscOffset, tag "LIST"),
         (x.miscOffset + 4, fieldBytes h .little .s4 (12 + (x.handle.misc.map waveMiscSize).sum - 8)),
         (x.miscOffset + 8, tag "INFO")] ++ waveMiscWrites h (x.miscOffset + 12) x.handle.misc) ++
  (if (wmarks x.handle x.names).length = 0 then []
   else singly x.markOffset (waveCueBytes h (wmarks x.handle x.names)))

/-- IFF.cpp:460-497: the miscellaneous items from offset `o` on. -/
def iffMiscWrites (h : Endian) : Nat → List Meta.Misc → List Put
  | _, [] => []
  | o, m :: ms =>
    [(o, iffMiscTag m.type), (o + 4, fieldBytes h .big .s4 m.size)] ++
    (match m.buffer with | some b => [(o + 8, b)] | none => []) ++
    (if m.size.tmod 2 ≠ 0 then [(o + 8 + m.size.toNat, fieldBytes h .big .s1 0)] else []) ++
    iffMiscWrites h (o + (8 + m.size + m.size % 2).toNat) ms

/-- IFF.cpp:338-356: VHDR (373-406), the miscellaneous items, BODY (417-444) with its pad byte, which may be at the end of the
file, and the length of the file. -/
def iffWrites (h : Endian) (t : Trk) (x : IffObj) (length : Nat) : List Put :=
  let size := (t.frames % 2 ^ 32).toNat
  [(x.vhdr, tag "VHDR"), (x.vhdr + 4, fieldBytes h .big .s4 20), (x.vhdr + 8, fieldBytes h .big .s4 t.frames),
   (x.vhdr + 12, fieldBytes h .big .s4 0), (x.vhdr + 16, fieldBytes h .big .s4 0),
   (x.vhdr + 20, fieldBytes h .big .s2 (toUnsigned t.f.rate)), (x.vhdr + 22, fieldBytes h .big .s1 0),
   (x.vhdr + 23, fieldBytes h .big .s1 0), (x.vhdr + 24, fieldBytes h .big .s4 65536)] ++
  iffMiscWrites h x.misc x.handle.misc ++
  [(x.body, tag "BODY"), (x.body + 4, fieldBytes h .big .s4 t.frames)] ++
  (if size % 2 = 1 then [(x.body + 8 + size, fieldBytes h .big .s1 0)] else []) ++
  [(4, fieldBytes h .big .s4 (((if size % 2 = 1 then max length (x.body + 8 + size + 1) else length : Nat) : Int) - 8))]

/-- `iffDied` inside `afSyncFile`. -/
def iffDiedIn (h : Endian) (o : Opened) (f : AFmt) (evs : List MEv) (k : Nat) : Except Abort (List Byte) :=
  mdiedIn (iffUpdate h) iffCall (iffWrites h) (iffInit h o.handle f) evs k

/-- AIFF.cpp:791-794: the first call of `update`, to which `aiffWrite` is the rest (`aiffUpdate`). -/
def aiffFirstWrite (h : Endian) (length : Nat) : Put := (4, fieldBytes h .big .s4 ((length : Int) - 8))

/-- `aiffDied` inside `afSyncFile`, after its first call. -/
def aiffDiedIn (h : Endian) (aifc : Bool) (o : Opened) (f : AFmt) (evs : List MEv) : Except Abort (List Byte) :=
  mdiedIn (aiffUpdate h) aiffCall (fun _ _ length => [aiffFirstWrite h length]) (aiffInit h aifc o.handle (o.names.headD []) f) evs 1

/-- `waveDied` inside `afSyncFile`. -/
def waveDiedIn (h : Endian) (o : Opened) (f : AFmt) (evs : List MEv) (k : Nat) : Except Abort (List Byte) :=
  mdiedIn (waveUpdate h) waveCall (waveWrites h) (waveInit h o.handle (o.names.headD []) f) evs k

end AF.Files
