import Verif.Model.PvList
import Verif.Model.Bytes
/-!
# Markers, loops, instruments, AES data and miscellaneous chunks of an open file

Marker.cpp, Loop.cpp, Instrument.cpp, aes.cpp, Miscellaneous.cpp, FileHandle.cpp:160-220. Arrays are lists, looked up
by the first entry with the given id as the `for` loops do. `_af_error` (the error callback) is not modelled.
The `AFfilehandle` argument is a valid handle (`_af_filehandle_ok`).
-/
namespace AF.Meta

/-- `m_access` -/
inductive Access | read | write
  deriving DecidableEq

/-- `struct Marker` (Marker.h:37-43) without name and comment, which no call on an open file changes. -/
structure Marker where
  id : Int
  position : Int
  deriving DecidableEq

/-- The part of `struct Track` (Track.h) these calls use. -/
structure Track where
  id : Int
  markers : List Marker
  hasAES : Bool
  aes : List Byte
  deriving DecidableEq

/-- `struct Loop` (afinternal.h:56-63) -/
structure Loop where
  id : Int
  mode : Int
  count : Int
  beginMarker : Int
  endMarker : Int
  trackid : Int
  deriving DecidableEq

/-- `struct Instrument` (Instrument.h); `values` are 8-byte unions. -/
structure Instrument where
  id : Int
  loops : List Loop
  values : List (BitVec 64)
  deriving DecidableEq

/-- `struct Miscellaneous` (afinternal.h:70-79); `buffer = none` is the null pointer. -/
structure Misc where
  id : Int
  type : Int
  size : Int
  buffer : Option (List Byte)
  position : Int
  deriving DecidableEq

/-- The instrument parameters of the file format: AIFF/AIFF-C (AIFF.cpp:99-110), WAVE (WAVE.cpp:96-105), or none
(units.cpp: all other formats). -/
inductive Family | aiff | wave | other
  deriving DecidableEq

/-- Parameter ids in table order; every entry has type `AU_PVTYPE_LONG`. -/
def Family.ids : Family → List Int
  | .aiff => [301, 302, 305, 306, 303, 304, 307, 308, 309]
  | .wave => [301, 302, 305, 306, 303, 304, 307]
  | .other => []

/-- `struct _AFfilehandle`, the parts used here. -/
structure Handle where
  access : Access
  family : Family
  tracks : List Track
  instruments : List Instrument
  misc : List Misc
  deriving DecidableEq

/-- Change the first element satisfying `p` (what writing through the pointer returned by a search loop does). -/
def updFirst {α : Type} (p : α → Bool) (f : α → α) : List α → List α
  | [] => []
  | a :: l => if p a then f a :: l else a :: updFirst p f l

/-- FileHandle.cpp:166-175 -/
def Handle.getTrack (h : Handle) (t : Int) : Option Track := h.tracks.find? (·.id == t)
/-- Track.cpp:133-143 -/
def Track.getMarker (t : Track) (m : Int) : Option Marker := t.markers.find? (·.id == m)
/-- FileHandle.cpp:199-207 -/
def Handle.getInstrument (h : Handle) (i : Int) : Option Instrument := h.instruments.find? (·.id == i)
/-- Instrument.cpp:295-304 -/
def Instrument.getLoop (i : Instrument) (l : Int) : Option Loop := i.loops.find? (·.id == l)
/-- FileHandle.cpp:209-220 -/
def Handle.getMisc (h : Handle) (m : Int) : Option Misc := h.misc.find? (·.id == m)

/-! ## Markers -/

/-- Marker.cpp:187-212 -/
def setMarkPosition (h : Handle) (t m position : Int) : Handle :=
  if h.access ≠ .write then h else
  match h.getTrack t with
  | none => h
  | some track =>
    match track.getMarker m with
    | none => h
    | some _ =>
      let position := if position < 0 then 0 else position
      { h with tracks := h.tracks |> updFirst (·.id == t) fun tr =>
          { tr with markers := tr.markers |> updFirst (·.id == m) fun mk => { mk with position := position } } }

/-- Marker.cpp:234-248 -/
def getMarkPosition (h : Handle) (t m : Int) : Int :=
  match h.getTrack t with
  | none => 0
  | some track => match track.getMarker m with
    | none => 0
    | some mk => mk.position

/-- Marker.cpp:214-232: return value and the ids stored. -/
def getMarkIDs (h : Handle) (t : Int) : Int × List Int :=
  match h.getTrack t with
  | none => (-1, [])
  | some track => (track.markers.length, track.markers.map (·.id))

/-! ## AES channel status data -/

/-- aes.cpp:64-84: return value and the 24 bytes stored. -/
def getAES (h : Handle) (t : Int) : Int × List Byte :=
  match h.getTrack t with
  | none => (-1, [])
  | some track => if track.hasAES then (1, track.aes) else (0, List.replicate 24 0)

/-- aes.cpp:86-108. `buf` has 24 bytes. -/
def setAES (h : Handle) (t : Int) (buf : List Byte) : Handle :=
  match h.getTrack t with
  | none => h
  | some track =>
    if h.access ≠ .write then h else
    if track.hasAES then
      { h with tracks := updFirst (·.id == t) (fun tr => { tr with aes := buf.take 24 }) h.tracks }
    else h

/-! ## Loops -/

/-- Loop.cpp:78-92 -/
def findLoop (h : Handle) (i l : Int) (mustWrite : Bool) : Option Loop :=
  if mustWrite && h.access ≠ .write then none else
  match h.getInstrument i with
  | none => none
  | some inst => inst.getLoop l

/-- A store through the `Loop *` found by `findLoop`. -/
def updLoop (h : Handle) (i l : Int) (f : Loop → Loop) : Handle :=
  { h with instruments := h.instruments |> updFirst (·.id == i) fun inst =>
      { inst with loops := updFirst (·.id == l) f inst.loops } }

/-- Loop.cpp:97-113 -/
def setLoopMode (h : Handle) (i l mode : Int) : Handle :=
  match findLoop h i l true with
  | none => h
  | some _ =>
    if mode ≠ 0 ∧ mode ≠ 1 ∧ mode ≠ 2 then h
    else updLoop h i l fun lp => { lp with mode := mode }

/-- Loop.cpp:118-126 -/
def getLoopMode (h : Handle) (i l : Int) : Int :=
  match findLoop h i l false with
  | none => -1
  | some lp => lp.mode

/-- Loop.cpp:131-146 (`AF_FAIL` is −1, `AF_SUCCEED` 0) -/
def setLoopCount (h : Handle) (i l count : Int) : Int × Handle :=
  match findLoop h i l true with
  | none => (-1, h)
  | some _ =>
    if count < 1 then (-1, h)
    else (0, updLoop h i l fun lp => { lp with count := count })

/-- Loop.cpp:151-159 -/
def getLoopCount (h : Handle) (i l : Int) : Int :=
  match findLoop h i l false with
  | none => -1
  | some lp => lp.count

/-- Loop.cpp:164-172 -/
def setLoopStart (h : Handle) (i l m : Int) : Handle :=
  match findLoop h i l true with
  | none => h
  | some _ => updLoop h i l fun lp => { lp with beginMarker := m }

/-- Loop.cpp:177-185 -/
def getLoopStart (h : Handle) (i l : Int) : Int :=
  match findLoop h i l false with
  | none => -1
  | some lp => lp.beginMarker

/-- Loop.cpp:253-261 -/
def setLoopEnd (h : Handle) (i l m : Int) : Handle :=
  match findLoop h i l true with
  | none => h
  | some _ => updLoop h i l fun lp => { lp with endMarker := m }

/-- Loop.cpp:266-274 -/
def getLoopEnd (h : Handle) (i l : Int) : Int :=
  match findLoop h i l false with
  | none => -1
  | some lp => lp.endMarker

/-- Loop.cpp:228-235 -/
def setLoopTrack (h : Handle) (i l t : Int) : Handle :=
  match findLoop h i l true with
  | none => h
  | some _ => updLoop h i l fun lp => { lp with trackid := t }

/-- Loop.cpp:240-248 -/
def getLoopTrack (h : Handle) (i l : Int) : Int :=
  match findLoop h i l false with
  | none => -1
  | some lp => lp.trackid

/-- Loop.cpp:190-208 -/
def setLoopStartFrame (h : Handle) (i l frame : Int) : Int × Handle :=
  match findLoop h i l true with
  | none => (-1, h)
  | some lp =>
    if frame < 0 then (-1, h)
    else (0, setMarkPosition h lp.trackid lp.beginMarker frame)

/-- Loop.cpp:213-223 -/
def getLoopStartFrame (h : Handle) (i l : Int) : Int :=
  match findLoop h i l false with
  | none => -1
  | some lp => getMarkPosition h lp.trackid lp.beginMarker

/-- Loop.cpp:279-296 -/
def setLoopEndFrame (h : Handle) (i l frame : Int) : Int × Handle :=
  match findLoop h i l true with
  | none => (-1, h)
  | some lp =>
    if frame < 0 then (-1, h)
    else (0, setMarkPosition h lp.trackid lp.endMarker frame)

/-- Loop.cpp:302-313 -/
def getLoopEndFrame (h : Handle) (i l : Int) : Int :=
  match findLoop h i l false with
  | none => -1
  | some lp => getMarkPosition h lp.trackid lp.endMarker

/-- Loop.cpp:57-71 -/
def getLoopIDs (h : Handle) (i : Int) : Int × List Int :=
  match h.getInstrument i with
  | none => (-1, [])
  | some inst => (inst.loops.length, inst.loops.map (·.id))

/-! ## Instrument parameters -/

/-- Instrument.cpp:275-293 -/
def indexFromId (f : Family) (id : Int) : Option Nat :=
  let i := f.ids.findIdx (· == id)
  if i = f.ids.length then none else some i

/-- AIFF.cpp:708-751, WAVE.cpp:1029-1069, and FileHandle.h:71 for the other formats. `lval` is left undefined by
`AUpvgetval` for an unknown type, but then the type test has already failed. -/
def isInstrumentParameterValid (f : Family) (it : Pv.Item) : Bool :=
  if it.type ≠ Pv.LONG then false else
  let lval := it.value.toInt
  match f with
  | .other => false
  | f =>
    if it.param = 301 then 0 ≤ lval && lval ≤ 127
    else if it.param = 302 then -50 ≤ lval && lval ≤ 50
    else if it.param = 305 then 1 ≤ lval && lval ≤ 127
    else if it.param = 306 then 1 ≤ lval && lval ≤ 127
    else if it.param = 303 then 0 ≤ lval && lval ≤ 127
    else if it.param = 304 then 0 ≤ lval && lval ≤ 127
    else if it.param = 307 then true
    else if it.param = 308 ∨ it.param = 309 then (match f with | .aiff => true | _ => false)
    else false

/-- The number of items processed (Instrument.cpp:127-130): `npv` cut to the list's size. -/
def pvTake (pv : Pv.PvList) (npv : Int) : List Pv.Item :=
  match pv with
  | none => []
  | some l => l.take npv.toNat

/-- One turn of the loop at Instrument.cpp:130-160 (the parameter's type is always LONG). -/
def setOne (f : Family) (values : List (BitVec 64)) (it : Pv.Item) : List (BitVec 64) :=
  match indexFromId f it.param with
  | none => values
  | some j => if isInstrumentParameterValid f it then values.set j it.value else values

/-- Instrument.cpp:115-161, `_af_instparam_set` -/
def setInstParams (h : Handle) (i : Int) (pv : Pv.PvList) (npv : Int) : Handle :=
  if h.access ≠ .write then h else
  match h.getInstrument i with
  | none => h
  | some _ =>
    { h with instruments := h.instruments |> updFirst (·.id == i) fun inst =>
        { inst with values := (pvTake pv npv).foldl (setOne h.family) inst.values } }

/-- Instrument.cpp:168-179: a one-item list `{param, LONG, value}`. -/
def setInstParamLong (h : Handle) (i param : Int) (value : BitVec 64) : Handle :=
  setInstParams h i (some [{ type := Pv.LONG, param := param, value := value }]) 1

/-- One turn of the loop at Instrument.cpp:200-239: a known parameter's type and value are stored in the item.
An index beyond the value array (never met: `values` has one entry per table entry) leaves the item unchanged. -/
def getOne (f : Family) (values : List (BitVec 64)) (it : Pv.Item) : Pv.Item :=
  match indexFromId f it.param with
  | none => it
  | some j => match values[j]? with
    | none => it
    | some v => { it with type := Pv.LONG, value := v }

/-- Instrument.cpp:186-240: the caller's list afterwards. -/
def getInstParams (h : Handle) (i : Int) (pv : Pv.PvList) (npv : Int) : Pv.PvList :=
  match h.getInstrument i with
  | none => pv
  | some inst => pv.map fun l =>
      (pvTake pv npv).map (getOne h.family inst.values) ++ l.drop (pvTake pv npv).length

/-- Instrument.cpp:251-265 -/
def getInstParamLong (h : Handle) (i param : Int) : BitVec 64 :=
  match getInstParams h i (some [{ type := Pv.LONG, param := param, value := 0 }]) 1 with
  | some [it] => it.value
  | _ => 0

/-! ## Miscellaneous chunks -/

/-- Miscellaneous.cpp:149-155: the buffer after the lazy, zero-filled allocation. -/
def Misc.alloc (m : Misc) : Option (List Byte) :=
  if m.buffer = none ∧ m.size ≠ 0 then some (List.replicate m.size.toNat 0) else m.buffer

/-- Miscellaneous.cpp:132-164. A negative size makes the allocation fail. Writing through a pointer below the buffer
(possible after a negative seek) is the outcome `bufferOverflow`. -/
def writeMisc (h : Handle) (id : Int) (buf : List Byte) : Except Abort (Int × Handle) :=
  if h.access ≠ .write then .ok (-1, h) else
  match h.getMisc id with
  | none => .ok (-1, h)
  | some m =>
    if (buf.length : Int) ≤ 0 then .ok (-1, h) else
    if m.buffer = none ∧ m.size < 0 then .ok (-1, h) else
    let localsize := min (buf.length : Int) (m.size - m.position)
    if localsize ≠ 0 ∧ (m.position < 0 ∨ localsize < 0) then .error .bufferOverflow else
    let buffer := m.alloc.map fun b =>
      b.take m.position.toNat ++ buf.take localsize.toNat ++ b.drop (m.position.toNat + localsize.toNat)
    .ok (localsize, { h with misc := h.misc |> updFirst (·.id == id) fun m =>
      { m with buffer := buffer, position := m.position + localsize } })

/-- Miscellaneous.cpp:166-190: return value and the bytes stored in the caller's buffer. -/
def readMisc (h : Handle) (id : Int) (bytes : Int) : Except Abort (Int × List Byte × Handle) :=
  if h.access ≠ .read then .ok (-1, [], h) else
  match h.getMisc id with
  | none => .ok (-1, [], h)
  | some m =>
    if bytes ≤ 0 then .ok (-1, [], h) else
    let localsize := min bytes (m.size - m.position)
    if localsize ≠ 0 ∧ (m.position < 0 ∨ localsize < 0 ∨ m.buffer = none) then .error .bufferOverflow else
    .ok (localsize, ((m.buffer.getD []).drop m.position.toNat).take localsize.toNat,
      { h with misc := updFirst (·.id == id) (fun m => { m with position := m.position + localsize }) h.misc })

/-- Miscellaneous.cpp:192-213: only offsets at or beyond the size are refused. -/
def seekMisc (h : Handle) (id offset : Int) : Int × Handle :=
  match h.getMisc id with
  | none => (-1, h)
  | some m =>
    if offset ≥ m.size then (-1, h)
    else (offset, { h with misc := updFirst (·.id == id) (fun m => { m with position := offset }) h.misc })

/-- Miscellaneous.cpp:121-130 -/
def getMiscSize (h : Handle) (id : Int) : Int :=
  match h.getMisc id with
  | none => -1
  | some m => m.size

/-- Miscellaneous.cpp:95-104 -/
def getMiscType (h : Handle) (id : Int) : Int :=
  match h.getMisc id with
  | none => -1
  | some m => m.type

/-! ## All calls as one step function -/

/-- The setters and getters of a loop's fields. -/
inductive LoopField | mode | count | start | endd | track | startFrame | endFrame
  deriving DecidableEq

inductive Op
  | setMark (t m pos : Int)
  | getMark (t m : Int)
  | markIDs (t : Int)
  | setAES (t : Int) (buf : List Byte)
  | getAES (t : Int)
  | setLoop (f : LoopField) (i l v : Int)
  | getLoop (f : LoopField) (i l : Int)
  | loopIDs (i : Int)
  | setParams (i : Int) (pv : Pv.PvList) (npv : Int)
  | getParams (i : Int) (pv : Pv.PvList) (npv : Int)
  | setParamLong (i p : Int) (v : BitVec 64)
  | getParamLong (i p : Int)
  | instIDs
  | miscIDs
  | writeMisc (id : Int) (buf : List Byte)
  | readMisc (id bytes : Int)
  | seekMisc (id offset : Int)
  | miscSize (id : Int)
  | miscType (id : Int)

/-- What the caller sees. -/
inductive Ret
  | void
  | num (n : Int)
  | ids (n : Int) (l : List Int)
  | bytes (n : Int) (b : List Byte)
  | pv (l : Pv.PvList)
  | long (v : BitVec 64)
  deriving DecidableEq

/-- Dispatch to the loop setters. -/
def setLoop (h : Handle) (f : LoopField) (i l v : Int) : Ret × Handle :=
  match f with
  | .mode => (.void, setLoopMode h i l v)
  | .count => let r := setLoopCount h i l v; (.num r.1, r.2)
  | .start => (.void, setLoopStart h i l v)
  | .endd => (.void, setLoopEnd h i l v)
  | .track => (.void, setLoopTrack h i l v)
  | .startFrame => let r := setLoopStartFrame h i l v; (.num r.1, r.2)
  | .endFrame => let r := setLoopEndFrame h i l v; (.num r.1, r.2)

/-- Dispatch to the loop getters. -/
def getLoopField (h : Handle) (f : LoopField) (i l : Int) : Int :=
  match f with
  | .mode => getLoopMode h i l
  | .count => getLoopCount h i l
  | .start => getLoopStart h i l
  | .endd => getLoopEnd h i l
  | .track => getLoopTrack h i l
  | .startFrame => getLoopStartFrame h i l
  | .endFrame => getLoopEndFrame h i l

/-- One API call. afGetInstIDs: Instrument.cpp:95-106, afGetMiscIDs: Miscellaneous.cpp:70-83. -/
def step (h : Handle) : Op → Except Abort (Ret × Handle)
  | .setMark t m p => .ok (.void, setMarkPosition h t m p)
  | .getMark t m => .ok (.num (getMarkPosition h t m), h)
  | .markIDs t => .ok (.ids (getMarkIDs h t).1 (getMarkIDs h t).2, h)
  | .setAES t b => .ok (.void, setAES h t b)
  | .getAES t => .ok (.bytes (getAES h t).1 (getAES h t).2, h)
  | .setLoop f i l v => .ok (setLoop h f i l v)
  | .getLoop f i l => .ok (.num (getLoopField h f i l), h)
  | .loopIDs i => .ok (.ids (getLoopIDs h i).1 (getLoopIDs h i).2, h)
  | .setParams i pv n => .ok (.void, setInstParams h i pv n)
  | .getParams i pv n => .ok (.pv (getInstParams h i pv n), h)
  | .setParamLong i p v => .ok (.void, setInstParamLong h i p v)
  | .getParamLong i p => .ok (.long (getInstParamLong h i p), h)
  | .instIDs => .ok (.ids h.instruments.length (h.instruments.map (·.id)), h)
  | .miscIDs => .ok (.ids h.misc.length (h.misc.map (·.id)), h)
  | .writeMisc id b => (writeMisc h id b).map fun r => (.num r.1, r.2)
  | .readMisc id n => (readMisc h id n).map fun r => (.bytes r.1 r.2.1, r.2.2)
  | .seekMisc id o => .ok (.num (seekMisc h id o).1, (seekMisc h id o).2)
  | .miscSize id => .ok (.num (getMiscSize h id), h)
  | .miscType id => .ok (.num (getMiscType h id), h)

/-- A history of calls: all results and the handle afterwards. -/
def run (h : Handle) : List Op → Except Abort (List Ret × Handle)
  | [] => .ok ([], h)
  | op :: ops => do
    let (r, h1) ← step h op
    let (rs, h2) ← run h1 ops
    pure (r :: rs, h2)

end AF.Meta
