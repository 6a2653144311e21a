import Verif.Model.Setup
/-!
# Model: memory, setups and handles as they lie in it

The C structures with their pointers, `malloc` and `free`, and the calls that make, change, copy and free setups and handles.
`Model/Setup.lean` and `Model/Meta.lean` have the same calls on plain values. A block of memory is a list of records of one
type; an access outside a block, to a freed block or through a null pointer is a fault, as is freeing a block twice. Addresses
are not used again, so that no dangling pointer can be taken for a good one. `malloc` does not fail; a request for zero bytes
gives the null pointer (util.cpp:77-110). The scalar fields of a structure are those of the value model.
-/
namespace AF.Heap
open AF.Setup (AFmt)

/-- 0 is the null pointer. -/
abbrev Ptr := Nat

/-- `struct MarkerSetup` (Marker.h:24-28) -/
structure MarkerRec where
  id : Int := 0
  name : Ptr := 0
  comment : Ptr := 0

/-- `struct TrackSetup` (Track.h:36-54). In `fields`, which has all but the pointer, the list of markers is not used. -/
structure TrackRec where
  fields : Setup.TrackSetup
  markerCount : Nat
  markers : Ptr

/-- `struct InstrumentSetup` (Instrument.h:33-44) -/
structure InstRec where
  id : Int := 0
  loopCount : Nat := 0
  loops : Ptr := 0
  loopSet : Bool := false

/-- `struct _AFfilesetup` (Setup.h:30-51) -/
structure SetupRec where
  fileFormat : Setup.FileFormat
  trackSet : Bool
  instrumentSet : Bool
  miscellaneousSet : Bool
  trackCount : Nat
  tracks : Ptr
  instrumentCount : Nat
  instruments : Ptr
  miscellaneousCount : Nat
  miscellaneous : Ptr

/-- `struct Marker` (Marker.h:30-36) -/
structure HMarkerRec where
  id : Int := 0
  position : Int := 0
  name : Ptr := 0
  comment : Ptr := 0

/-- `struct Track` (Track.h:56-108), the parts set by opening a file for writing. `fparams` and `vparams` are the pointers
`f.compressionParams` and `v.compressionParams`. -/
structure HTrackRec where
  id : Int
  f : AFmt
  fparams : Ptr
  v : AFmt
  vparams : Ptr
  matrix : Ptr
  markerCount : Nat
  markers : Ptr
  hasAES : Bool
  aes : List Byte

/-- `struct Instrument` (Instrument.h:46-58) -/
structure HInstRec where
  id : Int := 0
  loopCount : Nat := 0
  loops : Ptr := 0
  values : Ptr := 0

/-- `struct Miscellaneous` (afinternal.h:70-79) -/
structure HMiscRec where
  id : Int := 0
  type : Int := 0
  size : Int := 0
  buffer : Ptr := 0
  position : Int := 0

/-- `struct _AFfilehandle` (FileHandle.h:44-110), the parts used here. -/
structure HandleRec where
  access : Meta.Access
  fileFormat : Setup.FileFormat
  trackCount : Nat
  tracks : Ptr
  instrumentCount : Nat
  instruments : Ptr
  miscellaneousCount : Nat
  miscellaneous : Ptr

/-- What a block of memory holds. -/
inductive Block
  | bytes (l : List Byte)
  | markers (l : List MarkerRec)
  | tracks (l : List TrackRec)
  | loops (l : List Int)
  | insts (l : List InstRec)
  | miscs (l : List Setup.MiscSetup)
  | setup (s : SetupRec)
  | hmarkers (l : List HMarkerRec)
  | htracks (l : List HTrackRec)
  | hloops (l : List Meta.Loop)
  | values (l : List (BitVec 64))
  | params (l : List (Int × BitVec 64))
  | hinsts (l : List HInstRec)
  | hmiscs (l : List HMiscRec)
  | handle (h : HandleRec)

/-- The types of contents. -/
class Content (α : Type) where
  put : α → Block
  get : Block → Option α
  get_put : ∀ a, get (put a) = some a

instance : Content (List Byte) := ⟨.bytes, fun | .bytes l => some l | _ => none, fun _ => rfl⟩
instance : Content (List MarkerRec) := ⟨.markers, fun | .markers l => some l | _ => none, fun _ => rfl⟩
instance : Content (List TrackRec) := ⟨.tracks, fun | .tracks l => some l | _ => none, fun _ => rfl⟩
instance : Content (List Int) := ⟨.loops, fun | .loops l => some l | _ => none, fun _ => rfl⟩
instance : Content (List InstRec) := ⟨.insts, fun | .insts l => some l | _ => none, fun _ => rfl⟩
instance : Content (List Setup.MiscSetup) := ⟨.miscs, fun | .miscs l => some l | _ => none, fun _ => rfl⟩
instance : Content SetupRec := ⟨.setup, fun | .setup l => some l | _ => none, fun _ => rfl⟩
instance : Content (List HMarkerRec) := ⟨.hmarkers, fun | .hmarkers l => some l | _ => none, fun _ => rfl⟩
instance : Content (List HTrackRec) := ⟨.htracks, fun | .htracks l => some l | _ => none, fun _ => rfl⟩
instance : Content (List Meta.Loop) := ⟨.hloops, fun | .hloops l => some l | _ => none, fun _ => rfl⟩
instance : Content (List (BitVec 64)) := ⟨.values, fun | .values l => some l | _ => none, fun _ => rfl⟩
instance : Content (List (Int × BitVec 64)) := ⟨.params, fun | .params l => some l | _ => none, fun _ => rfl⟩
instance : Content (List HInstRec) := ⟨.hinsts, fun | .hinsts l => some l | _ => none, fun _ => rfl⟩
instance : Content (List HMiscRec) := ⟨.hmiscs, fun | .hmiscs l => some l | _ => none, fun _ => rfl⟩
instance : Content HandleRec := ⟨.handle, fun | .handle l => some l | _ => none, fun _ => rfl⟩

/-! ## Memory -/

abbrev Mem := Nat → Option Block

/-- The blocks in use, and the highest address that was ever given out. -/
structure St where
  mem : Mem
  top : Nat

/-- A program: a result and a new state, or a fault. -/
def M (α : Type) : Type := St → Except Unit (α × St)

instance : Monad M where
  pure a := fun st => .ok (a, st)
  bind c k := fun st => match c st with
    | .error e => .error e
    | .ok (a, st) => k a st

def fault {α : Type} : M α := fun _ => .error ()

def alloc {α : Type} [Content α] (a : α) : M Ptr := fun st =>
  .ok (st.top + 1, ⟨fun q => if q = st.top + 1 then some (Content.put a) else st.mem q, st.top + 1⟩)

def load {α : Type} [Content α] (p : Ptr) : M α := fun st =>
  match (st.mem p).bind Content.get with
  | none => .error ()
  | some a => .ok (a, st)

/-- The new contents have the type of the old. -/
def store {α : Type} [Content α] (p : Ptr) (a : α) : M Unit := fun st =>
  match (st.mem p).bind (Content.get (α := α)) with
  | none => .error ()
  | some _ => .ok ((), ⟨fun q => if q = p then some (Content.put a) else st.mem q, st.top⟩)

/-- `free`, which does nothing for the null pointer. -/
def free (p : Ptr) : M Unit := fun st =>
  if p = 0 then .ok ((), st)
  else match st.mem p with
    | none => .error ()
    | some _ => .ok ((), ⟨fun q => if q = p then none else st.mem q, st.top⟩)

/-- `p[i]` -/
def getAt {ρ : Type} [Content (List ρ)] (p : Ptr) (i : Nat) : M ρ := do
  let l : List ρ ← load p
  match l[i]? with
  | none => fault
  | some r => pure r

/-- An assignment to fields of `p[i]`. -/
def setAt {ρ : Type} [Content (List ρ)] (p : Ptr) (i : Nat) (f : ρ → ρ) : M Unit := do
  let l : List ρ ← load p
  if i < l.length then store p (l.modify i f) else fault

/-- `_af_calloc` (util.cpp:93-110) -/
def calloc {ρ : Type} [Content (List ρ)] (n : Nat) (zero : ρ) : M Ptr :=
  if n = 0 then pure 0 else alloc (List.replicate n zero)

/-- `alloccopy` (Setup.cpp:428-438) -/
def alloccopy (ρ : Type) [Content (List ρ)] (n : Nat) (p : Ptr) : M Ptr :=
  if n = 0 then pure 0 else do
    let l : List ρ ← load p
    if n ≤ l.length then alloc (l.take n) else fault

/-- `for (int i = 0; i < n; i++) body(i);` -/
def forRange : Nat → (Nat → M Unit) → M Unit
  | 0, _ => pure ()
  | n + 1, body => do forRange n body; body n

/-- A loop over a list in the caller's hands. -/
def forList {α : Type} : List α → (α → M Unit) → M Unit
  | [], _ => pure ()
  | a :: l, body => do body a; forList l body

/-- `memcpy(p + offset, source, n)` -/
def memcpy (p : Ptr) (offset : Int) (source : List Byte) (n : Int) : M Unit :=
  if n = 0 then pure ()
  else if n < 0 ∨ offset < 0 ∨ source.length < n then fault
  else do
    let l : List Byte ← load p
    if offset + n ≤ l.length then
      store p (l.take offset.toNat ++ source.take n.toNat ++ l.drop (offset.toNat + n.toNat))
    else fault

/-- `if (c) { x }` -/
def onlyIf (c : Prop) [Decidable c] (x : M Unit) : M Unit := if c then x else pure ()

/-- The first of `n` elements of an array with a property. -/
def findAt {ρ : Type} [Content (List ρ)] (p : Ptr) (n : Nat) (found : ρ → Bool) : M (Option Nat) :=
  if n = 0 then pure none else do
    let l : List ρ ← load p
    if n ≤ l.length then pure ((l.take n).findIdx? found) else fault

end AF.Heap
