import Verif.Spec.HeapHandle
import Verif.Model.HeapWorld
/-!
# Specification: setups and handles as plain values

What a program that uses setups and handles should see, without any memory: every setup and every handle has a value of its own,
which only calls on it change.
-/
namespace AF.Heap

/-- What a pointer of the program stands for: nothing, because no file could be opened; an object; or an object that was freed. -/
inductive Obj (α : Type)
  | null
  | live (a : α)
  | gone
  deriving DecidableEq

structure World where
  setups : List (Obj Setup.Setup)
  handles : List (Obj HandleVal)
  deriving DecidableEq

/-- The handle with other metadata. -/
def HandleVal.withMeta (V : HandleVal) (H : Meta.Handle) : HandleVal :=
  { V with tracks := V.tracks.zipWith (fun x t => { x with track := t }) H.tracks, instruments := H.instruments, misc := H.misc }

/-- A change of the virtual format or the channel matrix of a track. -/
def VOp.onTrack : VOp → TrackVal → TrackVal
  | .sampleFormat _ sf sw, x => { x with v := (Setup.setVirtualSampleFormat x.v sf sw).2 }
  | .rate _ r, x => { x with v := (Setup.setVirtualRate x.v r).2 }
  | .byteOrder _ o, x => { x with v := (Setup.setVirtualByteOrder x.v o).2 }
  | .pcm _ m, x => { x with v := { x.v with pcm := m } }
  | .channels _ n, x => { x with v := { x.v with channels := n }, matrix := none }
  | .matrix _ m, x => { x with matrix := m }

def VOp.track : VOp → Int
  | .sampleFormat t _ _ | .rate t _ | .byteOrder t _ | .pcm t _ | .channels t _ | .matrix t _ => t

/-- The first track with the id is changed. -/
def HandleVal.virt (V : HandleVal) (op : VOp) : HandleVal :=
  { V with tracks := Meta.updFirst (fun x => x.track.id == op.track) op.onTrack V.tracks }

/-- One call: what there is afterwards, and the answer. `none`: the program uses a setup or handle that it has freed or never
had, or writes through a position outside a miscellaneous chunk, where `afSeekMisc` takes it. -/
def World.step (e : Endian) (W : World) : WOp → Option (World × Option Meta.Ret)
  | .new => some ({ W with setups := W.setups ++ [.live (Setup.newSetup e)] }, none)
  | .set i op =>
    match W.setups[i]? with
    | some (.live S) => some ({ W with setups := W.setups.set i (.live (Setup.step S op)) }, none)
    | _ => none
  | .freeSetup i =>
    match W.setups[i]? with
    | some (.live _) => some ({ W with setups := W.setups.set i .gone }, none)
    | _ => none
  | .openWrite i written codec =>
    match W.setups[i]? with
    | some (.live S) =>
      let h := match (if written ∧ codec then (Setup.openWrite e S).2 else none) with
        | none => .null
        | some o => .live (HandleVal.ofOpened o)
      some ({ W with setups := W.setups.set i (.live (Setup.openWrite e S).1), handles := W.handles ++ [h] }, none)
    | _ => none
  | .call j op =>
    match W.handles[j]? with
    | some .null => some (W, none)
    | some (.live V) =>
      match Meta.step V.metadata op with
      | .ok (r, H) => some ({ W with handles := W.handles.set j (.live (V.withMeta H)) }, some r)
      | .error _ => none
    | _ => none
  | .virt j op =>
    match W.handles[j]? with
    | some .null => some (W, none)
    | some (.live V) => some ({ W with handles := W.handles.set j (.live (V.virt op)) }, none)
    | _ => none
  | .close j =>
    match W.handles[j]? with
    | some .null => some (W, none)
    | some (.live _) => some ({ W with handles := W.handles.set j .gone }, none)
    | _ => none

/-- A history of calls. -/
def World.run (e : Endian) (W : World) : List WOp → Option (World × List (Option Meta.Ret))
  | [] => some (W, [])
  | op :: ops =>
    match W.step e op with
    | none => none
    | some (W, r) =>
      match World.run e W ops with
      | none => none
      | some (W, rs) => some (W, r :: rs)

/-- Nothing has been made yet. -/
def World.new : World := ⟨[], []⟩

/-! ## One object alone -/

/-- The calls of a history that concern the handle `j`. -/
def callsOn (j : Nat) (ops : List WOp) : List Meta.Op :=
  ops.filterMap fun op => match op with | .call k c => if k = j then some c else none | _ => none

/-- What they answered. -/
def answersOn (j : Nat) (ops : List WOp) (rs : List (Option Meta.Ret)) : List Meta.Ret :=
  (ops.zip rs).filterMap fun x => match x.1 with | .call k _ => if k = j then x.2 else none | _ => none

/-- What a call does to the virtual format and channel matrix of the tracks of the handle `j`. -/
def WOp.onFormats (j : Nat) (T : List TrackVal) : WOp → List TrackVal
  | .virt k op => if k = j then Meta.updFirst (fun x => x.track.id == op.track) op.onTrack T else T
  | _ => T

/-- What a call does to the setup `i`, if it concerns it. -/
def WOp.onSetup (e : Endian) (i : Nat) (S : Setup.Setup) : WOp → Setup.Setup
  | .set k op => if k = i then Setup.step S op else S
  | .openWrite k _ _ => if k = i then (Setup.openWrite e S).1 else S
  | _ => S

/-! ## The blocks -/

def ownObj {α : Type} (own : Ptr → α → SL) (p : Ptr) : Obj α → SL
  | .null => fact (p = 0)
  | .live a => own p a
  | .gone => emp

/-- The memory has the blocks of the live setups and handles, and no others. -/
def ownWorld (R : Roots) (W : World) : SL :=
  each (ownObj ownSetup) R.setups W.setups ∗ each (ownObj ownHandle) R.handles W.handles

end AF.Heap
