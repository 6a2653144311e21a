import Verif.Spec.Heap
import Verif.Model.HeapHandle
/-!
# Specification: a handle in memory

`ownHandle p V`: the handle at `p` has the value `V`, and the memory consists of its blocks.
-/
namespace AF.Heap
open AF.Setup (AFmt)

def ownHMarker (r : HMarkerRec) (x : Meta.Marker × List Byte × List Byte) : SL :=
  fact (r.id = x.1.id ∧ r.position = x.1.position) ∗ (r.name ↦ x.2.1) ∗ (r.comment ↦ x.2.2)

/-- A block that need not be there. -/
def optional {α : Type} [Content α] (p : Ptr) : Option α → SL
  | none => fact (p = 0)
  | some a => p ↦ a

/-- The numbers and flags of a track. -/
structure TrackFields (r : HTrackRec) (x : TrackVal) : Prop where
  id : r.id = x.track.id
  f : r.f = x.f
  v : r.v = x.v
  vparams : r.vparams = 0
  hasAES : r.hasAES = x.track.hasAES
  aes : r.aes = x.track.aes
  names : x.names.length = x.track.markers.length

def ownHTrack (r : HTrackRec) (x : TrackVal) : SL :=
  fact (TrackFields r x) ∗ (ex fun pv : Option (List (Int × BitVec 64)) => optional r.fparams pv) ∗ optional r.matrix x.matrix ∗
    array ownHMarker r.markers r.markerCount (x.track.markers.zip x.names)

/-- The parameters of the file format each have a value. -/
def ownHInst (family : Meta.Family) (r : HInstRec) (x : Meta.Instrument) : SL :=
  fact (r.id = x.id ∧ x.values.length = family.ids.length) ∗ array same r.loops r.loopCount x.loops ∗
    array same r.values family.ids.length x.values

structure MiscFields (r : HMiscRec) (x : Meta.Misc) : Prop where
  id : r.id = x.id
  type : r.type = x.type
  size : r.size = x.size
  position : r.position = x.position
  buffer : ∀ b, x.buffer = some b → (b.length : Int) = x.size

def ownHMisc (r : HMiscRec) (x : Meta.Misc) : SL := fact (MiscFields r x) ∗ optional r.buffer x.buffer

def ownHandle (p : Ptr) (V : HandleVal) : SL := ex fun r : HandleRec =>
  fact (r.access = V.access ∧ r.fileFormat.family = V.family) ∗ (p ↦ r) ∗ array ownHTrack r.tracks r.trackCount V.tracks ∗
    array (ownHInst V.family) r.instruments r.instrumentCount V.instruments ∗ array ownHMisc r.miscellaneous r.miscellaneousCount V.misc

end AF.Heap
