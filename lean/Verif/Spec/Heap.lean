import Verif.Spec.Sep
import Verif.Model.HeapCalls
/-!
# Specification: a setup in memory

`ownSetup p s`: the setup at `p` has the value `s`, and the memory consists of its blocks: the structure, the arrays of tracks,
instruments and miscellaneous data, the markers of each track with their texts, and the loops of each instrument, each in a
block of its own.
-/
namespace AF.Heap

def ownMarker (r : MarkerRec) (v : Setup.MarkerSetup) : SL := fact (r.id = v.id) ∗ (r.name ↦ v.name) ∗ (r.comment ↦ v.comment)

/-- The track with other markers. -/
def withMarkers (tr : Setup.TrackSetup) (ms : List Setup.MarkerSetup) : Setup.TrackSetup := { tr with markers := ms }

def ownTrack (r : TrackRec) (v : Setup.TrackSetup) : SL :=
  fact (withMarkers r.fields v.markers = v) ∗ array ownMarker r.markers r.markerCount v.markers

def ownInst (r : InstRec) (v : Setup.InstrumentSetup) : SL :=
  fact (r.id = v.id ∧ r.loopSet = v.loopSet) ∗ array same r.loops r.loopCount v.loops

/-- The fields of a setup that are not pointers. -/
structure Fields (r : SetupRec) (s : Setup.Setup) : Prop where
  format : r.fileFormat = s.fileFormat
  tracks : r.trackSet = s.trackSet
  instruments : r.instrumentSet = s.instrumentSet
  misc : r.miscellaneousSet = s.miscellaneousSet

def ownSetup (p : Ptr) (s : Setup.Setup) : SL := ex fun r : SetupRec =>
  fact (Fields r s) ∗ (p ↦ r) ∗ array ownTrack r.tracks r.trackCount s.tracks ∗
    array ownInst r.instruments r.instrumentCount s.instruments ∗ array same r.miscellaneous r.miscellaneousCount s.miscellaneous

end AF.Heap
