import Verif.Proof.Heap.OpenCopy
/-! A new handle gets its tracks, instruments and miscellaneous data from a setup. -/
namespace AF.Heap
open AF.Setup (AFmt)

variable {α β ρ ν : Type}

theorem each_imp {P P' : ρ → ν → SL} (h : ∀ r v, Imp (P r v) (P' r v)) : ∀ {rs : List ρ} {vs : List ν}, Imp (each P rs vs) (each P' rs vs)
  | [], [] => imp_rfl
  | [], _ :: _ => fun _ h => h.elim
  | _ :: _, [] => fun _ h => h.elim
  | _ :: _, _ :: _ => imp_sep (h _ _) (each_imp h)

theorem array_imp [Content (List ρ)] {P P' : ρ → ν → SL} (h : ∀ r v, Imp (P r v) (P' r v)) {p : Ptr} {n : Nat} {vs : List ν} :
    Imp (array P p n vs) (array P' p n vs) := by
  intro m hm
  rw [array_cloned] at hm ⊢
  obtain ⟨rs, hm⟩ := hm
  obtain ⟨e, hm⟩ := fact_sep.1 hm
  exact ⟨rs, fact_sep.2 ⟨e, imp_sep imp_rfl (each_imp h) m hm⟩⟩

theorem map_get {f : ρ → ν} {l : List ρ} {i : Nat} {v : ν} (h : (l.map f)[i]? = some v) : ∃ a, l[i]? = some a ∧ v = f a := by
  rw [List.getElem?_map] at h
  cases ha : l[i]? with
  | none => rw [ha] at h; cases h
  | some a => rw [ha] at h; cases h; exact ⟨a, rfl, rfl⟩

theorem get_of_length {l : List ρ} {l' : List ν} {i : Nat} {v : ν} (h : l.length = l'.length) (hv : l'[i]? = some v) : ∃ r, l[i]? = some r :=
  ⟨_, List.getElem?_eq_getElem (by rw [h]; exact (List.getElem?_eq_some_iff.1 hv).1)⟩

theorem sl_head (A F B C E : SL) : (A ∗ (F ∗ B ∗ C) ∗ E) = (F ∗ B ∗ A ∗ C ∗ E) := by ac_rfl

/-! ## Tracks -/

/-- The markers of a new track, each with its texts. -/
def newMarkers (tr : Setup.TrackSetup) : List (Meta.Marker × List Byte × List Byte) :=
  tr.markers.map fun m => (⟨wrapS 16 m.id, 0⟩, m.name, m.comment)

theorem newMarkers_eq (tr : Setup.TrackSetup) : newMarkers tr = (Setup.copyMarkers tr).zip (tr.markers.map fun m => (m.name, m.comment)) := by
  unfold newMarkers Setup.copyMarkers
  rw [List.zip_map']

theorem t_copyHMarkers {p : Ptr} {l : List HTrackRec} {i : Nat} {x : HTrackRec} {r : TrackRec} {tr : Setup.TrackSetup} {C : SL} (hi : l[i]? = some x) :
    Triple ((p ↦ l) ∗ ownTrack r tr ∗ C) (copyMarkers p i r)
      (fun _ => ex fun q => (p ↦ l.set i { x with markerCount := r.markerCount, markers := q }) ∗
        array ownHMarker q r.markerCount (newMarkers tr) ∗ ownTrack r tr ∗ C) := by
  unfold copyMarkers
  refine step_put hi (step_calloc fun q => ?_)
  refine Triple.by ?_ (sl2 _ _ _)
  refine step_put (get_set hi) ?_
  rw [List.set_set]
  dsimp only
  generalize hl' : l.set i { x with markerCount := r.markerCount, markers := q } = l'
  have hl'' : l.set i { x with markerCount := r.markerCount, markers := q } = l' := hl'
  unfold ownTrack
  refine Triple.by ?_ (show _ = (fact (withMarkers r.fields tr.markers = tr) ∗ array ownMarker r.markers r.markerCount tr.markers ∗
    (blank q r.markerCount ({} : HMarkerRec) ∗ (p ↦ l') ∗ C)) by ac_rfl)
  refine t_fact fun hw => t_openArray fun ms hc hms => ?_
  refine Triple.by ?_ (show _ = (blank q r.markerCount ({} : HMarkerRec) ∗ (cloned r.markers ms ∗ each ownMarker ms tr.markers ∗ (p ↦ l') ∗ C)) by ac_rfl)
  refine (t_fill_blank (P := ownHMarker) (vs := newMarkers tr) (by simp [newMarkers, hc]) ?_).imp imp_rfl ?_
  · intro j v hv k hk
    obtain ⟨w, hw, rfl⟩ := map_get hv
    obtain ⟨m, hm⟩ := get_of_length hms hw
    refine Triple.by ?_ (sl2 _ _ _)
    refine step_getC hm ?_
    obtain ⟨R, e, -⟩ := each_split (P := ownMarker) hm hw
    rw [e]
    generalize hC : ((p ↦ l') ∗ C) = D
    refine Triple.by ?_ (show _ = ((q ↦ k) ∗ ownMarker m w ∗ (cloned r.markers ms ∗ R ∗ D)) by ac_rfl)
    generalize hE : (cloned r.markers ms ∗ R ∗ D) = E
    refine step_put hk ?_
    unfold ownMarker
    refine Triple.by ?_ (sl_head _ _ _ _ _)
    refine t_fact fun hid => step_load (step_alloc fun a => ?_)
    refine Triple.by ?_ (sl3 _ _ _ _)
    refine step_put (get_set hk) ?_
    rw [List.set_set]
    refine Triple.by ?_ (sl4 _ _ _ _ _)
    refine step_load (step_alloc fun b => ?_)
    refine Triple.by ?_ (sl3 _ _ _ _)
    refine lastly (step_put (get_set hk) (t_ret fun s hs => ⟨⟨wrapS 16 m.id, 0, a, b⟩, ?_⟩))
    rw [List.set_set] at hs
    dsimp only at hs ⊢
    unfold ownHMarker
    dsimp only
    rw [fact_true (show wrapS 16 m.id = wrapS 16 w.id ∧ (0 : Int) = 0 from ⟨by rw [hid], rfl⟩), emp_sep]
    rw [show (cloned r.markers ms ∗ ((fact (m.id = w.id) ∗ (m.name ↦ w.name) ∗ (m.comment ↦ w.comment)) ∗ R) ∗ D) =
      ((fact (m.id = w.id) ∗ (m.name ↦ w.name) ∗ (m.comment ↦ w.comment)) ∗ (cloned r.markers ms ∗ R ∗ D)) by ac_rfl, hE, fact_true hid, emp_sep]
    exact imp_eq (by ac_rfl) s hs
  · intro _ m hm
    refine ⟨q, ?_⟩
    dsimp only
    rw [hl', fact_true hw, emp_sep]
    have hm := imp_eq (show _ = ((cloned r.markers ms ∗ each ownMarker ms tr.markers) ∗ (array ownHMarker q r.markerCount (newMarkers tr) ∗ (p ↦ l') ∗ C)) by ac_rfl) m hm
    have hm := imp_sep (closeArray hc hms) imp_rfl m hm
    exact imp_eq (by ac_rfl) m hm

/-- A track that has been given all but its virtual format. -/
def newTrackVal (tr : Setup.TrackSetup) : TrackVal :=
  { track := { id := tr.id, markers := Setup.copyMarkers tr, hasAES := tr.aesDataSet, aes := List.replicate 24 0 }
    f := tr.f, v := newHTrack.v, names := tr.markers.map fun m => (m.name, m.comment), matrix := none }

/-- A track without parameters of its compression. -/
def freshTrack (r : HTrackRec) (x : TrackVal) : SL :=
  fact (TrackFields r x ∧ r.fparams = 0) ∗ optional r.matrix x.matrix ∗ array ownHMarker r.markers r.markerCount (x.track.markers.zip x.names)

theorem freshTrack_own (r : HTrackRec) (x : TrackVal) : Imp (freshTrack r x) (ownHTrack r x) := by
  intro m hm
  unfold freshTrack at hm
  obtain ⟨h, hm⟩ := fact_sep.1 hm
  refine fact_sep.2 ⟨h.1, ?_⟩
  rw [ex_sep]
  refine ⟨none, ?_⟩
  unfold optional
  exact fact_sep.2 ⟨h.2, hm⟩

theorem t_copyTracks {h q : Ptr} {c : Setup.Setup} {x : HandleRec} :
    Triple (ownSetup q c ∗ (h ↦ x)) (copyTracks h q) (fun _ => ex fun p => (h ↦ { x with trackCount := c.tracks.length, tracks := p }) ∗
      array freshTrack p c.tracks.length (c.tracks.map newTrackVal) ∗ ownSetup q c) := by
  unfold copyTracks
  refine t_openSetup fun r hf => step_load (step_calloc fun p => ?_)
  generalize hRest : (array ownInst r.instruments r.instrumentCount c.instruments ∗ array same r.miscellaneous r.miscellaneousCount c.miscellaneous) = Rest
  refine Triple.by ?_ (show _ = (array ownTrack r.tracks r.trackCount c.tracks ∗ ((h ↦ x) ∗ blank p r.trackCount newHTrack ∗ (q ↦ r) ∗ Rest)) by
    rw [← hRest]; ac_rfl)
  refine t_openArray fun rs hc hrs => ?_
  refine Triple.by ?_ (sl3 _ _ _ _)
  refine step_load (step_store ?_)
  rw [hc]
  generalize hx' : ({ x with trackCount := c.tracks.length, tracks := p } : HandleRec) = x'
  have hx'' : ({ x with trackCount := c.tracks.length, tracks := p } : HandleRec) = x' := hx'
  refine Triple.by ?_ (show _ = (blank p c.tracks.length newHTrack ∗ (cloned r.tracks rs ∗ each ownTrack rs c.tracks ∗ (h ↦ x') ∗ (q ↦ r) ∗ Rest)) by ac_rfl)
  refine (t_fill_blank (P := freshTrack) (vs := c.tracks.map newTrackVal) (by simp) ?_).imp imp_rfl ?_
  · intro i v hv l hl
    obtain ⟨tr, htr, rfl⟩ := map_get hv
    obtain ⟨t, ht⟩ := get_of_length hrs htr
    refine Triple.by ?_ (sl2 _ _ _)
    refine step_getC ht ?_
    refine Triple.by ?_ (sl2 _ _ _)
    refine step_put hl ?_
    obtain ⟨R, e, -⟩ := each_split (P := ownTrack) ht htr
    rw [e]
    generalize hD : ((h ↦ x') ∗ (q ↦ r) ∗ Rest) = D
    generalize hy : ({ newHTrack with id := t.fields.id, f := t.fields.f } : HTrackRec) = y
    refine Triple.by ?_ (show _ = ((p ↦ l.set i y) ∗ ownTrack t tr ∗ (cloned r.tracks rs ∗ R ∗ D)) by subst hy; ac_rfl)
    have hg := get_set (a := y) hl
    refine Triple.bind (t_copyHMarkers hg) fun _ => ?_
    refine t_ex fun qm => ?_
    refine lastly (step_put (get_set hg) (t_ret fun s hs => ⟨{ y with markerCount := t.markerCount, markers := qm, hasAES := t.fields.aesDataSet }, ?_⟩))
    rw [List.set_set, List.set_set] at hs
    dsimp only at hs ⊢
    generalize hz : ({ y with markerCount := t.markerCount, markers := qm, hasAES := t.fields.aesDataSet } : HTrackRec) = z at hs ⊢
    have hs := imp_eq (show _ = (ownTrack t tr ∗ ((p ↦ l.set i z) ∗ array ownHMarker qm t.markerCount (newMarkers tr) ∗ cloned r.tracks rs ∗ R ∗ D)) by ac_rfl) s hs
    have hk : withMarkers t.fields tr.markers = tr ∧ t.markerCount = tr.markers.length := by
      obtain ⟨a, b, -, -, ha, -⟩ := hs
      obtain ⟨h1, ha⟩ := fact_sep.1 ha
      exact ⟨h1, (array_count a ha).1⟩
    have hfresh : freshTrack z (newTrackVal tr) = array ownHMarker qm t.markerCount (newMarkers tr) := by
      subst hz
      subst hy
      unfold freshTrack newTrackVal optional
      dsimp only [newHTrack]
      rw [← newMarkers_eq, fact_true, emp_sep, fact_true rfl, emp_sep]
      rw [← hk.1]
      exact ⟨⟨rfl, rfl, rfl, rfl, rfl, rfl, by simp [Setup.copyMarkers]⟩, rfl⟩
    rw [hfresh]
    exact imp_eq (by ac_rfl) s hs
  · intro _ m hm
    refine ⟨p, ?_⟩
    dsimp only
    rw [hx']
    have hm := imp_eq (show _ = ((cloned r.tracks rs ∗ each ownTrack rs c.tracks) ∗ (array freshTrack p c.tracks.length (c.tracks.map newTrackVal) ∗ (h ↦ x') ∗ (q ↦ r) ∗ Rest)) by ac_rfl) m hm
    have hm := imp_sep (closeArray hc hrs) imp_rfl m hm
    rw [← hRest] at hm
    have hm := imp_eq (show _ = (((h ↦ x') ∗ array freshTrack p c.tracks.length (c.tracks.map newTrackVal)) ∗ ((q ↦ r) ∗ array ownTrack r.tracks r.trackCount c.tracks ∗
      array ownInst r.instruments r.instrumentCount c.instruments ∗ array same r.miscellaneous r.miscellaneousCount c.miscellaneous)) by ac_rfl) m hm
    rw [← sep_assoc]
    exact imp_sep imp_rfl (closeSetup hf) m hm

/-! ## Instruments -/

/-- A new instrument of a handle. -/
def newInst (family : Meta.Family) (inst : Setup.InstrumentSetup) : Meta.Instrument :=
  { id := inst.id
    loops := inst.loops.mapIdx fun j l =>
      { id := l, mode := 0, count := 0, beginMarker := 2 * j + 1, endMarker := 2 * j + 2, trackid := Setup.DEFAULT_TRACK }
    values := Setup.paramDefaults family }

theorem paramDefaults_length (f : Meta.Family) : (Setup.paramDefaults f).length = f.ids.length := by cases f <;> rfl

theorem t_copyInst {p : Ptr} {l : List HInstRec} {i : Nat} {x : HInstRec} {r : InstRec} {inst : Setup.InstrumentSetup} {C : SL}
    {family : Meta.Family} (hl : l[i]? = some x) :
    Triple ((p ↦ l) ∗ ownInst r inst ∗ C) (do
        setAt (ρ := HInstRec) p i fun x => { x with id := r.id, loopCount := r.loopCount }
        let q ← calloc r.loopCount (⟨0, 0, 0, 0, 0, 0⟩ : Meta.Loop)
        setAt (ρ := HInstRec) p i fun x => { x with loops := q }
        forRange r.loopCount fun j => do
          let id : Int ← getAt r.loops j
          setAt (ρ := Meta.Loop) q j fun _ => ⟨id, 0, 0, 2 * j + 1, 2 * j + 2, Setup.DEFAULT_TRACK⟩
        let defaults := Setup.paramDefaults family
        let q ← calloc defaults.length (0 : BitVec 64)
        setAt (ρ := HInstRec) p i fun x => { x with values := q }
        forRange defaults.length fun j => setAt (ρ := BitVec 64) q j fun _ => defaults.getD j 0)
      (fun _ => ex fun y => (p ↦ l.set i y) ∗ ownHInst family y (newInst family inst) ∗ ownInst r inst ∗ C) := by
  refine step_put hl (step_calloc fun q => ?_)
  refine Triple.by ?_ (sl2 _ _ _)
  refine step_put (get_set hl) ?_
  rw [List.set_set]
  dsimp only
  generalize hy : ({ x with id := r.id, loopCount := r.loopCount, loops := q } : HInstRec) = y
  unfold ownInst
  rw [array_same]
  refine Triple.by ?_ (show _ = (fact (r.id = inst.id ∧ r.loopSet = inst.loopSet) ∗ fact (r.loopCount = inst.loops.length) ∗
    (blank q r.loopCount (⟨0, 0, 0, 0, 0, 0⟩ : Meta.Loop) ∗ (cloned r.loops inst.loops ∗ (p ↦ l.set i y) ∗ C)) ) by subst hy; ac_rfl)
  refine t_fact fun hid => t_fact fun hc => ?_
  refine Triple.bind (t_fill_blank (P := same) (vs := (newInst family inst).loops) (by simp [newInst, hc]) ?_) fun _ => ?_
  · intro j v hv k hk
    dsimp only [newInst] at hv
    rw [List.getElem?_mapIdx] at hv
    cases hid : inst.loops[j]? with
    | none => rw [hid] at hv; cases hv
    | some id =>
      rw [hid] at hv
      cases hv
      refine Triple.by ?_ (sl2 _ _ _)
      refine step_getC hid ?_
      refine Triple.by ?_ (sl2 _ _ _)
      refine lastly (step_put hk (t_ret fun s hs => ⟨⟨id, 0, 0, 2 * j + 1, 2 * j + 2, Setup.DEFAULT_TRACK⟩, ?_⟩))
      dsimp only
      unfold same
      rw [fact_true rfl, emp_sep]
      exact hs
  refine step_calloc fun q' => ?_
  generalize hA : array same q r.loopCount (newInst family inst).loops = A
  refine Triple.by ?_ (show _ = ((p ↦ l.set i y) ∗ blank q' (Setup.paramDefaults family).length (0 : BitVec 64) ∗ cloned r.loops inst.loops ∗ A ∗ C) by ac_rfl)
  refine step_put (get_set hl) ?_
  rw [List.set_set]
  generalize hz : ({ y with values := q' } : HInstRec) = z
  refine Triple.by ?_ (show _ = (blank q' (Setup.paramDefaults family).length (0 : BitVec 64) ∗ ((p ↦ l.set i z) ∗ cloned r.loops inst.loops ∗ A ∗ C)) by
    subst hz; ac_rfl)
  refine (t_fill_blank (P := same) (vs := Setup.paramDefaults family) rfl ?_).imp imp_rfl ?_
  · intro j v hv k hk
    refine lastly (step_put hk (t_ret fun s hs => ⟨v, ?_⟩))
    have : (Setup.paramDefaults family).getD j 0 = v := by rw [List.getD_eq_getElem?_getD, hv]; rfl
    rw [this] at hs
    unfold same
    dsimp only
    rw [fact_true rfl, emp_sep]
    exact hs
  · intro _ m hm
    refine ⟨z, ?_⟩
    dsimp only
    have e : ownHInst family z (newInst family inst) = (A ∗ array same q' (Setup.paramDefaults family).length (Setup.paramDefaults family)) := by
      subst hz; subst hy; subst hA
      unfold ownHInst
      dsimp only
      rw [paramDefaults_length, fact_true, emp_sep]
      · rfl
      · exact ⟨hid.1, paramDefaults_length family⟩
    rw [e, fact_true hid, fact_true hc, emp_sep, emp_sep]
    exact imp_eq (by ac_rfl) m hm

theorem t_copyInstruments {h q : Ptr} {c : Setup.Setup} {x : HandleRec} :
    Triple (ownSetup q c ∗ (h ↦ x)) (copyInstruments h q) (fun _ => ex fun p => (h ↦ { x with instrumentCount := c.instruments.length, instruments := p }) ∗
      array (ownHInst c.fileFormat.family) p c.instruments.length (c.instruments.map (newInst c.fileFormat.family)) ∗ ownSetup q c) := by
  unfold copyInstruments
  refine t_openSetup fun r hf => step_load (step_calloc fun p => ?_)
  generalize hRest : (array ownTrack r.tracks r.trackCount c.tracks ∗ array same r.miscellaneous r.miscellaneousCount c.miscellaneous) = Rest
  refine Triple.by ?_ (show _ = (array ownInst r.instruments r.instrumentCount c.instruments ∗ ((h ↦ x) ∗ blank p r.instrumentCount ({} : HInstRec) ∗ (q ↦ r) ∗ Rest)) by
    rw [← hRest]; ac_rfl)
  refine t_openArray fun rs hc hrs => ?_
  refine Triple.by ?_ (sl3 _ _ _ _)
  refine step_load (step_store ?_)
  rw [hc, hf.format]
  generalize hx' : ({ x with instrumentCount := c.instruments.length, instruments := p } : HandleRec) = x'
  have hx'' : ({ x with instrumentCount := c.instruments.length, instruments := p } : HandleRec) = x' := hx'
  refine Triple.by ?_ (show _ = (blank p c.instruments.length ({} : HInstRec) ∗ (cloned r.instruments rs ∗ each ownInst rs c.instruments ∗ (h ↦ x') ∗ (q ↦ r) ∗ Rest)) by ac_rfl)
  refine (t_fill_blank (P := ownHInst c.fileFormat.family) (vs := c.instruments.map (newInst c.fileFormat.family)) (by simp) ?_).imp imp_rfl ?_
  · intro i v hv l hl
    obtain ⟨w, hw, rfl⟩ := map_get hv
    obtain ⟨t, ht⟩ := get_of_length hrs hw
    refine Triple.by ?_ (sl2 _ _ _)
    refine step_getC ht ?_
    obtain ⟨R, e, -⟩ := each_split (P := ownInst) ht hw
    rw [e]
    generalize hD : ((h ↦ x') ∗ (q ↦ r) ∗ Rest) = D
    refine (t_copyInst (C := cloned r.instruments rs ∗ R ∗ D) hl).imp (imp_eq (by ac_rfl)) fun _ m hm => ?_
    obtain ⟨y, hm⟩ := hm
    exact ⟨y, imp_eq (by ac_rfl) m hm⟩
  · intro _ m hm
    refine ⟨p, ?_⟩
    dsimp only
    rw [hx']
    generalize hA : array (ownHInst c.fileFormat.family) p c.instruments.length (c.instruments.map (newInst c.fileFormat.family)) = A at hm ⊢
    have hm := imp_eq (show _ = ((cloned r.instruments rs ∗ each ownInst rs c.instruments) ∗ (A ∗ (h ↦ x') ∗ (q ↦ r) ∗ Rest)) by ac_rfl) m hm
    have hm := imp_sep (closeArray hc hrs) imp_rfl m hm
    rw [← hRest] at hm
    have hm := imp_eq (show _ = (((h ↦ x') ∗ A) ∗ ((q ↦ r) ∗ array ownTrack r.tracks r.trackCount c.tracks ∗
      array ownInst r.instruments r.instrumentCount c.instruments ∗ array same r.miscellaneous r.miscellaneousCount c.miscellaneous)) by ac_rfl) m hm
    rw [← sep_assoc]
    exact imp_sep imp_rfl (closeSetup hf) m hm

/-! ## Miscellaneous data -/

def newMisc (m : Setup.MiscSetup) : Meta.Misc := { id := m.id, type := m.type, size := m.size, buffer := none, position := 0 }

theorem t_copyMisc {h q : Ptr} {c : Setup.Setup} {x : HandleRec} :
    Triple (ownSetup q c ∗ (h ↦ x)) (copyMisc h q) (fun _ => ex fun p => (h ↦ { x with miscellaneousCount := c.miscellaneous.length, miscellaneous := p }) ∗
      array ownHMisc p c.miscellaneous.length (c.miscellaneous.map newMisc) ∗ ownSetup q c) := by
  unfold copyMisc
  refine t_openSetup fun r hf => step_load (step_calloc fun p => ?_)
  generalize hRest : (array ownTrack r.tracks r.trackCount c.tracks ∗ array ownInst r.instruments r.instrumentCount c.instruments) = Rest
  rw [array_same]
  refine Triple.by ?_ (show _ = (fact (r.miscellaneousCount = c.miscellaneous.length) ∗ (h ↦ x) ∗ cloned r.miscellaneous c.miscellaneous ∗
    (blank p r.miscellaneousCount ({} : HMiscRec) ∗ (q ↦ r) ∗ Rest)) by
    rw [← hRest]; ac_rfl)
  refine t_fact fun hc => step_load (step_store ?_)
  rw [hc]
  generalize hx' : ({ x with miscellaneousCount := c.miscellaneous.length, miscellaneous := p } : HandleRec) = x'
  have hx'' : ({ x with miscellaneousCount := c.miscellaneous.length, miscellaneous := p } : HandleRec) = x' := hx'
  refine Triple.by ?_ (show _ = (blank p c.miscellaneous.length ({} : HMiscRec) ∗ (cloned r.miscellaneous c.miscellaneous ∗ (h ↦ x') ∗ (q ↦ r) ∗ Rest)) by ac_rfl)
  refine (t_fill_blank (P := ownHMisc) (vs := c.miscellaneous.map newMisc) (by simp) ?_).imp imp_rfl ?_
  · intro i v hv l hl
    obtain ⟨w, hw, rfl⟩ := map_get hv
    refine Triple.by ?_ (sl2 _ _ _)
    refine step_getC hw ?_
    refine Triple.by ?_ (sl2 _ _ _)
    refine lastly (step_put hl (t_ret fun m hm => ⟨{ id := w.id, type := w.type, size := w.size, position := 0, buffer := 0 }, ?_⟩))
    dsimp only
    unfold ownHMisc newMisc optional
    dsimp only
    rw [fact_true rfl, fact_true ⟨rfl, rfl, rfl, rfl, fun b hb => by cases hb⟩, emp_sep, emp_sep]
    exact hm
  · intro _ m hm
    refine ⟨p, ?_⟩
    dsimp only
    rw [hx']
    generalize array ownHMisc p c.miscellaneous.length (c.miscellaneous.map newMisc) = A at hm ⊢
    have hm := imp_eq (show _ = (cloned r.miscellaneous c.miscellaneous ∗ (A ∗ (h ↦ x') ∗ (q ↦ r) ∗ Rest)) by ac_rfl) m hm
    have hm := imp_sep (closeSame hc) imp_rfl m hm
    rw [← hRest] at hm
    have hm := imp_eq (show _ = (((h ↦ x') ∗ A) ∗ ((q ↦ r) ∗ array ownTrack r.tracks r.trackCount c.tracks ∗
      array ownInst r.instruments r.instrumentCount c.instruments ∗ array same r.miscellaneous r.miscellaneousCount c.miscellaneous)) by ac_rfl) m hm
    rw [← sep_assoc]
    exact imp_sep imp_rfl (closeSetup hf) m hm

end AF.Heap
