import Verif.Proof.Heap.Insts
/-! New setups, freed setups, copies. -/
namespace AF.Heap
open AF.Meta (updFirst)

variable {α β ρ ν : Type}

/-! Another part of the precondition first. -/

theorem sl2 (A B R : SL) : (A ∗ B ∗ R) = (B ∗ A ∗ R) := by ac_rfl
theorem sl3 (A B C R : SL) : (A ∗ B ∗ C ∗ R) = (C ∗ A ∗ B ∗ R) := by ac_rfl
theorem sl4 (A B C D R : SL) : (A ∗ B ∗ C ∗ D ∗ R) = (D ∗ A ∗ B ∗ C ∗ R) := by ac_rfl
theorem sl5 (A B C D E R : SL) : (A ∗ B ∗ C ∗ D ∗ E ∗ R) = (E ∗ A ∗ B ∗ C ∗ D ∗ R) := by ac_rfl

/-! ## A new setup, a setup is freed -/

theorem range_get {n i a : Nat} (h : (List.range n)[i]? = some a) : a = i := by
  have hlt : i < n := by
    rcases Nat.lt_or_ge i n with h' | h'
    · exact h'
    · rw [List.getElem?_eq_none (by simpa using h')] at h; cases h
  rw [List.getElem?_range hlt] at h
  cases h; rfl

theorem t_tracksetupNew {h : Endian} {n : Nat} (hn : n ≠ 0) :
    Triple emp (tracksetupNew h n) (fun q => array ownTrack q n ((List.range n).map (Setup.newTrack h))) := by
  unfold tracksetupNew
  refine step_alloc fun p => ?_
  refine Triple.by ?_ (show _ = (blank p n (⟨Setup.newTrack h 0, 0, 0⟩ : TrackRec) ∗ emp) by unfold blank; rw [if_neg hn])
  refine Triple.bind (t_fill_blank (P := ownTrack) (vs := (List.range n).map (Setup.newTrack h)) (by simp) ?_) fun _ => t_ret (imp_eq (sep_emp _))
  intro i v hv l hl
  refine step_put hl (step_calloc fun q => ?_)
  refine Triple.by ?_ (show _ = ((p ↦ _) ∗ (blank q 4 ({} : MarkerRec) ∗ emp)) by ac_rfl)
  refine step_put (get_set hl) ?_
  rw [List.set_set]
  refine Triple.by ?_ (show _ = (blank q 4 ({} : MarkerRec) ∗ ((p ↦ _) ∗ emp)) by ac_rfl)
  have hvv : v = Setup.newTrack h i := by
    rw [List.getElem?_map] at hv
    cases hg : (List.range n)[i]? with
    | none => rw [hg] at hv; cases hv
    | some a => rw [hg] at hv; cases hv; rw [range_get hg]
  subst hvv
  refine (t_fill_blank (P := ownMarker) (vs := (Setup.newTrack h i).markers) rfl ?_).imp imp_rfl fun _ m hm => ?_
  · intro j w hw l' hl'
    have : w = ⟨(j : Int) + 1, [], []⟩ := by
      unfold Setup.newTrack at hw
      rw [List.getElem?_map] at hw
      cases hg : (List.range 4)[j]? with
      | none => rw [hg] at hw; cases hw
      | some a => rw [hg] at hw; cases hw; rw [range_get hg]
    subst this
    exact t_newMarker _ hl'
  · refine ⟨⟨{ Setup.newTrack h i with markers := [] }, 4, q⟩, ?_⟩
    dsimp only
    unfold ownTrack
    have hw : withMarkers { Setup.newTrack h i with markers := [] } (Setup.newTrack h i).markers = Setup.newTrack h i := rfl
    rw [fact_true hw, emp_sep]
    exact imp_eq (by ac_rfl) m hm

theorem t_newFileSetup {h : Endian} : Triple emp (newFileSetup h) (fun q => ownSetup q (Setup.newSetup h)) := by
  unfold newFileSetup
  dsimp only
  refine step_alloc fun s => ?_
  refine Triple.by ?_ (sep_comm _ _)
  refine (t_tracksetupNew (by simp)).call fun p => ?_
  refine Triple.by ?_ (sep_comm _ _)
  refine step_store ?_
  refine Triple.by ?_ (emp_sep _).symm
  refine t_instsetupNew.call fun q => ?_
  refine Triple.by ?_ (show _ = ((s ↦ _) ∗ array ownTrack p 1 ((List.range 1).map (Setup.newTrack h)) ∗ array ownInst q 1 (Setup.newInstruments 1)) by ac_rfl)
  refine step_store (t_ret fun m hm => ?_)
  refine ⟨{ fileFormat := if h = .big then .aiffc else .wave, trackSet := false, instrumentSet := false, miscellaneousSet := false,
            trackCount := 1, tracks := p, instrumentCount := 1, instruments := q, miscellaneousCount := 0, miscellaneous := 0 },
    fact_sep.2 ⟨⟨rfl, rfl, rfl, rfl⟩, imp_eq ?_ m hm⟩⟩
  · rw [show (Setup.newSetup h).miscellaneous = [] from rfl, array_nil, fact_true ⟨rfl, rfl⟩, sep_emp]; rfl

theorem step_free_any {p : Ptr} {a : List Byte} {R : SL} {k : Unit → M β} {Q : β → SL} (h : Triple R (k ()) Q) :
    Triple ((p ↦ a) ∗ R) (free p >>= k) Q := step_free h

theorem t_setupFreeMarkers {p : Ptr} {l : List TrackRec} {i : Nat} {r : TrackRec} {v : Setup.TrackSetup} {C : SL} (hi : l[i]? = some r) :
    Triple ((p ↦ l) ∗ ownTrack r v ∗ C) (setupFreeMarkers p i) (fun _ => ex fun r' => (p ↦ l.set i r') ∗ C) := by
  unfold setupFreeMarkers ownTrack
  refine step_get hi ?_
  refine Triple.by ?_ (show _ = (fact (withMarkers r.fields v.markers = v) ∗ (array ownMarker r.markers r.markerCount v.markers ∗ ((p ↦ l) ∗ C))) by ac_rfl)
  refine t_fact fun hv => ?_
  refine Triple.bind (t_freeArray (C := (p ↦ l) ∗ C) ?_ ?_) fun _ => ?_
  · intro m hm
    have := (array_count m hm).1
    rw [this]
    cases v.markers <;> simp
  · intro j mk w hw l' hl'
    refine step_get hl' ?_
    unfold ownMarker
    refine Triple.by ?_ (show _ = (fact (mk.id = w.id) ∗ (mk.name ↦ w.name) ∗ (mk.comment ↦ w.comment) ∗ ((r.markers ↦ l') ∗ ((p ↦ l) ∗ C))) by ac_rfl)
    refine t_fact fun _ => step_free (lastly (step_free (t_ret fun m hm => ⟨mk, ?_⟩)))
    dsimp only; rw [set_self' hl']; exact hm
  exact lastly (step_put hi (t_ret fun m hm => ⟨_, hm⟩))

theorem t_freeFileSetup {s : Ptr} {S : Setup.Setup} : Triple (ownSetup s S) (freeFileSetup s) (fun _ => emp) := by
  unfold freeFileSetup setupFreeTracks ownSetup
  refine t_ex fun r => t_fact fun _ => ?_
  simp only [bind_assoc]
  refine step_load ?_
  refine Triple.by ?_ (show _ = (array ownTrack r.tracks r.trackCount S.tracks ∗ ((s ↦ r) ∗
    array ownInst r.instruments r.instrumentCount S.instruments ∗ array same r.miscellaneous r.miscellaneousCount S.miscellaneous)) by ac_rfl)
  refine Triple.bind (t_freeArray ?_ ?_) fun _ => ?_
  · intro m hm; have := (array_count m hm).2; simp [this]
  · intro j x w hw l' hl'
    exact t_setupFreeMarkers hl'
  refine step_store ?_
  refine step_freeInstruments (r := { r with tracks := 0, trackCount := 0 }) (step_load ?_)
  refine Triple.by ?_ (sep_comm _ _)
  rw [array_same, sep_assoc]
  refine t_fact fun hc => ?_
  dsimp only
  unfold cloned onlyIf
  by_cases hv : S.miscellaneous = []
  · rw [if_pos hv, if_neg (by simp [hc, hv])]
    refine t_fact fun _ => ?_
    rw [pure_bind]
    refine Triple.by ?_ (sep_emp _).symm
    exact lastly (step_free (t_ret imp_rfl))
  · rw [if_neg hv, if_pos (by rw [hc]; cases h : S.miscellaneous <;> simp_all)]
    simp only [bind_assoc]
    refine step_free ?_
    refine Triple.by ?_ (sep_emp _).symm
    exact step_store (lastly (step_free (t_ret imp_rfl)))

/-! ## Copies -/

section
variable [Content (List ρ)]

theorem array_cloned {P : ρ → ν → SL} {p : Ptr} {n : Nat} {vs : List ν} :
    array P p n vs = ex fun rs : List ρ => fact (n = vs.length ∧ rs.length = vs.length) ∗ cloned p rs ∗ each P rs vs := by
  funext m
  apply propext
  by_cases hv : vs = []
  · subst hv
    rw [array_nil]
    constructor
    · rintro ⟨h, e⟩
      refine ⟨[], fact_sep.2 ⟨⟨h.2, rfl⟩, ?_⟩⟩
      unfold cloned
      rw [if_pos rfl, fact_true h.1, emp_sep]
      exact e
    · rintro ⟨rs, h⟩
      obtain ⟨⟨h1, h2⟩, h3⟩ := fact_sep.1 h
      have : rs = [] := List.eq_nil_of_length_eq_zero h2
      subst this
      unfold cloned at h3
      rw [if_pos rfl] at h3
      obtain ⟨h4, h5⟩ := fact_sep.1 h3
      exact ⟨⟨h4, h1⟩, h5⟩
  · rw [array_some hv]
    constructor
    · rintro ⟨rs, h⟩
      obtain ⟨h1, h2⟩ := fact_sep.1 h
      have hl : rs.length = vs.length := by
        obtain ⟨_, b, -, -, -, hb⟩ := h2
        exact each_length b hb
      refine ⟨rs, fact_sep.2 ⟨⟨h1, hl⟩, ?_⟩⟩
      unfold cloned
      rw [if_neg (by rintro rfl; exact hv (List.eq_nil_of_length_eq_zero hl.symm))]
      exact h2
    · rintro ⟨rs, h⟩
      obtain ⟨⟨h1, hl⟩, h2⟩ := fact_sep.1 h
      refine ⟨rs, fact_sep.2 ⟨h1, ?_⟩⟩
      unfold cloned at h2
      rw [if_neg (by rintro rfl; exact hv (List.eq_nil_of_length_eq_zero hl.symm))] at h2
      exact h2

theorem step_alloccopy {p : Ptr} {rs : List ρ} {c : Nat} {R : SL} {k : Ptr → M β} {Q : β → SL} (hc : c ≤ rs.length)
    (h : ∀ q, Triple (cloned q (rs.take c) ∗ (cloned p rs ∗ R)) (k q) Q) : Triple (cloned p rs ∗ R) (alloccopy ρ c p >>= k) Q := by
  unfold alloccopy
  by_cases h0 : c = 0
  · rw [if_pos h0, pure_bind]
    subst h0
    refine (h 0).pre fun m hm => ?_
    rw [List.take_zero]
    rw [show cloned (0 : Ptr) ([] : List ρ) = emp by unfold cloned; rw [if_pos rfl, fact_true rfl], emp_sep]
    exact hm
  · rw [if_neg h0]
    have hne : rs ≠ [] := by rintro rfl; simp at hc; exact h0 hc
    have hne' : rs.take c ≠ [] := by
      intro h; have := congrArg List.length h; rw [List.length_take] at this; simp only [List.length_nil] at this; omega
    have e : cloned p rs = (p ↦ rs) := by unfold cloned; rw [if_neg hne]
    rw [e] at h ⊢
    rw [bind_assoc]
    refine step_load ?_
    rw [if_pos hc]
    refine step_alloc fun q => ?_
    have := h q
    unfold cloned at this
    rwa [if_neg hne'] at this

theorem step_getC {p : Ptr} {rs : List ρ} {i : Nat} {r : ρ} {R : SL} {k : ρ → M β} {Q : β → SL} (hi : rs[i]? = some r)
    (h : Triple (cloned p rs ∗ R) (k r) Q) : Triple (cloned p rs ∗ R) (getAt p i >>= k) Q := by
  have hne : rs ≠ [] := by rintro rfl; simp at hi
  unfold cloned at h ⊢
  rw [if_neg hne] at h ⊢
  exact step_get hi h

end

theorem t_openArray [Content (List ρ)] {P : ρ → ν → SL} {p : Ptr} {n : Nat} {vs : List ν} {R : SL} {c : M α} {Q : α → SL}
    (h : ∀ rs : List ρ, n = vs.length → rs.length = vs.length → Triple (cloned p rs ∗ each P rs vs ∗ R) c Q) : Triple (array P p n vs ∗ R) c Q := by
  rw [array_cloned, ex_sep]
  refine t_ex fun rs => ?_
  rw [sep_assoc, sep_assoc]
  exact t_fact fun e => h rs e.1 e.2

theorem closeArray [Content (List ρ)] {P : ρ → ν → SL} {p : Ptr} {n : Nat} {vs : List ν} {rs : List ρ} (h : n = vs.length) (h' : rs.length = vs.length) :
    Imp (cloned p rs ∗ each P rs vs) (array P p n vs) := by
  intro m hm
  rw [array_cloned]
  exact ⟨rs, fact_sep.2 ⟨⟨h, h'⟩, hm⟩⟩

theorem closeSame [Content (List ρ)] {p : Ptr} {n : Nat} {vs : List ρ} (h : n = vs.length) : Imp (cloned p vs) (array same p n vs) := by
  intro m hm
  rw [array_same]
  exact fact_sep.2 ⟨h, hm⟩

theorem t_openSetup {s : Ptr} {S : Setup.Setup} {R : SL} {c : M α} {Q : α → SL}
    (h : ∀ r : SetupRec, Fields r S → Triple ((s ↦ r) ∗ array ownTrack r.tracks r.trackCount S.tracks ∗
      array ownInst r.instruments r.instrumentCount S.instruments ∗ array same r.miscellaneous r.miscellaneousCount S.miscellaneous ∗ R) c Q) :
    Triple (ownSetup s S ∗ R) c Q := by
  unfold ownSetup
  rw [ex_sep]
  refine t_ex fun r => ?_
  rw [sep_assoc]
  exact t_fact fun hf => (h r hf).by (by ac_rfl)

theorem closeSetup {s : Ptr} {S : Setup.Setup} {r : SetupRec} (hf : Fields r S) :
    Imp ((s ↦ r) ∗ array ownTrack r.tracks r.trackCount S.tracks ∗ array ownInst r.instruments r.instrumentCount S.instruments ∗
      array same r.miscellaneous r.miscellaneousCount S.miscellaneous) (ownSetup s S) :=
  fun _ hm => ⟨r, fact_sep.2 ⟨hf, hm⟩⟩

/-- A marker is copied: its record has been, and the texts follow. -/
theorem t_copyMarker {q : Ptr} {l : List MarkerRec} {j : Nat} {m : MarkerRec} {w : Setup.MarkerSetup} {C : SL} (hj : l[j]? = some m) :
    Triple ((q ↦ l) ∗ ownMarker m w ∗ C) (do
        let text : List Byte ← load m.name
        let a ← alloc text
        setAt (ρ := MarkerRec) q j fun x => { x with name := a }
        let text : List Byte ← load m.comment
        let a ← alloc text
        setAt (ρ := MarkerRec) q j fun x => { x with comment := a })
      (fun _ => ex fun r => (q ↦ l.set j r) ∗ ownMarker r w ∗ (ownMarker m w ∗ C)) := by
  unfold ownMarker
  refine Triple.by ?_ (show _ = (fact (m.id = w.id) ∗ (m.name ↦ w.name) ∗ ((q ↦ l) ∗ (m.comment ↦ w.comment) ∗ C)) by ac_rfl)
  refine t_fact fun hid => step_load (step_alloc fun a => ?_)
  refine Triple.by ?_ (show _ = ((q ↦ l) ∗ ((a ↦ w.name) ∗ (m.name ↦ w.name) ∗ (m.comment ↦ w.comment) ∗ C)) by ac_rfl)
  refine step_put hj ?_
  refine Triple.by ?_ (sl4 _ _ _ _ _)
  refine step_load (step_alloc fun b => ?_)
  refine Triple.by ?_ (sl3 _ _ _ _)
  refine lastly (step_put (get_set hj) (t_ret fun s hs => ⟨⟨m.id, a, b⟩, ?_⟩))
  rw [List.set_set] at hs
  dsimp only
  rw [fact_true hid, emp_sep, emp_sep]
  exact imp_eq (by ac_rfl) s hs

/-- The markers of a track are copied. -/
theorem t_copyMarkers {q p : Ptr} {ms : List MarkerRec} {vs : List Setup.MarkerSetup} {C : SL} {n : Nat} (hn : n = vs.length)
    (hl : ms.length = vs.length) :
    Triple (cloned q ms ∗ (cloned p ms ∗ each ownMarker ms vs ∗ C)) (forRange n fun j => do
        let m : MarkerRec ← getAt p j
        let text : List Byte ← load m.name
        let a ← alloc text
        setAt (ρ := MarkerRec) q j fun x => { x with name := a }
        let text : List Byte ← load m.comment
        let a ← alloc text
        setAt (ρ := MarkerRec) q j fun x => { x with comment := a })
      (fun _ => array ownMarker q n vs ∗ (cloned p ms ∗ each ownMarker ms vs ∗ C)) := by
  refine t_fill_cloned (P := ownMarker) hn hl fun j m w hm hw l hj => ?_
  refine Triple.by ?_ (show _ = (cloned p ms ∗ (q ↦ l) ∗ each ownMarker ms vs ∗ C) by ac_rfl)
  refine step_getC hm ?_
  obtain ⟨R, e, -⟩ := each_split (P := ownMarker) hm hw
  rw [e]
  refine (t_copyMarker (C := cloned p ms ∗ R ∗ C) hj).imp (imp_eq (by ac_rfl)) fun _ s hs => ?_
  obtain ⟨r, hs⟩ := hs
  exact ⟨r, imp_eq (by ac_rfl) s hs⟩

/-- The body of the loop over tracks. -/
theorem t_copyTrack {pt p : Ptr} {l rs : List TrackRec} {i : Nat} {r : TrackRec} {v : Setup.TrackSetup} {copyMarks : Bool} {C : SL}
    (hr : rs[i]? = some r) (hl : l[i]? = some r) :
    Triple ((pt ↦ l) ∗ cloned p rs ∗ ownTrack r v ∗ C) (do
        let old : TrackRec ← getAt p i
        if !old.fields.markersSet ∧ !copyMarks then
          setAt (ρ := TrackRec) pt i fun tr => { tr with markers := 0, markerCount := 0 }
        else
          let q ← alloccopy MarkerRec old.markerCount old.markers
          setAt (ρ := TrackRec) pt i fun tr => { tr with markers := q, markerCount := old.markerCount }
          forRange old.markerCount fun j => do
            let m : MarkerRec ← getAt old.markers j
            let text : List Byte ← load m.name
            let a ← alloc text
            setAt (ρ := MarkerRec) q j fun x => { x with name := a }
            let text : List Byte ← load m.comment
            let a ← alloc text
            setAt (ρ := MarkerRec) q j fun x => { x with comment := a })
      (fun _ => ex fun r' => (pt ↦ l.set i r') ∗ ownTrack r' (if !v.markersSet ∧ !copyMarks then { v with markers := [] } else v) ∗
        (cloned p rs ∗ ownTrack r v ∗ C)) := by
  refine Triple.by ?_ (show _ = (cloned p rs ∗ (pt ↦ l) ∗ ownTrack r v ∗ C) by ac_rfl)
  refine step_getC hr ?_
  unfold ownTrack
  refine Triple.by ?_ (show _ = (fact (withMarkers r.fields v.markers = v) ∗ ((pt ↦ l) ∗ array ownMarker r.markers r.markerCount v.markers ∗ cloned p rs ∗ C)) by ac_rfl)
  refine t_fact fun hv => ?_
  have hms : v.markersSet = r.fields.markersSet := by rw [← hv]; rfl
  refine t_ite (fun h => ?_) (fun h => ?_)
  · have h' : (!v.markersSet) = true ∧ (!copyMarks) = true := by rw [hms]; exact h
    simp only [if_pos h']
    refine lastly (step_put hl (t_ret fun m hm => ⟨{ r with markers := 0, markerCount := 0 }, ?_⟩))
    dsimp only
    have hw : withMarkers r.fields [] = { v with markers := [] } := by rw [← hv]; rfl
    rw [array_nil, fact_true (show (0 : Ptr) = 0 ∧ (0 : Nat) = 0 from ⟨rfl, rfl⟩), fact_true hv, fact_true hw, emp_sep, emp_sep, emp_sep]
    exact imp_eq (by ac_rfl) m hm
  · have h' : ¬ ((!v.markersSet) = true ∧ (!copyMarks) = true) := by rw [hms]; exact h
    simp only [if_neg h']
    refine Triple.by ?_ (show _ = (array ownMarker r.markers r.markerCount v.markers ∗ ((pt ↦ l) ∗ cloned p rs ∗ C)) by ac_rfl)
    refine Triple.pre (P' := (ex fun ms : List MarkerRec => fact (r.markerCount = v.markers.length ∧ ms.length = v.markers.length) ∗
      cloned r.markers ms ∗ each ownMarker ms v.markers) ∗ ((pt ↦ l) ∗ cloned p rs ∗ C)) ?_ (imp_eq (by rw [array_cloned]))
    rw [ex_sep]
    · refine t_ex fun ms => ?_
      refine Triple.by ?_ (show _ = (fact (r.markerCount = v.markers.length ∧ ms.length = v.markers.length) ∗
        (cloned r.markers ms ∗ (pt ↦ l) ∗ each ownMarker ms v.markers ∗ cloned p rs ∗ C)) by ac_rfl)
      refine t_fact fun ⟨hc, hlen⟩ => ?_
      refine step_alloccopy (by omega) fun q => ?_
      rw [List.take_of_length_le (by omega)]
      refine Triple.by ?_ (show _ = ((pt ↦ l) ∗ cloned q ms ∗ cloned r.markers ms ∗ each ownMarker ms v.markers ∗ cloned p rs ∗ C) by ac_rfl)
      refine step_put hl ?_
      refine (t_copyMarkers (C := cloned p rs ∗ C ∗ (pt ↦ _)) hc hlen).imp (imp_eq (by ac_rfl)) fun _ m hm =>
        ⟨{ r with markers := q, markerCount := r.markerCount }, ?_⟩
      dsimp only
      rw [fact_true hv, emp_sep, emp_sep]
      have hm2 := imp_eq (show _ = ((cloned r.markers ms ∗ each ownMarker ms v.markers) ∗
        (array ownMarker q r.markerCount v.markers ∗ cloned p rs ∗ C ∗ (pt ↦ _))) by ac_rfl) m hm
      have hm3 := imp_sep (P' := array ownMarker r.markers r.markerCount v.markers) (fun m h => by
        rw [array_cloned]; exact ⟨ms, fact_sep.2 ⟨⟨hc, hlen⟩, h⟩⟩) imp_rfl m hm2
      exact imp_eq (by ac_rfl) m hm3

/-- `_af_filesetup_copy`: the copy has blocks of its own, and the setup is as it was. -/
theorem t_filesetupCopy {s : Ptr} {S : Setup.Setup} {fmt : Setup.FileFormat} {k : Nat} {b : Bool} (hi : Setup.Inv S)
    (hk : S.instrumentSet = false → k ≤ S.instruments.length) :
    Triple (ownSetup s S) (filesetupCopy s fmt k b) (fun q => ownSetup q (Setup.filesetupCopy S fmt k b) ∗ ownSetup s S) := by
  obtain ⟨tr, ht, -⟩ := hi.track
  unfold filesetupCopy
  dsimp only
  refine step_alloc fun n => ?_
  refine Triple.by ?_ (sep_comm _ _)
  refine t_openSetup fun r hf => step_load ?_
  refine Triple.by ?_ (sl2 _ _ _)
  refine t_openArray fun ts htc htl => ?_
  have htc1 : r.trackCount = 1 := by rw [htc, ht]; rfl
  have htl1 : ts.length = 1 := by rw [htl, ht]; rfl
  have etc : (if r.trackSet = true then r.trackCount else 1) = 1 := by rw [htc1]; split <;> rfl
  rw [etc]
  refine step_alloccopy (by omega) fun pt => ?_
  rw [List.take_of_length_le (by omega)]
  refine Triple.by ?_ (sl5 _ _ _ _ _ _)
  refine t_openArray fun is hic hil => ?_
  have hcount : (if r.instrumentSet = true then r.instrumentCount else k) ≤ S.instruments.length := by
    rw [hf.instruments]
    split
    · omega
    · rename_i h; exact hk (by simpa using h)
  have ecc : Setup.filesetupCopy S fmt k b =
      { fileFormat := fmt, trackSet := true, instrumentSet := true, miscellaneousSet := true
        tracks := S.tracks.map fun tr => if !tr.markersSet ∧ !b then { tr with markers := [] } else tr
        instruments := S.instruments.take (if r.instrumentSet = true then r.instrumentCount else k), miscellaneous := S.miscellaneous } := by
    unfold Setup.filesetupCopy
    have e1 : S.tracks.take (if S.trackSet then S.tracks.length else 1) = S.tracks := by
      rw [ht]; split <;> rfl
    have e3 : S.miscellaneous.take (if S.miscellaneousSet = true then S.miscellaneous.length else 0) = S.miscellaneous := by
      split
      · exact List.take_of_length_le (Nat.le_refl _)
      · rename_i h; rw [hi.noMisc (by simpa using h)]; rfl
    dsimp only
    rw [e1, e3, hf.instruments, hic]
  rw [ecc]
  generalize (if r.instrumentSet = true then r.instrumentCount else k) = c at hcount
  refine step_alloccopy (by omega) fun pi => ?_
  refine Triple.by ?_ (show _ = (array same r.miscellaneous r.miscellaneousCount S.miscellaneous ∗ (cloned pi (is.take c) ∗ cloned r.instruments is ∗
    each ownInst is S.instruments ∗ cloned pt ts ∗ cloned r.tracks ts ∗ each ownTrack ts S.tracks ∗ (s ↦ r) ∗ (n ↦ defaultSetup fmt k))) by ac_rfl)
  rw [array_same, sep_assoc]
  refine t_fact fun hmc => ?_
  have emc : (if r.miscellaneousSet = true then r.miscellaneousCount else 0) = S.miscellaneous.length := by
    rw [hf.misc]
    split
    · exact hmc
    · rename_i h; rw [hi.noMisc (by simpa using h)]; rfl
  rw [emc]
  refine step_alloccopy (Nat.le_refl _) fun pm => ?_
  rw [List.take_of_length_le (Nat.le_refl _)]
  refine Triple.by ?_ (show _ = ((n ↦ defaultSetup fmt k) ∗ (cloned pt ts ∗ (cloned r.tracks ts ∗ each ownTrack ts S.tracks ∗
    (cloned pi (is.take c) ∗ cloned pm S.miscellaneous ∗ cloned r.instruments is ∗ each ownInst is S.instruments ∗
      cloned r.miscellaneous S.miscellaneous ∗ (s ↦ r))))) by ac_rfl)
  refine step_store ?_
  refine Triple.by ?_ (sl2 _ _ _)
  generalize hd : ({ defaultSetup fmt k with trackCount := 1, tracks := pt, instrumentCount := c, instruments := pi, miscellaneousCount := S.miscellaneous.length, miscellaneous := pm } : SetupRec) = d
  -- tracks
  generalize hC : (cloned pi (is.take c) ∗ cloned pm S.miscellaneous ∗ cloned r.instruments is ∗ each ownInst is S.instruments ∗
      cloned r.miscellaneous S.miscellaneous ∗ (s ↦ r)) = C
  refine Triple.bind (t_fill_cloned (P := ownTrack) (vs := S.tracks.map fun tr =>
    if !tr.markersSet ∧ !b then { tr with markers := [] } else tr) (by simp [htc]) (by simp [htl]) ?_) fun _ => ?_
  · intro i r0 v h1 h2 l hl
    rw [List.getElem?_map] at h2
    cases hg : S.tracks[i]? with
    | none => rw [hg] at h2; cases h2
    | some w =>
      rw [hg] at h2
      cases h2
      obtain ⟨R, e, -⟩ := each_split (P := ownTrack) h1 hg
      rw [e]
      refine (t_copyTrack (v := w) (copyMarks := b) (C := R ∗ C ∗ (n ↦ d)) h1 hl).imp (imp_eq (by ac_rfl)) fun _ m hm => ?_
      obtain ⟨r', hm⟩ := hm
      exact ⟨r', imp_eq (by ac_rfl) m hm⟩
  -- instruments
  rw [← hC]
  generalize hT : (S.tracks.map fun tr => if !tr.markersSet ∧ !b then { tr with markers := [] } else tr) = T
  refine Triple.by ?_ (show _ = (cloned pi (is.take c) ∗ (cloned r.instruments is ∗ each ownInst is S.instruments ∗
    (cloned pm S.miscellaneous ∗ cloned r.miscellaneous S.miscellaneous ∗ (s ↦ r) ∗ (n ↦ d) ∗ cloned r.tracks ts ∗
      each ownTrack ts S.tracks ∗ array ownTrack pt r.trackCount T))) by ac_rfl)
  generalize hC' : (cloned pm S.miscellaneous ∗ cloned r.miscellaneous S.miscellaneous ∗ (s ↦ r) ∗ (n ↦ d) ∗ cloned r.tracks ts ∗
      each ownTrack ts S.tracks ∗ array ownTrack pt r.trackCount T) = C'
  refine Triple.bind (t_fill_cloned (P := ownInst) (vs := S.instruments.take c) (by simp; omega) (by simp; omega) ?_) fun _ => ?_
  · intro i r0 v h1 h2 l hl
    have hlt : i < c := by
      rcases Nat.lt_or_ge i c with h | h
      · exact h
      · rw [List.getElem?_eq_none (by simp; omega)] at h1; cases h1
    rw [List.getElem?_take_of_lt hlt] at h1 h2
    refine Triple.by ?_ (sl2 _ _ _)
    refine step_getC h1 ?_
    obtain ⟨R, e, -⟩ := each_split (P := ownInst) h1 h2
    rw [e]
    unfold ownInst
    rw [array_same]
    refine Triple.by ?_ (show _ = (fact (r0.id = v.id ∧ r0.loopSet = v.loopSet) ∗ fact (r0.loopCount = v.loops.length) ∗
      cloned r0.loops v.loops ∗ (pi ↦ l) ∗ cloned r.instruments is ∗ R ∗ C') by ac_rfl)
    refine t_fact fun h3 => t_fact fun h4 => step_alloccopy (by omega) fun q => ?_
    rw [List.take_of_length_le (by omega)]
    refine Triple.by ?_ (sl3 _ _ _ _)
    refine lastly (step_put hl (t_ret fun m hm => ⟨{ r0 with loops := q }, ?_⟩))
    dsimp only
    rw [array_same, fact_true h3, fact_true h4]
    simp only [emp_sep]
    exact imp_eq (by ac_rfl) m hm
  rw [← hC']
  refine t_ret fun m hm => ?_
  have hm2 := imp_eq (show _ = (((n ↦ d) ∗ array ownTrack pt r.trackCount T ∗ array ownInst pi c (S.instruments.take c) ∗ cloned pm S.miscellaneous) ∗
    ((s ↦ r) ∗ (cloned r.tracks ts ∗ each ownTrack ts S.tracks) ∗ (cloned r.instruments is ∗ each ownInst is S.instruments) ∗
      cloned r.miscellaneous S.miscellaneous)) by ac_rfl) m hm
  refine imp_sep (fun m hm => ?_) (fun m hm => ?_) m hm2
  · have ef : Fields d { fileFormat := fmt, trackSet := true, instrumentSet := true, miscellaneousSet := true, tracks := T,
                         instruments := S.instruments.take c, miscellaneous := S.miscellaneous } := by
      rw [← hd]; exact ⟨rfl, rfl, rfl, rfl⟩
    refine closeSetup ef m ?_
    subst hd
    rw [htc1] at hm
    exact imp_sep imp_rfl (imp_sep imp_rfl (imp_sep imp_rfl (closeSame rfl))) m hm
  · exact closeSetup hf m (imp_sep imp_rfl (imp_sep (closeArray htc htl) (imp_sep (closeArray hic hil) (closeSame hmc))) m hm)

theorem ownTrack_bare {t : TrackRec} {v : Setup.TrackSetup} (hw : withMarkers t.fields v.markers = v) :
    ownTrack { t with markerCount := 0, markers := 0 } { v with markers := [] } = emp := by
  unfold ownTrack
  have h : withMarkers t.fields [] = { v with markers := [] } := by rw [← hw]; rfl
  dsimp only
  rw [fact_true h, array_nil, fact_true ⟨rfl, rfl⟩, emp_sep]

/-- The copy that `RawFile::completeSetup` makes. -/
theorem t_rawCopy {s : Ptr} {S : Setup.Setup} {tr : Setup.TrackSetup} (ht : S.tracks = [tr]) :
    Triple (ownSetup s S) (rawCopy s) (fun q => ownSetup q
      { fileFormat := .raw, trackSet := true, instrumentSet := true, miscellaneousSet := true
        tracks := [{ tr with markers := [] }], instruments := [], miscellaneous := [] } ∗ ownSetup s S) := by
  unfold rawCopy
  refine step_alloc fun n => ?_
  refine Triple.by ?_ (sep_comm _ _)
  refine t_openSetup fun r hf => step_load ?_
  refine Triple.by ?_ (sl2 _ _ _)
  refine t_openArray fun ts htc htl => ?_
  have hl1 : ts.length = 1 := by rw [htl, ht]; rfl
  obtain ⟨t, rfl⟩ : ∃ t, ts = [t] := List.length_eq_one_iff.1 hl1
  refine step_getC (i := 0) rfl (step_alloc fun p => ?_)
  rw [ht] at htc htl
  refine Triple.pre (P' := _) ?_ (imp_eq (show _ = _ by rw [ht, each_one]))
  refine Triple.by ?_ (show _ = ((ownTrack t tr) ∗ (n ↦ defaultSetup .raw 0) ∗ (p ↦ [{ t with markerCount := 0, markers := 0 }]) ∗ (s ↦ r) ∗ cloned r.tracks [t] ∗
    array ownInst r.instruments r.instrumentCount S.instruments ∗ array same r.miscellaneous r.miscellaneousCount S.miscellaneous) by ac_rfl)
  refine t_know (φ := withMarkers t.fields tr.markers = tr) track_id fun hw => ?_
  refine Triple.by ?_ (sl2 _ _ _)
  refine step_store (t_ret fun m hm => ?_)
  have hm2 := imp_eq (show _ = (((n ↦ { defaultSetup .raw 0 with tracks := p }) ∗ (p ↦ [{ t with markerCount := 0, markers := 0 }])) ∗
    ((s ↦ r) ∗ (cloned r.tracks [t] ∗ ownTrack t tr) ∗ array ownInst r.instruments r.instrumentCount S.instruments ∗
      array same r.miscellaneous r.miscellaneousCount S.miscellaneous)) by ac_rfl) m hm
  refine imp_sep (fun m hm => ?_) (fun m hm => ?_) m hm2
  · refine closeSetup (r := { defaultSetup .raw 0 with tracks := p }) ⟨rfl, rfl, rfl, rfl⟩ m ?_
    dsimp only
    rw [show (defaultSetup .raw 0).instruments = 0 from rfl, show (defaultSetup .raw 0).miscellaneous = 0 from rfl,
      show (defaultSetup .raw 0).instrumentCount = 0 from rfl, show (defaultSetup .raw 0).miscellaneousCount = 0 from rfl,
      show (defaultSetup .raw 0).trackCount = 1 from rfl]
    rw [array_nil, array_nil, fact_true ⟨rfl, rfl⟩, emp_sep, sep_emp]
    refine imp_sep imp_rfl ?_ m hm
    intro m hm
    refine array_intro (P := ownTrack) (rs := [{ t with markerCount := 0, markers := 0 }]) (by simp) m ?_
    rw [each_one, ownTrack_bare hw, sep_emp]
    exact hm
  · refine closeSetup hf m (imp_sep imp_rfl (imp_sep ?_ imp_rfl) m hm)
    rw [ht]
    have := closeArray (P := ownTrack) (p := r.tracks) (n := r.trackCount) (vs := [tr]) (rs := [t]) htc htl
    rw [each_one] at this
    exact this

end AF.Heap
