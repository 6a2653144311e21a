import Verif.Proof.Heap.OpenFill
/-! A file is opened for writing. -/
namespace AF.Heap
open AF.Setup (AFmt Inv)

variable {α β ρ ν : Type}

theorem t_initCompressionParams {h : Ptr} {r : HandleRec} {v : TrackVal} {C : SL} :
    Triple ((h ↦ r) ∗ array freshTrack r.tracks r.trackCount [v] ∗ C) (initCompressionParams h)
      (fun _ => (h ↦ r) ∗ array ownHTrack r.tracks r.trackCount [v] ∗ C) := by
  unfold initCompressionParams
  refine step_load ?_
  refine Triple.by ?_ (sl2 _ _ _)
  refine t_openArray fun rs hc hl => ?_
  obtain ⟨t, rfl⟩ := List.length_eq_one_iff.1 hl
  refine step_getC (r := t) rfl ?_
  dsimp only
  rw [show cloned r.tracks [t] = (r.tracks ↦ [t]) from if_neg (by simp), each_one]
  refine lastly (step_when (R := (h ↦ r) ∗ array ownHTrack r.tracks r.trackCount [v] ∗ C) (fun _ => ?_) (fun _ => ?_) (t_ret imp_rfl))
  · refine step_alloc fun pv => ?_
    refine Triple.by ?_ (sl2 _ _ _)
    refine lastly (step_put rfl (t_ret fun m hm => ?_))
    unfold freshTrack at hm
    have hm := imp_eq (sl_three _ _ _ _ _ _) m hm
    obtain ⟨hf, hm⟩ := fact_sep.1 hm
    have e : ownHTrack { t with fparams := pv } v = ((ex fun p : Option (List (Int × BitVec 64)) => optional pv p) ∗ optional t.matrix v.matrix ∗
        array ownHMarker t.markers t.markerCount (v.track.markers.zip v.names)) := by
      unfold ownHTrack
      dsimp only
      rw [fact_true ⟨hf.1.1, hf.1.2, hf.1.3, hf.1.4, hf.1.5, hf.1.6, hf.1.7⟩, emp_sep]
    have ho : Imp (pv ↦ ([] : List (Int × BitVec 64))) (ex fun p : Option (List (Int × BitVec 64)) => optional pv p) := fun m hm => ⟨some [], hm⟩
    have hm := imp_sep imp_rfl (imp_sep ho imp_rfl) m hm
    have hm := imp_eq (sl_swap _ _ _ _ _ _) m hm
    rw [← e] at hm
    rw [sl2]
    refine imp_sep ?_ imp_rfl m hm
    intro m hm
    rw [array_some (by simp)]
    refine ⟨[{ t with fparams := pv }], fact_sep.2 ⟨hc, ?_⟩⟩
    rw [each_one]
    exact hm
  · intro m hm
    rw [← sep_assoc] at hm
    rw [sl2]
    refine imp_sep ?_ imp_rfl m hm
    intro m hm
    have hm := imp_sep imp_rfl (freshTrack_own t v) m hm
    rw [array_some (by simp)]
    refine ⟨[t], fact_sep.2 ⟨hc, ?_⟩⟩
    rw [each_one]
    exact hm
where
  sl_three (A F B D E G : SL) : (A ∗ F ∗ (B ∗ D ∗ E) ∗ G) = (B ∗ A ∗ F ∗ D ∗ E ∗ G) := by ac_rfl
  sl_swap (A F D E G H : SL) : (A ∗ F ∗ D ∗ E ∗ G ∗ H) = ((A ∗ F ∗ D ∗ E) ∗ G ∗ H) := by ac_rfl

def userV (user : Option AFmt) (f : AFmt) : AFmt :=
  match user with
  | none => f
  | some u => { f with sampleFormat := u.sampleFormat, pcm := u.pcm, rate := u.rate }

/-- The virtual format at first. -/
def firstV (e : Endian) (user : Option AFmt) (f : AFmt) : AFmt :=
  { userV user f with compression := Setup.NONE, byteOrder := Setup.native e }

def withV (x : TrackVal) (v : AFmt) : TrackVal := { x with v := v }

theorem t_initVirtual {e : Endian} {user : Option AFmt} {h : Ptr} {r : HandleRec} {vs : List TrackVal} {C : SL} :
    Triple ((h ↦ r) ∗ array ownHTrack r.tracks r.trackCount vs ∗ C) (initVirtual e h user)
      (fun _ => (h ↦ r) ∗ array ownHTrack r.tracks r.trackCount (vs.map fun x => withV x (firstV e user x.f)) ∗ C) := by
  unfold initVirtual
  refine step_load ?_
  refine Triple.by ?_ (sl2 _ _ _)
  refine (t_each (P := ownHTrack) (P' := ownHTrack) (vs' := vs.map fun x => withV x (firstV e user x.f)) (by simp) ?_).imp imp_rfl fun _ => imp_eq (sl2 _ _ _)
  intro i t v v' hv hv' l hl
  rw [List.getElem?_map, hv] at hv'
  cases hv'
  refine step_put hl ?_
  have fin : ∀ m, ((r.tracks ↦ l.set i { t with v := firstV e user t.f, vparams := 0 }) ∗ ownHTrack t v ∗ ((h ↦ r) ∗ C)) m →
      (ex fun r' => (r.tracks ↦ l.set i r') ∗ ownHTrack r' (withV v (firstV e user v.f)) ∗ ((h ↦ r) ∗ C)) m := by
    intro m hm
    refine ⟨{ t with v := firstV e user t.f, vparams := 0 }, ?_⟩
    refine imp_sep imp_rfl (imp_sep ?_ imp_rfl) m hm
    intro m hm
    unfold ownHTrack at hm ⊢
    obtain ⟨hf, hm⟩ := fact_sep.1 hm
    refine fact_sep.2 ⟨⟨hf.1, hf.2, ?_, rfl, hf.5, hf.6, hf.7⟩, hm⟩
    show firstV e user t.f = firstV e user v.f
    rw [hf.2]
  cases user with
  | none =>
    refine lastly (step_put (get_set hl) (t_ret fun m hm => fin m ?_))
    rw [List.set_set] at hm
    exact hm
  | some u =>
    refine step_put (get_set hl) (lastly (step_put (get_set (get_set hl)) (t_ret fun m hm => fin m ?_)))
    rw [List.set_set, List.set_set] at hm
    exact hm

/-- The handle that is made for a completed setup. -/
def openedVal (e : Endian) (user : Option AFmt) (c : Setup.Setup) : HandleVal :=
  { access := .write, family := c.fileFormat.family
    tracks := (c.tracks.map newTrackVal).map fun x => withV x (firstV e user x.f)
    instruments := c.instruments.map (newInst c.fileFormat.family), misc := c.miscellaneous.map newMisc }

theorem openedVal_eq {e : Endian} {S c : Setup.Setup} (hc : (Setup.complete e S).2 = some c) {tr : Setup.TrackSetup} (ht : c.tracks = [tr]) :
    (Setup.openWrite e S).2.map HandleVal.ofOpened = some (openedVal e (S.tracks.head?.map (·.f)) c) := by
  unfold Setup.openWrite
  dsimp only
  rw [hc]
  unfold HandleVal.ofOpened openedVal Setup.initFromSetup
  simp only [Option.map_some, ht, List.map_cons, List.map_nil, List.zip_cons_cons, List.zip_nil_right]
  rfl

/-- Memory after an attempt to open a file for writing: the null pointer, or a handle; and the caller's setup, whose format may
have been changed. -/
theorem t_openWrite {e : Endian} {s : Ptr} {S : Setup.Setup} {written codec : Bool} (hi : Inv S) (hn : NoLoopSet S) :
    Triple (ownSetup s S) (openWrite e s written codec) (fun h =>
      (match (if written ∧ codec then (Setup.openWrite e S).2 else none) with
        | none => fact (h = 0)
        | some o => ownHandle h (HandleVal.ofOpened o)) ∗ ownSetup s (Setup.openWrite e S).1) := by
  obtain ⟨tr, ht, hid⟩ := hi.track
  obtain ⟨f, h1, h2⟩ := Setup.complete_shape e ht hid hi
  unfold openWrite
  refine Triple.bind t_readSetup fun S' => t_fact fun hS => ?_
  subst hS
  refine Triple.bind (t_setScalar (fun _ _ => rfl)) fun _ => ?_
  have hs1 : S'.onTrack Setup.DEFAULT_TRACK (fun tr => { tr with f := ((Setup.complete e S').1.tracks.head?.map (·.f)).getD tr.f }) = (Setup.complete e S').1 := by
    rw [Setup.onTrack_one ht, if_pos hid, h1]
    rfl
  rw [hs1]
  have e1 : (Setup.openWrite e S').1 = (Setup.complete e S').1 := rfl
  rw [e1]
  cases hc : (Setup.complete e S').2 with
  | none =>
    have e2 : (Setup.openWrite e S').2 = none := by unfold Setup.openWrite; dsimp only; rw [hc]; rfl
    have e3 : (if written = true ∧ codec = true then (none : Option Setup.Opened) else none) = none := by split <;> rfl
    simp only [e2, e3, Option.isNone_none, if_true]
    exact t_ret fun m hm => fact_sep.2 ⟨rfl, hm⟩
  | some c =>
    simp only [Option.isNone_some, Bool.false_eq_true, if_false]
    refine Triple.bind (t_copySetup hi hn hc) fun q => ?_
    generalize (Setup.complete e S').1 = S1
    have hcc : c = Setup.completed S' tr f := by
      rw [hc] at h2
      rcases h2 with h | h
      · cases h
      · exact Option.some.inj h
    obtain ⟨tr', ht'⟩ : ∃ tr', c.tracks = [tr'] := ⟨_, by rw [hcc]; rfl⟩
    have hfam : S'.fileFormat.family = c.fileFormat.family := by
      rw [hcc]
      show _ = (if S'.fileFormat = .aiffc then Setup.FileFormat.aiff else S'.fileFormat).family
      split
      · rename_i h; rw [h]; rfl
      · rfl
    refine step_alloc fun h => ?_
    refine Triple.by ?_ (perm0 _ _ _)
    refine t_copyTracks.call fun _ => ?_
    rw [ex_sep]
    refine t_ex fun p1 => ?_
    refine Triple.by ?_ (perm1 _ _ _ _)
    refine t_copyInstruments.call fun _ => ?_
    rw [ex_sep]
    refine t_ex fun p2 => ?_
    refine Triple.by ?_ (perm1 _ _ _ _)
    refine t_copyMisc.call fun _ => ?_
    rw [ex_sep]
    refine t_ex fun p3 => ?_
    dsimp only
    generalize hr : ({ access := .write, fileFormat := S'.fileFormat, trackCount := c.tracks.length, tracks := p1, instrumentCount := c.instruments.length,
                       instruments := p2, miscellaneousCount := c.miscellaneous.length, miscellaneous := p3 } : HandleRec) = r
    have r1 : p1 = r.tracks := by rw [← hr]
    have r2 : c.tracks.length = r.trackCount := by rw [← hr]
    have r3 : p2 = r.instruments := by rw [← hr]
    have r4 : c.instruments.length = r.instrumentCount := by rw [← hr]
    have r5 : p3 = r.miscellaneous := by rw [← hr]
    have r6 : c.miscellaneous.length = r.miscellaneousCount := by rw [← hr]
    have r7 : r.access = .write := by rw [← hr]
    have r8 : r.fileFormat.family = c.fileFormat.family := by rw [← hr]; exact hfam
    rw [r1, r2, r3, r4, r5, r6]
    have own : ∀ vs, Imp ((h ↦ r) ∗ array ownHTrack r.tracks r.trackCount vs ∗
        array (ownHInst c.fileFormat.family) r.instruments r.instrumentCount (c.instruments.map (newInst c.fileFormat.family)) ∗
        array ownHMisc r.miscellaneous r.miscellaneousCount (c.miscellaneous.map newMisc))
        (ownHandle h { access := .write, family := c.fileFormat.family, tracks := vs
                       instruments := c.instruments.map (newInst c.fileFormat.family), misc := c.miscellaneous.map newMisc }) :=
      fun vs m hm => ⟨r, fact_sep.2 ⟨⟨r7, r8⟩, hm⟩⟩
    rw [ht', List.map_cons, List.map_nil]
    generalize hI : array (ownHInst c.fileFormat.family) r.instruments r.instrumentCount (c.instruments.map (newInst c.fileFormat.family)) = I at *
    generalize hM : array ownHMisc r.miscellaneous r.miscellaneousCount (c.miscellaneous.map newMisc) = M at *
    refine Triple.by ?_ (perm2 _ _ _ _ _ _)
    refine Triple.bind t_initCompressionParams fun _ => ?_
    cases written with
    | false =>
      simp only [Bool.not_false, if_true, Bool.false_eq_true, false_and, if_false]
      refine Triple.pre (P' := ownHandle h _ ∗ (ownSetup q c ∗ ownSetup s S1)) ?_ fun m hm => imp_sep (own _) imp_rfl m (imp_eq (perm3 _ _ _ _ _ _) m hm)
      refine t_deleteHandle.call fun _ => ?_
      rw [emp_sep]
      refine t_freeFileSetup.call fun _ => ?_
      rw [emp_sep]
      exact t_ret fun m hm => fact_sep.2 ⟨rfl, hm⟩
    | true =>
      simp only [Bool.not_true, Bool.false_eq_true, if_false, true_and]
      refine Triple.by ?_ (sl5 _ _ _ _ _ _)
      refine t_freeFileSetup.call fun _ => ?_
      rw [emp_sep]
      refine Triple.bind t_initVirtual fun _ => ?_
      refine Triple.pre (P' := ownHandle h (openedVal e (S'.tracks.head?.map (·.f)) c) ∗ ownSetup s S1) ?_ fun m hm => ?_
      · cases codec with
        | false =>
          simp only [Bool.not_false, if_true, Bool.false_eq_true, if_false]
          refine t_deleteHandle.call fun _ => ?_
          rw [emp_sep]
          exact t_ret fun m hm => fact_sep.2 ⟨rfl, hm⟩
        | true =>
          simp only [Bool.not_true, Bool.false_eq_true, if_false, if_true]
          have := openedVal_eq hc ht'
          cases ho : (Setup.openWrite e S').2 with
          | none => rw [ho] at this; cases this
          | some o =>
            rw [ho] at this
            have := Option.some.inj this
            dsimp only
            rw [this]
            exact t_ret imp_rfl
      · have hm := imp_sep (own _) imp_rfl m (imp_eq (perm4 _ _ _ _ _) m hm)
        unfold openedVal
        rw [ht']
        exact hm
where
  perm0 (A B C : SL) : (A ∗ B ∗ C) = ((B ∗ A) ∗ C) := by ac_rfl
  perm1 (A B Q R : SL) : ((A ∗ B ∗ Q) ∗ R) = ((Q ∗ A) ∗ (B ∗ R)) := by ac_rfl
  perm2 (H M Q I T R : SL) : ((H ∗ M ∗ Q) ∗ (I ∗ T ∗ R)) = (H ∗ T ∗ I ∗ M ∗ Q ∗ R) := by ac_rfl
  perm3 (H T I M Q R : SL) : (H ∗ T ∗ I ∗ M ∗ Q ∗ R) = ((H ∗ T ∗ I ∗ M) ∗ Q ∗ R) := by ac_rfl
  perm4 (H T I M R : SL) : (H ∗ T ∗ I ∗ M ∗ R) = ((H ∗ T ∗ I ∗ M) ∗ R) := by ac_rfl

end AF.Heap
