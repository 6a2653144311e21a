import Verif.Proof.Heap.HandleCalls
/-! What the calls do to a handle in memory. -/
namespace AF.Heap
open AF.Setup (AFmt)
open AF.Meta (updFirst)

variable {α β ρ ν : Type}

theorem zip_updFirst {q : α → Bool} {g : α → α} : ∀ {l : List α} {l' : List β}, l'.length = l.length →
    (updFirst q g l).zip l' = updFirst (fun x => q x.1) (fun x => (g x.1, x.2)) (l.zip l')
  | [], l', h => by
    have : l' = [] := List.eq_nil_of_length_eq_zero (by simpa using h)
    rw [this]
    rfl
  | a :: l, [], h => by simp at h
  | a :: l, b :: l', h => by
    simp only [List.zip_cons_cons, updFirst]
    split
    · rfl
    · rw [List.zip_cons_cons, zip_updFirst (by simpa using h)]

theorem opt_ite {c : Prop} [Decidable c] {h : Ptr} {V : HandleVal} {x : M Unit} {V' : HandleVal}
    (h1 : c → Triple (ownHandle h V) x (fun _ => ownHandle h V')) (h2 : ¬ c → V' = V) : Triple (ownHandle h V) (onlyIf c x) (fun _ => ownHandle h V') := by
  unfold onlyIf
  refine t_ite h1 fun hc => ?_
  rw [h2 hc]
  exact t_ret imp_rfl

theorem ownHTrack_eq (r : HTrackRec) (x : TrackVal) : ownHTrack r x = (fact (TrackFields r x) ∗ (ex fun pv : Option (List (Int × BitVec 64)) => optional r.fparams pv) ∗
    optional r.matrix x.matrix ∗ array ownHMarker r.markers r.markerCount (x.track.markers.zip x.names)) := rfl

theorem ownHTrack_intro {r : HTrackRec} {x : TrackVal} (h : TrackFields r x) : ownHTrack r x = ((ex fun pv : Option (List (Int × BitVec 64)) => optional r.fparams pv) ∗
    optional r.matrix x.matrix ∗ array ownHMarker r.markers r.markerCount (x.track.markers.zip x.names)) := by
  rw [ownHTrack_eq, fact_true h, emp_sep]

/-! ## Markers and AES data -/

def markTrack (m p : Int) (x : Meta.Track) : Meta.Track :=
  { x with markers := updFirst (fun y => y.id == m) (fun y => { y with position := if p < 0 then 0 else p }) x.markers }

def aesTrack (buf : List Byte) (x : Meta.Track) : Meta.Track := if x.hasAES then { x with aes := buf.take 24 } else x

theorem setMark_value (V : HandleVal) (t m p : Int) : V.withMeta (Meta.setMarkPosition V.metadata t m p) =
    if V.access ≠ .write then V else withTracks V (updFirst (fun x => x.track.id == t) (fun x => { x with track := markTrack m p x.track }) V.tracks) := by
  unfold Meta.setMarkPosition
  rw [show V.metadata.access = V.access from rfl]
  by_cases ha : V.access ≠ .write
  · rw [if_pos ha, if_pos ha, withMeta_self]
  rw [if_neg ha, if_neg ha]
  cases ht : V.metadata.getTrack t with
  | none =>
    dsimp only
    rw [withMeta_tracks V (t := t) (g := markTrack m p) V.metadata (updFirst_find_none ht).symm rfl rfl]
  | some tr =>
    dsimp only
    cases hm : tr.getMarker m with
    | none =>
      dsimp only
      rw [withMeta_tracks V (t := t) (g := markTrack m p) V.metadata ?_ rfl rfl]
      rw [updFirst_find_congr (g' := fun x => x) ht, updFirst_id]
      unfold markTrack
      rw [updFirst_find_none hm]
    | some mk =>
      dsimp only
      exact withMeta_tracks V (t := t) (g := markTrack m p) _ rfl rfl rfl

theorem t_setMarkPosition {h : Ptr} {V : HandleVal} {t m p : Int} :
    Triple (ownHandle h V) (setMarkPosition h t m p) (fun _ => ownHandle h (V.withMeta (Meta.setMarkPosition V.metadata t m p))) := by
  rw [setMark_value]
  unfold setMarkPosition
  refine t_openHandle fun r ha hf => step_load ?_
  rw [ha]
  refine t_ite (fun h => ?_) (fun h => ?_)
  · rw [if_pos h]
    exact t_ret (closeHandle ha hf)
  rw [if_neg h]
  refine t_trackUpd ha hf rfl ?_
  intro i tr v l C hl
  refine step_get hl ?_
  rw [ownHTrack_eq tr v]
  generalize hE : (ex fun pv : Option (List (Int × BitVec 64)) => optional tr.fparams pv) = E
  refine Triple.by ?_ (show _ = (fact (TrackFields tr v) ∗ array ownHMarker tr.markers tr.markerCount (v.track.markers.zip v.names) ∗
    ((r.tracks ↦ l) ∗ E ∗ optional tr.matrix v.matrix ∗ C)) by ac_rfl)
  refine t_fact fun hw => ?_
  refine (t_updFirst (P := ownHMarker) (q := fun x => x.1.id == m) (g := fun x => ({ x.1 with position := if p < 0 then 0 else p }, x.2)) ?_ rfl ?_).imp imp_rfl fun _ s hs => ?_
  · intro x v m hm
    have := (fact_sep.1 hm).1.1
    rw [this]
  · intro j mk w k hw hk
    dsimp only
    refine lastly (step_put hk (t_ret fun s hs => ⟨{ mk with position := if p < 0 then 0 else p }, ?_⟩))
    dsimp only
    unfold ownHMarker at hs ⊢
    dsimp only
    generalize ((r.tracks ↦ l) ∗ E ∗ optional tr.matrix v.matrix ∗ C) = D at hs ⊢
    refine imp_sep imp_rfl (imp_sep ?_ imp_rfl) s hs
    intro s hs
    obtain ⟨h1, hs⟩ := fact_sep.1 hs
    exact fact_sep.2 ⟨⟨h1.1, rfl⟩, hs⟩
  · refine ⟨tr, ?_⟩
    dsimp only
    rw [set_self' hl, ownHTrack_intro (x := { v with track := markTrack m p v.track }) ⟨hw.1, hw.2, hw.3, hw.4, hw.5, hw.6, ?_⟩, hE]
    · rw [show ({ v with track := markTrack m p v.track } : TrackVal).track.markers.zip ({ v with track := markTrack m p v.track } : TrackVal).names =
        updFirst (fun x => x.1.id == m) (fun x => ({ x.1 with position := if p < 0 then 0 else p }, x.2)) (v.track.markers.zip v.names) from zip_updFirst hw.names]
      exact imp_eq (by ac_rfl) s hs
    · show v.names.length = (updFirst _ _ v.track.markers).length
      rw [Meta.length_updFirst]
      exact hw.names

theorem setAES_value (V : HandleVal) (t : Int) (buf : List Byte) : V.withMeta (Meta.setAES V.metadata t buf) =
    if V.access ≠ .write then V else withTracks V (updFirst (fun x => x.track.id == t) (fun x => { x with track := aesTrack buf x.track }) V.tracks) := by
  unfold Meta.setAES
  rw [show V.metadata.access = V.access from rfl]
  cases ht : V.metadata.getTrack t with
  | none =>
    dsimp only
    by_cases ha : V.access ≠ .write
    · rw [if_pos ha, withMeta_self]
    · rw [if_neg ha]
      rw [withMeta_tracks V (t := t) (g := aesTrack buf) V.metadata (updFirst_find_none ht).symm rfl rfl]
  | some tr =>
    dsimp only
    by_cases ha : V.access ≠ .write
    · rw [if_pos ha, if_pos ha, withMeta_self]
    rw [if_neg ha, if_neg ha]
    by_cases hh : tr.hasAES = true
    · rw [if_pos hh]
      refine withMeta_tracks V (t := t) (g := aesTrack buf) _ ?_ rfl rfl
      dsimp only
      refine updFirst_find_congr ht ?_
      unfold aesTrack
      rw [if_pos hh]
    · rw [if_neg hh]
      rw [withMeta_tracks V (t := t) (g := aesTrack buf) V.metadata ?_ rfl rfl]
      rw [updFirst_find_congr (g' := fun x => x) ht, updFirst_id]
      unfold aesTrack
      rw [if_neg hh]

theorem t_setAES {h : Ptr} {V : HandleVal} {t : Int} {buf : List Byte} :
    Triple (ownHandle h V) (setAES h t buf) (fun _ => ownHandle h (V.withMeta (Meta.setAES V.metadata t buf))) := by
  rw [setAES_value]
  unfold setAES
  refine t_openHandle fun r ha hf => step_load ?_
  rw [ha]
  by_cases hw : V.access ≠ .write
  · rw [if_pos hw]
    refine Triple.imp (t_trackUpd (h := h) (t := t) (g := fun x => x) ha hf rfl ?_) imp_rfl fun _ m hm => ?_
    · intro i tr v l C hl
      dsimp only
      rw [if_pos hw]
      exact t_ret fun m hm => ⟨tr, by dsimp only; rw [set_self' hl]; exact hm⟩
    · rw [updFirst_id] at hm
      exact hm
  · rw [if_neg hw]
    refine t_trackUpd ha hf rfl ?_
    intro i tr v l C hl
    dsimp only
    rw [if_neg hw]
    refine step_get hl ?_
    rw [ownHTrack_eq tr v]
    generalize hE : (ex fun pv : Option (List (Int × BitVec 64)) => optional tr.fparams pv) = E
    refine Triple.by ?_ (show _ = (fact (TrackFields tr v) ∗ (r.tracks ↦ l) ∗ (E ∗ optional tr.matrix v.matrix ∗
      array ownHMarker tr.markers tr.markerCount (v.track.markers.zip v.names) ∗ C)) by ac_rfl)
    refine t_fact fun hx => ?_
    unfold onlyIf
    refine t_ite (fun hh => ?_) (fun hh => ?_)
    · refine lastly (step_put hl (t_ret fun s hs => ⟨{ tr with aes := buf.take 24 }, ?_⟩))
      have hh' : v.track.hasAES = true := hx.hasAES ▸ hh
      have e : aesTrack buf v.track = { v.track with aes := buf.take 24 } := by unfold aesTrack; rw [if_pos hh']
      dsimp only
      rw [e, ownHTrack_intro (r := { tr with aes := buf.take 24 }) (x := { v with track := { v.track with aes := buf.take 24 } }) ⟨hx.1, hx.2, hx.3, hx.4, hx.5, rfl, hx.7⟩]
      dsimp only
      rw [hE]
      exact imp_eq (by ac_rfl) s hs
    · refine t_ret fun s hs => ⟨tr, ?_⟩
      have hh' : ¬ v.track.hasAES = true := hx.hasAES ▸ hh
      have e : aesTrack buf v.track = v.track := by unfold aesTrack; rw [if_neg hh']
      dsimp only
      rw [e, ownHTrack_intro (x := v) hx, set_self' hl, hE]
      exact imp_eq (by ac_rfl) s hs

/-! ## Loops -/

def loopInst (l : Int) (f : Meta.Loop → Meta.Loop) (x : Meta.Instrument) : Meta.Instrument := { x with loops := updFirst (fun y => y.id == l) f x.loops }

theorem ownHInst_eq (fam : Meta.Family) (r : HInstRec) (x : Meta.Instrument) : ownHInst fam r x =
    (fact (r.id = x.id ∧ x.values.length = fam.ids.length) ∗ array same r.loops r.loopCount x.loops ∗ array same r.values fam.ids.length x.values) := rfl

theorem t_updLoop {h : Ptr} {V : HandleVal} {i l : Int} {f : Meta.Loop → Meta.Loop} :
    Triple (ownHandle h V) (updLoop h i l f) (fun _ => ownHandle h (if V.access ≠ .write then V else
      withInsts V (updFirst (fun x => x.id == i) (loopInst l f) V.instruments))) := by
  unfold updLoop
  refine t_openHandle fun r ha hf => step_load ?_
  rw [ha]
  refine t_ite (fun h => ?_) (fun h => ?_)
  · rw [if_pos h]
    exact t_ret (closeHandle ha hf)
  rw [if_neg h]
  refine t_instUpd ha hf rfl ?_
  intro k x v xs C hx
  refine step_get hx ?_
  rw [ownHInst_eq V.family x v]
  refine Triple.by ?_ (show _ = (fact (x.id = v.id ∧ v.values.length = V.family.ids.length) ∗ array same x.loops x.loopCount v.loops ∗
    ((r.instruments ↦ xs) ∗ array same x.values V.family.ids.length v.values ∗ C)) by ac_rfl)
  refine t_fact fun hw => ?_
  refine (t_updFirst (P := same) (q := fun y => y.id == l) (g := f) ?_ rfl ?_).imp imp_rfl fun _ s hs => ⟨x, ?_⟩
  · intro y v m hm
    rw [hm.1]
  · intro j y w k hw hk
    dsimp only
    refine lastly (step_put hk (t_ret fun s hs => ⟨f y, ?_⟩))
    dsimp only
    refine imp_sep imp_rfl (imp_sep ?_ imp_rfl) s hs
    rintro s' ⟨e, he⟩
    exact ⟨congrArg f e, he⟩
  · dsimp only
    rw [set_self' hx]
    unfold ownHInst loopInst
    dsimp only
    rw [fact_true hw, emp_sep]
    exact imp_eq (by ac_rfl) s hs

theorem updLoop_value (V : HandleVal) (i l : Int) (f : Meta.Loop → Meta.Loop) : V.withMeta (Meta.updLoop V.metadata i l f) =
    withInsts V (updFirst (fun x => x.id == i) (loopInst l f) V.instruments) := withMeta_insts V _ rfl rfl

theorem updLoop_none {V : HandleVal} {i l : Int} (f : Meta.Loop → Meta.Loop) (h : Meta.findLoop V.metadata i l true = none) (ha : ¬ V.access ≠ .write) :
    withInsts V (updFirst (fun x => x.id == i) (loopInst l f) V.instruments) = V := by
  have : updFirst (fun x => x.id == i) (loopInst l f) V.instruments = V.instruments := by
    unfold Meta.findLoop at h
    have hacc : V.metadata.access = .write := Decidable.byContradiction fun hne => ha hne
    rw [if_neg (by simp [hacc])] at h
    cases hi : V.metadata.getInstrument i with
    | none => exact updFirst_find_none hi
    | some x =>
      rw [hi] at h
      dsimp only at h
      refine (updFirst_find_congr (g' := fun x => x) hi ?_).trans updFirst_id
      unfold loopInst
      rw [updFirst_find_none h]
  rw [this]
  rfl

theorem findLoop_none {V : HandleVal} {i l : Int} (ha : V.access ≠ .write) : Meta.findLoop V.metadata i l true = none := by
  unfold Meta.findLoop
  rw [if_pos]
  simp only [Bool.true_and, decide_eq_true_eq]
  exact ha

/-- A call that changes a field of a loop, if there is one. -/
theorem t_loopField {h : Ptr} {V : HandleVal} {i l : Int} {f : Meta.Loop → Meta.Loop} {H : Meta.Handle}
    (hn : Meta.findLoop V.metadata i l true = none → H = V.metadata)
    (hs : ∀ lp, Meta.findLoop V.metadata i l true = some lp → H = Meta.updLoop V.metadata i l f) :
    Triple (ownHandle h V) (updLoop h i l f) (fun _ => ownHandle h (V.withMeta H)) := by
  refine t_updLoop.imp imp_rfl fun _ => imp_eq (congrArg (ownHandle h) ?_)
  cases hl : Meta.findLoop V.metadata i l true with
  | none =>
    rw [hn hl, withMeta_self]
    split
    · rfl
    · rename_i ha; exact updLoop_none f hl ha
  | some lp =>
    rw [hs lp hl, updLoop_value]
    rw [if_neg]
    intro ha
    rw [findLoop_none ha] at hl
    cases hl

/-- The loop that is found. -/
theorem t_getLoop {h : Ptr} {V : HandleVal} {i l : Int} :
    Triple (ownHandle h V) (getLoop h i l) (fun x => fact (x = Meta.findLoop V.metadata i l true) ∗ ownHandle h V) := by
  unfold getLoop
  refine t_openHandle fun r ha hf => step_load ?_
  rw [ha]
  refine t_ite (fun hacc => ?_) (fun hacc => ?_)
  · exact t_ret fun m hm => fact_sep.2 ⟨(findLoop_none hacc).symm, closeHandle ha hf m hm⟩
  have hacc' : V.metadata.access = .write := Decidable.byContradiction fun hne => hacc hne
  refine Triple.by ?_ (sl3 _ _ _ _)
  refine t_findAt (q := fun x : Meta.Instrument => x.id == i) ?_ (fun hn => ?_) (fun k v rs x hk hv hq hx hc hl hne => ?_)
  · intro x v m hm
    have := (fact_sep.1 hm).1.1
    rw [this]
  · dsimp only
    refine t_ret fun m hm => fact_sep.2 ⟨?_, closeHandle ha hf m (by rw [← sl3] at hm; exact hm)⟩
    unfold Meta.findLoop
    rw [if_neg (by simp [hacc'])]
    have : V.metadata.getInstrument i = none := by
      unfold Meta.Handle.getInstrument
      rw [List.find?_eq_none]
      rw [List.findIdx?_eq_none_iff] at hn
      intro x hx
      simpa using hn x hx
    rw [this]
  · dsimp only
    have hfl : Meta.findLoop V.metadata i l true = v.getLoop l := by
      unfold Meta.findLoop
      rw [if_neg (by simp [hacc'])]
      have : V.metadata.getInstrument i = some v := by
        obtain ⟨hlt, hq, hmin⟩ := List.findIdx?_eq_some_iff_getElem.1 hk
        obtain ⟨_, hv'⟩ := List.getElem?_eq_some_iff.1 hv
        unfold Meta.Handle.getInstrument
        rw [List.find?_eq_some_iff_getElem, ← hv']
        exact ⟨hq, k, hlt, rfl, fun j hj => by have := hmin j hj; change (!(V.instruments[j].id == i)) = true; simpa using this⟩
      rw [this]
    refine step_get hx ?_
    obtain ⟨R, e, -⟩ := each_split (P := ownHInst V.family) hx hv
    rw [e]
    have back : Imp ((r.instruments ↦ rs) ∗ (ownHInst V.family x v ∗ R)) (array (ownHInst V.family) r.instruments r.instrumentCount V.instruments) := by
      rw [← e, hc]; exact array_intro hne
    generalize hD : ((h ↦ r) ∗ array ownHTrack r.tracks r.trackCount V.tracks ∗ array ownHMisc r.miscellaneous r.miscellaneousCount V.misc) = D
    have fin : ∀ m, (((r.instruments ↦ rs) ∗ (ownHInst V.family x v ∗ R)) ∗ D) m → ownHandle h V m := by
      intro m hm
      have hm := imp_sep back imp_rfl m hm
      rw [← hD, ← sl3] at hm
      exact closeHandle ha hf m hm
    rw [ownHInst_eq V.family x v, array_same]
    generalize hA : array same x.values V.family.ids.length v.values = A
    refine Triple.by ?_ (show _ = (fact (x.id = v.id ∧ v.values.length = V.family.ids.length) ∗ fact (x.loopCount = v.loops.length) ∗ cloned x.loops v.loops ∗
      ((r.instruments ↦ rs) ∗ A ∗ R ∗ D)) by ac_rfl)
    refine t_fact fun hw => t_fact fun hlc => ?_
    have fin2 : ∀ m, (cloned x.loops v.loops ∗ ((r.instruments ↦ rs) ∗ A ∗ R ∗ D)) m → ownHandle h V m := by
      intro m hm
      refine fin m ?_
      rw [ownHInst_eq, array_same, fact_true hw, fact_true hlc, emp_sep, emp_sep, hA]
      exact imp_eq (by ac_rfl) m hm
    rw [show (cloned x.loops v.loops) = array same x.loops x.loopCount v.loops by rw [array_same, fact_true hlc, emp_sep]] at fin2 ⊢
    refine t_findAt (q := fun y : Meta.Loop => y.id == l) ?_ (fun hn => ?_) (fun j w ls y hj hw' hq' hy hc' hl' hne' => ?_)
    · intro y v m hm; rw [hm.1]
    · dsimp only
      refine t_ret fun m hm => fact_sep.2 ⟨?_, fin2 m hm⟩
      rw [hfl]
      unfold Meta.Instrument.getLoop
      symm
      rw [List.find?_eq_none]
      rw [List.findIdx?_eq_none_iff] at hn
      intro x hx
      simpa using hn x hx
    · dsimp only
      refine step_get hy ?_
      refine t_ret fun m hm => ?_
      have hls : ls = v.loops := by
        obtain ⟨a, b, -, -, -, hb⟩ := hm
        obtain ⟨a, b, -, -, ha, hb⟩ := hb
        exact (each_same _ ha).1
      subst hls
      refine fact_sep.2 ⟨?_, fin2 m ?_⟩
      · rw [hfl]
        unfold Meta.Instrument.getLoop
        symm
        obtain ⟨hlt, hq, hmin⟩ := List.findIdx?_eq_some_iff_getElem.1 hj
        obtain ⟨_, hv'⟩ := List.getElem?_eq_some_iff.1 hy
        rw [List.find?_eq_some_iff_getElem, ← hv']
        exact ⟨hq, j, hlt, rfl, fun j hj => by have := hmin j hj; simpa using this⟩
      · rw [← sep_assoc] at hm
        have hm := imp_sep (array_intro hne') imp_rfl m hm
        rw [← hlc] at hm
        exact hm

theorem t_setLoop {h : Ptr} {V : HandleVal} {f : Meta.LoopField} {i l v : Int} :
    Triple (ownHandle h V) (setLoop h f i l v) (fun _ => ownHandle h (V.withMeta (Meta.setLoop V.metadata f i l v).2)) := by
  unfold setLoop Meta.setLoop
  cases f
  case mode =>
    dsimp only
    refine opt_ite (fun hv => t_loopField ?_ ?_) (fun hv => ?_)
    · intro hn; unfold Meta.setLoopMode; rw [hn]
    · intro lp hs; unfold Meta.setLoopMode; rw [hs]; dsimp only; rw [if_neg (by omega)]
    · unfold Meta.setLoopMode
      split
      · exact withMeta_self V
      · rw [if_pos (by omega)]; exact withMeta_self V
  case count =>
    dsimp only
    refine opt_ite (fun hv => t_loopField ?_ ?_) (fun hv => ?_)
    · intro hn; unfold Meta.setLoopCount; rw [hn]
    · intro lp hs; unfold Meta.setLoopCount; rw [hs]; dsimp only; rw [if_neg (by omega)]
    · unfold Meta.setLoopCount
      split
      · exact withMeta_self V
      · rw [if_pos (by omega)]; exact withMeta_self V
  case start =>
    refine t_loopField ?_ ?_
    · intro hn; dsimp only; unfold Meta.setLoopStart; rw [hn]
    · intro lp hs; dsimp only; unfold Meta.setLoopStart; rw [hs]
  case endd =>
    refine t_loopField ?_ ?_
    · intro hn; dsimp only; unfold Meta.setLoopEnd; rw [hn]
    · intro lp hs; dsimp only; unfold Meta.setLoopEnd; rw [hs]
  case track =>
    refine t_loopField ?_ ?_
    · intro hn; dsimp only; unfold Meta.setLoopTrack; rw [hn]
    · intro lp hs; dsimp only; unfold Meta.setLoopTrack; rw [hs]
  case startFrame =>
    dsimp only
    refine Triple.bind t_getLoop fun x => t_fact fun hx => ?_
    subst hx
    unfold Meta.setLoopStartFrame
    cases hl : Meta.findLoop V.metadata i l true with
    | none => dsimp only; rw [withMeta_self]; exact t_ret imp_rfl
    | some lp =>
      dsimp only
      refine opt_ite (fun hv => ?_) (fun hv => ?_)
      · rw [if_neg (by omega)]; exact t_setMarkPosition
      · rw [if_pos (by omega)]; exact withMeta_self V
  case endFrame =>
    dsimp only
    refine Triple.bind t_getLoop fun x => t_fact fun hx => ?_
    subst hx
    unfold Meta.setLoopEndFrame
    cases hl : Meta.findLoop V.metadata i l true with
    | none => dsimp only; rw [withMeta_self]; exact t_ret imp_rfl
    | some lp =>
      dsimp only
      refine opt_ite (fun hv => ?_) (fun hv => ?_)
      · rw [if_neg (by omega)]; exact t_setMarkPosition
      · rw [if_pos (by omega)]; exact withMeta_self V

end AF.Heap
