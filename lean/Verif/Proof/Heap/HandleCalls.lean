import Verif.Proof.Heap.Open
import Verif.Proof.Meta
import Verif.Spec.HeapWorld
/-! Calls on a handle, in memory. -/
namespace AF.Heap
open AF.Setup (AFmt)
open AF.Meta (updFirst)

variable {α β ρ ν : Type}

theorem t_openHandle {h : Ptr} {V : HandleVal} {c : M α} {Q : α → SL}
    (hk : ∀ r : HandleRec, r.access = V.access → r.fileFormat.family = V.family →
      Triple ((h ↦ r) ∗ array ownHTrack r.tracks r.trackCount V.tracks ∗ array (ownHInst V.family) r.instruments r.instrumentCount V.instruments ∗
        array ownHMisc r.miscellaneous r.miscellaneousCount V.misc) c Q) : Triple (ownHandle h V) c Q :=
  t_ex fun r => t_fact fun e => hk r e.1 e.2

theorem closeHandle {h : Ptr} {V : HandleVal} {r : HandleRec} (h1 : r.access = V.access) (h2 : r.fileFormat.family = V.family) :
    Imp ((h ↦ r) ∗ array ownHTrack r.tracks r.trackCount V.tracks ∗ array (ownHInst V.family) r.instruments r.instrumentCount V.instruments ∗
        array ownHMisc r.miscellaneous r.miscellaneousCount V.misc) (ownHandle h V) :=
  fun _ hm => ⟨r, fact_sep.2 ⟨⟨h1, h2⟩, hm⟩⟩

/-! ## Reading -/

theorem step_readOptional [Content α] {p : Ptr} {o : Option α} {R : SL} {k : Option α → M β} {Q : β → SL}
    (h : Triple (optional p o ∗ R) (k o) Q) : Triple (optional p o ∗ R) (readOptional p >>= k) Q := by
  unfold readOptional
  cases o with
  | none =>
    unfold optional at h ⊢
    refine t_fact fun e => ?_
    rw [if_pos e, pure_bind]
    exact h.pre fun m hm => fact_sep.2 ⟨e, hm⟩
  | some a =>
    refine t_know (φ := p ≠ 0) (fun m hm => hm.1) fun hp => ?_
    rw [if_neg hp]
    simp only [bind_assoc, pure_bind]
    exact step_load h

theorem t_readHMarker (r : HMarkerRec) (v : Meta.Marker × List Byte × List Byte) : Triple (ownHMarker r v) (do
    let name : List Byte ← load r.name
    let comment : List Byte ← load r.comment
    return ((⟨r.id, r.position⟩ : Meta.Marker), name, comment)) (fun x => fact (x = v) ∗ ownHMarker r v) := by
  unfold ownHMarker
  refine t_fact fun hid => step_load ?_
  refine Triple.by ?_ (sep_comm _ _)
  refine step_load (t_ret fun m hm => fact_sep.2 ⟨by rw [hid.1, hid.2], fact_sep.2 ⟨hid, imp_eq (sep_comm _ _) m hm⟩⟩)

theorem t_readHandle {h : Ptr} {V : HandleVal} : Triple (ownHandle h V) (readHandle h) (fun x => fact (x = V) ∗ ownHandle h V) := by
  unfold readHandle
  refine t_openHandle fun r ha hf => step_load ?_
  refine Triple.by ?_ (sl2 _ _ _)
  refine step_readArray ?_ ?_
  · intro t v
    unfold ownHTrack
    refine t_fact fun hw => ?_
    generalize (ex fun pv : Option (List (Int × BitVec 64)) => optional t.fparams pv) = E
    refine Triple.by ?_ (show _ = (array ownHMarker t.markers t.markerCount (v.track.markers.zip v.names) ∗ optional t.matrix v.matrix ∗ E) by ac_rfl)
    refine step_readArray t_readHMarker ?_
    refine Triple.by ?_ (sl2 _ _ _)
    refine step_readOptional (t_ret fun m hm => fact_sep.2 ⟨?_, fact_sep.2 ⟨hw, imp_eq (by ac_rfl) m hm⟩⟩)
    rw [List.map_fst_zip (Nat.le_of_eq hw.names.symm), List.map_snd_zip (Nat.le_of_eq hw.names), hw.1, hw.2, hw.3, hw.5, hw.6]
  refine Triple.by ?_ (sl3' _ _ _ _)
  rw [hf]
  refine step_readArray ?_ ?_
  · intro t v
    unfold ownHInst
    refine t_fact fun hw => ?_
    refine step_readArray t_readSame ?_
    refine Triple.by ?_ (sep_comm _ _)
    refine step_readArray t_readSame (t_ret fun m hm => fact_sep.2 ⟨?_, fact_sep.2 ⟨hw, imp_eq (sep_comm _ _) m hm⟩⟩)
    rw [hw.1]
  refine Triple.by ?_ (sl4' _ _ _ _)
  refine step_readArray ?_ (t_ret fun m hm => fact_sep.2 ⟨?_, ?_⟩)
  · intro t v
    unfold ownHMisc
    refine t_fact fun hw => ?_
    rw [← sep_emp (optional t.buffer v.buffer)]
    refine step_readOptional (t_ret fun m hm => fact_sep.2 ⟨?_, fact_sep.2 ⟨hw, hm⟩⟩)
    rw [hw.1, hw.2, hw.3, hw.4]
  · rw [ha]
  · exact closeHandle ha hf m (imp_eq (by ac_rfl) m hm)
where
  sl3' (A B C D : SL) : (A ∗ B ∗ C ∗ D) = (C ∗ B ∗ A ∗ D) := by ac_rfl
  sl4' (A B C D : SL) : (A ∗ B ∗ C ∗ D) = (D ∗ B ∗ C ∗ A) := by ac_rfl

/-! ## A track, an instrument or a miscellaneous chunk is changed -/

def withTracks (V : HandleVal) (l : List TrackVal) : HandleVal := { V with tracks := l }
def withInsts (V : HandleVal) (l : List Meta.Instrument) : HandleVal := { V with instruments := l }
def withMisc (V : HandleVal) (l : List Meta.Misc) : HandleVal := { V with misc := l }

theorem t_trackUpd {h : Ptr} {V : HandleVal} {r : HandleRec} (ha : r.access = V.access) (hf : r.fileFormat.family = V.family) {t : Int}
    {g : TrackVal → TrackVal} {k : Option Nat → M Unit} (h0 : k none = pure ())
    (h1 : ∀ i tr v (l : List HTrackRec) C, l[i]? = some tr → Triple ((r.tracks ↦ l) ∗ ownHTrack tr v ∗ C) (k (some i))
      (fun _ => ex fun tr' => (r.tracks ↦ l.set i tr') ∗ ownHTrack tr' (g v) ∗ C)) :
    Triple ((h ↦ r) ∗ array ownHTrack r.tracks r.trackCount V.tracks ∗ array (ownHInst V.family) r.instruments r.instrumentCount V.instruments ∗
        array ownHMisc r.miscellaneous r.miscellaneousCount V.misc) (findAt (ρ := HTrackRec) r.tracks r.trackCount (·.id == t) >>= k)
      (fun _ => ownHandle h (withTracks V (updFirst (fun x => x.track.id == t) g V.tracks))) := by
  refine Triple.by ?_ (sl2 _ _ _)
  refine (t_updFirst (P := ownHTrack) (q := fun x => x.track.id == t) (g := g) ?_ h0 ?_).imp imp_rfl fun _ m hm => ?_
  · intro x v m hm
    have := (fact_sep.1 hm).1.id
    rw [this]
  · exact fun i x v l _ hl => h1 i x v l _ hl
  · rw [sl2] at hm
    exact closeHandle (V := withTracks V (updFirst (fun x => x.track.id == t) g V.tracks)) ha hf m hm

theorem t_instUpd {h : Ptr} {V : HandleVal} {r : HandleRec} (ha : r.access = V.access) (hf : r.fileFormat.family = V.family) {t : Int}
    {g : Meta.Instrument → Meta.Instrument} {k : Option Nat → M Unit} (h0 : k none = pure ())
    (h1 : ∀ i x v (l : List HInstRec) C, l[i]? = some x → Triple ((r.instruments ↦ l) ∗ ownHInst V.family x v ∗ C) (k (some i))
      (fun _ => ex fun x' => (r.instruments ↦ l.set i x') ∗ ownHInst V.family x' (g v) ∗ C)) :
    Triple ((h ↦ r) ∗ array ownHTrack r.tracks r.trackCount V.tracks ∗ array (ownHInst V.family) r.instruments r.instrumentCount V.instruments ∗
        array ownHMisc r.miscellaneous r.miscellaneousCount V.misc) (findAt (ρ := HInstRec) r.instruments r.instrumentCount (·.id == t) >>= k)
      (fun _ => ownHandle h (withInsts V (updFirst (fun x => x.id == t) g V.instruments))) := by
  refine Triple.by ?_ (sl3 _ _ _ _)
  refine (t_updFirst (P := ownHInst V.family) (q := fun x => x.id == t) (g := g) ?_ h0 ?_).imp imp_rfl fun _ m hm => ?_
  · intro x v m hm
    have := (fact_sep.1 hm).1.1
    rw [this]
  · exact fun i x v l _ hl => h1 i x v l _ hl
  · rw [← sl3] at hm
    exact closeHandle (V := withInsts V (updFirst (fun x => x.id == t) g V.instruments)) ha hf m hm

theorem t_miscUpd {h : Ptr} {V : HandleVal} {r : HandleRec} (ha : r.access = V.access) (hf : r.fileFormat.family = V.family) {t : Int}
    {g : Meta.Misc → Meta.Misc} {k : Option Nat → M Unit} (h0 : k none = pure ())
    (h1 : ∀ i x v (l : List HMiscRec) C, V.misc.find? (fun x => x.id == t) = some v → l[i]? = some x →
      Triple ((r.miscellaneous ↦ l) ∗ ownHMisc x v ∗ C) (k (some i))
      (fun _ => ex fun x' => (r.miscellaneous ↦ l.set i x') ∗ ownHMisc x' (g v) ∗ C)) :
    Triple ((h ↦ r) ∗ array ownHTrack r.tracks r.trackCount V.tracks ∗ array (ownHInst V.family) r.instruments r.instrumentCount V.instruments ∗
        array ownHMisc r.miscellaneous r.miscellaneousCount V.misc) (findAt (ρ := HMiscRec) r.miscellaneous r.miscellaneousCount (·.id == t) >>= k)
      (fun _ => ownHandle h (withMisc V (updFirst (fun x => x.id == t) g V.misc))) := by
  refine Triple.by ?_ (sl4e _ _ _ _)
  refine (t_updFound (P := ownHMisc) (q := fun x => x.id == t) (g := g) ?_ h0 ?_).imp imp_rfl fun _ m hm => ?_
  · intro x v m hm
    have := (fact_sep.1 hm).1.1
    rw [this]
  · intro i x v l hi hv hl
    refine h1 i x v l _ ?_ hl
    obtain ⟨hlt, hq, hmin⟩ := List.findIdx?_eq_some_iff_getElem.1 hi
    obtain ⟨_, hv'⟩ := List.getElem?_eq_some_iff.1 hv
    rw [List.find?_eq_some_iff_getElem]
    rw [← hv']
    exact ⟨hq, i, hlt, rfl, fun j hj => by have := hmin j hj; simpa using this⟩
  · rw [← sl4e] at hm
    exact closeHandle (V := withMisc V (updFirst (fun x => x.id == t) g V.misc)) ha hf m hm
where
  sl4e (A B C D : SL) : (A ∗ B ∗ C ∗ D) = (D ∗ A ∗ B ∗ C) := by ac_rfl

/-! ## The values -/

theorem updFirst_find_none {q : ν → Bool} {g : ν → ν} {l : List ν} (h : l.find? q = none) : updFirst q g l = l :=
  updFirst_none (by rw [List.findIdx?_eq_none_iff]; rw [List.find?_eq_none] at h; intro x hx; simpa using h x hx)

theorem updFirst_find_congr {q : ν → Bool} {g g' : ν → ν} {v : ν} : ∀ {l : List ν}, l.find? q = some v → g v = g' v → updFirst q g l = updFirst q g' l
  | [], h, _ => by simp at h
  | a :: l, h, e => by
    unfold updFirst
    rw [List.find?_cons] at h
    split
    · rename_i hq
      rw [hq] at h
      cases h
      rw [e]
    · rename_i hq
      simp only [hq] at h
      rw [updFirst_find_congr h e]

theorem updFirst_id {q : ν → Bool} : ∀ {l : List ν}, updFirst q (fun x => x) l = l
  | [] => rfl
  | a :: l => by
    unfold updFirst
    split
    · rfl
    · rw [updFirst_id]

theorem withMeta_self (V : HandleVal) : V.withMeta V.metadata = V := by
  unfold HandleVal.withMeta HandleVal.metadata
  dsimp only
  have : ∀ l : List TrackVal, l.zipWith (fun x t => ({ x with track := t } : TrackVal)) (l.map (·.track)) = l := by
    intro l
    induction l with
    | nil => rfl
    | cons a l ih => rw [List.map_cons, List.zipWith_cons_cons, ih]
  rw [this]

theorem withMeta_tracks (V : HandleVal) {t : Int} {g : Meta.Track → Meta.Track} (H : Meta.Handle)
    (h1 : H.tracks = updFirst (fun x => x.id == t) g V.metadata.tracks) (h2 : H.instruments = V.instruments) (h3 : H.misc = V.misc) :
    V.withMeta H = withTracks V (updFirst (fun x => x.track.id == t) (fun x => { x with track := g x.track }) V.tracks) := by
  unfold HandleVal.withMeta withTracks
  rw [h1, h2, h3]
  unfold HandleVal.metadata
  dsimp only
  have : ∀ l : List TrackVal, l.zipWith (fun x t => ({ x with track := t } : TrackVal)) (updFirst (fun x => x.id == t) g (l.map (·.track))) =
      updFirst (fun x => x.track.id == t) (fun x => { x with track := g x.track }) l := by
    intro l
    induction l with
    | nil => rfl
    | cons a l ih =>
      rw [List.map_cons]
      unfold updFirst
      split
      · rw [List.zipWith_cons_cons]
        have := congrArg HandleVal.tracks (withMeta_self { V with tracks := l })
        dsimp only [HandleVal.withMeta, HandleVal.metadata] at this
        rw [this]
      · rw [List.zipWith_cons_cons, ih]
  rw [this]

theorem withMeta_insts (V : HandleVal) (H : Meta.Handle) (h1 : H.tracks = V.metadata.tracks) (h3 : H.misc = V.misc) :
    V.withMeta H = withInsts V H.instruments := by
  have := congrArg HandleVal.tracks (withMeta_self V)
  unfold HandleVal.withMeta withInsts at *
  dsimp only at this
  rw [h1, h3, this]

theorem withMeta_misc (V : HandleVal) (H : Meta.Handle) (h1 : H.tracks = V.metadata.tracks) (h3 : H.instruments = V.instruments) :
    V.withMeta H = withMisc V H.misc := by
  have := congrArg HandleVal.tracks (withMeta_self V)
  unfold HandleVal.withMeta withMisc at *
  dsimp only at this
  rw [h1, h3, this]

end AF.Heap
