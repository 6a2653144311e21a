import Verif.Proof.Heap.Steps
import Verif.Proof.Setup
/-! The calls on setups, in memory, do what the calls on values do. -/
namespace AF.Heap
open AF.Meta (updFirst)

variable {α β ρ ν : Type}

theorem updFirst_set {q : ν → Bool} {g : ν → ν} : ∀ {vs : List ν} {i : Nat} {v : ν}, vs.findIdx? q = some i → vs[i]? = some v →
    updFirst q g vs = vs.set i (g v)
  | [], _, _, h, _ => by simp at h
  | w :: vs, i, v, h, hv => by
    unfold updFirst
    rw [List.findIdx?_cons] at h
    by_cases hq : q w
    · rw [if_pos hq] at h ⊢
      cases h
      simp only [List.getElem?_cons_zero, Option.some.injEq] at hv
      rw [hv]; rfl
    · rw [if_neg hq] at h ⊢
      cases hf : vs.findIdx? q with
      | none => rw [hf] at h; cases h
      | some j =>
        rw [hf] at h
        cases h
        rw [updFirst_set hf (by simpa using hv)]; rfl

theorem updFirst_none {q : ν → Bool} {g : ν → ν} : ∀ {vs : List ν}, vs.findIdx? q = none → updFirst q g vs = vs
  | [], _ => rfl
  | w :: vs, h => by
    unfold updFirst
    rw [List.findIdx?_cons] at h
    by_cases hq : q w
    · rw [if_pos hq] at h; cases h
    · rw [if_neg hq] at h ⊢
      rw [updFirst_none (by simpa using h)]

theorem track_id {r : TrackRec} {v : Setup.TrackSetup} (m : Mem) (h : ownTrack r v m) : withMarkers r.fields v.markers = v :=
  (fact_sep.1 h).1

/-- A call that finds a track and changes it. -/
theorem t_onTrack {s : Ptr} {S : Setup.Setup} {t : Int} {g : Setup.TrackSetup → Setup.TrackSetup} {k : Ptr × Option Nat → M Unit}
    (h0 : ∀ p, k (p, none) = pure ())
    (h1 : ∀ p i r v (l : List TrackRec), l[i]? = some r → Triple ((p ↦ l) ∗ ownTrack r v) (k (p, some i)) (fun _ => ex fun r' => (p ↦ l.set i r') ∗ ownTrack r' (g v))) :
    Triple (ownSetup s S) (getTrack s t >>= k) (fun _ => ownSetup s (S.onTrack t g)) := by
  unfold ownSetup getTrack
  refine t_ex fun r => t_fact fun hf => ?_
  simp only [bind_assoc, pure_bind]
  refine step_load ?_
  refine Triple.by ?_ (show _ = (array ownTrack r.tracks r.trackCount S.tracks ∗
    (s ↦ r) ∗ array ownInst r.instruments r.instrumentCount S.instruments ∗
      array same r.miscellaneous r.miscellaneousCount S.miscellaneous) by ac_rfl)
  refine t_findAt (q := fun tr => tr.id == t) (fun r v m h => ?_) ?_ ?_
  · have := track_id m h
    rw [← this]; rfl
  · intro hn
    rw [h0]
    refine t_ret fun m hm => ⟨r, fact_sep.2 ⟨⟨hf.1, hf.2, hf.3, hf.4⟩, ?_⟩⟩
    have : (S.onTrack t g).tracks = S.tracks := updFirst_none hn
    rw [this]
    exact imp_eq (by ac_rfl) m hm
  · intro i v rs r0 hi hv _ hr hn hl hne
    obtain ⟨R, e, e'⟩ := each_split (P := ownTrack) hr hv
    rw [e]
    refine Triple.imp ((h1 r.tracks i r0 v rs hr).frame (R ∗ (s ↦ r) ∗ array ownInst r.instruments r.instrumentCount S.instruments ∗
      array same r.miscellaneous r.miscellaneousCount S.miscellaneous)) (imp_eq (by ac_rfl)) fun _ => ?_
    rw [ex_sep]
    rintro m ⟨r', hm⟩
    have et : (S.onTrack t g).tracks = S.tracks.set i (g v) := updFirst_set hi hv
    refine ⟨r, fact_sep.2 ⟨⟨hf.1, hf.2, hf.3, hf.4⟩, ?_⟩⟩
    rw [et]
    have hlen : (S.tracks.set i (g v)).length = S.tracks.length := List.length_set
    have hne' : S.tracks.set i (g v) ≠ [] := by
      intro h; apply hne; apply List.eq_nil_of_length_eq_zero; rw [← hlen, h]; rfl
    have hm' := imp_eq (show _ = (((r.tracks ↦ rs.set i r') ∗ (ownTrack r' (g v) ∗ R)) ∗ (s ↦ r) ∗
      array ownInst r.instruments r.instrumentCount S.instruments ∗ array same r.miscellaneous r.miscellaneousCount S.miscellaneous) by ac_rfl) m hm
    rw [← e'] at hm'
    have := imp_sep (array_intro hne') imp_rfl m hm'
    rw [hlen, ← hn] at this
    exact imp_eq (by dsimp only [Setup.Setup.onTrack]; ac_rfl) m this

/-- Scalar fields. -/
theorem t_setScalar {s : Ptr} {S : Setup.Setup} {t : Int} {g : Setup.TrackSetup → Setup.TrackSetup}
    (hg : ∀ (tr : Setup.TrackSetup) ms, g (withMarkers tr ms) = withMarkers (g tr) ms) :
    Triple (ownSetup s S) (setScalar s t g) (fun _ => ownSetup s (S.onTrack t g)) := by
  unfold setScalar
  refine t_onTrack (fun _ => rfl) ?_
  intro p i r v l hi
  unfold ownTrack
  refine lastly (step_put hi (t_ret fun m hm => ⟨{ r with fields := g r.fields }, ?_⟩))
  have hm := imp_eq (show _ = (fact (withMarkers r.fields v.markers = v) ∗ ((p ↦ l.set i { r with fields := g r.fields }) ∗
    array ownMarker r.markers r.markerCount v.markers)) by ac_rfl) m hm
  obtain ⟨hv, hm⟩ := fact_sep.1 hm
  have hgm : (g v).markers = v.markers := by rw [← hv, hg]; rfl
  dsimp only
  rw [fact_true (by rw [hgm, ← hg, hv]), emp_sep, hgm]
  exact hm

/-! ## Markers -/

theorem step_free_text {p : Ptr} {a : List Byte} {R : SL} {k : Unit → M β} {Q : β → SL} (h : Triple R (k ()) Q) :
    Triple ((p ↦ a) ∗ R) (onlyIf (p ≠ 0) (free p) >>= k) Q := by
  refine t_know (φ := p ≠ 0) (fun m h => h.1) fun h0 => ?_
  unfold onlyIf
  rw [if_pos h0]
  exact step_free h

theorem t_initMarkIDs {s : Ptr} {S : Setup.Setup} {t : Int} {ids : List Int} :
    Triple (ownSetup s S) (initMarkIDs s t ids) (fun _ => ownSetup s (Setup.initMarkIDs S t ids)) := by
  unfold initMarkIDs
  refine t_onTrack (fun _ => rfl) ?_
  intro p i r v l hi
  dsimp only
  refine step_get hi ?_
  unfold ownTrack
  refine Triple.by ?_ (show _ = (fact (withMarkers r.fields v.markers = v) ∗ (array ownMarker r.markers r.markerCount v.markers ∗ (p ↦ l))) by ac_rfl)
  refine t_fact fun hv => ?_
  refine Triple.bind (t_freeArray (C := p ↦ l) ?_ ?_) fun _ => ?_
  · intro m hm; have := (array_count m hm).2; simp [this]
  · intro j mk w hw l' hl'
    refine step_get hl' ?_
    unfold ownMarker
    refine Triple.by ?_ (show _ = (fact (mk.id = w.id) ∗ (mk.name ↦ w.name) ∗ (mk.comment ↦ w.comment) ∗ ((r.markers ↦ l') ∗ (p ↦ l))) by ac_rfl)
    refine t_fact fun _ => step_free_text (lastly (step_free_text (t_ret fun m hm => ⟨mk, ?_⟩)))
    dsimp only; rw [set_self' hl']; exact hm
  refine step_calloc fun q => ?_
  refine Triple.by ?_ (sep_comm _ _)
  refine step_put hi ?_
  refine Triple.by ?_ (sep_comm _ _)
  refine Triple.bind (t_fill_blank (P := ownMarker) (vs := ids.map fun id => (⟨id, [], []⟩ : Setup.MarkerSetup)) (by simp) ?_) fun _ => ?_
  · intro j w hw l' hl'
    have : w = ⟨ids.getD j 0, [], []⟩ := by
      rw [List.getElem?_map] at hw
      cases hg : ids[j]? with
      | none => rw [hg] at hw; cases hw
      | some a => rw [hg] at hw; cases hw; simp [hg]
    subst this
    exact t_newMarker _ hl'
  refine Triple.by ?_ (sep_comm _ _)
  refine lastly (step_put (get_set hi) (t_ret fun m hm => ?_))
  rw [List.set_set] at hm
  refine ⟨_, imp_sep imp_rfl ?_ m hm⟩
  intro m hm
  refine fact_sep.2 ⟨?_, hm⟩
  rw [← hv]; rfl

/-- A marker of a track is found, and its texts are changed. -/
theorem t_onMarker {r : TrackRec} {v : Setup.TrackSetup} {mid : Int} {g : Setup.MarkerSetup → Setup.MarkerSetup} {k : Option Nat → M Unit} {C : SL}
    (h0 : k none = pure ())
    (h1 : ∀ j mk w (l : List MarkerRec), l[j]? = some mk →
      Triple ((r.markers ↦ l) ∗ ownMarker mk w) (k (some j)) (fun _ => ex fun mk' => (r.markers ↦ l.set j mk') ∗ ownMarker mk' (g w))) :
    Triple (ownTrack r v ∗ C) (findAt r.markers r.markerCount (fun x : MarkerRec => x.id == mid) >>= k)
      (fun _ => ownTrack r { v with markers := updFirst (fun mk => mk.id == mid) g v.markers } ∗ C) := by
  unfold ownTrack
  rw [sep_assoc]
  refine t_fact fun hv => ?_
  refine t_findAt (q := fun mk => mk.id == mid) (fun r v m h => ?_) ?_ ?_
  · have := (fact_sep.1 h).1
    rw [this]
  · intro hn
    rw [h0]
    refine t_ret fun m hm => ?_
    dsimp only
    rw [updFirst_none hn, fact_true (show withMarkers r.fields v.markers = v from hv), emp_sep]
    exact hm
  · intro j w rs mk hj hw _ hr hn hl hne
    obtain ⟨R, e, e'⟩ := each_split (P := ownMarker) hr hw
    rw [e]
    refine Triple.imp ((h1 j mk w rs hr).frame (R ∗ C)) (imp_eq (by ac_rfl)) fun _ => ?_
    rw [ex_sep]
    rintro m ⟨mk', hm⟩
    dsimp only
    rw [updFirst_set hj hw, fact_true (by rw [← hv]; rfl), emp_sep]
    have hlen : (v.markers.set j (g w)).length = v.markers.length := List.length_set
    have hne' : v.markers.set j (g w) ≠ [] := by
      intro h; apply hne; apply List.eq_nil_of_length_eq_zero; rw [← hlen, h]; rfl
    have hm' := imp_eq (show _ = (((r.markers ↦ rs.set j mk') ∗ (ownMarker mk' (g w) ∗ R)) ∗ C) by ac_rfl) m hm
    rw [← e'] at hm'
    have := imp_sep (array_intro hne') imp_rfl m hm'
    rw [hlen, ← hn] at this
    exact this

theorem t_initMarkName {s : Ptr} {S : Setup.Setup} {t mid : Int} {name : List Byte} :
    Triple (ownSetup s S) (initMarkName s t mid name) (fun _ => ownSetup s (Setup.initMarkName S t mid name)) := by
  unfold initMarkName
  refine t_onTrack (fun _ => rfl) ?_
  intro p i r v l hi
  dsimp only
  refine step_get hi ?_
  refine Triple.by ?_ (sep_comm _ _)
  refine Triple.imp (t_onMarker (C := p ↦ l) (g := fun mk => { mk with name := name.take 255 }) rfl ?_) imp_rfl fun _ m hm =>
    ⟨r, by dsimp only; rw [set_self' hi, sep_comm]; exact hm⟩
  intro j mk w l' hj
  dsimp only
  refine step_get hj ?_
  unfold ownMarker
  refine Triple.by ?_ (show _ = (fact (mk.id = w.id) ∗ (mk.name ↦ w.name) ∗ ((r.markers ↦ l') ∗ (mk.comment ↦ w.comment))) by ac_rfl)
  refine t_fact fun hid => step_free_text (step_alloc fun q => ?_)
  refine Triple.by ?_ (show _ = ((r.markers ↦ l') ∗ (q ↦ name.take 255) ∗ (mk.comment ↦ w.comment)) by ac_rfl)
  refine lastly (step_put hj (t_ret fun m hm => ⟨{ mk with name := q }, imp_sep imp_rfl (fun m hm => fact_sep.2 ⟨hid, hm⟩) m hm⟩))

theorem t_initMarkComment {s : Ptr} {S : Setup.Setup} {t mid : Int} {comment : List Byte} :
    Triple (ownSetup s S) (initMarkComment s t mid comment) (fun _ => ownSetup s (Setup.initMarkComment S t mid comment)) := by
  unfold initMarkComment
  refine t_onTrack (fun _ => rfl) ?_
  intro p i r v l hi
  dsimp only
  refine step_get hi ?_
  refine Triple.by ?_ (sep_comm _ _)
  refine Triple.imp (t_onMarker (C := p ↦ l) (g := fun mk => { mk with comment := comment }) rfl ?_) imp_rfl fun _ m hm =>
    ⟨r, by dsimp only; rw [set_self' hi, sep_comm]; exact hm⟩
  intro j mk w l' hj
  dsimp only
  refine step_get hj ?_
  unfold ownMarker
  refine Triple.by ?_ (show _ = (fact (mk.id = w.id) ∗ (mk.comment ↦ w.comment) ∗ ((r.markers ↦ l') ∗ (mk.name ↦ w.name))) by ac_rfl)
  refine t_fact fun hid => step_free_text (step_alloc fun q => ?_)
  refine Triple.by ?_ (show _ = ((r.markers ↦ l') ∗ (mk.name ↦ w.name) ∗ (q ↦ comment)) by ac_rfl)
  refine lastly (step_put hj (t_ret fun m hm => ⟨{ mk with comment := q }, imp_sep imp_rfl (fun m hm => fact_sep.2 ⟨hid, hm⟩) m hm⟩))

end AF.Heap
