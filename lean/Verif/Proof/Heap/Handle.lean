import Verif.Proof.Heap.Copy
import Verif.Spec.HeapHandle
/-! Reading a setup; deleting a handle. -/
namespace AF.Heap

variable {α β ρ ν : Type}

/-! ## Reading -/

theorem t_readEach {P : ρ → ν → SL} {f : ρ → M ν} (hf : ∀ r v, Triple (P r v) (f r) (fun x => fact (x = v) ∗ P r v)) :
    ∀ {rs : List ρ} {vs : List ν}, Triple (each P rs vs) (readEach f rs) (fun x => fact (x = vs) ∗ each P rs vs)
  | [], [] => t_ret fun m hm => fact_sep.2 ⟨rfl, hm⟩
  | [], _ :: _ => fun F st hw hp => by obtain ⟨a, b, -, -, h, -⟩ := hp; exact h.elim
  | _ :: _, [] => fun F st hw hp => by obtain ⟨a, b, -, -, h, -⟩ := hp; exact h.elim
  | r :: rs, v :: vs => by
    show Triple (P r v ∗ each P rs vs) _ _
    refine (hf r v).call fun x => ?_
    rw [sep_assoc]
    refine t_fact fun hx => ?_
    subst hx
    refine Triple.by ?_ (sep_comm _ _)
    refine (t_readEach hf).call fun xs => ?_
    rw [sep_assoc]
    refine t_fact fun hx => ?_
    subst hx
    exact t_ret fun m hm => fact_sep.2 ⟨rfl, imp_eq (sep_comm _ _) m hm⟩

theorem step_readArray [Content (List ρ)] {P : ρ → ν → SL} {f : ρ → M ν} (hf : ∀ r v, Triple (P r v) (f r) (fun x => fact (x = v) ∗ P r v))
    {p : Ptr} {n : Nat} {vs : List ν} {R : SL} {k : List ν → M β} {Q : β → SL} (h : Triple (array P p n vs ∗ R) (k vs) Q) :
    Triple (array P p n vs ∗ R) (readArray f p n >>= k) Q := by
  unfold readArray
  by_cases hv : vs = []
  · subst hv
    rw [array_nil] at h ⊢
    refine t_fact fun e => ?_
    rw [if_pos e.2, pure_bind]
    exact h.pre fun m hm => fact_sep.2 ⟨e, hm⟩
  · refine t_openArray fun rs hn hl => ?_
    have hne : rs ≠ [] := by rintro rfl; exact hv (List.eq_nil_of_length_eq_zero hl.symm)
    have e : cloned p rs = (p ↦ rs) := by unfold cloned; rw [if_neg hne]
    rw [e]
    have hn0 : n ≠ 0 := by
      intro h0; exact hv (List.eq_nil_of_length_eq_zero (by omega))
    rw [if_neg hn0, bind_assoc]
    refine step_load ?_
    rw [if_pos (by omega), List.take_of_length_le (by omega)]
    refine Triple.by ?_ (sl2 _ _ _)
    refine (t_readEach hf).call fun x => ?_
    rw [sep_assoc]
    refine t_fact fun hx => ?_
    subst hx
    refine h.pre fun m hm => ?_
    rw [sl2, ← sep_assoc, ← e] at hm
    exact imp_sep (closeArray hn hl) imp_rfl m hm

theorem t_readSame (r v : ν) : Triple (same r v) (pure r) (fun x => fact (x = v) ∗ same r v) :=
  t_ret fun m hm => fact_sep.2 ⟨hm.1, hm⟩

theorem t_readMarker (r : MarkerRec) (v : Setup.MarkerSetup) : Triple (ownMarker r v) (do
    let name ← load r.name
    let comment ← load r.comment
    return (⟨r.id, name, comment⟩ : Setup.MarkerSetup)) (fun x => fact (x = v) ∗ ownMarker r v) := by
  unfold ownMarker
  refine t_fact fun hid => step_load ?_
  refine Triple.by ?_ (sep_comm _ _)
  refine step_load (t_ret fun m hm => fact_sep.2 ⟨by rw [hid], fact_sep.2 ⟨hid, imp_eq (sep_comm _ _) m hm⟩⟩)

theorem t_readSetup {s : Ptr} {S : Setup.Setup} : Triple (ownSetup s S) (readSetup s) (fun x => fact (x = S) ∗ ownSetup s S) := by
  rw [← sep_emp (ownSetup s S)]
  unfold readSetup
  refine t_openSetup fun r hf => step_load ?_
  refine Triple.by ?_ (sl2 _ _ _)
  refine step_readArray ?_ ?_
  · intro t v
    unfold ownTrack
    refine t_fact fun hw => ?_
    rw [← sep_emp (array ownMarker t.markers t.markerCount v.markers)]
    refine step_readArray t_readMarker (t_ret fun m hm => fact_sep.2 ⟨hw, fact_sep.2 ⟨hw, hm⟩⟩)
  refine Triple.by ?_ (sl3 _ _ _ _)
  refine step_readArray ?_ ?_
  · intro t v
    unfold ownInst
    refine t_fact fun hw => ?_
    rw [← sep_emp (array same t.loops t.loopCount v.loops)]
    refine step_readArray t_readSame (t_ret fun m hm => fact_sep.2 ⟨?_, fact_sep.2 ⟨hw, hm⟩⟩)
    rw [hw.1, hw.2]
  refine Triple.by ?_ (sl4 _ _ _ _ _)
  refine step_readArray t_readSame (t_ret fun m hm => fact_sep.2 ⟨?_, ?_⟩)
  · rw [hf.1, hf.2, hf.3, hf.4]
  · rw [sep_emp] at hm ⊢
    exact closeSetup hf m (imp_eq (by ac_rfl) m hm)

/-! ## Deleting -/

theorem step_free_optional [Content α] {p : Ptr} {o : Option α} {R : SL} {k : Unit → M β} {Q : β → SL} (h : Triple R (k ()) Q) :
    Triple (optional p o ∗ R) (free p >>= k) Q := by
  cases o with
  | some a => exact step_free h
  | none =>
    unfold optional
    refine t_fact fun e => ?_
    subst e
    exact (Triple.bind ((t_free_null).frame R |>.pre (imp_eq (emp_sep _).symm)) fun _ => h.pre (imp_eq (emp_sep _)))

theorem step_when_optional [Content α] {p : Ptr} {o : Option α} {R : SL} {k : Unit → M β} {Q : β → SL} (h : Triple R (k ()) Q) :
    Triple (optional p o ∗ R) (onlyIf (p ≠ 0) (free p) >>= k) Q := by
  unfold onlyIf
  by_cases h0 : p = 0
  · rw [if_neg (by simp [h0]), pure_bind]
    cases o with
    | some a =>
      exact t_know (φ := p ≠ 0) (fun m hm => hm.1) fun h' => (h' h0).elim
    | none => exact t_fact fun _ => h
  · rw [if_pos h0]
    exact step_free_optional h

theorem cloned_optional [Content (List ρ)] {p : Ptr} {l : List ρ} : cloned p l = optional p (if l = [] then none else some l) := by
  unfold cloned
  split <;> rfl

/-- `free` of an array of plain records. -/
theorem step_free_same [Content (List ρ)] {p : Ptr} {n : Nat} {l : List ρ} {R : SL} {k : Unit → M β} {Q : β → SL} (h : Triple R (k ()) Q) :
    Triple (array same p n l ∗ R) (free p >>= k) Q := by
  rw [array_same, sep_assoc, cloned_optional]
  exact t_fact fun _ => step_free_optional h

theorem step_when_same [Content (List ρ)] {p : Ptr} {n : Nat} {l : List ρ} {R : SL} {k : Unit → M β} {Q : β → SL} (h : Triple R (k ()) Q) :
    Triple (array same p n l ∗ R) (onlyIf (p ≠ 0) (free p) >>= k) Q := by
  rw [array_same, sep_assoc, cloned_optional]
  exact t_fact fun _ => step_when_optional h

theorem t_deleteTrack {p : Ptr} {l : List HTrackRec} {i : Nat} {r : HTrackRec} {v : TrackVal} {C : SL} (hi : l[i]? = some r) :
    Triple ((p ↦ l) ∗ ownHTrack r v ∗ C) (deleteTrack p i) (fun _ => (p ↦ l) ∗ C) := by
  unfold deleteTrack ownHTrack
  refine step_get hi ?_
  refine Triple.by ?_ (show _ = (fact (TrackFields r v) ∗ (ex fun pv : Option (List (Int × BitVec 64)) => optional r.fparams pv) ∗
    (optional r.matrix v.matrix ∗ array ownHMarker r.markers r.markerCount (v.track.markers.zip v.names) ∗ (p ↦ l) ∗ C)) by ac_rfl)
  refine t_fact fun hf => ?_
  rw [ex_sep]
  refine t_ex fun pv => step_when_optional ?_
  have hv := hf.vparams
  unfold onlyIf
  rw [if_neg (by simp [hv]), pure_bind]
  refine step_free_optional ?_
  refine t_freeArray (b := r.markers ≠ 0) ?_ ?_
  · intro m hm; have := (array_count m hm).2; simp [this]
  · intro j mk w hw l' hl'
    refine step_get hl' ?_
    unfold ownHMarker
    refine Triple.by ?_ (show _ = (fact (mk.id = w.1.id ∧ mk.position = w.1.position) ∗ (mk.name ↦ w.2.1) ∗ (mk.comment ↦ w.2.2) ∗
      ((r.markers ↦ l') ∗ ((p ↦ l) ∗ C))) by ac_rfl)
    refine t_fact fun _ => step_free (lastly (step_free (t_ret fun m hm => ⟨mk, ?_⟩)))
    dsimp only; rw [set_self' hl']; exact hm

theorem t_deleteHandle {p : Ptr} {V : HandleVal} : Triple (ownHandle p V) (deleteHandle p) (fun _ => emp) := by
  unfold deleteHandle ownHandle
  refine t_ex fun r => t_fact fun _ => step_load ?_
  refine Triple.by ?_ (sl2 _ _ _)
  refine Triple.bind (t_freeArray ?_ ?_) fun _ => ?_
  · intro m hm; have := (array_count m hm).2; simp [this]
  · intro j x w hw l' hl'
    exact (t_deleteTrack hl').imp imp_rfl fun _ m hm => ⟨x, by dsimp only; rw [set_self' hl']; exact hm⟩
  refine Triple.by ?_ (sl2 _ _ _)
  refine Triple.bind (t_freeArray ?_ ?_) fun _ => ?_
  · intro m hm; have := (array_count m hm).2; simp [this]
  · intro j x w hw l' hl'
    refine step_get hl' ?_
    unfold ownHInst
    generalize ((p ↦ r) ∗ array ownHMisc r.miscellaneous r.miscellaneousCount V.misc) = C
    refine Triple.by ?_ (show _ = (fact (x.id = w.id ∧ w.values.length = V.family.ids.length) ∗ array same x.loops x.loopCount w.loops ∗
      array same x.values V.family.ids.length w.values ∗ (r.instruments ↦ l') ∗ C) by ac_rfl)
    refine t_fact fun _ => step_free_same (lastly (step_when_same (t_ret fun m hm => ⟨x, ?_⟩)))
    dsimp only; rw [set_self' hl']; exact hm
  refine Triple.by ?_ (sep_comm _ _)
  refine Triple.bind (t_freeArray ?_ ?_) fun _ => ?_
  · intro m hm; have := (array_count m hm).2; simp [this]
  · intro j x w hw l' hl'
    refine step_get hl' ?_
    unfold ownHMisc
    refine Triple.by ?_ (show _ = (fact (MiscFields x w) ∗ optional x.buffer w.buffer ∗ (r.miscellaneous ↦ l') ∗ (p ↦ r)) by ac_rfl)
    refine t_fact fun _ => lastly (step_free_optional (t_ret fun m hm => ⟨x, ?_⟩))
    dsimp only; rw [set_self' hl']; exact hm
  rw [← sep_emp (p ↦ r)]
  exact lastly (step_free (t_ret imp_rfl))

end AF.Heap
