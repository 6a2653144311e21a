import Verif.Proof.Heap.Effects
/-! What the calls do to a handle in memory: instrument parameters and miscellaneous chunks. -/
namespace AF.Heap
open AF.Setup (AFmt)
open AF.Meta (updFirst)

variable {α β ρ ν : Type}

/-! ## Instrument parameters -/

theorem indexFromId_lt {fam : Meta.Family} {id : Int} {j : Nat} (h : Meta.indexFromId fam id = some j) : j < fam.ids.length := by
  unfold Meta.indexFromId at h
  dsimp only at h
  split at h
  · cases h
  · rename_i hne
    have := List.findIdx_le_length (xs := fam.ids) (p := fun x => x == id)
    cases h
    omega

theorem setOne_length (fam : Meta.Family) (vs : List (BitVec 64)) (it : Pv.Item) : (Meta.setOne fam vs it).length = vs.length := by
  unfold Meta.setOne
  split
  · rfl
  · split
    · exact List.length_set
    · rfl

theorem setAll_length (fam : Meta.Family) (l : List Pv.Item) (vs : List (BitVec 64)) : (l.foldl (Meta.setOne fam) vs).length = vs.length := by
  induction l generalizing vs with
  | nil => rfl
  | cons a l ih => rw [List.foldl_cons, ih, setOne_length]

theorem t_setParams {fam : Meta.Family} {p : Ptr} {C : SL} : ∀ {l : List Pv.Item} {vs : List (BitVec 64)}, vs.length = fam.ids.length →
    Triple (array same p fam.ids.length vs ∗ C) (forList l fun it =>
      match Meta.indexFromId fam it.param with
      | none => pure ()
      | some j => onlyIf (Meta.isInstrumentParameterValid fam it = true) (setAt (ρ := BitVec 64) p j fun _ => it.value))
      (fun _ => array same p fam.ids.length (l.foldl (Meta.setOne fam) vs) ∗ C)
  | [], vs, hl => t_ret imp_rfl
  | it :: l, vs, hl => by
    unfold forList
    rw [List.foldl_cons]
    refine Triple.bind (R := fun _ => array same p fam.ids.length (Meta.setOne fam vs it) ∗ C) ?_ fun _ => t_setParams (by rw [setOne_length, hl])
    unfold Meta.setOne
    cases hj : Meta.indexFromId fam it.param with
    | none =>
      dsimp only
      rw [hj]
      exact t_ret imp_rfl
    | some j =>
      dsimp only
      rw [hj]
      dsimp only
      have hlt := indexFromId_lt hj
      unfold onlyIf
      refine t_ite (fun hv => ?_) (fun hv => ?_)
      · rw [if_pos hv]
        have hne : vs ≠ [] := by intro h; rw [h] at hl; simp at hl; omega
        have hne' : vs.set j it.value ≠ [] := by simpa using hne
        rw [array_same, array_same, List.length_set, fact_true hl.symm, emp_sep, emp_sep]
        unfold cloned
        rw [if_neg hne, if_neg hne']
        refine lastly (step_put (r := vs[j]'(by omega)) (List.getElem?_eq_getElem (by omega)) (t_ret imp_rfl))
      · rw [if_neg hv]
        exact t_ret imp_rfl

def paramInst (fam : Meta.Family) (l : List Pv.Item) (x : Meta.Instrument) : Meta.Instrument := { x with values := l.foldl (Meta.setOne fam) x.values }

theorem setInstParams_value (V : HandleVal) (i : Int) (pv : Pv.PvList) (n : Int) : V.withMeta (Meta.setInstParams V.metadata i pv n) =
    if V.access ≠ .write then V else withInsts V (updFirst (fun x => x.id == i) (paramInst V.family (Meta.pvTake pv n)) V.instruments) := by
  unfold Meta.setInstParams
  rw [show V.metadata.access = V.access from rfl]
  by_cases ha : V.access ≠ .write
  · rw [if_pos ha, if_pos ha, withMeta_self]
  rw [if_neg ha, if_neg ha]
  cases hi : V.metadata.getInstrument i with
  | none =>
    dsimp only
    rw [withMeta_self]
    rw [show updFirst (fun x => x.id == i) (paramInst V.family (Meta.pvTake pv n)) V.instruments = V.instruments from updFirst_find_none hi]
    rfl
  | some x =>
    dsimp only
    exact withMeta_insts V _ rfl rfl

theorem t_setInstParams {h : Ptr} {V : HandleVal} {i : Int} {pv : Pv.PvList} {n : Int} :
    Triple (ownHandle h V) (setInstParams h i pv n) (fun _ => ownHandle h (V.withMeta (Meta.setInstParams V.metadata i pv n))) := by
  rw [setInstParams_value]
  unfold setInstParams
  refine t_openHandle fun r ha hf => step_load ?_
  rw [ha]
  refine t_ite (fun h => ?_) (fun h => ?_)
  · rw [if_pos h]
    exact t_ret (closeHandle ha hf)
  rw [if_neg h]
  refine t_instUpd ha hf rfl ?_
  intro k x v xs C hx
  refine step_get hx ?_
  rw [hf, ownHInst_eq V.family x v]
  refine Triple.by ?_ (show _ = (fact (x.id = v.id ∧ v.values.length = V.family.ids.length) ∗ array same x.values V.family.ids.length v.values ∗
    ((r.instruments ↦ xs) ∗ array same x.loops x.loopCount v.loops ∗ C)) by ac_rfl)
  refine t_fact fun hw => ?_
  refine (t_setParams hw.2).imp imp_rfl fun _ s hs => ⟨x, ?_⟩
  dsimp only
  rw [set_self' hx]
  unfold ownHInst paramInst
  dsimp only
  rw [fact_true ⟨hw.1, by rw [setAll_length, hw.2]⟩, emp_sep]
  exact imp_eq (by ac_rfl) s hs

/-! ## Miscellaneous chunks -/

theorem ownHMisc_eq (r : HMiscRec) (x : Meta.Misc) : ownHMisc r x = (fact (MiscFields r x) ∗ optional r.buffer x.buffer) := rfl

theorem ownHMisc_intro {r : HMiscRec} {x : Meta.Misc} (h : MiscFields r x) : ownHMisc r x = optional r.buffer x.buffer := by
  rw [ownHMisc_eq, fact_true h, emp_sep]

theorem withMeta_misc' {V : HandleVal} {H : Meta.Handle} {l : List Meta.Misc} (h : H.misc = l) (h1 : H.tracks = V.metadata.tracks)
    (h3 : H.instruments = V.instruments) : V.withMeta H = withMisc V l := h ▸ withMeta_misc V H h1 h3

def movedMisc (n : Int) (x : Meta.Misc) : Meta.Misc := { x with position := x.position + n }
def soughtMisc (o : Int) (x : Meta.Misc) : Meta.Misc := { x with position := o }

theorem t_seekMisc {h : Ptr} {V : HandleVal} {id o : Int} :
    Triple (ownHandle h V) (seekMisc h id o) (fun _ => ownHandle h (V.withMeta (Meta.seekMisc V.metadata id o).2)) := by
  have value : V.withMeta (Meta.seekMisc V.metadata id o).2 =
      withMisc V (updFirst (fun x => x.id == id) (fun x => if o < x.size then soughtMisc o x else x) V.misc) := by
    unfold Meta.seekMisc
    cases hm : V.metadata.getMisc id with
    | none =>
      dsimp only
      rw [withMeta_self, show updFirst (fun x => x.id == id) (fun x => if o < x.size then soughtMisc o x else x) V.misc = V.misc from updFirst_find_none hm]
      rfl
    | some m =>
      dsimp only
      by_cases ho : o ≥ m.size
      · rw [if_pos ho, withMeta_self]
        have : updFirst (fun x => x.id == id) (fun x => if o < x.size then soughtMisc o x else x) V.misc = V.misc := by
          refine (updFirst_find_congr (g' := fun x => x) hm ?_).trans updFirst_id
          rw [if_neg (by omega)]
        rw [this]
        rfl
      · rw [if_neg ho]
        refine withMeta_misc' ?_ rfl rfl
        refine updFirst_find_congr (l := V.misc) hm ?_
        rw [if_pos (by omega)]
        rfl
  rw [value]
  unfold seekMisc
  refine t_openHandle fun r ha hf => step_load ?_
  refine t_miscUpd ha hf rfl ?_
  intro i x v l C hv hl
  refine step_get hl ?_
  rw [ownHMisc_eq x v]
  refine Triple.by ?_ (show _ = (fact (MiscFields x v) ∗ (r.miscellaneous ↦ l) ∗ (optional x.buffer v.buffer ∗ C)) by ac_rfl)
  refine t_fact fun hw => ?_
  rw [hw.size]
  unfold onlyIf
  refine t_ite (fun ho => ?_) (fun ho => ?_)
  · refine lastly (step_put hl (t_ret fun s hs => ⟨{ x with position := o }, ?_⟩))
    dsimp only
    rw [if_pos ho, ownHMisc_intro (r := { x with position := o }) (x := soughtMisc o v) ⟨hw.1, hw.2, hw.3, rfl, hw.5⟩]
    exact hs
  · refine t_ret fun s hs => ⟨x, ?_⟩
    dsimp only
    rw [if_neg ho, ownHMisc_intro hw, set_self' hl]
    exact hs

/-- How far a chunk is read. -/
def readSize (n : Int) (x : Meta.Misc) : Int := min n (x.size - x.position)

theorem t_readMisc {h : Ptr} {V : HandleVal} {id n : Int} {R : Int × List Byte × Meta.Handle} (hr : Meta.readMisc V.metadata id n = .ok R) :
    Triple (ownHandle h V) (readMisc h id n) (fun _ => ownHandle h (V.withMeta R.2.2)) := by
  unfold Meta.readMisc at hr
  rw [show V.metadata.access = V.access from rfl] at hr
  unfold readMisc
  refine t_openHandle fun r ha hf => step_load ?_
  rw [ha]
  refine t_ite (fun h => ?_) (fun h => ?_)
  · rw [if_pos h] at hr
    cases hr
    dsimp only
    rw [withMeta_self]
    exact t_ret (closeHandle ha hf)
  rw [if_neg h] at hr
  have value : V.withMeta R.2.2 = withMisc V (updFirst (fun x => x.id == id) (fun x => if n ≤ 0 then x else movedMisc (readSize n x) x) V.misc) := by
    cases hm : V.metadata.getMisc id with
    | none =>
      rw [hm] at hr
      cases hr
      dsimp only
      rw [withMeta_self, show updFirst (fun x => x.id == id) (fun x => if n ≤ 0 then x else movedMisc (readSize n x) x) V.misc = V.misc from updFirst_find_none hm]
      rfl
    | some m =>
      rw [hm] at hr
      dsimp only at hr
      by_cases hn : n ≤ 0
      · rw [if_pos hn] at hr
        cases hr
        dsimp only
        rw [withMeta_self]
        have : updFirst (fun x => x.id == id) (fun x => if n ≤ 0 then x else movedMisc (readSize n x) x) V.misc = V.misc := by
          refine (updFirst_find_congr (g' := fun x => x) hm ?_).trans updFirst_id
          rw [if_pos hn]
        rw [this]
        rfl
      · rw [if_neg hn] at hr
        split at hr
        · cases hr
        · cases hr
          dsimp only
          refine withMeta_misc' ?_ rfl rfl
          refine updFirst_find_congr (l := V.misc) hm ?_
          rw [if_neg hn]
          rfl
  rw [value]
  refine t_miscUpd ha hf rfl ?_
  intro i x v l C hv hl
  dsimp only
  refine t_ite (fun hn => ?_) (fun hn => ?_)
  · refine t_ret fun s hs => ⟨x, ?_⟩
    dsimp only
    rw [if_pos hn, set_self' hl]
    exact hs
  refine step_get hl ?_
  rw [ownHMisc_eq x v]
  refine Triple.by ?_ (show _ = (fact (MiscFields x v) ∗ optional x.buffer v.buffer ∗ (r.miscellaneous ↦ l) ∗ C) by ac_rfl)
  refine t_fact fun hw => ?_
  rw [hw.size, hw.position]
  rw [show V.metadata.getMisc id = some v from hv] at hr
  dsimp only at hr
  rw [if_neg hn] at hr
  have hok : ¬ (readSize n v ≠ 0 ∧ (v.position < 0 ∨ readSize n v < 0 ∨ v.buffer = none)) := by
    intro hc
    unfold readSize at hc
    rw [if_pos hc] at hr
    cases hr
  refine step_when (R := optional x.buffer v.buffer ∗ (r.miscellaneous ↦ l) ∗ C) ?_ (fun _ => imp_rfl) ?_
  · intro hne
    cases hb : v.buffer with
    | none => exact absurd ⟨hne, Or.inr (Or.inr hb)⟩ hok
    | some b =>
      unfold optional
      refine step_load ?_
      have := hw.buffer b hb
      unfold readSize at hok
      rw [if_neg (by omega)]
      exact t_ret imp_rfl
  · refine Triple.by ?_ (sl2 _ _ _)
    refine lastly (step_put hl (t_ret fun s hs => ⟨{ x with position := x.position + min n (v.size - v.position) }, ?_⟩))
    dsimp only
    rw [if_neg hn, ownHMisc_intro (r := { x with position := x.position + min n (v.size - v.position) }) (x := movedMisc (readSize n v) v)
      ⟨hw.1, hw.2, hw.3, by rw [hw.position]; rfl, hw.5⟩]
    exact hs

/-- The bytes of a chunk after some are written over. -/
def overwrite (b : List Byte) (o n : Int) (buf : List Byte) : List Byte := b.take o.toNat ++ buf.take n.toNat ++ b.drop (o.toNat + n.toNat)

def wroteMisc (buf : List Byte) (x : Meta.Misc) : Meta.Misc :=
  { x with buffer := x.alloc.map fun b => overwrite b x.position (readSize buf.length x) buf, position := x.position + readSize buf.length x }

theorem t_wroteTail {p : Ptr} {l : List HMiscRec} {i : Nat} {x : HMiscRec} (hl : l[i]? = some x) {b buf : List Byte} {C : SL} (hb : (b.length : Int) = x.size)
    (hok : ¬ (min (buf.length : Int) (x.size - x.position) ≠ 0 ∧ (x.position < 0 ∨ min (buf.length : Int) (x.size - x.position) < 0))) :
    Triple ((p ↦ l) ∗ (x.buffer ↦ b) ∗ C) (do
        memcpy x.buffer x.position buf (min (buf.length : Int) (x.size - x.position))
        setAt (ρ := HMiscRec) p i fun y => { y with position := y.position + min (buf.length : Int) (x.size - x.position) })
      (fun _ => (p ↦ l.set i { x with position := x.position + min (buf.length : Int) (x.size - x.position) }) ∗
        (x.buffer ↦ overwrite b x.position (min (buf.length : Int) (x.size - x.position)) buf) ∗ C) := by
  unfold overwrite
  generalize hn : min (buf.length : Int) (x.size - x.position) = n at hok ⊢
  unfold memcpy
  by_cases h0 : n = 0
  · rw [if_pos h0]
    subst h0
    have e : b.take x.position.toNat ++ buf.take (0 : Int).toNat ++ b.drop (x.position.toNat + (0 : Int).toNat) = b := by simp
    rw [e]
    rw [pure_bind]
    exact lastly (step_put hl (t_ret imp_rfl))
  · rw [if_neg h0, if_neg (by omega)]
    rw [bind_assoc]
    refine Triple.by ?_ (sl2 _ _ _)
    refine step_load ?_
    rw [if_pos (by omega)]
    refine step_store ?_
    refine Triple.by ?_ (sl2 _ _ _)
    exact lastly (step_put hl (t_ret imp_rfl))

theorem overwrite_length {b buf : List Byte} {o n : Int} (h : n = 0 ∨ 0 ≤ o ∧ 0 ≤ n ∧ n ≤ buf.length ∧ o + n ≤ b.length) : (overwrite b o n buf).length = b.length := by
  unfold overwrite
  rcases h with rfl | h
  · simp
  · simp only [List.length_append, List.length_take, List.length_drop]
    omega

theorem t_writeMisc {h : Ptr} {V : HandleVal} {id : Int} {buf : List Byte} {R : Int × Meta.Handle} (hr : Meta.writeMisc V.metadata id buf = .ok R) :
    Triple (ownHandle h V) (writeMisc h id buf) (fun _ => ownHandle h (V.withMeta R.2)) := by
  unfold Meta.writeMisc at hr
  rw [show V.metadata.access = V.access from rfl] at hr
  unfold writeMisc
  refine t_openHandle fun r ha hf => step_load ?_
  rw [ha]
  refine t_ite (fun h => ?_) (fun h => ?_)
  · rw [if_pos h] at hr
    cases hr
    dsimp only
    rw [withMeta_self]
    exact t_ret (closeHandle ha hf)
  rw [if_neg h] at hr
  have value : V.withMeta R.2 = withMisc V (updFirst (fun x => x.id == id)
      (fun x => if (buf.length : Int) ≤ 0 then x else if x.buffer = none ∧ x.size < 0 then x else wroteMisc buf x) V.misc) := by
    cases hm : V.metadata.getMisc id with
    | none =>
      rw [hm] at hr
      cases hr
      dsimp only
      rw [withMeta_self, show updFirst (fun x => x.id == id) (fun x => if (buf.length : Int) ≤ 0 then x else if x.buffer = none ∧ x.size < 0 then x else wroteMisc buf x) V.misc = V.misc from updFirst_find_none hm]
      rfl
    | some m =>
      rw [hm] at hr
      dsimp only at hr
      by_cases hn : (buf.length : Int) ≤ 0
      · rw [if_pos hn] at hr
        cases hr
        dsimp only
        rw [withMeta_self]
        refine Eq.trans ?_ (congrArg (withMisc V) ((updFirst_find_congr (g' := fun x => x) hm ?_).trans updFirst_id).symm)
        · rfl
        · rw [if_pos hn]
      rw [if_neg hn] at hr
      by_cases hs : m.buffer = none ∧ m.size < 0
      · rw [if_pos hs] at hr
        cases hr
        dsimp only
        rw [withMeta_self]
        refine Eq.trans ?_ (congrArg (withMisc V) ((updFirst_find_congr (g' := fun x => x) hm ?_).trans updFirst_id).symm)
        · rfl
        · rw [if_neg hn, if_pos hs]
      · rw [if_neg hs] at hr
        split at hr
        · cases hr
        · cases hr
          dsimp only
          refine withMeta_misc' ?_ rfl rfl
          refine updFirst_find_congr (l := V.misc) hm ?_
          rw [if_neg hn, if_neg hs]
          rfl
  rw [value]
  refine t_miscUpd ha hf rfl ?_
  intro i x v l C hv hl
  dsimp only
  refine t_ite (fun hn => ?_) (fun hn => ?_)
  · refine t_ret fun s hs => ⟨x, ?_⟩
    dsimp only
    rw [if_pos hn, set_self' hl]
    exact hs
  rw [if_neg hn]
  rw [show V.metadata.getMisc id = some v from hv] at hr
  dsimp only at hr
  rw [if_neg hn] at hr
  refine step_get hl ?_
  rw [ownHMisc_eq x v]
  refine Triple.by ?_ (show _ = (fact (MiscFields x v) ∗ optional x.buffer v.buffer ∗ (r.miscellaneous ↦ l) ∗ C) by ac_rfl)
  refine t_fact fun hw => ?_
  cases hb : v.buffer with
  | none =>
    rw [hb] at hr
    unfold optional
    refine t_fact fun h0 => ?_
    by_cases hs : v.size < 0
    · rw [if_pos ⟨h0, hw.size ▸ hs⟩, if_pos ⟨rfl, hs⟩]
      refine t_ret fun s hs => ⟨x, ?_⟩
      dsimp only
      rw [set_self' hl, ownHMisc_intro hw, hb]
      unfold optional
      rw [fact_true h0, emp_sep]
      exact hs
    rw [if_neg (by rw [hw.size]; omega), if_neg (by omega)]
    rw [if_neg (by omega)] at hr
    have hok : ¬ (readSize buf.length v ≠ 0 ∧ (v.position < 0 ∨ readSize buf.length v < 0)) := by
      intro hc
      unfold readSize at hc
      rw [if_pos hc] at hr
      cases hr
    unfold onlyIf
    by_cases hz : v.size = 0
    · rw [if_neg (by rw [hw.size]; omega), pure_bind]
      refine step_get hl ?_
      have hzero : readSize buf.length v = 0 := by unfold readSize at hok ⊢; omega
      have hz' : min (buf.length : Int) (x.size - x.position) = 0 := by rw [hw.size, hw.position]; exact hzero
      rw [hz']
      unfold memcpy
      rw [if_pos rfl, pure_bind]
      refine lastly (step_put hl (t_ret fun s hs => ⟨{ x with position := x.position + 0 }, ?_⟩))
      dsimp only
      have ea : v.alloc = none := by unfold Meta.Misc.alloc; rw [if_neg (by omega), hb]
      rw [ownHMisc_intro (r := { x with position := x.position + 0 }) (x := wroteMisc buf v)
        ⟨hw.1, hw.2, hw.3, by unfold wroteMisc; rw [hw.position, hzero], by unfold wroteMisc; rw [ea]; intro b h; cases h⟩]
      unfold wroteMisc
      dsimp only
      rw [ea]
      unfold optional
      dsimp only [Option.map_none]
      rw [fact_true h0, emp_sep]
      exact hs
    · rw [if_pos ⟨h0, by rw [hw.size]; exact hz⟩]
      rw [bind_assoc]
      refine step_alloc fun q => ?_
      refine Triple.by ?_ (sl2 _ _ _)
      refine step_put hl ?_
      have hl' := get_set (a := ({ x with buffer := q } : HMiscRec)) hl
      refine step_get hl' ?_
      have hlen : ((List.replicate x.size.toNat (0 : Byte)).length : Int) = x.size := by
        rw [List.length_replicate, hw.size]; omega
      refine (t_wroteTail (x := { x with buffer := q }) (buf := buf) hl' hlen ?_).imp imp_rfl fun _ s hs => ⟨{ x with buffer := q, position := x.position + min (buf.length : Int) (x.size - x.position) }, ?_⟩
      · show ¬ (min (buf.length : Int) (x.size - x.position) ≠ 0 ∧ (x.position < 0 ∨ min (buf.length : Int) (x.size - x.position) < 0))
        rw [hw.size, hw.position]
        exact hok
      · dsimp only
        rw [List.set_set] at hs
        have ea : v.alloc = some (List.replicate x.size.toNat 0) := by unfold Meta.Misc.alloc; rw [if_pos ⟨hb, hz⟩, hw.size]
        have en : min (buf.length : Int) (x.size - x.position) = readSize buf.length v := by rw [hw.size, hw.position]; rfl
        rw [ownHMisc_intro (r := { x with buffer := q, position := x.position + min (buf.length : Int) (x.size - x.position) }) (x := wroteMisc buf v)
          ⟨hw.1, hw.2, hw.3, by unfold wroteMisc; dsimp only; rw [en, hw.position], ?_⟩]
        · unfold wroteMisc
          dsimp only
          rw [ea]
          dsimp only [Option.map_some]
          unfold optional
          rw [← en, ← hw.position]
          exact hs
        · unfold wroteMisc
          dsimp only
          rw [ea]
          intro b h
          cases h
          rw [overwrite_length, hlen, hw.size]
          rw [hlen, hw.size]
          unfold readSize at hok ⊢
          omega
  | some b =>
    rw [hb] at hr
    unfold optional
    rw [if_neg (fun h => nomatch h.1)] at hr
    rw [if_neg (show ¬ (some b = none ∧ v.size < 0) from fun h => nomatch h.1)]
    have hok : ¬ (readSize buf.length v ≠ 0 ∧ (v.position < 0 ∨ readSize buf.length v < 0)) := by
      intro hc
      unfold readSize at hc
      rw [if_pos hc] at hr
      cases hr
    refine t_know (φ := x.buffer ≠ 0) (fun m hm => hm.1) fun h0 => ?_
    rw [if_neg (show ¬ (x.buffer = 0 ∧ x.size < 0) from fun h => h0 h.1)]
    unfold onlyIf
    rw [if_neg (show ¬ (x.buffer = 0 ∧ x.size ≠ 0) from fun h => h0 h.1), pure_bind]
    refine Triple.by ?_ (sl2 _ _ _)
    refine step_get hl ?_
    have hlen : (b.length : Int) = x.size := by rw [hw.size]; exact hw.buffer b hb
    refine (t_wroteTail (x := x) (buf := buf) hl hlen ?_).imp imp_rfl fun _ s hs =>
      ⟨({ x with position := x.position + min (buf.length : Int) (x.size - x.position) } : HMiscRec), ?_⟩
    · rw [hw.size, hw.position]
      exact hok
    · dsimp only
      have ea : v.alloc = some b := by unfold Meta.Misc.alloc; rw [if_neg (by rw [hb]; rintro ⟨h, -⟩; cases h), hb]
      have en : min (buf.length : Int) (x.size - x.position) = readSize buf.length v := by rw [hw.size, hw.position]; rfl
      rw [ownHMisc_intro (r := { x with position := x.position + min (buf.length : Int) (x.size - x.position) }) (x := wroteMisc buf v)
        ⟨hw.1, hw.2, hw.3, by unfold wroteMisc; dsimp only; rw [en, hw.position], ?_⟩]
      · unfold wroteMisc
        dsimp only
        rw [ea]
        dsimp only [Option.map_some]
        unfold optional
        rw [← en, ← hw.position]
        exact hs
      · unfold wroteMisc
        dsimp only
        rw [ea]
        intro b' h
        cases h
        rw [overwrite_length, hlen, hw.size]
        rw [hlen, hw.size]
        unfold readSize at hok ⊢
        omega

/-! ## All calls -/

theorem t_handleEffect {h : Ptr} {V : HandleVal} {op : Meta.Op} {r : Meta.Ret} {H : Meta.Handle} (hr : Meta.step V.metadata op = .ok (r, H)) :
    Triple (ownHandle h V) (handleEffect h op) (fun _ => ownHandle h (V.withMeta H)) := by
  cases op
  case setMark t m p => cases hr; exact t_setMarkPosition
  case setAES t b => cases hr; exact t_setAES
  case setLoop f i l v =>
    have : H = (Meta.setLoop V.metadata f i l v).2 := by
      have := Except.ok.inj hr
      rw [this]
    rw [this]
    exact t_setLoop
  case setParams i pv n => cases hr; exact t_setInstParams
  case setParamLong i p v => cases hr; exact t_setInstParams
  case writeMisc id b =>
    change (Meta.writeMisc V.metadata id b).map _ = _ at hr
    cases hw : Meta.writeMisc V.metadata id b with
    | error a => rw [hw] at hr; cases hr
    | ok R => rw [hw] at hr; cases hr; exact t_writeMisc hw
  case readMisc id n =>
    change (Meta.readMisc V.metadata id n).map _ = _ at hr
    cases hw : Meta.readMisc V.metadata id n with
    | error a => rw [hw] at hr; cases hr
    | ok R => rw [hw] at hr; cases hr; exact t_readMisc hw
  case seekMisc id o => cases hr; exact t_seekMisc
  all_goals
    cases hr
    exact t_ret (imp_eq (congrArg (ownHandle h) (withMeta_self V).symm))

theorem t_handleCall {h : Ptr} {V : HandleVal} {op : Meta.Op} {r : Meta.Ret} {H : Meta.Handle} (hr : Meta.step V.metadata op = .ok (r, H)) :
    Triple (ownHandle h V) (handleCall h op) (fun x => fact (x = r) ∗ ownHandle h (V.withMeta H)) := by
  unfold handleCall
  refine Triple.bind t_readHandle fun x => t_fact fun hx => ?_
  subst hx
  refine Triple.bind (t_handleEffect hr) fun _ => ?_
  rw [hr]
  dsimp only
  exact t_ret fun m hm => fact_sep.2 ⟨rfl, hm⟩

/-! ## The virtual format -/

theorem t_setVirtual {h : Ptr} {V : HandleVal} {t : Int} {g : AFmt → AFmt} : Triple (ownHandle h V) (setVirtual h t g)
    (fun _ => ownHandle h (withTracks V (updFirst (fun x => x.track.id == t) (fun x => { x with v := g x.v }) V.tracks))) := by
  unfold setVirtual
  refine t_openHandle fun r ha hf => step_load ?_
  refine t_trackUpd ha hf rfl ?_
  intro i tr v l C hl
  dsimp only
  rw [ownHTrack_eq tr v]
  generalize hE : (ex fun pv : Option (List (Int × BitVec 64)) => optional tr.fparams pv) = E
  refine Triple.by ?_ (show _ = (fact (TrackFields tr v) ∗ (r.tracks ↦ l) ∗ (E ∗ optional tr.matrix v.matrix ∗
    array ownHMarker tr.markers tr.markerCount (v.track.markers.zip v.names) ∗ C)) by ac_rfl)
  refine t_fact fun hx => ?_
  refine lastly (step_put hl (t_ret fun s hs => ⟨{ tr with v := g tr.v }, ?_⟩))
  dsimp only
  rw [ownHTrack_intro (r := { tr with v := g tr.v }) (x := { v with v := g v.v }) ⟨hx.1, hx.2, congrArg g hx.3, hx.4, hx.5, hx.6, hx.7⟩]
  dsimp only
  rw [hE]
  exact imp_eq (by ac_rfl) s hs

theorem t_setVirtualChannels {h : Ptr} {V : HandleVal} {t n : Int} : Triple (ownHandle h V) (setVirtualChannels h t n)
    (fun _ => ownHandle h (withTracks V (updFirst (fun x => x.track.id == t) (fun x => { x with v := { x.v with channels := n }, matrix := none }) V.tracks))) := by
  unfold setVirtualChannels
  refine t_openHandle fun r ha hf => step_load ?_
  refine t_trackUpd ha hf rfl ?_
  intro i tr v l C hl
  dsimp only
  rw [ownHTrack_eq tr v]
  generalize hE : (ex fun pv : Option (List (Int × BitVec 64)) => optional tr.fparams pv) = E
  refine Triple.by ?_ (show _ = (fact (TrackFields tr v) ∗ (r.tracks ↦ l) ∗ (optional tr.matrix v.matrix ∗ (E ∗
    array ownHMarker tr.markers tr.markerCount (v.track.markers.zip v.names) ∗ C))) by ac_rfl)
  refine t_fact fun hx => ?_
  refine step_put hl (step_get (get_set hl) ?_)
  refine Triple.by ?_ (sl2 _ _ _)
  refine step_when_optional ?_
  refine lastly (step_put (get_set hl) (t_ret fun s hs => ⟨{ tr with v := { tr.v with channels := n }, matrix := 0 }, ?_⟩))
  dsimp only
  rw [ownHTrack_intro (r := { tr with v := { tr.v with channels := n }, matrix := 0 }) (x := { v with v := { v.v with channels := n }, matrix := none })
    ⟨hx.1, hx.2, congrArg (fun v : AFmt => { v with channels := n }) hx.3, hx.4, hx.5, hx.6, hx.7⟩]
  dsimp only
  rw [hE, show optional (α := List (BitVec 64)) 0 none = emp from fact_true rfl, emp_sep]
  rw [List.set_set] at hs
  exact imp_eq (by ac_rfl) s hs

theorem t_setChannelMatrix {h : Ptr} {V : HandleVal} {t : Int} {mx : Option (List (BitVec 64))} : Triple (ownHandle h V) (setChannelMatrix h t mx)
    (fun _ => ownHandle h (withTracks V (updFirst (fun x => x.track.id == t) (fun x => { x with matrix := mx }) V.tracks))) := by
  unfold setChannelMatrix
  refine t_openHandle fun r ha hf => step_load ?_
  refine t_trackUpd ha hf rfl ?_
  intro i tr v l C hl
  dsimp only
  rw [ownHTrack_eq tr v]
  generalize hE : (ex fun pv : Option (List (Int × BitVec 64)) => optional tr.fparams pv) = E
  refine step_get hl ?_
  refine Triple.by ?_ (show _ = (fact (TrackFields tr v) ∗ optional tr.matrix v.matrix ∗ ((r.tracks ↦ l) ∗ (E ∗
    array ownHMarker tr.markers tr.markerCount (v.track.markers.zip v.names) ∗ C))) by ac_rfl)
  refine t_fact fun hx => ?_
  refine step_when_optional ?_
  refine step_put hl ?_
  cases mx with
  | none =>
    dsimp only
    refine t_ret fun s hs => ⟨{ tr with matrix := 0 }, ?_⟩
    dsimp only
    rw [ownHTrack_intro (r := { tr with matrix := 0 }) (x := { v with matrix := none }) ⟨hx.1, hx.2, hx.3, hx.4, hx.5, hx.6, hx.7⟩]
    dsimp only
    rw [hE, show optional (α := List (BitVec 64)) 0 none = emp from fact_true rfl, emp_sep]
    exact imp_eq (by ac_rfl) s hs
  | some mat =>
    dsimp only
    refine step_alloc fun q => ?_
    refine Triple.by ?_ (sl2 _ _ _)
    refine lastly (step_put (get_set hl) (t_ret fun s hs => ⟨{ tr with matrix := q }, ?_⟩))
    dsimp only
    rw [ownHTrack_intro (r := { tr with matrix := q }) (x := { v with matrix := some mat }) ⟨hx.1, hx.2, hx.3, hx.4, hx.5, hx.6, hx.7⟩]
    dsimp only
    rw [hE]
    rw [List.set_set] at hs
    unfold optional
    dsimp only
    exact imp_eq (by ac_rfl) s hs

theorem t_virtualCall {h : Ptr} {V : HandleVal} {op : VOp} : Triple (ownHandle h V) (virtualCall h op) (fun _ => ownHandle h (V.virt op)) := by
  cases op <;> unfold virtualCall HandleVal.virt VOp.track <;> dsimp only
  case sampleFormat t sf sw => exact (t_setVirtual (g := fun v => (Setup.setVirtualSampleFormat v sf sw).2)).imp imp_rfl fun _ => imp_eq rfl
  case rate t r => exact (t_setVirtual (g := fun v => (Setup.setVirtualRate v r).2)).imp imp_rfl fun _ => imp_eq rfl
  case byteOrder t o => exact (t_setVirtual (g := fun v => (Setup.setVirtualByteOrder v o).2)).imp imp_rfl fun _ => imp_eq rfl
  case pcm t m => exact (t_setVirtual (g := fun v => { v with pcm := m })).imp imp_rfl fun _ => imp_eq rfl
  case channels t n => exact t_setVirtualChannels.imp imp_rfl fun _ => imp_eq rfl
  case matrix t m => exact t_setChannelMatrix.imp imp_rfl fun _ => imp_eq rfl

end AF.Heap
