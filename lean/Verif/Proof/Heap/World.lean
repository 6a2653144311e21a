import Verif.Proof.Heap.Effects2
import Verif.Model.HeapWorld
import Verif.Spec.HeapWorld
/-! Histories of calls on setups and handles in memory. -/
namespace AF.Heap
open AF.Setup (AFmt Inv)

variable {α β ρ ν : Type}

/-- What holds of every setup that was made by the calls. -/
def World.Good (W : World) : Prop := ∀ (i : Nat) (S : Setup.Setup), W.setups[i]? = some (Obj.live S) → Inv S ∧ NoLoopSet S

theorem world_new_good : World.new.Good := by intro i S h; simp [World.new] at h

theorem good_append {l : List (Obj Setup.Setup)} {hs : List (Obj HandleVal)} {S : Setup.Setup} (hg : World.Good ⟨l, hs⟩) (h : Inv S ∧ NoLoopSet S)
    (hs' : List (Obj HandleVal)) : World.Good ⟨l ++ [.live S], hs'⟩ := by
  intro i T hT
  dsimp only at hT
  rw [List.getElem?_append] at hT
  split at hT
  · exact hg i T hT
  · rename_i hi
    cases hk : i - l.length with
    | zero => rw [hk] at hT; simp at hT; subst hT; exact h
    | succ k => rw [hk] at hT; simp at hT

theorem good_set {l : List (Obj Setup.Setup)} {hs : List (Obj HandleVal)} {x : Obj Setup.Setup} {j : Nat} (hg : World.Good ⟨l, hs⟩)
    (h : ∀ S, x = .live S → Inv S ∧ NoLoopSet S) (hs' : List (Obj HandleVal)) : World.Good ⟨l.set j x, hs'⟩ := by
  intro i T hT
  dsimp only at hT
  rw [List.getElem?_set] at hT
  split at hT
  · split at hT
    · exact h T (Option.some.inj hT)
    · cases hT
  · exact hg i T hT

theorem open_good {e : Endian} {S : Setup.Setup} (h : Inv S ∧ NoLoopSet S) : Inv (Setup.openWrite e S).1 ∧ NoLoopSet (Setup.openWrite e S).1 := by
  obtain ⟨tr, ht, hid⟩ := h.1.track
  obtain ⟨f, h1, -⟩ := Setup.complete_shape e ht hid h.1
  have : (Setup.openWrite e S).1 = Setup.setF S tr f := h1
  rw [this]
  exact ⟨Inv.setF h.1 hid f, h.2⟩

theorem World.Good.step {e : Endian} {W W' : World} {op : WOp} {r : Option Meta.Ret} (hg : W.Good) (hs : W.step e op = some (W', r)) : W'.Good := by
  obtain ⟨ss, hh⟩ := W
  cases op <;> unfold World.step at hs <;> dsimp only at hs
  case new =>
    cases hs
    exact good_append hg ⟨Setup.newSetup_inv e, NoLoopSet.new e⟩ _
  case set i op =>
    split at hs
    · rename_i S hi
      cases hs
      refine good_set hg ?_ _
      intro S' h
      cases h
      exact ⟨Setup.step_inv (hg i S hi).1 op, (hg i S hi).2.step op⟩
    · cases hs
  case freeSetup i =>
    split at hs
    · cases hs
      exact good_set hg (fun S h => by cases h) _
    · cases hs
  case openWrite i w c =>
    split at hs
    · rename_i S hi
      cases hs
      refine good_set hg ?_ _
      intro S' h
      cases h
      exact open_good (hg i S hi)
    · cases hs
  case call j op =>
    split at hs
    · cases hs; exact hg
    · split at hs
      · cases hs; exact hg
      · cases hs
    · cases hs
  case virt j op =>
    split at hs
    · cases hs; exact hg
    · cases hs; exact hg
    · cases hs
  case close j =>
    split at hs
    · cases hs; exact hg
    · cases hs; exact hg
    · cases hs

/-! ## One call -/

theorem handle_ne {h : Ptr} {V : HandleVal} (m : Mem) (hm : ownHandle h V m) : h ≠ 0 := by
  obtain ⟨r, hm⟩ := hm
  obtain ⟨-, a, b, -, -, ha, -⟩ := fact_sep.1 hm
  exact ha.1

theorem each_root {P : ρ → ν → SL} {rs : List ρ} {vs : List ν} {i : Nat} {v : ν} (hv : vs[i]? = some v) {R : SL} {c : M α} {Q : α → SL}
    (h : ∀ r, rs[i]? = some r → Triple (each P rs vs ∗ R) c Q) : Triple (each P rs vs ∗ R) c Q := by
  refine t_know (φ := rs.length = vs.length) (fun m hm => each_length m hm) fun hl => ?_
  have hi := (List.getElem?_eq_some_iff.1 hv).1
  exact h (rs[i]'(by omega)) (List.getElem?_eq_getElem (by omega))

theorem set_get_self {l : List ρ} {i : Nat} {r : ρ} (h : l[i]? = some r) : l.set i r = l := set_self' h

/-- A call on a live setup. -/
theorem t_onSetup {ps : List Ptr} {vs : List (Obj Setup.Setup)} {i : Nat} {p : Ptr} {x : Obj Setup.Setup} {S : Setup.Setup} (hp : ps[i]? = some p)
    (hv : vs[i]? = some (.live S)) {c : M α} {Q : α → SL} (hc : Triple (ownSetup p S) c (fun a => ownObj ownSetup p x ∗ Q a)) {R : SL} {k : α → M β} {Q' : β → SL}
    (hk : ∀ a, Triple (each (ownObj ownSetup) ps (vs.set i x) ∗ Q a ∗ R) (k a) Q') : Triple (each (ownObj ownSetup) ps vs ∗ R) (c >>= k) Q' := by
  obtain ⟨E, e1, e2⟩ := each_split (P := ownObj ownSetup) hp hv
  have e2 := e2 p x
  rw [set_self' hp] at e2
  rw [e1]
  refine Triple.by ?_ (sep_assoc _ _ _)
  refine Triple.call (show Triple (ownObj ownSetup p (.live S)) c _ from hc) fun a => ?_
  refine Triple.by (hk a) ?_
  rw [e2]
  generalize ownObj ownSetup p x = A
  ac_rfl

/-- A call on a live handle. -/
theorem t_onHandle {ps : List Ptr} {vs : List (Obj HandleVal)} {i : Nat} {p : Ptr} {x : Obj HandleVal} {V : HandleVal} (hp : ps[i]? = some p)
    (hv : vs[i]? = some (.live V)) {c : M α} {Q : α → SL} (hc : Triple (ownHandle p V) c (fun a => Q a ∗ ownObj ownHandle p x)) {R : SL} {k : α → M β} {Q' : β → SL}
    (hk : ∀ a, Triple (each (ownObj ownHandle) ps (vs.set i x) ∗ Q a ∗ R) (k a) Q') : Triple (each (ownObj ownHandle) ps vs ∗ R) (c >>= k) Q' := by
  obtain ⟨E, e1, e2⟩ := each_split (P := ownObj ownHandle) hp hv
  have e2 := e2 p x
  rw [set_self' hp] at e2
  rw [e1]
  refine Triple.by ?_ (sep_assoc _ _ _)
  refine Triple.call (show Triple (ownObj ownHandle p (.live V)) c _ from hc) fun a => ?_
  refine Triple.by (hk a) ?_
  rw [e2]
  generalize ownObj ownHandle p x = A
  ac_rfl

/-- The pointer of a handle is null exactly if the handle is. -/
theorem root_null {ps : List Ptr} {vs : List (Obj HandleVal)} {i : Nat} {p : Ptr} (hp : ps[i]? = some p) (hv : vs[i]? = some .null)
    (m : Mem) (hm : each (ownObj ownHandle) ps vs m) : p = 0 := by
  obtain ⟨E, e1, -⟩ := each_split (P := ownObj ownHandle) hp hv
  rw [e1] at hm
  exact (fact_sep.1 hm).1

theorem root_live {ps : List Ptr} {vs : List (Obj HandleVal)} {i : Nat} {p : Ptr} {V : HandleVal} (hp : ps[i]? = some p) (hv : vs[i]? = some (.live V))
    (m : Mem) (hm : each (ownObj ownHandle) ps vs m) : p ≠ 0 := by
  obtain ⟨E, e1, -⟩ := each_split (P := ownObj ownHandle) hp hv
  rw [e1] at hm
  obtain ⟨a, b, -, -, ha, -⟩ := hm
  exact handle_ne a ha

theorem t_exec {e : Endian} {W W' : World} {op : WOp} {r : Option Meta.Ret} {R : Roots} (hg : W.Good) (hs : W.step e op = some (W', r)) :
    Triple (ownWorld R W) (exec e R op) (fun x => fact (x.2 = r) ∗ ownWorld x.1 W') := by
  obtain ⟨ss, hh⟩ := W
  obtain ⟨ps, qs⟩ := R
  unfold ownWorld
  dsimp only
  cases op <;> unfold World.step at hs <;> dsimp only at hs
  case new =>
    cases hs
    unfold exec
    dsimp only
    refine t_know (φ := ps.length = ss.length) (fun m hm => each_length m hm) fun hl => ?_
    rw [← emp_sep (each (ownObj ownSetup) ps ss ∗ _)]
    refine t_newFileSetup.call fun q => t_ret fun m hm => fact_sep.2 ⟨rfl, ?_⟩
    dsimp only
    rw [each_append _ _ hl, each_one]
    exact imp_eq (by show (ownSetup q _ ∗ _) = ((_ ∗ ownSetup q _) ∗ _); ac_rfl) m hm
  case set i op =>
    split at hs
    · rename_i S hi
      cases hs
      refine each_root hi fun p hp => ?_
      unfold exec
      dsimp only
      rw [hp]
      dsimp only
      refine t_onSetup (x := .live (Setup.step S op)) (Q := fun _ => emp) hp hi ((t_setupCall op).imp imp_rfl fun _ => imp_eq (sep_emp _).symm) fun _ => ?_
      rw [emp_sep]
      exact t_ret fun m hm => fact_sep.2 ⟨rfl, hm⟩
    · cases hs
  case freeSetup i =>
    split at hs
    · rename_i S hi
      cases hs
      refine each_root hi fun p hp => ?_
      unfold exec
      dsimp only
      rw [hp]
      dsimp only
      refine t_onSetup (x := .gone) (Q := fun _ => emp) hp hi (t_freeFileSetup.imp imp_rfl fun _ => imp_eq (sep_emp _).symm) fun _ => ?_
      rw [emp_sep]
      exact t_ret fun m hm => fact_sep.2 ⟨rfl, hm⟩
    · cases hs
  case openWrite i w c =>
    split at hs
    · rename_i S hi
      cases hs
      refine each_root hi fun p hp => ?_
      unfold exec
      dsimp only
      rw [hp]
      dsimp only
      refine t_know (φ := qs.length = hh.length) (P := each (ownObj ownHandle) qs hh) (fun m hm => each_length m hm) (fun hl => ?_) |>.by (sep_comm _ _)
      refine Triple.by ?_ (sep_comm _ _)
      have ho := t_openWrite (e := e) (s := p) (written := w) (codec := c) (hg i S hi).1 (hg i S hi).2
      refine t_onSetup (x := .live (Setup.openWrite e S).1) hp hi (ho.imp imp_rfl fun _ => imp_eq (sep_comm _ _)) fun q => ?_
      refine t_ret fun m hm => fact_sep.2 ⟨rfl, ?_⟩
      dsimp only
      rw [each_append _ _ hl, each_one]
      revert hm
      generalize each (ownObj ownSetup) ps _ = A
      generalize each (ownObj ownHandle) qs hh = B
      generalize (if w = true ∧ c = true then (Setup.openWrite e S).2 else none) = o
      intro hm
      cases o with
      | none => exact imp_eq (by show (A ∗ fact (q = 0) ∗ B) = (A ∗ B ∗ fact (q = 0)); ac_rfl) m hm
      | some o => exact imp_eq (by show (A ∗ ownHandle q (HandleVal.ofOpened o) ∗ B) = (A ∗ B ∗ ownHandle q (HandleVal.ofOpened o)); ac_rfl) m hm
    · cases hs
  case call j op =>
    refine Triple.by ?_ (sep_comm _ _)
    unfold exec onHandle
    dsimp only
    split at hs
    · rename_i hj
      cases hs
      refine each_root hj fun p hp => ?_
      rw [hp]
      dsimp only
      refine t_know (fun m hm => root_null hp hj m hm) fun h0 => ?_
      rw [if_pos h0, pure_bind]
      exact t_ret fun m hm => fact_sep.2 ⟨rfl, by rw [sep_comm] at hm; exact hm⟩
    · rename_i V hj
      split at hs
      · rename_i r' H hstep
        cases hs
        refine each_root hj fun p hp => ?_
        rw [hp]
        dsimp only
        refine t_know (fun m hm => root_live hp hj m hm) fun h0 => ?_
        rw [if_neg h0, bind_assoc]
        refine t_onHandle (x := .live (V.withMeta H)) (Q := fun a => fact (a = r')) hp hj (t_handleCall hstep) fun a => ?_
        refine Triple.by ?_ (sl2 _ _ _)
        refine t_fact fun ha => ?_
        rw [pure_bind, ha]
        exact t_ret fun m hm => fact_sep.2 ⟨rfl, by rw [sep_comm] at hm; exact hm⟩
      · cases hs
    · cases hs
  case virt j op =>
    refine Triple.by ?_ (sep_comm _ _)
    unfold exec onHandle
    dsimp only
    split at hs
    · rename_i hj
      cases hs
      refine each_root hj fun p hp => ?_
      rw [hp]
      dsimp only
      refine t_know (fun m hm => root_null hp hj m hm) fun h0 => ?_
      rw [if_pos h0, pure_bind]
      exact t_ret fun m hm => fact_sep.2 ⟨rfl, by rw [sep_comm] at hm; exact hm⟩
    · rename_i V hj
      cases hs
      refine each_root hj fun p hp => ?_
      rw [hp]
      dsimp only
      refine t_know (fun m hm => root_live hp hj m hm) fun h0 => ?_
      rw [if_neg h0]
      refine t_onHandle (x := .live (V.virt op)) (Q := fun _ => emp) hp hj (t_virtualCall.imp imp_rfl fun _ => imp_eq (emp_sep _).symm) fun a => ?_
      rw [emp_sep]
      exact t_ret fun m hm => fact_sep.2 ⟨rfl, by rw [sep_comm] at hm; exact hm⟩
    · cases hs
  case close j =>
    refine Triple.by ?_ (sep_comm _ _)
    unfold exec onHandle
    dsimp only
    split at hs
    · rename_i hj
      cases hs
      refine each_root hj fun p hp => ?_
      rw [hp]
      dsimp only
      refine t_know (fun m hm => root_null hp hj m hm) fun h0 => ?_
      rw [if_pos h0, pure_bind]
      exact t_ret fun m hm => fact_sep.2 ⟨rfl, by rw [sep_comm] at hm; exact hm⟩
    · rename_i V hj
      cases hs
      refine each_root hj fun p hp => ?_
      rw [hp]
      dsimp only
      refine t_know (fun m hm => root_live hp hj m hm) fun h0 => ?_
      rw [if_neg h0]
      refine t_onHandle (x := .gone) (Q := fun _ => emp) hp hj (t_deleteHandle.imp imp_rfl fun _ => imp_eq (emp_sep _).symm) fun a => ?_
      rw [emp_sep]
      exact t_ret fun m hm => fact_sep.2 ⟨rfl, by rw [sep_comm] at hm; exact hm⟩
    · cases hs

/-! ## Histories -/

theorem t_execAll {e : Endian} : ∀ {ops : List WOp} {W W' : World} {rs : List (Option Meta.Ret)} {R : Roots}, W.Good → W.run e ops = some (W', rs) →
    Triple (ownWorld R W) (execAll e R ops) (fun x => fact (x.2 = rs) ∗ ownWorld x.1 W')
  | [], W, W', rs, R, hg, hr => by
    cases hr
    exact t_ret fun m hm => fact_sep.2 ⟨rfl, hm⟩
  | op :: ops, W, W', rs, R, hg, hr => by
    unfold World.run at hr
    split at hr
    · cases hr
    rename_i W1 r hs
    split at hr
    · cases hr
    rename_i W2 rs' hr'
    cases hr
    unfold execAll
    refine Triple.bind (t_exec hg hs) fun x => t_fact fun hx => ?_
    obtain ⟨R1, r1⟩ := x
    dsimp only at hx ⊢
    refine Triple.bind (t_execAll (hg.step hs) hr') fun y => t_fact fun hy => ?_
    obtain ⟨R2, rs2⟩ := y
    dsimp only at hy ⊢
    exact t_ret fun m hm => fact_sep.2 ⟨by rw [hx, hy], hm⟩

end AF.Heap
