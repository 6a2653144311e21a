import Verif.Proof.Heap.Sep
/-! Arrays of records in memory: loops over them, and changes of one record. -/
namespace AF.Heap

variable {α β ρ ν : Type}

/-- A consequence of the head of the precondition. -/
theorem t_know {φ : Prop} {P R : SL} {c : M α} {Q : α → SL} (h : ∀ m, P m → φ) (ht : φ → Triple (P ∗ R) c Q) : Triple (P ∗ R) c Q := by
  intro F st hw hp
  have hp' := hp
  rw [sep_assoc] at hp'
  obtain ⟨a, b, -, -, ha, -⟩ := hp'
  exact ht (h a ha) F st hw hp

theorem each_length {P : ρ → ν → SL} : ∀ {rs : List ρ} {vs : List ν} (m : Mem), each P rs vs m → rs.length = vs.length
  | [], [], _, _ => rfl
  | [], _ :: _, _, h => h.elim
  | _ :: _, [], _, h => h.elim
  | _ :: rs, _ :: vs, _, h => by
    obtain ⟨_, b, -, -, -, hb⟩ := h
    simp only [List.length_cons]
    rw [each_length b hb]

theorem each_append {P : ρ → ν → SL} : ∀ {rs : List ρ} {vs : List ν} (rs' : List ρ) (vs' : List ν), rs.length = vs.length →
    each P (rs ++ rs') (vs ++ vs') = (each P rs vs ∗ each P rs' vs')
  | [], [], _, _, _ => by rw [show each P ([] : List ρ) ([] : List ν) = emp from rfl, emp_sep]; rfl
  | [], _ :: _, _, _, h => by simp at h
  | _ :: _, [], _, _, h => by simp at h
  | r :: rs, v :: vs, rs', vs', h => by
    show (P r v ∗ each P (rs ++ rs') (vs ++ vs')) = ((P r v ∗ each P rs vs) ∗ each P rs' vs')
    rw [each_append rs' vs' (by simpa using h), sep_assoc]

theorem each_one {P : ρ → ν → SL} {r : ρ} {v : ν} : each P [r] [v] = P r v := sep_emp _

/-- The record at an index, and the rest. -/
theorem each_split {P : ρ → ν → SL} : ∀ {rs : List ρ} {vs : List ν} {i : Nat} {r : ρ} {v : ν}, rs[i]? = some r → vs[i]? = some v →
    ∃ R, each P rs vs = (P r v ∗ R) ∧ ∀ r' v', each P (rs.set i r') (vs.set i v') = (P r' v' ∗ R)
  | [], _, _, _, _, h, _ => by simp at h
  | _ :: _, [], _, _, _, _, h => by simp at h
  | r0 :: rs, v0 :: vs, 0, r, v, h, h' => by
    simp only [List.getElem?_cons_zero, Option.some.injEq] at h h'
    subst h; subst h'
    exact ⟨each P rs vs, rfl, fun _ _ => rfl⟩
  | r0 :: rs, v0 :: vs, i + 1, r, v, h, h' => by
    simp only [List.getElem?_cons_succ] at h h'
    obtain ⟨R, e, e'⟩ := each_split (P := P) h h'
    refine ⟨P r0 v0 ∗ R, ?_, ?_⟩
    · show (P r0 v0 ∗ each P rs vs) = _
      rw [e]; ac_rfl
    · intro r' v'
      show (P r0 v0 ∗ each P (rs.set i r') (vs.set i v')) = _
      rw [e']; ac_rfl

/-- A search by a key that the records share with their values. -/
theorem each_find {P : ρ → ν → SL} {p : ρ → Bool} {q : ν → Bool} (hpq : ∀ r v m, P r v m → p r = q v) :
    ∀ {rs : List ρ} {vs : List ν} (m : Mem), each P rs vs m → rs.findIdx? p = vs.findIdx? q
  | [], [], _, _ => rfl
  | [], _ :: _, _, h => h.elim
  | _ :: _, [], _, h => h.elim
  | r :: rs, v :: vs, _, h => by
    obtain ⟨a, b, -, -, ha, hb⟩ := h
    simp only [List.findIdx?_cons]
    rw [hpq r v a ha, each_find hpq b hb]

variable [Content (List ρ)]

/-- A loop that gives each record of a new array its value. -/
theorem t_fill {P : ρ → ν → SL} {p : Ptr} {ls : List ρ} {vs : List ν} {C : SL} {body : Nat → M Unit} {n : Nat} (hn : n = vs.length)
    (hl : ls.length = vs.length)
    (hb : ∀ i r0 v, ls[i]? = some r0 → vs[i]? = some v → ∀ l : List ρ, l.length = ls.length → l[i]? = some r0 →
      Triple ((p ↦ l) ∗ C) (body i) (fun _ => ex fun r => (p ↦ l.set i r) ∗ P r v ∗ C)) :
    Triple ((p ↦ ls) ∗ C) (forRange n body) (fun _ => ex fun rs => (p ↦ rs) ∗ each P rs vs ∗ C) := by
  subst hn
  refine Triple.imp (t_forRange (fun i => ex fun rs => fact (rs.length = i) ∗ (p ↦ rs ++ ls.drop i) ∗ each P rs (vs.take i) ∗ C) ?_) ?_ ?_
  · intro i hi
    refine t_ex fun rs => t_fact fun hrs => ?_
    subst hrs
    have hi' : rs.length < ls.length := by omega
    have hget : ls[rs.length]? = some ls[rs.length] := List.getElem?_eq_getElem hi'
    have hgetv : vs[rs.length]? = some vs[rs.length] := List.getElem?_eq_getElem hi
    have := hb rs.length _ _ hget hgetv (rs ++ ls.drop rs.length) (by simp; omega) (by
      rw [List.getElem?_append_right (Nat.le_refl _)]; simp [hget])
    refine Triple.imp (this.frame (each P rs (vs.take rs.length))) (imp_eq (by ac_rfl)) fun _ => ?_
    rw [ex_sep]
    rintro m ⟨r, hm⟩
    refine ⟨rs ++ [r], fact_sep.2 ⟨by simp, ?_⟩⟩
    have e1 : (rs ++ ls.drop rs.length).set rs.length r = (rs ++ [r]) ++ ls.drop (rs.length + 1) := by
      rw [List.set_append_right _ _ (Nat.le_refl _), Nat.sub_self, List.drop_eq_getElem_cons hi', List.set_cons_zero, List.append_assoc]
      rfl
    have e2 : vs.take (rs.length + 1) = vs.take rs.length ++ [vs[rs.length]] := by
      rw [List.take_add_one, hgetv]; rfl
    rw [e1] at hm
    rw [e2, each_append _ _ (by simp; omega), each_one]
    exact (imp_eq (by ac_rfl)) m hm
  · intro m hm
    refine ⟨[], fact_sep.2 ⟨rfl, ?_⟩⟩
    simp only [List.nil_append, List.drop_zero, List.take_zero]
    rw [show each P ([] : List ρ) ([] : List ν) = emp from rfl, emp_sep]
    exact hm
  · rintro _ m ⟨rs, hm⟩
    obtain ⟨hlen, hm⟩ := fact_sep.1 hm
    refine ⟨rs, ?_⟩
    rw [List.drop_eq_nil_of_le (by omega), List.append_nil, List.take_length] at hm
    exact hm

/-- A loop that frees what the records own. -/
theorem t_drain {P : ρ → ν → SL} {p : Ptr} {rs : List ρ} {vs : List ν} {C : SL} {body : Nat → M Unit} {n : Nat} (hn : n = vs.length)
    (hb : ∀ i r v, rs[i]? = some r → vs[i]? = some v → ∀ l : List ρ, l.length = rs.length → l[i]? = some r →
      Triple ((p ↦ l) ∗ P r v ∗ C) (body i) (fun _ => ex fun r' => (p ↦ l.set i r') ∗ C)) :
    Triple ((p ↦ rs) ∗ each P rs vs ∗ C) (forRange n body) (fun _ => ex fun l : List ρ => (p ↦ l) ∗ C) := by
  subst hn
  refine Triple.by ?_ (sep_comm _ _)
  rw [sep_assoc]
  refine t_know each_length fun hl => ?_
  rw [← sep_assoc]
  refine Triple.by ?_ (sep_comm _ _)
  refine Triple.imp (t_forRange (fun i => ex fun ls => fact (ls.length = i) ∗ (p ↦ ls ++ rs.drop i) ∗ each P (rs.drop i) (vs.drop i) ∗ C) ?_) ?_ ?_
  · intro i hi
    refine t_ex fun ls => t_fact fun hls => ?_
    subst hls
    have hi' : ls.length < rs.length := by omega
    have hget : rs[ls.length]? = some rs[ls.length] := List.getElem?_eq_getElem hi'
    have hgetv : vs[ls.length]? = some vs[ls.length] := List.getElem?_eq_getElem hi
    have := hb ls.length _ _ hget hgetv (ls ++ rs.drop ls.length) (by simp; omega) (by
      rw [List.getElem?_append_right (Nat.le_refl _)]; simp [hget])
    have e0 : each P (rs.drop ls.length) (vs.drop ls.length) =
        (P rs[ls.length] vs[ls.length] ∗ each P (rs.drop (ls.length + 1)) (vs.drop (ls.length + 1))) := by
      rw [List.drop_eq_getElem_cons hi', List.drop_eq_getElem_cons hi]; rfl
    rw [e0]
    refine Triple.imp (this.frame (each P (rs.drop (ls.length + 1)) (vs.drop (ls.length + 1)))) (imp_eq (by ac_rfl)) fun _ => ?_
    rw [ex_sep]
    rintro m ⟨r, hm⟩
    refine ⟨ls ++ [r], fact_sep.2 ⟨by simp, ?_⟩⟩
    have e1 : (ls ++ rs.drop ls.length).set ls.length r = (ls ++ [r]) ++ rs.drop (ls.length + 1) := by
      rw [List.set_append_right _ _ (Nat.le_refl _), Nat.sub_self, List.drop_eq_getElem_cons hi', List.set_cons_zero, List.append_assoc]
      rfl
    rw [e1] at hm
    exact (imp_eq (by ac_rfl)) m hm
  · intro m hm
    exact ⟨[], fact_sep.2 ⟨rfl, hm⟩⟩
  · rintro _ m ⟨ls, hm⟩
    obtain ⟨hlen, hm⟩ := fact_sep.1 hm
    refine ⟨ls, ?_⟩
    rw [List.drop_eq_nil_of_le (by omega), List.append_nil, List.drop_eq_nil_of_le (Nat.le_refl _),
      show each P ([] : List ρ) ([] : List ν) = emp from rfl, emp_sep] at hm
    exact hm

/-! ## `array` -/

theorem array_nil {P : ρ → ν → SL} {p : Ptr} {n : Nat} : array P p n [] = fact (p = 0 ∧ n = 0) := if_pos rfl

theorem array_some {P : ρ → ν → SL} {p : Ptr} {n : Nat} {vs : List ν} (h : vs ≠ []) :
    array P p n vs = ex fun rs : List ρ => fact (n = vs.length) ∗ (p ↦ rs) ∗ each P rs vs := if_neg h

/-- The length that is kept beside an array. -/
theorem array_count {P : ρ → ν → SL} {p : Ptr} {n : Nat} {vs : List ν} (m : Mem) (h : array P p n vs m) :
    n = vs.length ∧ (p = 0 ↔ vs = []) := by
  by_cases hv : vs = []
  · subst hv; rw [array_nil] at h; exact ⟨h.1.2, by simp [h.1.1]⟩
  · rw [array_some hv] at h
    obtain ⟨rs, h⟩ := h
    obtain ⟨h1, h2⟩ := fact_sep.1 h
    obtain ⟨_, _, -, -, h3, -⟩ := h2
    exact ⟨h1, by simp [hv, h3.1]⟩

theorem array_intro {P : ρ → ν → SL} {p : Ptr} {vs : List ν} {rs : List ρ} (h : vs ≠ []) :
    Imp ((p ↦ rs) ∗ each P rs vs) (array P p vs.length vs) := by
  intro m hm
  rw [array_some h]
  exact ⟨rs, fact_sep.2 ⟨rfl, hm⟩⟩

/-- A pointer into an array of values: nothing is found, or one record is taken out. -/
theorem t_findAt {P : ρ → ν → SL} {p : Ptr} {n : Nat} {vs : List ν} {found : ρ → Bool} {q : ν → Bool}
    (hpq : ∀ r v m, P r v m → found r = q v) {R : SL} {k : Option Nat → M β} {Q : β → SL}
    (hnone : vs.findIdx? q = none → Triple (array P p n vs ∗ R) (k none) Q)
    (hsome : ∀ i v rs r, vs.findIdx? q = some i → vs[i]? = some v → q v = true → rs[i]? = some r → n = vs.length → rs.length = vs.length →
      vs ≠ [] → Triple ((p ↦ rs) ∗ each P rs vs ∗ R) (k (some i)) Q) :
    Triple (array P p n vs ∗ R) (findAt p n found >>= k) Q := by
  by_cases hv : vs = []
  · subst hv
    have := hnone rfl
    rw [array_nil] at this ⊢
    refine t_fact fun e => ?_
    unfold findAt
    rw [if_pos e.2]
    refine Triple.bind (R := fun x => fact (x = none) ∗ R) (t_ret fun m hm => fact_sep.2 ⟨rfl, hm⟩) fun x => t_fact fun ex => ?_
    subst ex
    exact this.pre fun m hm => fact_sep.2 ⟨e, hm⟩
  · rw [array_some hv] at hnone ⊢
    rw [ex_sep] at hnone ⊢
    refine t_ex fun rs => ?_
    rw [sep_assoc, sep_assoc]
    refine t_fact fun hn => ?_
    refine Triple.by ?_ (show _ = (each P rs vs ∗ (p ↦ rs) ∗ R) by ac_rfl)
    refine t_know each_length fun hl => ?_
    refine t_know (each_find hpq) fun hf => ?_
    refine Triple.by ?_ (show _ = ((p ↦ rs) ∗ each P rs vs ∗ R) by ac_rfl)
    have hn0 : n ≠ 0 := by
      intro h; apply hv; exact List.eq_nil_of_length_eq_zero (by omega)
    refine Triple.bind (R := fun x => fact (x = vs.findIdx? q) ∗ ((p ↦ rs) ∗ each P rs vs ∗ R)) ?_ ?_
    · unfold findAt
      rw [if_neg hn0]
      refine step_load ?_
      rw [if_pos (by omega), List.take_of_length_le (by omega), hf]
      exact t_ret fun m hm => fact_sep.2 ⟨rfl, hm⟩
    · intro x
      refine t_fact fun e => ?_
      subst e
      cases hfi : vs.findIdx? q with
      | none =>
        exact (hnone hfi).pre fun m hm => ⟨rs, by dsimp only; rw [sep_assoc, sep_assoc]; exact fact_sep.2 ⟨hn, hm⟩⟩
      | some i =>
        have hi := List.findIdx?_eq_some_iff_getElem.1 hfi
        obtain ⟨hi1, hi2, -⟩ := hi
        exact hsome i vs[i] rs (rs[i]'(by omega)) hfi (List.getElem?_eq_getElem hi1) hi2 (List.getElem?_eq_getElem _) hn hl hv

end AF.Heap
