import Verif.Proof.Heap.Array
import Verif.Spec.Heap
/-! The calls on setups, in memory. -/
namespace AF.Heap
open AF.Meta (updFirst)

variable {α β ρ ν : Type}

instance : LawfulMonad M := LawfulMonad.mk' (m := M)
  (id_map := by
    intro α x
    funext st
    show (match x st with | Except.error e => Except.error e | Except.ok (a, st) => Except.ok (a, st)) = x st
    cases x st <;> rfl)
  (pure_bind := fun _ _ => rfl)
  (bind_assoc := by
    intro α β γ x f g
    funext st
    show (match (match x st with | Except.error e => Except.error e | Except.ok (a, st) => f a st) with
      | Except.error e => Except.error e | Except.ok (a, st) => g a st) =
      (match x st with | Except.error e => Except.error e | Except.ok (a, st) => (f a >>= g) st)
    cases x st <;> rfl)

/-- A program that ends with a call. -/
theorem lastly {P : SL} {c : M α} {Q : α → SL} (h : Triple P (c >>= pure) Q) : Triple P c Q := by rwa [bind_pure] at h

theorem modify_set {l : List ρ} {i : Nat} {r : ρ} {f : ρ → ρ} (h : l[i]? = some r) : l.modify i f = l.set i (f r) := by
  apply List.ext_getElem?
  intro j
  rw [List.getElem?_modify, List.getElem?_set]
  by_cases e : i = j
  · subst e
    have := (List.getElem?_eq_some_iff.1 h).1
    have e := (List.getElem?_eq_some_iff.1 h).2
    simp [this, e]
  · simp [e]

theorem step_put [Content (List ρ)] {p : Ptr} {l : List ρ} {i : Nat} {r : ρ} {f : ρ → ρ} {R : SL} {k : Unit → M β} {Q : β → SL}
    (hi : l[i]? = some r) (h : Triple ((p ↦ l.set i (f r)) ∗ R) (k ()) Q) : Triple ((p ↦ l) ∗ R) (setAt p i f >>= k) Q :=
  step_set (List.getElem?_eq_some_iff.1 hi).1 (by rw [modify_set hi]; exact h)

theorem get_set {l : List ρ} {i : Nat} {r a : ρ} (h : l[i]? = some r) : (l.set i a)[i]? = some a := by
  have := (List.getElem?_eq_some_iff.1 h).1
  simp [this]

theorem set_self' {l : List ρ} {i : Nat} {r : ρ} (h : l[i]? = some r) : l.set i r = l := by
  apply List.ext_getElem?
  intro j
  rw [List.getElem?_set]
  by_cases e : i = j
  · subst e; have := (List.getElem?_eq_some_iff.1 h).1; have e := (List.getElem?_eq_some_iff.1 h).2; simp [this, e]
  · simp [e]

theorem step_when {P : SL} {b : Prop} [Decidable b] {c : M Unit} {k : Unit → M β} {R : SL} {Q : β → SL}
    (h : b → Triple P c (fun _ => R)) (h' : ¬ b → Imp P R) (hk : Triple R (k ()) Q) : Triple P (onlyIf b c >>= k) Q := by
  refine Triple.bind (R := fun _ => R) ?_ fun _ => hk
  unfold onlyIf
  exact t_ite h fun hb => t_ret (h' hb)

/-! ## New markers -/

theorem t_newMarker {q : Ptr} {l : List MarkerRec} {j : Nat} {r : MarkerRec} (id : Int) (hj : l[j]? = some r) {C : SL} :
    Triple ((q ↦ l) ∗ C) (newMarker q j id) (fun _ => ex fun r => (q ↦ l.set j r) ∗ ownMarker r ⟨id, [], []⟩ ∗ C) := by
  unfold newMarker
  refine step_put hj (step_alloc fun a => ?_)
  refine Triple.by ?_ (sep_comm _ _)
  rw [sep_assoc]
  refine step_put (get_set hj) (step_alloc fun b => ?_)
  refine Triple.by ?_ (sep_comm _ _)
  rw [sep_assoc, List.set_set]
  refine lastly (step_put (get_set hj) (t_ret ?_))
  rw [List.set_set]
  intro m hm
  refine ⟨⟨id, a, b⟩, ?_⟩
  unfold ownMarker
  dsimp only
  rw [fact_true rfl, emp_sep]
  exact imp_eq (by ac_rfl) m hm

/-! ## Arrays: made and freed -/

section
variable [Content (List ρ)]

/-- A new array, before its records have values. -/
def blank (q : Ptr) (n : Nat) (z : ρ) : SL := if n = 0 then fact (q = 0) else (q ↦ List.replicate n z)

theorem step_calloc {n : Nat} {z : ρ} {R : SL} {k : Ptr → M β} {Q : β → SL} (h : ∀ q, Triple (blank q n z ∗ R) (k q) Q) :
    Triple R (calloc n z >>= k) Q := by
  unfold calloc
  unfold blank at h
  by_cases hn : n = 0
  · simp only [if_pos hn] at h ⊢
    rw [pure_bind]
    exact (h 0).pre fun m hm => fact_sep.2 ⟨rfl, hm⟩
  · simp only [if_neg hn] at h ⊢
    exact step_alloc h

/-- A new array with the same records as another. -/
def cloned (q : Ptr) (rs : List ρ) : SL := if rs = [] then fact (q = 0) else (q ↦ rs)

theorem t_fill_blank {P : ρ → ν → SL} {p : Ptr} {z : ρ} {vs : List ν} {C : SL} {body : Nat → M Unit} {n : Nat} (hn : n = vs.length)
    (hb : ∀ i v, vs[i]? = some v → ∀ l : List ρ, l[i]? = some z →
      Triple ((p ↦ l) ∗ C) (body i) (fun _ => ex fun r => (p ↦ l.set i r) ∗ P r v ∗ C)) :
    Triple (blank p n z ∗ C) (forRange n body) (fun _ => array P p n vs ∗ C) := by
  unfold blank
  by_cases h0 : n = 0
  · rw [if_pos h0]
    have : vs = [] := List.eq_nil_of_length_eq_zero (by omega)
    subst this
    subst h0
    exact t_ret fun m hm => by rw [array_nil]; rw [fact_sep] at hm ⊢; exact ⟨⟨hm.1, rfl⟩, hm.2⟩
  · rw [if_neg h0]
    refine (t_fill (P := P) hn (by simp [hn]) ?_).imp imp_rfl ?_
    · intro i r0 v h1 h2 l h3 h4
      rw [List.getElem?_replicate] at h1
      split at h1
      · cases h1; exact hb i v h2 l h4
      · cases h1
    · rintro _ m ⟨rs, hm⟩
      rw [← sep_assoc] at hm
      subst hn
      exact imp_sep (array_intro (by intro h; simp [h] at h0)) imp_rfl m hm

theorem t_fill_cloned {P : ρ → ν → SL} {p : Ptr} {ls : List ρ} {vs : List ν} {C : SL} {body : Nat → M Unit} {n : Nat} (hn : n = vs.length)
    (hl : ls.length = vs.length)
    (hb : ∀ i r0 v, ls[i]? = some r0 → vs[i]? = some v → ∀ l : List ρ, l[i]? = some r0 →
      Triple ((p ↦ l) ∗ C) (body i) (fun _ => ex fun r => (p ↦ l.set i r) ∗ P r v ∗ C)) :
    Triple (cloned p ls ∗ C) (forRange n body) (fun _ => array P p n vs ∗ C) := by
  unfold cloned
  by_cases h0 : n = 0
  · have : vs = [] := List.eq_nil_of_length_eq_zero (by omega)
    subst this
    have : ls = [] := List.eq_nil_of_length_eq_zero (by omega)
    subst this
    rw [if_pos rfl]
    subst h0
    exact t_ret fun m hm => by rw [array_nil]; rw [fact_sep] at hm ⊢; exact ⟨⟨hm.1, rfl⟩, hm.2⟩
  · rw [if_neg (by rintro rfl; simp at hl; omega)]
    refine (t_fill (P := P) hn hl fun i r0 v h1 h2 l _ h4 => hb i r0 v h1 h2 l h4).imp imp_rfl ?_
    rintro _ m ⟨rs, hm⟩
    rw [← sep_assoc] at hm
    subst hn
    exact imp_sep (array_intro (by intro h; simp [h] at h0)) imp_rfl m hm

/-- What the records own is freed, then the array. -/
theorem t_freeArray {P : ρ → ν → SL} {p : Ptr} {n : Nat} {vs : List ν} {b : Prop} [Decidable b] (hbv : ∀ m, array P p n vs m → (b ↔ vs ≠ []))
    {body : Nat → M Unit} {C : SL}
    (hb : ∀ i r v, vs[i]? = some v → ∀ l : List ρ, l[i]? = some r →
      Triple ((p ↦ l) ∗ P r v ∗ C) (body i) (fun _ => ex fun r' => (p ↦ l.set i r') ∗ C)) :
    Triple (array P p n vs ∗ C) (onlyIf b do forRange n body; free p) (fun _ => C) := by
  refine t_know hbv fun hb' => ?_
  unfold onlyIf
  by_cases hv : vs = []
  · subst hv
    rw [if_neg (by simp [hb']), array_nil]
    exact t_fact fun _ => t_ret imp_rfl
  · rw [if_pos (hb'.2 hv), array_some hv, ex_sep]
    refine t_ex fun rs => ?_
    rw [sep_assoc, sep_assoc]
    refine t_fact fun hn => ?_
    refine Triple.bind (t_drain (C := C) hn fun i r v h1 h2 l _ h4 => hb i r v h2 l h4) fun _ => ?_
    exact t_ex fun l => lastly (step_free (t_ret imp_rfl))

/-- An array without pointers is freed. -/
theorem each_same : ∀ {vs rs : List ν} (m : Mem), each same rs vs m → rs = vs ∧ m = Mem.empty
  | [], [], _, h => ⟨rfl, h⟩
  | [], _ :: _, _, h => h.elim
  | _ :: _, [], _, h => h.elim
  | v :: vs, r :: rs, m, h => by
    obtain ⟨e, h'⟩ := fact_sep.1 (show (fact (r = v) ∗ each same rs vs) m from h)
    have := each_same m h'
    exact ⟨by rw [e, this.1], this.2⟩

theorem each_same_emp (vs : List ν) : each same vs vs = emp := by
  induction vs with
  | nil => rfl
  | cons v vs ih =>
    show (fact (v = v) ∗ each same vs vs) = emp
    rw [ih, fact_true rfl, emp_sep]

theorem array_same {p : Ptr} {n : Nat} {vs : List ρ} : array same p n vs = (fact (n = vs.length) ∗ cloned p vs) := by
  by_cases hv : vs = []
  · subst hv
    rw [array_nil]; unfold cloned; rw [if_pos rfl]
    funext m; apply propext; rw [fact_sep]
    constructor
    · rintro ⟨h, e⟩; exact ⟨h.2, h.1, e⟩
    · rintro ⟨h, h', e⟩; exact ⟨⟨h', h⟩, e⟩
  · rw [array_some hv]; unfold cloned; rw [if_neg hv]
    funext m; apply propext; rw [fact_sep]
    constructor
    · rintro ⟨rs, h⟩
      obtain ⟨h1, h2⟩ := fact_sep.1 h
      obtain ⟨a, b, h3, h4, h5, h6⟩ := h2
      obtain ⟨e, hb⟩ := each_same b h6
      subst e
      rw [hb, join_empty] at h4
      exact ⟨h1, h4 ▸ h5⟩
    · rintro ⟨h1, h2⟩
      exact ⟨vs, fact_sep.2 ⟨h1, by rw [each_same_emp, sep_emp]; exact h2⟩⟩

theorem t_freeSame {p : Ptr} {vs : List ρ} {b : Prop} [Decidable b] (hb : p = 0 → vs = [] → ¬ b) (hb' : p ≠ 0 → vs ≠ [] → b) {C : SL} :
    Triple (cloned p vs ∗ C) (onlyIf b (free p)) (fun _ => C) := by
  unfold cloned onlyIf
  by_cases hv : vs = []
  · rw [if_pos hv]
    refine t_fact fun h => ?_
    rw [if_neg (hb h hv)]
    exact t_ret imp_rfl
  · rw [if_neg hv]
    refine t_know (φ := p ≠ 0) (fun m h => h.1) fun h => ?_
    rw [if_pos (hb' h hv)]
    exact lastly (step_free (t_ret imp_rfl))

end

end AF.Heap
