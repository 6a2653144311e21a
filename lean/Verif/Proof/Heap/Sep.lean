import Verif.Spec.Sep
/-! Laws of the assertions about memory, and rules for programs. -/
namespace AF.Heap

theorem Apart.symm {a b : Mem} (h : a.Apart b) : b.Apart a := fun p => (h p).symm

theorem join_comm {a b : Mem} (h : a.Apart b) : a.join b = b.join a := by
  funext p
  unfold Mem.join
  rcases h p with e | e <;> rw [e] <;> simp

theorem join_empty (a : Mem) : a.join Mem.empty = a := by funext p; simp [Mem.join, Mem.empty]

theorem sep_comm (P Q : SL) : (P ∗ Q) = (Q ∗ P) := by
  funext m
  apply propext
  constructor
  · rintro ⟨a, b, h, rfl, hp, hq⟩; exact ⟨b, a, Apart.symm h, join_comm h, hq, hp⟩
  · rintro ⟨a, b, h, rfl, hp, hq⟩; exact ⟨b, a, Apart.symm h, join_comm h, hq, hp⟩

theorem apart_join {a b c : Mem} : (a.join b).Apart c ↔ a.Apart c ∧ b.Apart c := by
  constructor
  · intro h
    refine ⟨fun p => ?_, fun p => ?_⟩ <;> have := h p <;> unfold Mem.join at this <;>
      cases ha : a p <;> cases hb : b p <;> rw [ha, hb] at this <;> simp_all
  · rintro ⟨h1, h2⟩ p
    have h1 := h1 p
    have h2 := h2 p
    unfold Mem.join
    cases ha : a p <;> cases hb : b p <;> rw [ha] at h1 <;> rw [hb] at h2 <;> simp_all

theorem sep_assoc (P Q R : SL) : ((P ∗ Q) ∗ R) = (P ∗ (Q ∗ R)) := by
  funext m
  apply propext
  constructor
  · rintro ⟨ab, c, h, rfl, ⟨a, b, h', rfl, hp, hq⟩, hr⟩
    obtain ⟨hac, hbc⟩ := apart_join.1 h
    refine ⟨a, b.join c, Apart.symm (apart_join.2 ⟨Apart.symm h', Apart.symm hac⟩), ?_, hp, b, c, hbc, rfl, hq, hr⟩
    funext p; simp [Mem.join, Option.or_assoc]
  · rintro ⟨a, bc, h, rfl, hp, b, c, h', rfl, hq, hr⟩
    obtain ⟨hba, hca⟩ := apart_join.1 (Apart.symm h)
    refine ⟨a.join b, c, apart_join.2 ⟨Apart.symm hca, h'⟩, ?_, ⟨a, b, Apart.symm hba, rfl, hp, hq⟩, hr⟩
    funext p; simp [Mem.join, Option.or_assoc]

theorem sep_emp (P : SL) : (P ∗ emp) = P := by
  funext m
  apply propext
  constructor
  · rintro ⟨a, b, -, rfl, hp, hb⟩
    rw [show b = Mem.empty from hb, join_empty]; exact hp
  · intro h
    exact ⟨m, Mem.empty, fun _ => .inr rfl, (join_empty m).symm, h, rfl⟩

theorem emp_sep (P : SL) : (emp ∗ P) = P := by rw [sep_comm, sep_emp]

instance : Std.Associative sep := ⟨sep_assoc⟩
instance : Std.Commutative sep := ⟨sep_comm⟩

theorem fact_true {φ : Prop} (h : φ) : fact φ = emp := by
  funext m; simp [fact, emp, h]

theorem fact_sep {φ : Prop} {P : SL} {m : Mem} : (fact φ ∗ P) m ↔ φ ∧ P m := by
  constructor
  · intro h
    obtain ⟨a, b, h1, h2, ⟨hφ, ha⟩, hp⟩ := h
    refine ⟨hφ, ?_⟩
    have : (emp ∗ P) m := ⟨a, b, h1, h2, ha, hp⟩
    rwa [emp_sep] at this
  · rintro ⟨h, hp⟩
    rw [fact_true h, emp_sep]; exact hp

theorem ex_sep {α : Type} (P : α → SL) (Q : SL) : (ex P ∗ Q) = ex fun x => P x ∗ Q := by
  funext m
  apply propext
  constructor
  · rintro ⟨a, b, h, e, ⟨x, hx⟩, hq⟩; exact ⟨x, a, b, h, e, hx, hq⟩
  · rintro ⟨x, a, b, h, e, hx, hq⟩; exact ⟨a, b, h, e, ⟨x, hx⟩, hq⟩

/-- One assertion follows from another. -/
def Imp (P Q : SL) : Prop := ∀ m, P m → Q m

theorem imp_sep {P P' Q Q' : SL} (h : Imp P P') (h' : Imp Q Q') : Imp (P ∗ Q) (P' ∗ Q') := by
  rintro m ⟨a, b, hab, e, hp, hq⟩; exact ⟨a, b, hab, e, h _ hp, h' _ hq⟩

theorem imp_rfl {P : SL} : Imp P P := fun _ h => h
theorem imp_trans {P Q R : SL} (h : Imp P Q) (h' : Imp Q R) : Imp P R := fun m hm => h' m (h m hm)
theorem imp_eq {P Q : SL} (h : P = Q) : Imp P Q := h ▸ imp_rfl
theorem imp_ex {α : Type} {P : α → SL} (x : α) : Imp (P x) (ex P) := fun _ h => ⟨x, h⟩

/-- Addresses that were not given out are not in use. -/
def St.WF (st : St) : Prop := ∀ q, st.top < q → st.mem q = none

/-- Started in memory that has `P` beside anything else, the program ends without a fault in memory that has `Q` beside the
same. -/
def Triple {α : Type} (P : SL) (c : M α) (Q : α → SL) : Prop :=
  ∀ F st, st.WF → (P ∗ F) st.mem → ∃ a st', c st = .ok (a, st') ∧ st'.WF ∧ (Q a ∗ F) st'.mem

variable {α β : Type}

theorem t_ret {P : SL} {a : α} {Q : α → SL} (h : Imp P (Q a)) : Triple P (pure a) Q :=
  fun _ st hw hp => ⟨a, st, rfl, hw, imp_sep h imp_rfl _ hp⟩

theorem Triple.bind {P : SL} {c : M α} {R : α → SL} {k : α → M β} {Q : β → SL} (h : Triple P c R) (hk : ∀ a, Triple (R a) (k a) Q) :
    Triple P (c >>= k) Q := by
  intro F st hw hp
  obtain ⟨a, st1, e, hw1, h1⟩ := h F st hw hp
  obtain ⟨b, st2, e2, hw2, h2⟩ := hk a F st1 hw1 h1
  exact ⟨b, st2, by
    show (match c st with | Except.error e => Except.error e | Except.ok (a, st) => k a st) = _
    rw [e]; exact e2, hw2, h2⟩

theorem Triple.imp {P P' : SL} {c : M α} {Q Q' : α → SL} (h : Triple P' c Q') (hp : Imp P P') (hq : ∀ a, Imp (Q' a) (Q a)) :
    Triple P c Q := by
  intro F st hw h0
  obtain ⟨a, st', e, hw', h'⟩ := h F st hw (imp_sep hp imp_rfl _ h0)
  exact ⟨a, st', e, hw', imp_sep (hq a) imp_rfl _ h'⟩

theorem Triple.pre {P P' : SL} {c : M α} {Q : α → SL} (h : Triple P' c Q) (hp : Imp P P') : Triple P c Q := h.imp hp fun _ => imp_rfl

theorem Triple.frame {P : SL} {c : M α} {Q : α → SL} (R : SL) (h : Triple P c Q) : Triple (P ∗ R) c (fun a => Q a ∗ R) := by
  intro F st hw hp
  rw [sep_assoc] at hp
  obtain ⟨a, st', e, hw', h'⟩ := h (R ∗ F) st hw hp
  exact ⟨a, st', e, hw', by rw [sep_assoc]; exact h'⟩

theorem t_fact {φ : Prop} {P : SL} {c : M α} {Q : α → SL} (h : φ → Triple P c Q) : Triple (fact φ ∗ P) c Q := by
  intro F st hw hp
  rw [sep_assoc] at hp
  have := fact_sep.1 hp
  exact h this.1 F st hw this.2

theorem t_ex {γ : Type} {P : γ → SL} {c : M α} {Q : α → SL} (h : ∀ x, Triple (P x) c Q) : Triple (ex P) c Q := by
  intro F st hw hp
  rw [ex_sep] at hp
  obtain ⟨x, hx⟩ := hp
  exact h x F st hw hx

theorem t_alloc [Content α] (a : α) : Triple emp (alloc a) (fun p => p ↦ a) := by
  intro F st hw hp
  rw [emp_sep] at hp
  refine ⟨_, _, rfl, ?_, Mem.single (st.top + 1) (Content.put a), st.mem, ?_, ?_, ⟨Nat.succ_ne_zero _, rfl⟩, hp⟩
  · intro q hq
    dsimp only at hq ⊢
    rw [if_neg (by omega)]
    exact hw q (by omega)
  · intro q
    unfold Mem.single
    by_cases h : q = st.top + 1
    · right; exact hw q (by omega)
    · left; rw [if_neg h]
  · funext q
    dsimp only [Mem.join, Mem.single]
    by_cases h : q = st.top + 1
    · rw [if_pos h, if_pos h]; rfl
    · rw [if_neg h, if_neg h]; rfl

/-- What `p ↦ a` says about the memory around it. -/
theorem pts_join [Content α] {p : Ptr} {a : α} {F : SL} {m : Mem} (h : (pts p a ∗ F) m) :
    p ≠ 0 ∧ m p = some (Content.put a) ∧ F (fun q => if q = p then none else m q) ∧
      ∀ b : Block, (Mem.single p b).Apart (fun q => if q = p then none else m q) ∧
        (fun q => if q = p then some b else m q) = (Mem.single p b).join (fun q => if q = p then none else m q) := by
  obtain ⟨x, y, hap, rfl, ⟨h0, rfl⟩, hf⟩ := h
  have hy : y p = none := by
    rcases hap p with e | e
    · unfold Mem.single at e; rw [if_pos rfl] at e; cases e
    · exact e
  have hF : (fun q => if q = p then none else ((Mem.single p (Content.put a)).join y) q) = y := by
    funext q
    by_cases h : q = p
    · rw [if_pos h, h, hy]
    · rw [if_neg h]; simp [Mem.join, Mem.single, h]
  refine ⟨h0, by simp [Mem.join, Mem.single], by rw [hF]; exact hf, fun b => ⟨?_, ?_⟩⟩
  · intro q
    by_cases h : q = p
    · right; simp [h]
    · left; simp [Mem.single, h]
  · funext q
    by_cases h : q = p
    · simp [Mem.join, Mem.single, h]
    · simp [Mem.join, Mem.single, h]

theorem t_load [Content α] {p : Ptr} {a : α} : Triple (p ↦ a) (load p) (fun b => fact (b = a) ∗ (p ↦ a)) := by
  intro F st hw hp
  obtain ⟨-, e, -, -⟩ := pts_join hp
  refine ⟨a, st, ?_, hw, ?_⟩
  · unfold Heap.load; rw [e]; simp [Content.get_put]
  · rw [sep_assoc]; exact fact_sep.2 ⟨rfl, hp⟩

theorem t_store [Content α] {p : Ptr} {a b : α} : Triple (p ↦ a) (store p b) (fun _ => p ↦ b) := by
  intro F st hw hp
  obtain ⟨h0, e, hf, hj⟩ := pts_join hp
  refine ⟨(), ⟨fun q => if q = p then some (Content.put b) else st.mem q, st.top⟩, ?_, ?_, ?_⟩
  · unfold Heap.store; rw [e]; simp [Content.get_put]
  · intro q hq
    dsimp only at hq ⊢
    by_cases h : q = p
    · have := hw p (by omega); rw [e] at this; cases this
    · rw [if_neg h]; exact hw q hq
  · have := hj (Content.put b)
    exact ⟨_, _, this.1, this.2, ⟨h0, rfl⟩, hf⟩

theorem t_free [Content α] {p : Ptr} {a : α} : Triple (p ↦ a) (free p) (fun _ => emp) := by
  intro F st hw hp
  obtain ⟨h0, e, hf, -⟩ := pts_join hp
  refine ⟨(), ⟨fun q => if q = p then none else st.mem q, st.top⟩, ?_, ?_, ?_⟩
  · unfold Heap.free; rw [if_neg h0, e]
  · intro q hq
    dsimp only at hq ⊢
    by_cases h : q = p
    · rw [if_pos h]
    · rw [if_neg h]; exact hw q hq
  · rw [emp_sep]; exact hf

theorem t_free_null : Triple emp (Heap.free 0) (fun _ => emp) :=
  fun _ st hw hp => ⟨(), st, rfl, hw, hp⟩

theorem t_forRange {n : Nat} {body : Nat → M Unit} (I : Nat → SL) (h : ∀ i, i < n → Triple (I i) (body i) (fun _ => I (i + 1))) :
    Triple (I 0) (forRange n body) (fun _ => I n) := by
  suffices ∀ k, k ≤ n → Triple (I 0) (Heap.forRange k body) (fun _ => I k) from this n (Nat.le_refl _)
  intro k
  induction k with
  | zero => intro _; exact t_ret imp_rfl
  | succ k ih => intro hk; exact (ih (by omega)).bind fun _ => h k (by omega)

theorem t_ite {P : SL} {b : Prop} [Decidable b] {c d : M α} {Q : α → SL} (h : b → Triple P c Q) (h' : ¬ b → Triple P d Q) :
    Triple P (if b then c else d) Q := by
  by_cases hb : b
  · rw [if_pos hb]; exact h hb
  · rw [if_neg hb]; exact h' hb

/-! ## Steps: the block that is used is at the head of the precondition -/

theorem step_load [Content α] {p : Ptr} {a : α} {R : SL} {k : α → M β} {Q : β → SL} (h : Triple ((p ↦ a) ∗ R) (k a) Q) :
    Triple ((p ↦ a) ∗ R) (load p >>= k) Q :=
  ((t_load.frame R).imp imp_rfl fun _ => imp_eq (sep_assoc _ _ _)).bind fun _ => t_fact fun e => e ▸ h

theorem step_store [Content α] {p : Ptr} {a b : α} {R : SL} {k : Unit → M β} {Q : β → SL} (h : Triple ((p ↦ b) ∗ R) (k ()) Q) :
    Triple ((p ↦ a) ∗ R) (store p b >>= k) Q := (t_store.frame R).bind fun _ => h

theorem step_free [Content α] {p : Ptr} {a : α} {R : SL} {k : Unit → M β} {Q : β → SL} (h : Triple R (k ()) Q) :
    Triple ((p ↦ a) ∗ R) (free p >>= k) Q :=
  (t_free.frame R).bind fun _ => h.pre (imp_eq (emp_sep _))

theorem step_alloc [Content α] {a : α} {R : SL} {k : Ptr → M β} {Q : β → SL} (h : ∀ p, Triple ((p ↦ a) ∗ R) (k p) Q) :
    Triple R (alloc a >>= k) Q :=
  (((t_alloc a).frame R).pre (imp_eq (emp_sep _).symm)).bind h

theorem step_get {ρ : Type} [Content (List ρ)] {p : Ptr} {l : List ρ} {i : Nat} {r : ρ} {R : SL} {k : ρ → M β} {Q : β → SL}
    (hi : l[i]? = some r) (h : Triple ((p ↦ l) ∗ R) (k r) Q) : Triple ((p ↦ l) ∗ R) (getAt p i >>= k) Q := by
  refine Triple.bind (R := fun x => fact (x = r) ∗ ((p ↦ l) ∗ R)) ?_ fun x => t_fact fun e => e ▸ h
  refine step_load ?_
  rw [hi]
  exact t_ret fun m hm => fact_sep.2 ⟨rfl, hm⟩

theorem step_set {ρ : Type} [Content (List ρ)] {p : Ptr} {l : List ρ} {i : Nat} {f : ρ → ρ} {R : SL} {k : Unit → M β} {Q : β → SL}
    (hi : i < l.length) (h : Triple ((p ↦ l.modify i f) ∗ R) (k ()) Q) : Triple ((p ↦ l) ∗ R) (setAt p i f >>= k) Q := by
  refine Triple.bind (R := fun _ => (p ↦ l.modify i f) ∗ R) ?_ fun _ => h
  refine step_load ?_
  rw [if_pos hi]
  exact t_store.frame R

/-- A precondition in another order. -/
theorem Triple.by {P P' : SL} {c : M α} {Q : α → SL} (h : Triple P' c Q) (e : P = P') : Triple P c Q := e ▸ h

/-- A call: what it uses is at the head. -/
theorem Triple.call {P R : SL} {c : M α} {P' : α → SL} {k : α → M β} {Q : β → SL} (h : Triple P c P')
    (hk : ∀ a, Triple (P' a ∗ R) (k a) Q) : Triple (P ∗ R) (c >>= k) Q := (h.frame R).bind hk

end AF.Heap
