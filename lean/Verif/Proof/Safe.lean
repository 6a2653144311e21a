import Verif.Proof.Disk
/-!
# A small program logic for readers

`Safe file m Q`: on `file`, from any position, `m` either ends with a result satisfying `Q` or fails, but is not left
running.
-/
namespace AF.Files
open AF

def Safe {α : Type} (file : List Byte) (m : Rd α) (Q : α → Prop) : Prop :=
  ∀ p, (∀ a p', m file p = .ok (a, p') → Q a) ∧ m file p ≠ .error .running

namespace Safe
variable {α β : Type} {file : List Byte}

theorem bind {m : Rd α} {g : α → Rd β} {P : α → Prop} {Q : β → Prop} (h1 : Safe file m P)
    (h2 : ∀ a, P a → Safe file (g a) Q) : Safe file (m >>= g) Q := by
  intro p
  match hm : m file p with
  | .error e =>
    rw [Rd.bind_error hm]
    refine ⟨fun a p' h => by simp at h, ?_⟩
    intro h
    cases h
    exact (h1 p).2 hm
  | .ok (a, p1) =>
    rw [Rd.bind_ok hm]
    exact h2 a ((h1 p).1 a p1 hm) p1

theorem bind' {m : Rd α} {g : α → Rd β} {Q : β → Prop} (h1 : Safe file m fun _ => True)
    (h2 : ∀ a, Safe file (g a) Q) : Safe file (m >>= g) Q := h1.bind fun a _ => h2 a

theorem mono {m : Rd α} {P Q : α → Prop} (h : Safe file m P) (hPQ : ∀ a, P a → Q a) : Safe file m Q :=
  fun p => ⟨fun a p' he => hPQ a ((h p).1 a p' he), (h p).2⟩

theorem pure {a : α} {Q : α → Prop} (h : Q a) : Safe file (Pure.pure a : Rd α) Q := by
  intro p
  refine ⟨fun b p' hb => ?_, by simp [Rd.pure_run]⟩
  rw [Rd.pure_run] at hb
  cases hb
  exact h

theorem bindPure {a : α} {g : α → Rd β} {Q : β → Prop} (h : Safe file (g a) Q) : Safe file (Pure.pure a >>= g) Q := h

theorem fail {Q : α → Prop} : Safe file (Rd.fail : Rd α) Q := fun p => ⟨fun a p' h => by simp [Rd.fail] at h, by simp [Rd.fail]⟩
theorem undefined {Q : α → Prop} : Safe file (Rd.undefined : Rd α) Q :=
  fun p => ⟨fun a p' h => by simp [Rd.undefined] at h, by simp [Rd.undefined]⟩
theorem seek (n : Nat) : Safe file (Rd.seek n) fun _ => True := fun p => ⟨fun _ _ _ => trivial, by simp [Rd.seek]⟩
theorem tell : Safe file Rd.tell fun _ => True := fun p => ⟨fun _ _ _ => trivial, by simp [Rd.tell]⟩
theorem length : Safe file Rd.length fun n => n = file.length := by
  intro p
  refine ⟨fun a p' h => ?_, by simp [Rd.length]⟩
  unfold Rd.length at h
  cases h
  rfl
theorem read (n : Nat) : Safe file (Rd.read n) fun _ => True := fun p => ⟨fun _ _ _ => trivial, by simp [Rd.read]⟩
theorem field? (h o : Endian) (k : FieldSize) : Safe file (Rd.field? h o k) fun _ => True := by
  refine fun p => ⟨fun _ _ _ => trivial, ?_⟩
  unfold Rd.field?
  split <;> simp
theorem field (h o : Endian) (k : FieldSize) : Safe file (Rd.field h o k) fun _ => True := by
  unfold Rd.field
  refine (field? h o k).bind fun a _ => ?_
  split
  · exact pure trivial
  · exact undefined

theorem ite {c : Prop} [Decidable c] {m1 m2 : Rd α} {Q : α → Prop} (h1 : c → Safe file m1 Q) (h2 : ¬ c → Safe file m2 Q) :
    Safe file (if c then m1 else m2) Q := by
  split
  · exact h1 ‹_›
  · exact h2 ‹_›

/-- A loop whose rounds are safe and decrease a measure. -/
theorem loop {σ : Type} {body : σ → Rd (σ ⊕ α)} (I : σ → Prop) (m : σ → Nat) {Q : α → Prop}
    (hb : ∀ s, I s → Safe file (body s) (fun r => match r with | .inl s' => I s' ∧ m s' < m s | .inr a => Q a)) :
    ∀ (n : Nat) (s : σ), I s → m s < n → Safe file (Rd.loop body n s) Q := by
  intro n
  induction n with
  | zero => intro s _ h; omega
  | succ n ih =>
    intro s hI h
    rw [Rd.loop]
    refine (hb s hI).bind fun r hr => ?_
    cases r with
    | inl s' => exact ih s' hr.1 (by have := hr.2; omega)
    | inr a => exact pure hr

end Safe

theorem Safe.not_running {α : Type} {file : List Byte} {m : Rd α} {Q : α → Prop} (h : Safe file m Q) (p : Nat) :
    m file p ≠ .error .running := (h p).2

theorem Safe.ok {α : Type} {file : List Byte} {m : Rd α} {Q : α → Prop} (h : Safe file m Q) {p p' : Nat} {a : α}
    (he : m file p = .ok (a, p')) : Q a := (h p).1 a p' he

attribute [irreducible] Safe

/-- Steps through a reader, leaving the postconditions of its exits. -/
macro "rd_safe" : tactic => `(tactic| repeat' first
  | with_reducible exact Safe.fail
  | with_reducible exact Safe.undefined
  | with_reducible refine Safe.pure ?_
  | with_reducible refine Safe.bind' (Safe.seek _) fun _ => ?_
  | with_reducible refine Safe.bind' Safe.tell fun _ => ?_
  | with_reducible refine Safe.bind Safe.length fun _ hlength => ?_
  | with_reducible refine Safe.bind' (Safe.read _) fun _ => ?_
  | with_reducible refine Safe.bind' (Safe.field _ _ _) fun _ => ?_
  | with_reducible refine Safe.bind' (Safe.field? _ _ _) fun _ => ?_
  | with_reducible refine Safe.ite (fun _ => ?_) (fun _ => ?_)
  | with_reducible refine Safe.bindPure ?_
  | with_reducible exact Safe.bind Safe.undefined (fun _ h => False.elim h)
  | with_reducible exact Safe.bind Safe.fail (fun _ h => False.elim h)
  | split
  | dsimp only; split)

end AF.Files
