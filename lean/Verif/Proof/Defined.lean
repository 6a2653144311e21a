import Verif.Proof.Disk
/-!
# A program logic for readers that never use what was not read

`Def file p m Q`: started at `p`, `m` ends with a result satisfying `Q` or without one, but not in undefined behaviour.
-/
namespace AF.Files
open AF

def Def {α : Type} (file : List Byte) (p : Nat) (m : Rd α) (Q : α → Nat → Prop) : Prop :=
  match m file p with
  | .ok (a, p') => Q a p'
  | .error e => e ≠ .undefined

namespace Def
variable {α β : Type} {file : List Byte} {p : Nat}

theorem bind {m : Rd α} {g : α → Rd β} {P : α → Nat → Prop} {Q : β → Nat → Prop} (h1 : Def file p m P)
    (h2 : ∀ a p', P a p' → Def file p' (g a) Q) : Def file p (m >>= g) Q := by
  unfold Def at h1
  match hm : m file p with
  | .error e => rw [hm] at h1; unfold Def; rw [Rd.bind_error hm]; exact h1
  | .ok (a, p1) => rw [hm] at h1; unfold Def; rw [Rd.bind_ok hm]; exact h2 a p1 h1

theorem pure {a : α} {Q : α → Nat → Prop} (h : Q a p) : Def file p (Pure.pure a : Rd α) Q := h
theorem fail {Q : α → Nat → Prop} : Def file p (Rd.fail : Rd α) Q := by intro h; cases h
theorem seek (n : Nat) : Def file p (Rd.seek n) fun _ q => q = n := rfl
theorem tell : Def file p Rd.tell fun _ q => q = p := rfl
theorem length : Def file p Rd.length fun _ q => q = p := rfl
theorem read (n : Nat) (h : p + n ≤ file.length) : Def file p (Rd.read n) fun a q => q = p + n ∧ a.length = n := by
  show _ ∧ _
  have : ((file.drop p).take n).length = n := by rw [List.length_take, List.length_drop]; omega
  rw [this]
  exact ⟨rfl, rfl⟩
theorem read' (n : Nat) : Def file p (Rd.read n) fun _ _ => True := trivial
theorem field? (h o : Endian) (k : FieldSize) (hl : p + k.bytes ≤ file.length) :
    Def file p (Rd.field? h o k) fun a q => q = p + k.bytes ∧ a.isSome = true := by
  unfold Def Rd.field?
  split
  · rename_i h1
    split at h1
    · cases h1; exact ⟨rfl, rfl⟩
    · rename_i h2
      rw [readField_eq] at h2
      rw [if_pos (by rw [List.length_drop]; omega)] at h2
      cases h2
  · rename_i h1
    split at h1 <;> cases h1
theorem field (h o : Endian) (k : FieldSize) (hl : p + k.bytes ≤ file.length) :
    Def file p (Rd.field h o k) fun _ q => q = p + k.bytes := by
  unfold Rd.field
  refine (field? h o k hl).bind fun a q hq => ?_
  split
  · exact hq.1
  · simp at hq
theorem mono {m : Rd α} {P Q : α → Nat → Prop} (h : Def file p m P) (hPQ : ∀ a q, P a q → Q a q) : Def file p m Q := by
  unfold Def at h ⊢
  split
  · rename_i e; rw [e] at h; exact hPQ _ _ h
  · rename_i e; rw [e] at h; exact h
theorem ite {c : Prop} [Decidable c] {m1 m2 : Rd α} {Q : α → Nat → Prop} (h1 : c → Def file p m1 Q) (h2 : ¬ c → Def file p m2 Q) :
    Def file p (if c then m1 else m2) Q := by
  split
  · exact h1 ‹_›
  · exact h2 ‹_›
theorem not_undefined {m : Rd α} {Q : α → Nat → Prop} (h : Def file p m Q) : m file p ≠ .error .undefined := by
  intro e
  unfold Def at h
  rw [e] at h
  exact h rfl
end Def

end AF.Files
