import Verif.Model.Heap
/-!
# Specification: what is in memory

Assertions about a part of memory. `sep P Q` says that the part can be divided in two, without a block in common, one of which
satisfies `P` and the other `Q`. All assertions here are exact: the part has the blocks they speak of and no others.
-/
namespace AF.Heap

def Mem.empty : Mem := fun _ => none
def Mem.single (p : Ptr) (b : Block) : Mem := fun q => if q = p then some b else none
/-- No block in common. -/
def Mem.Apart (a b : Mem) : Prop := ∀ p, a p = none ∨ b p = none
def Mem.join (a b : Mem) : Mem := fun p => (a p).or (b p)

abbrev SL := Mem → Prop

/-- Nothing. -/
def emp : SL := fun m => m = Mem.empty
/-- Nothing, and a fact. -/
def fact (φ : Prop) : SL := fun m => φ ∧ m = Mem.empty
/-- One block. -/
def pts {α : Type} [Content α] (p : Ptr) (a : α) : SL := fun m => p ≠ 0 ∧ m = Mem.single p (Content.put a)
def sep (P Q : SL) : SL := fun m => ∃ a b, a.Apart b ∧ m = a.join b ∧ P a ∧ Q b
def ex {α : Type} (P : α → SL) : SL := fun m => ∃ x, P x m

infixr:35 " ∗ " => sep
infix:60 " ↦ " => pts

/-- The records of a list own the values of another, one by one. -/
def each {ρ ν : Type} (P : ρ → ν → SL) : List ρ → List ν → SL
  | [], [] => emp
  | r :: rs, v :: vs => P r v ∗ each P rs vs
  | _, _ => fun _ => False

/-- An array of `n` records at `p` that own the values: the null pointer if there are none. -/
def array {ρ ν : Type} [Content (List ρ)] (P : ρ → ν → SL) (p : Ptr) (n : Nat) (vs : List ν) : SL :=
  if vs = [] then fact (p = 0 ∧ n = 0) else ex fun rs : List ρ => fact (n = vs.length) ∗ (p ↦ rs) ∗ each P rs vs

/-- Records without pointers. -/
def same {α : Type} (r v : α) : SL := fact (r = v)

end AF.Heap
