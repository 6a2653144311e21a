import Verif.Model.Faults
/-!
# Specification: calls that report success
-/
namespace AF.Spec.Faults
open AF.Writing
variable {V γ : Type}

/-- The result says that all went well: `afWriteFrames` counts all frames, the others return 0. -/
def Success : Op V γ → Int → Prop
  | .write xs, r => r = xs.length
  | _, r => r = 0

/-- All calls report success. -/
def AllSuccess (ops : List (Op V γ)) (rs : List Int) : Prop := ∀ p ∈ ops.zip rs, Success p.1 p.2

/-- A file that takes all it is given. -/
def Roomy (taken : Nat → Nat → Nat) : Prop := ∀ i n, n ≤ taken i n

end AF.Spec.Faults
