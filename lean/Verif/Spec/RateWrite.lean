import Verif.Model.Rate
/-!
# Counting the frames written
-/
namespace AF.Spec
open AF.Writing.Rate (Op)

/-- The counts reported are the sums of what the write calls before accepted: `t` frames at the beginning. -/
def Tallied {V γ : Type} (t : Int) : List (Op V γ × Int) → Prop
  | [] => True
  | (.call (.write xs), r) :: l => (r = xs.length ∧ Tallied (t + r) l) ∨ (r = -1 ∧ Tallied t l)
  | (.count, r) :: l => r = t ∧ Tallied t l
  | _ :: l => Tallied t l

/-- The frames handed over in all. -/
def offered {V γ : Type} : List (Op V γ) → Nat
  | [] => 0
  | .call (.write xs) :: l => xs.length + offered l
  | _ :: l => offered l

end AF.Spec
