import Verif.Model.FloatInt
/-!
# The values a `double` can hold
-/
namespace AF.Spec
open AF.Convert

/-- `q` is the value of a finite IEEE binary64 number (normal, subnormal or zero). -/
def IsDouble (q : Rat) : Prop :=
  ∃ (m : Int) (e : Int), m.natAbs < 2 ^ 53 ∧ -1074 ≤ e ∧ e ≤ 971 ∧ q = (m : Rat) * (2 : Rat) ^ e

/-- A rounding leaves numbers that are already doubles unchanged (true of every IEEE rounding mode). -/
def ExactOnDoubles (rnd : Rat → Dbl) : Prop := ∀ q, IsDouble q → rnd q = .fin q

end AF.Spec
