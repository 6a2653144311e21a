import Verif.Spec.Double
import Verif.Model.Rate
/-!
# Sample rates: what is assumed and what is meant
-/
namespace AF.Spec
open AF.Convert

/-- What the rounding of IEEE arithmetic to nearest gives: `double`s stay what they are, and between 2^-1022 and 2^1023 (and their
negatives) the relative error is at most 2^-53. -/
structure Nearest (rnd : Rat → Dbl) : Prop where
  exact : ExactOnDoubles rnd
  close : ∀ q : Rat, 1 / 2 ^ 1022 ≤ q → q ≤ 2 ^ 1023 →
    ∃ r, rnd q = .fin r ∧ r - q ≤ 1 / 2 ^ 53 * q ∧ q - r ≤ 1 / 2 ^ 53 * q

/-- A number that can be meant as a sample rate: positive, and far from the limits of the type. -/
def Usual (r : Rat) : Prop := 1 / 2 ^ 900 ≤ r ∧ r ≤ 2 ^ 900

/-- A sample rate that means nothing: zero, infinite, or no number. -/
def Meaningless : Dbl → Prop
  | .fin q => q = 0
  | _ => True

end AF.Spec
