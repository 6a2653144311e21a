import Verif.Model.Chunks
import Verif.Spec.Files
/-!
# Specification: sessions with metadata calls, and C strings
-/
namespace AF.Spec.Files
open AF AF.Files

/-- The audio data and the frames of a session. -/
def dataOfM (evs : List MEv) : List Byte := evs.flatMap MEv.bytes
def framesOfM (evs : List MEv) : Nat := (evs.map MEv.frames).sum

/-- The string a `char *` to these bytes stands for: what comes before the first zero; none if there is no zero. -/
def cString (b : List Byte) : Option (List Byte) := if 0 ∈ b then some (b.takeWhile (· ≠ 0)) else none

end AF.Spec.Files
