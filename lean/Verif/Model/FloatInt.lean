import Verif.Model.Convert
/-!
# Floating-point samples to integers, and channel mixing

`ConvertFloatToIntClip` and `ApplyChannelMatrix` (modules/SimpleModule.h:602-690, modules/SimpleModule.cpp:39-184).

`double` is modelled as NaN, an infinity or a rational number; the result of an arithmetic operation on finite
operands is `rnd` of the exact result, where `rnd` is a parameter (any rounding; it may overflow to an infinity).
Signed zeros are not distinguished.
-/
namespace AF.Convert

/-- A `double`. -/
inductive Dbl
  | nan
  | inf (negative : Bool)
  | fin (q : Rat)
  deriving DecidableEq

namespace Dbl

/-- IEEE `<` -/
def lt : Dbl → Dbl → Bool
  | nan, _ => false
  | _, nan => false
  | inf true, inf true => false
  | inf true, _ => true
  | inf false, _ => false
  | fin _, inf neg => !neg
  | fin p, fin q => p < q

/-- IEEE multiplication -/
def mul (rnd : Rat → Dbl) : Dbl → Dbl → Dbl
  | fin p, fin q => rnd (p * q)
  | fin p, inf s => if p = 0 then nan else inf (s != decide (p < 0))
  | inf s, fin p => if p = 0 then nan else inf (s != decide (p < 0))
  | inf s, inf t => inf (s != t)
  | _, _ => nan

/-- IEEE addition -/
def add (rnd : Rat → Dbl) : Dbl → Dbl → Dbl
  | fin p, fin q => rnd (p + q)
  | fin _, inf s => inf s
  | inf s, fin _ => inf s
  | inf s, inf t => if s = t then inf s else nan
  | _, _ => nan

/-- `std::min(a, b)`: `b < a ? b : a`. -/
def min (a b : Dbl) : Dbl := if lt b a then b else a
/-- `std::max(a, b)`: `a < b ? b : a`. -/
def max (a b : Dbl) : Dbl := if lt a b then b else a

/-- Conversion to a signed integer type of `n` bits: truncates; `none` is undefined behaviour. -/
def toInt (n : Nat) : Dbl → Option Int
  | fin q =>
    let t := truncRat q
    if -2 ^ (n - 1) ≤ t ∧ t < 2 ^ (n - 1) then some t else none
  | _ => none

end Dbl

/-- One sample through `ConvertFloatToIntClip::run` (SimpleModule.h:667-690): `m`, `b` are the `double`s computed from
the two mappings before the loop. The result is stored in a `8 * storage`-bit integer; `none` is undefined behaviour. -/
def floatToIntSample (rnd : Rat → Dbl) (o : FC) (m b : Rat) (minClip maxClip : Rat) (x : Dbl) : Option Int :=
  let t := Dbl.add rnd (Dbl.mul rnd (.fin m) x) (.fin b)
  let t := Dbl.min t (.fin maxClip)
  let t := Dbl.max t (.fin minClip)
  Dbl.toInt (8 * o.storage) t

/-! ## Channel matrix -/

/-- `initDefaultMatrix` (SimpleModule.cpp:138-184): the weight of input channel `i` in output channel `j`. -/
def defaultWeight (inC outC j i : Nat) : Rat :=
  if inC = 1 ∧ outC = 2 then ([1, 1] : List Rat).getD (j * inC + i) 0
  else if inC = 1 ∧ outC = 4 then ([1, 1, 0, 0] : List Rat).getD (j * inC + i) 0
  else if inC = 2 ∧ outC = 1 then ([1/2, 1/2] : List Rat).getD (j * inC + i) 0
  else if inC = 2 ∧ outC = 4 then ([1, 0, 0, 1, 0, 0, 0, 0] : List Rat).getD (j * inC + i) 0
  else if inC = 4 ∧ outC = 1 then ([1/2, 1/2, 1/2, 1/2] : List Rat).getD (j * inC + i) 0
  else if inC = 4 ∧ outC = 2 then ([1, 0, 1, 0, 0, 1, 0, 1] : List Rat).getD (j * inC + i) 0
  else if i = j then 1 else 0

/-- The constructor (SimpleModule.cpp:39-69): `matrix` is what `afSetChannelMatrix` stored, row-major
(`afSetChannelMatrix`, format.cpp:349-374), `none` if no matrix was set. -/
def weight (isReading : Bool) (inC outC : Nat) (matrix : Option (List Rat)) (j i : Nat) : Rat :=
  match matrix with
  | none => defaultWeight inC outC j i
  | some m => if isReading then m.getD (j * inC + i) 0 else m.getD (i * outC + j) 0

/-- The inner loop of `ApplyChannelMatrix::run` (SimpleModule.cpp:113-136) for one frame: the sums, before they are
stored. Sums are exact (they are for integer samples and the default matrices: at most 35 significant bits). -/
def mixFrame (w : Nat → Nat → Rat) (outC : Nat) (fr : List Rat) : List Rat :=
  (List.range outC).map fun j => (fr.zipIdx.map fun (x, i) => x * w j i).sum

/-- `*output++ = t` for integer samples: truncation, undefined (`none`) outside the type. -/
def storeInt (c : FC) (t : Rat) : Option Int := Dbl.toInt (8 * c.storage) (.fin t)

/-- `ApplyChannelMatrix::run` for integer samples: all frames of a chunk, one after the other. -/
def mixInts (c : FC) (w : Nat → Nat → Rat) (outC : Nat) (frames : List (List Int)) : List (List (Option Int)) :=
  frames.map fun fr => (mixFrame w outC (fr.map fun x : Int => (x : Rat))).map (storeInt c)

end AF.Convert
