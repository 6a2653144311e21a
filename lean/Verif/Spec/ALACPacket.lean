import Verif.Spec.ALAC
/-!
# Specification: what the headers in an ALAC packet say

A packet is a sequence of elements. An element that carries sound has a type (3 bits: 0 or 3 for one channel, 1 for a pair),
an instance number (4), twelve bits that are zero, a flag that says whether it has a count of its own, a number of bytes
shifted off (2), a flag that says that it is not compressed, and the count (32 bits) if it has one. One channel is then
described by 16 bits about mixing, which are not used, and a predictor; a pair by 16 bits about mixing and two predictors.
-/
namespace AF.ALAC.Packet
open AF.ALAC

/-- The number in `n` bits at a position, the most significant bit first. -/
def fieldAt (m : Mem) (p : Nat) : Nat → Nat
  | 0 => 0
  | n + 1 => 2 * fieldAt m p n + (bitAt m (p + n)).toNat

/-- The parts of the element whose first bit is at `p`. -/
def typeOf (m : Mem) (p : Nat) : Nat := fieldAt m p 3
def hasCount (m : Mem) (p : Nat) : Bool := bitAt m (p + 19)
def shiftOf (m : Mem) (p : Nat) : Nat := fieldAt m (p + 20) 2
def plain (m : Mem) (p : Nat) : Bool := bitAt m (p + 22)
def countOf (m : Mem) (p : Nat) : Nat := fieldAt m (p + 23) 32
def bodyOf (m : Mem) (p : Nat) : Nat := if hasCount m p then p + 55 else p + 23

/-- The parts of the predictor at `q`: the shift of its sums, the number of its coefficients, and where it ends. -/
def sumShift (m : Mem) (q : Nat) : Nat := fieldAt m (q + 4) 4
def coefCount (m : Mem) (q : Nat) : Nat := fieldAt m (q + 11) 5
def predEnd (m : Mem) (q : Nat) : Nat := q + 16 + 16 * coefCount m q

/-- A predictor that cannot be used on buffers of `size` samples: its sums are shifted by 0 − 1, or its warm-up is longer than
the buffers. (With 0 or 31 coefficients nothing is summed.) -/
def BadPredictor (size : Nat) (m : Mem) (q : Nat) : Prop :=
  coefCount m q ≠ 0 ∧ coefCount m q ≠ 31 ∧ (sumShift m q = 0 ∨ size ≤ coefCount m q)

/-- Headers an encoder never writes: for packets of at most `limit` frames, buffers of `size` samples and samples of `depth`
bits, the element at `p` … -/
inductive Damaged (limit size depth : Nat) (m : Mem) (p : Nat) : Prop
  /-- … says that it has too many frames … -/
  | count : hasCount m p → limit < countOf m p → Damaged limit size depth m p
  /-- … has shifted off all of the sample … -/
  | shift : typeOf m p ≠ 1 → depth ≤ 8 * shiftOf m p → Damaged limit size depth m p
  /-- … has one channel with a bad predictor … -/
  | mono : typeOf m p ≠ 1 → plain m p = false → BadPredictor size m (bodyOf m p + 16) → Damaged limit size depth m p
  /-- … is a pair of 33 bits … -/
  | width : typeOf m p = 1 → plain m p = false → depth = 32 → shiftOf m p = 0 → Damaged limit size depth m p
  /-- … is a pair that was mixed by a shift of 32 or more … -/
  | mix : typeOf m p = 1 → plain m p = false → 32 ≤ fieldAt m (bodyOf m p) 8 → Damaged limit size depth m p
  /-- … or is a pair with a bad predictor. -/
  | first : typeOf m p = 1 → plain m p = false → BadPredictor size m (bodyOf m p + 16) → Damaged limit size depth m p
  | second : typeOf m p = 1 → plain m p = false → BadPredictor size m (predEnd m (bodyOf m p + 16)) → Damaged limit size depth m p

end AF.ALAC.Packet
