import Verif.Model.ALAC.Golomb
/-! # What is expected of the ALAC codec -/
namespace AF.ALAC

/-- Bit `p` of the memory, the most significant bit of each byte first. -/
def bitAt (m : Mem) (p : Nat) : Bool := (m (p / 8)).getMsbD (p % 8)

/-- The two memories have the same bits from `a` up to `b`. -/
def SameBits (m m' : Mem) (a b : Nat) : Prop := ∀ p, a ≤ p → p < b → bitAt m p = bitAt m' p

/-- The sample widths ALAC knows. -/
def Depth (d : Nat) : Prop := d = 16 ∨ d = 20 ∨ d = 24 ∨ d = 32

/-- The samples an input buffer of the given depth can hold: 20-bit samples stand in three bytes. -/
def InRange (depth : Nat) (x : Int) : Prop :=
  if depth = 16 then -2 ^ 15 ≤ x ∧ x < 2 ^ 15
  else if depth = 20 ∨ depth = 24 then -2 ^ 23 ≤ x ∧ x < 2 ^ 23
  else -2 ^ 31 ≤ x ∧ x < 2 ^ 31

/-- What is expected back for a sample: the sample; the library keeps only the upper 20 bits of the three bytes of a
20-bit sample. -/
def kept (depth : Nat) (x : Int) : Int := if depth = 20 then x - x % 16 else x

/-- An integer of `w` bits. -/
def IsInt (w : Nat) (x : Int) : Prop := -(2 ^ (w - 1) : Nat) ≤ x ∧ x < (2 ^ (w - 1) : Nat)

/-- Parameters of the Golomb coder for which it works (the library uses 10, 40, 14). -/
def Params.OK (P : Params) : Prop := P.mb0 ≤ 2 ^ 25 ∧ P.pb ≤ 127 ∧ 1 ≤ P.kb

end AF.ALAC
