import Verif.Model.Convert
/-!
# Integer samples: what a conversion should do

A sample of `B` significant bytes is a number; unsigned samples are offset by half the range. In a file a sample
occupies `B` bytes in the declared byte order; in the user's buffer 3-byte samples occupy 4 bytes.
-/
namespace AF.Spec

/-- Legal values. -/
def SampleRange (B : Nat) (unsigned : Bool) (x : Int) : Prop :=
  if unsigned then 0 ≤ x ∧ x < 2 ^ (8 * B) else -2 ^ (8 * B - 1) ≤ x ∧ x < 2 ^ (8 * B - 1)

/-- The sample as a signed number of the same width. -/
def signedValue (B : Nat) (unsigned : Bool) (x : Int) : Int := if unsigned then x - 2 ^ (8 * B - 1) else x

/-- Change of width: multiply by, or divide (rounding down) by a power of 256. -/
def rescale (B B' : Nat) (x : Int) : Int := if B ≤ B' then x * 256 ^ (B' - B) else x / 256 ^ (B - B')

/-- A sample of one integer format in another. -/
def convertSample (B : Nat) (u : Bool) (B' : Nat) (u' : Bool) (x : Int) : Int :=
  let y := rescale B B' (signedValue B u x)
  if u' then y + 2 ^ (8 * B' - 1) else y

/-- Samples in a file. -/
def packedBytes (e : Endian) (B : Nat) (xs : List Int) : List Byte := xs.flatMap (toBytes e B)

/-- Size of a sample in the user's buffer. -/
def userSize (B : Nat) : Nat := if B = 3 then 4 else B

/-- Samples in the user's buffer. -/
def userBytes (e : Endian) (B : Nat) (xs : List Int) : List Byte := xs.flatMap (toBytes e (userSize B))

end AF.Spec
