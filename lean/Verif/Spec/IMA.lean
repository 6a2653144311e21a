import Verif.Model.IMA
/-! # Vocabulary for the IMA ADPCM properties -/
namespace AF.IMA

/-- States the codec can be in: a 16-bit value and an index into the 89 steps. -/
structure St.Valid (s : St) : Prop where
  lo : -32768 ≤ s.prev
  hi : s.prev ≤ 32767
  index_lo : 0 ≤ s.index
  index_hi : s.index ≤ 88

/-- The codes the encoder emits for a sample sequence. -/
def encoderCodes (s : St) : List Int → List Nat
  | [] => []
  | x :: xs => match encodeSample s x with
    | .ok (code, s') => code :: encoderCodes s' xs
    | .error _ => []

/-- The encoder's own running reconstruction: its `previousValue` after each sample. -/
def encoderValues (s : St) : List Int → List Int
  | [] => []
  | x :: xs => match encodeSample s x with
    | .ok (_, s') => s'.prev :: encoderValues s' xs
    | .error _ => []

/-- The encoder's state after a sample sequence. -/
def encoderState (s : St) : List Int → St
  | [] => s
  | x :: xs => match encodeSample s x with
    | .ok (_, s') => encoderState s' xs
    | .error _ => s

/-- What the decoder makes of a code sequence: the samples and its state afterwards. -/
def decodeCodes (s : St) : List Nat → Except Abort (List Int × St)
  | [] => .ok ([], s)
  | code :: codes => do
    let (x, s) ← decodeSample s code
    let (xs, s) ← decodeCodes s codes
    return (x :: xs, s)

/-- The quantiser step of a state. -/
def stepOf (s : St) : Int := stepTable.getD s.index.toNat 0

end AF.IMA
