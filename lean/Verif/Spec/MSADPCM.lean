import Verif.Model.MSADPCM
/-! # Vocabulary for the MS ADPCM properties -/
namespace AF.MSADPCM

/-- States the codec can be in while encoding: 16-bit samples, a quantiser step of at least 16 that fits 16 bits. -/
structure St.Valid (s : St) : Prop where
  delta_lo : 16 ≤ s.delta
  delta_hi : s.delta ≤ 65535
  lo1 : -32768 ≤ s.sample1
  hi1 : s.sample1 ≤ 32767
  lo2 : -32768 ≤ s.sample2
  hi2 : s.sample2 ≤ 32767

/-- Coefficient pairs whose absolute values add up to at most three (768/256); all pairs the library writes are. -/
def Moderate (co : Coef) : Prop := co.1.natAbs + co.2.natAbs ≤ 768

instance (co : Coef) : Decidable (Moderate co) := inferInstanceAs (Decidable (_ ≤ _))

/-- The encoder's own running reconstruction: its newest sample after each input. -/
def encoderValues (co : Coef) (s : St) : List Int → List Int
  | [] => []
  | x :: xs => match encodeSample s x co with
    | .ok (_, s') => s'.sample1 :: encoderValues co s' xs
    | .error _ => []

/-- The codes the encoder emits. -/
def encoderCodes (co : Coef) (s : St) : List Int → List Nat
  | [] => []
  | x :: xs => match encodeSample s x co with
    | .ok (code, s') => code :: encoderCodes co s' xs
    | .error _ => []

/-- The encoder's state after a sample sequence. -/
def encoderState (co : Coef) (s : St) : List Int → St
  | [] => s
  | x :: xs => match encodeSample s x co with
    | .ok (_, s') => encoderState co s' xs
    | .error _ => s

/-- What the decoder makes of a code sequence. -/
def decodeCodes (co : Coef) (s : St) : List Nat → Except Abort (List Int × St)
  | [] => .ok ([], s)
  | code :: codes => do
    let (x, s) ← decodeSample s code co
    let (xs, s) ← decodeCodes co s codes
    return (x :: xs, s)

end AF.MSADPCM
