import Verif.Model.IMA
import Verif.Model.Bytes
/-!
# Model of `libaudiofile/modules/MSADPCM.cpp`

As in Verif/Model/IMA.lean: samples are `Int`, blocks are byte lists, decoded blocks are lists of frames. `int` arithmetic that
could leave 32 bits is checked (`int32`): the C++ behaviour would be undefined.
-/
namespace AF.MSADPCM
open AF.IMA (clamp column tableAt)

/-- MSADPCM.cpp:44-57 `ms_adpcm_state` without the predictor index, which selects the coefficient pair. -/
structure St where
  delta : Int
  sample1 : Int
  sample2 : Int
  deriving DecidableEq, Repr

/-- A coefficient pair. -/
abbrev Coef := Int × Int

/-- WAVE.cpp:1574-1583: the coefficients the library writes. -/
def defaultCoefs : List Coef := [(256, 0), (512, -256), (0, 0), (192, 64), (240, 0), (460, -208), (392, -232)]

/-- MSADPCM.cpp:98-102 `adaptationTable`. -/
def adaptationTable : List Int := [230, 230, 230, 230, 307, 409, 512, 614, 768, 614, 512, 409, 307, 230, 230, 230]

/-- A result of `int` arithmetic. -/
def int32 (x : Int) : Except Abort Int :=
  if -2147483648 ≤ x ∧ x ≤ 2147483647 then .ok x else .error .signedOverflow

/-- `(state.sample1 * coefficient[0] + state.sample2 * coefficient[1]) >> 8` (MSADPCM.cpp:108-109, 130-131). The products of
16-bit numbers fit. -/
def predict (s : St) (co : Coef) : Except Abort Int := do
  let sum ← int32 (s.sample1 * co.1 + s.sample2 * co.2)
  return sar sum 8

/-- `(code & 0x08) ? (code - 0x10) : code` (MSADPCM.cpp:111, 139). -/
def signedCode (code : Nat) : Int := if code &&& 8 ≠ 0 then (code : Int) - 16 else code

/-- `(delta * adaptationTable[code]) >> 8`, at least 16 (MSADPCM.cpp:115-117, 143-145). -/
def adapt (delta : Int) (code : Nat) : Except Abort Int := do
  let a ← tableAt adaptationTable code
  let p ← int32 (delta * a)
  let d := sar p 8
  return if d < 16 then 16 else d

/-- MSADPCM.cpp:105-124 `decodeSample`. -/
def decodeSample (s : St) (code : Nat) (co : Coef) : Except Abort (Int × St) := do
  let linear ← predict s co
  let m ← int32 (signedCode code * s.delta)
  let linear ← int32 (linear + m)
  let linear := clamp linear (-32768) 32767
  let delta ← adapt s.delta code
  return (linear, ⟨delta, linear, s.sample1⟩)

/-- MSADPCM.cpp:127-147 `encodeSample`; C division truncates. -/
def encodeSample (s : St) (sample : Int) (co : Coef) : Except Abort (Nat × St) := do
  let predictor ← predict s co
  let diff ← int32 (sample - predictor)
  let bias := s.delta.tdiv 2
  let bias := if diff < 0 then -bias else bias
  let sum ← int32 (diff + bias)
  let code := lowBits (clamp (sum.tdiv s.delta) (-8) 7) 4
  let m ← int32 (signedCode code * s.delta)
  let predictor ← int32 (predictor + m)
  let delta ← adapt s.delta code
  return (code, ⟨delta, clamp predictor (-32768) 32767, s.sample1⟩)

/-- MSADPCM.cpp:301-308: the prediction error of a coefficient pair on samples 2–4 of a channel, divided by 12. -/
def predictionError (co : Coef) : List Int → Except Abort Int
  | x0 :: x1 :: x2 :: x3 :: x4 :: _ => do
    let p2 ← int32 (co.1 * x1 + co.2 * x0)
    let p3 ← int32 (co.1 * x2 + co.2 * x1)
    let p4 ← int32 (co.1 * x3 + co.2 * x2)
    let e := ((x2 - sar p2 8).natAbs : Int) + (x3 - sar p3 8).natAbs + (x4 - sar p4 8).natAbs
    return e / 12
  | _ => .error .bufferOverflow

/-- MSADPCM.cpp:297-318: the loop over coefficient pairs, from index `k` on, with the best so far. -/
def choose (xs : List Int) : Nat → List Coef → Nat × Int → Except Abort (Nat × Int)
  | _, [], best => .ok best
  | k, co :: cos, best => do
    let e ← predictionError co xs
    let best := if e < best.2 then (k, e) else best
    if e = 0 then return best else choose xs (k + 1) cos best

/-- MSADPCM.cpp:287-327 `choosePredictorForBlock` for one channel: predictor index and delta. -/
def choosePredictor (coefs : List Coef) (xs : List Int) : Except Abort (Nat × Int) := do
  let (k, e) ← choose xs 0 coefs (0, 2147483647)
  return (k, if e < 16 then 16 else e)

/-- The loop MSADPCM.cpp:275-282 for one channel (`state[1] == state[0]`): `n` rounds. -/
def encodeMono (co : Coef) : Nat → St → List (List Int) → Except Abort (List Byte)
  | 0, _, _ => .ok []
  | n + 1, s, [x] :: [y] :: fs => do
    let (a, s) ← encodeSample s x co
    let (b, s) ← encodeSample s y co
    let bs ← encodeMono co n s fs
    return BitVec.ofNat 8 ((a <<< 4) ||| b) :: bs
  | _ + 1, _, _ => .error .bufferOverflow

/-- The loop MSADPCM.cpp:275-282 for two channels. -/
def encodeStereo (co0 co1 : Coef) : Nat → St → St → List (List Int) → Except Abort (List Byte)
  | 0, _, _, _ => .ok []
  | n + 1, s0, s1, [x, y] :: fs => do
    let (a, s0) ← encodeSample s0 x co0
    let (b, s1) ← encodeSample s1 y co1
    let bs ← encodeStereo co0 co1 n s0 s1 fs
    return BitVec.ofNat 8 ((a <<< 4) ||| b) :: bs
  | _ + 1, _, _, _ => .error .bufferOverflow

/-- Low and high byte of an `int` or `int16_t` (`x & 0xff`, `x >> 8` stored into `uint8_t`). -/
def le16 (x : Int) : List Byte := [BitVec.ofInt 8 x, BitVec.ofInt 8 (sar x 8)]

/-- MSADPCM.cpp:231-285 `encodeBlock` for one or two channels. The state kept in `m_state` between blocks is overwritten at the
start of each block (predictor index and delta 325-326, samples 249-253), so it is not part of the model. -/
def encodeBlock (coefs : List Coef) (ch fpp : Nat) (input : List (List Int)) : Except Abort (List Byte) := do
  match ch, input with
  | 1, [x0] :: [x1] :: rest =>
    let (k, delta) ← choosePredictor coefs (column 0 input)
    match coefs[k]? with
    | none => throw .uninitialised
    | some co =>
      let bs ← encodeMono co ((fpp - 2 + 1) / 2) ⟨delta, x1, x0⟩ rest
      return [BitVec.ofNat 8 k] ++ le16 delta ++ le16 x1 ++ le16 x0 ++ bs
  | 2, [x0, y0] :: [x1, y1] :: rest =>
    let (k0, delta0) ← choosePredictor coefs (column 0 input)
    let (k1, delta1) ← choosePredictor coefs (column 1 input)
    match coefs[k0]?, coefs[k1]? with
    | some co0, some co1 =>
      let bs ← encodeStereo co0 co1 (fpp - 2) ⟨delta0, x1, x0⟩ ⟨delta1, y1, y0⟩ rest
      return [BitVec.ofNat 8 k0, BitVec.ofNat 8 k1] ++ (le16 delta0 ++ le16 delta1) ++ (le16 x1 ++ le16 y1) ++
        (le16 x0 ++ le16 y0) ++ bs
    | _, _ => throw .uninitialised
  | _, _ => throw .bufferOverflow

/-- The loop MSADPCM.cpp:211-226 for one channel: `n` rounds. -/
def decodeMono (co : Coef) : Nat → St → List Byte → Except Abort (List (List Int))
  | 0, _, _ => .ok []
  | _ + 1, _, [] => .error .bufferOverflow
  | n + 1, s, b :: bs => do
    let (x, s) ← decodeSample s (b.toNat >>> 4) co
    let (y, s) ← decodeSample s (b.toNat &&& 0xf) co
    let fs ← decodeMono co n s bs
    return [x] :: [y] :: fs

/-- The loop MSADPCM.cpp:211-226 for two channels. -/
def decodeStereo (co0 co1 : Coef) : Nat → St → St → List Byte → Except Abort (List (List Int))
  | 0, _, _, _ => .ok []
  | _ + 1, _, _, [] => .error .bufferOverflow
  | n + 1, s0, s1, b :: bs => do
    let (x, s0) ← decodeSample s0 (b.toNat >>> 4) co0
    let (y, s1) ← decodeSample s1 (b.toNat &&& 0xf) co1
    let fs ← decodeStereo co0 co1 n s0 s1 bs
    return [x, y] :: fs

/-- `(encoded[1]<<8) | encoded[0]`. -/
def u16 (lo hi : Byte) : Int := hi.toNat * 256 + lo.toNat

/-- `m_coefficients[predictorIndex]`: the array has 256 rows, but only the first `m_numCoefficients` are ever written
(MSADPCM.cpp:351-378), and the `assert` at 170 is compiled out (`NDEBUG`). -/
def coefAt (coefs : List Coef) (b : Byte) : Except Abort Coef :=
  match coefs[b.toNat]? with
  | some co => .ok co
  | none => .error .uninitialised

/-- MSADPCM.cpp:150-229 `decodeBlock`. With more than two channels (accepted by WAVE.cpp:268-274, which only reports the error)
the header loops run over the end of the arrays `state` and `decoderState`. -/
def decodeBlock (coefs : List Coef) (ch fpp : Nat) (encoded : List Byte) : Except Abort (List (List Int)) := do
  match ch, encoded with
  | 1, i :: d0 :: d1 :: p0 :: p1 :: q0 :: q1 :: bs =>
    let co ← coefAt coefs i
    let s : St := ⟨u16 d0 d1, wrapS 16 (u16 p0 p1), wrapS 16 (u16 q0 q1)⟩
    let fs ← decodeMono co ((fpp - 2 + 1) / 2) s bs
    if 2 + fs.length > fpp then throw .bufferOverflow
    return [s.sample2] :: [s.sample1] :: fs
  | 2, i :: j :: d0 :: d1 :: e0 :: e1 :: p0 :: p1 :: r0 :: r1 :: q0 :: q1 :: t0 :: t1 :: bs =>
    let co0 ← coefAt coefs i
    let co1 ← coefAt coefs j
    let s0 : St := ⟨u16 d0 d1, wrapS 16 (u16 p0 p1), wrapS 16 (u16 q0 q1)⟩
    let s1 : St := ⟨u16 e0 e1, wrapS 16 (u16 r0 r1), wrapS 16 (u16 t0 t1)⟩
    let fs ← decodeStereo co0 co1 (fpp - 2) s0 s1 bs
    if 2 + fs.length > fpp then throw .bufferOverflow
    return [s0.sample2, s1.sample2] :: [s0.sample1, s1.sample1] :: fs
  | _, _ => throw .bufferOverflow

end AF.MSADPCM
