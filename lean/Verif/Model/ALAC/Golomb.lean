import Verif.Model.ALAC.Bits
import Verif.Model.CInt
/-!
# Model of the adaptive Golomb coder of the ALAC codec

`alac/ag_enc.c` (`dyn_comp`) and `alac/ag_dec.c` (`dyn_decomp`). `uint32_t` variables are natural numbers reduced modulo
`2^32` where the C code can exceed it.
-/
namespace AF.ALAC

/-- aglib.h:68-79 `AGParamRec`, the fields that matter: ag_dec.c:65-75 `set_ag_params` sets `mb0 = m`, `pb = p`,
`kb = k`, `wb = (1 << kb) - 1` and `fw = sw = numSamples` (both codecs pass the number of samples twice), so that the row
logic (`rowPos`, `rowSize`, `rowJump`) of `dyn_comp` never moves the pointer and is left out. -/
structure Params where
  mb0 : Nat
  pb : Nat
  kb : Nat
  deriving DecidableEq, Repr

/-- ag_dec.c:70: `wb = (1u << kb) - 1`. -/
def Params.wb (P : Params) : Nat := 2 ^ P.kb - 1

/-- ag_enc.c:73-82, ag_dec.c:97-104 `lg3a`. -/
def lg3a (x : Nat) : Nat := 31 - lead (BitVec.ofNat 32 (x + 3))

/-! ## Encoder -/

/-- What `dyn_code_32bit` reports: a code word and, if `overflow` is set, a number to be written in full behind it. -/
structure Code where
  numBits : Nat
  value : Nat
  overflow : Option (Nat × Nat)
  deriving DecidableEq, Repr

/-- ag_enc.c:114-147 `dyn_code`; the result is the number of bits and the value. -/
def dynCode (m k n : Nat) : Except Stop (Nat × Nat) :=
  if m = 0 then .error .undefined
  else
    let div := n / m
    if 9 ≤ div then .ok (9 + 16, (2 ^ 9 - 1) * 2 ^ 16 + n)
    else
      let mod := n % m
      let de := if mod = 0 then 1 else 0
      let numBits := div + k + 1 - de
      let value := (2 ^ div - 1) * 2 ^ (numBits - div) + mod + 1 - de
      if 9 + 16 < numBits then .ok (9 + 16, (2 ^ 9 - 1) * 2 ^ 16 + n)
      else .ok (numBits, value)

/-- ag_enc.c:150-184 `dyn_code_32bit`. -/
def dynCode32 (maxbits m k n : Nat) : Except Stop Code :=
  if m = 0 then .error .undefined
  else
    let div := n / m
    let escape : Code := ⟨9, 2 ^ 9 - 1, some (n, maxbits)⟩
    if div < 9 then
      let mod := n - m * div
      let de := if mod = 0 then 1 else 0
      let numBits := div + k + 1 - de
      let value := (2 ^ div - 1) * 2 ^ (numBits - div) + mod + 1 - de
      if 25 < numBits then .ok escape else .ok ⟨numBits, value, none⟩
    else .ok escape

/-- ag_enc.c:292-300: the parameter `k`. -/
def encK (P : Params) (mb : Nat) : Nat :=
  let k := lg3a (mb / 512)
  if P.kb < k then P.kb else k

/-- ag_enc.c:305: the number coded for a residual. `abs_func(del) << 1` is defined only below `2^31`. -/
def encN (del : Int) (zmode : Nat) : Except Stop Nat :=
  if 2 ^ 30 ≤ del.natAbs then .error .undefined
  else .ok (wrapU 32 (2 * (del.natAbs : Int) - (if del < 0 then 1 else 0) - zmode)).toNat

/-- ag_enc.c:308-319: the code word of a number goes to the stream. -/
def putCode (c : Code) (m : Mem) (pos : Nat) : Except Stop (Mem × Nat) := do
  let m ← jam m pos c.numBits (BitVec.ofNat 32 c.value)
  let pos := pos + c.numBits
  match c.overflow with
  | none => return (m, pos)
  | some (v, bits) =>
    let m ← jamLarge m pos bits (BitVec.ofNat 32 v)
    return (m, pos + bits)

/-- ag_enc.c:328-332: the running mean. -/
def encMean (P : Params) (mb n zmode : Nat) : Nat :=
  let mb' := (P.pb * (n + zmode) + mb + 2 ^ 32 - (P.pb * mb % 2 ^ 32) / 512) % 2 ^ 32
  if 0xffff < n then 0xffff else mb'

/-- ag_enc.c:343-360: the number of zeros that follow (at most 65535), and what comes after them. -/
def zeroRun : Nat → List Int → Nat × List Int
  | nz, [] => (nz, [])
  | nz, x :: xs =>
    if x = 0 then (if 65535 ≤ nz + 1 then (nz + 1, xs) else zeroRun (nz + 1) xs)
    else (nz, x :: xs)

/-- ag_enc.c:362: the parameter of the code for zero runs, `lead(mb) - BITOFF + ((mb + MOFF) >> MDENSHIFT)`. -/
def runK (mb : Nat) : Nat := lead (BitVec.ofNat 32 mb) + (mb + 16) / 64 - 24

/-- ag_enc.c:290-370: the loop of `dyn_comp`, over the residuals not yet coded (`c < numSamples` says there is one). The
first argument is the number of rounds left, at most one per residual. -/
def compLoop (P : Params) (bitSize : Nat) :
    Nat → List Int → (mb zmode : Nat) → Mem → Nat → Except Stop (Mem × Nat)
  | 0, _, _, _, m, pos => .ok (m, pos)
  | _ + 1, [], _, _, m, pos => .ok (m, pos)
  | r + 1, del :: rest, mb, zmode, m, pos => do
    let k := encK P mb
    let n ← encN del zmode
    let code ← dynCode32 bitSize (2 ^ k - 1) k n
    let (m, pos) ← putCode code m pos
    let mb := encMean P mb n zmode
    if mb * 4 % 2 ^ 32 < 512 ∧ rest ≠ [] then
      let (nz, rest) := zeroRun 0 rest
      let zmode := if 65535 ≤ nz then 0 else 1
      let k := runK mb
      let mz := (2 ^ k - 1) &&& P.wb
      let (numBits, value) ← dynCode mz k nz
      let m ← jam m pos numBits (BitVec.ofNat 32 value)
      compLoop P bitSize r rest 0 zmode m (pos + numBits)
    else compLoop P bitSize r rest mb 0 m pos

/-- ag_enc.c:249-368 `dyn_comp`: the residuals `pc` go to the bits from `pos` on; the result is the memory and the
position behind the last bit. -/
def dynComp (P : Params) (pc : List Int) (bitSize : Nat) (m : Mem) (pos : Nat) : Except Stop (Mem × Nat) :=
  if bitSize < 1 ∨ 32 < bitSize then .error .param
  else compLoop P bitSize pc.length pc P.mb0 0 m pos

/-! ## Decoder -/

/-- ag_dec.c:163-208 `dyn_get`: the number and the position behind it. (`result` first gets `pre * m + v - 1` and then
`- (v - 1)` if `v < 2`, both modulo `2^32`.) -/
def dynGet (mem : Mem) (pos m k : Nat) : Except Stop (Nat × Nat) :=
  let streamlong := read32 mem (pos / 8) <<< (pos % 8)
  let pre := lead (~~~streamlong)
  if 9 ≤ pre then .ok (((streamlong <<< 9) >>> 16).toNat, pos + 9 + 16)
  else if k = 0 ∨ 32 < k then .error .undefined
  else
    let v := ((streamlong <<< (pre + 1)) >>> (32 - k)).toNat
    if v < 2 then .ok (pre * m % 2 ^ 32, pos + pre + 1 + k - 1)
    else .ok ((pre * m + v - 1) % 2 ^ 32, pos + pre + 1 + k)

/-- ag_dec.c:211-262 `dyn_get_32bit`: the number and the position behind it. -/
def dynGet32 (mem : Mem) (pos m k maxbits : Nat) : Except Stop (Nat × Nat) := do
  let streamlong := read32 mem (pos / 8) <<< (pos % 8)
  let pre := lead (~~~streamlong)
  if 9 ≤ pre then
    let v ← getstreambits mem (pos + 9) maxbits
    return (v.toNat, pos + 9 + maxbits)
  else if k = 1 then return (pre, pos + pre + 1)
  else if k = 0 ∨ 32 < k then .error .undefined
  else
    let v := ((streamlong <<< (pre + 1)) >>> (32 - k)).toNat
    if 2 ≤ v then return ((pre * m + (v - 1)) % 2 ^ 32, pos + pre + 1 + k)
    else return (pre * m % 2 ^ 32, pos + pre + 1 + k - 1)

/-- ag_dec.c:298-302: the parameter `k`. -/
def decK (P : Params) (mb : Nat) : Nat := min (lg3a (mb / 512)) P.kb

/-- ag_dec.c:307-313: the residual of a number. -/
def decDel (n zmode : Nat) : Int :=
  let ndecode := (n + zmode) % 2 ^ 32
  let multiplier : Int := if ndecode % 2 = 1 then -1 else 1
  wrapS 32 (((ndecode + 1) % 2 ^ 32 / 2 : Nat) * multiplier)

/-- ag_dec.c:319-323: the running mean. -/
def decMean (P : Params) (mb n zmode : Nat) : Nat :=
  let mb' := (P.pb * ((n + zmode) % 2 ^ 32) + mb + 2 ^ 32 - (P.pb * mb % 2 ^ 32) / 512) % 2 ^ 32
  if 0xffff < n then 0xffff else mb'

/-- ag_dec.c:291-349: the loop of `dyn_decomp`. The first argument is the number of rounds left, at most one per
residual; `base` is the position of the byte `in` points to, `maxPos` is relative to it. -/
def decompLoop (P : Params) (maxSize maxPos base num : Nat) (mem : Mem) :
    Nat → (c mb zmode pos : Nat) → Except Stop (List Int × Nat)
  | 0, _, _, _, pos => .ok ([], pos)
  | r + 1, c, mb, zmode, pos => do
    if num ≤ c then return ([], pos)
    if maxPos ≤ pos - base then throw .param
    let k := decK P mb
    let (n, pos) ← dynGet32 mem pos (2 ^ k - 1) k maxSize
    let del := decDel n zmode
    let c := c + 1
    let mb := decMean P mb n zmode
    if mb * 4 % 2 ^ 32 < 512 ∧ c < num then
      let k := runK mb
      let mz := (2 ^ k - 1) &&& P.wb
      let (n, pos) ← dynGet mem pos mz k
      if num < (c + n) % 2 ^ 32 then throw .param
      let zmode := if 65535 ≤ n then 0 else 1
      let (out, pos) ← decompLoop P maxSize maxPos base num mem r (c + n) 0 zmode pos
      return (del :: (List.replicate n 0 ++ out), pos)
    else
      let (out, pos) ← decompLoop P maxSize maxPos base num mem r c mb 0 pos
      return (del :: out, pos)

/-- ag_dec.c:264-354 `dyn_decomp`: `num` residuals from the bits at `pos` of a buffer of `byteSize` bytes; the result is
the residuals and the position behind the last bit. -/
def dynDecomp (P : Params) (num maxSize byteSize : Nat) (mem : Mem) (pos : Nat) : Except Stop (List Int × Nat) := do
  let (out, pos') ← decompLoop P maxSize (8 * byteSize) (8 * (pos / 8)) num mem num 0 P.mb0 0 pos
  if byteSize < pos' / 8 then throw .param
  return (out, pos')

end AF.ALAC
