import Verif.Model.CInt
import Verif.Model.FloatInt
/-!
# The 80-bit extended sample rate of AIFF files

`extended.c` on an IEEE machine with 64-bit `long`. Doubles are `Dbl` (value, without the sign of zero).
Every arithmetic step of the encoder is exact (scaling by powers of two, `floor`, subtracting the integer part), so the
encoder is modelled on rationals; the decoder rounds in `ldexp` and `+`, modelled by the parameter `rnd`.
-/
namespace AF.Extended
open AF AF.Convert

/-- `frexp(q, &e)` for positive `q`: `q = f * 2^e` with `1/2 ≤ f < 1`. -/
def frexp (q : Rat) : Rat × Int :=
  let e : Int := (Nat.log2 q.num.natAbs : Int) - Nat.log2 q.den + 1
  let e := if q * (2 : Rat) ^ (-e) < 1 / 2 then e - 1 else e
  (q * (2 : Rat) ^ (-e), e)

/-- `FloatToUnsigned(f)` (extended.c:61) for an integral `f`:
`((unsigned long) (((long) (f - 2147483648.0)) + 2147483647L) + 1)`. -/
def floatToUnsigned (f : Int) : Nat :=
  (wrapU 64 (wrapU 64 (wrapS 64 (wrapS 64 (f - 2147483648) + 2147483647)) + 1)).toNat

/-- The bytes stored by extended.c:99-108. -/
def store (expon : Int) (hi lo : Nat) : List Byte :=
  [BitVec.ofInt 8 (sar expon 8), BitVec.ofInt 8 expon,
   BitVec.ofNat 8 (hi >>> 24), BitVec.ofNat 8 (hi >>> 16), BitVec.ofNat 8 (hi >>> 8), BitVec.ofNat 8 hi,
   BitVec.ofNat 8 (lo >>> 24), BitVec.ofNat 8 (lo >>> 16), BitVec.ofNat 8 (lo >>> 8), BitVec.ofNat 8 lo]

/-- The finite, non-zero branch (extended.c:83-96): exponent word and the two halves of the mantissa.
`expon |= sign` adds the sign bit, which is clear in `expon` (at most 32766 by the test in line 79). -/
def finiteWords (sign : Int) (q : Rat) : Int × Nat × Nat :=
  let (fMant, expon) := frexp q
  let expon := expon + 16382
  let (fMant, expon) : Rat × Int := if expon < 0 then (fMant * (2 : Rat) ^ expon, 0) else (fMant, expon)
  let expon := sign + expon
  let fMant : Rat := fMant * 2 ^ 32
  let fsMant := fMant.floor
  let hi := floatToUnsigned fsMant
  let fMant := (fMant - fsMant) * 2 ^ 32
  let fsMant := fMant.floor
  let lo := floatToUnsigned fsMant
  (expon, hi, lo)

/-- `_af_convert_to_ieee_extended` (extended.c:63-109). `frexp` of an infinity or NaN fails the test `fMant < 1`;
`num < 0` is false for NaN. -/
def encode : Dbl → List Byte
  | .nan => store 0x7fff 0 0
  | .inf neg => store ((if neg then 0x8000 else 0) + 0x7fff) 0 0
  | .fin q =>
    let sign : Int := if q < 0 then 0x8000 else 0
    let num := if q < 0 then -q else q
    if num = 0 then store 0 0 0
    else if (frexp num).2 > 16384 then store (sign + 0x7fff) 0 0
    else
      let (expon, hi, lo) := finiteWords sign num
      store expon hi lo

/-- `UnsignedToFloat(u)` (extended.c:111): exact for 32-bit `u`. -/
def unsignedToFloat (u : Nat) : Int := wrapS 64 (wrapU 64 (u - 2147483647 - 1)) + 2147483648

/-- `-f` -/
def neg : Dbl → Dbl
  | .nan => .nan
  | .inf s => .inf (!s)
  | .fin q => .fin (-q)

/-- `_af_convert_from_ieee_extended` (extended.c:113-153) on ten bytes. -/
def decode (rnd : Rat → Dbl) (b : Nat → Byte) : Dbl :=
  let expon : Int := (((b 0).toNat % 128 * 256 + (b 1).toNat : Nat) : Int)
  let hi := (((b 2).toNat * 256 + (b 3).toNat) * 256 + (b 4).toNat) * 256 + (b 5).toNat
  let lo := (((b 6).toNat * 256 + (b 7).toNat) * 256 + (b 8).toNat) * 256 + (b 9).toNat
  let f : Dbl :=
    if expon = 0 ∧ hi = 0 ∧ lo = 0 then .fin 0
    else if expon = 0x7fff then .inf false
    else
      let expon := expon - 16383
      let expon := expon - 31
      let f := rnd ((unsignedToFloat hi : Rat) * (2 : Rat) ^ expon)
      let expon := expon - 32
      Dbl.add rnd f (rnd ((unsignedToFloat lo : Rat) * (2 : Rat) ^ expon))
  if 128 ≤ (b 0).toNat then neg f else f

/-- The ten bytes of a list, as the reader indexes them. -/
def byteAt (l : List Byte) (i : Nat) : Byte := l.getD i 0

end AF.Extended
