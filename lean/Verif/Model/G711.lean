import Verif.Model.CInt
/-!
# Model of `libaudiofile/g711.c`

Samples are `Int`, codes are `Nat` (0..255).  The C code is compiled with `int` parameters, and every
intermediate value here stays far inside 32 bits, so no wrap is needed.
-/
namespace AF.G711

/-- g711.c:41-42 `seg_end`. -/
def segEnd : List Int := [0xFF, 0x1FF, 0x3FF, 0x7FF, 0xFFF, 0x1FFF, 0x3FFF, 0x7FFF]

/-- g711.c:44-57 `search(val, table, size)`: index of the first entry `>= val`, or `size`. -/
def search (val : Int) : List Int → Nat
  | [] => 0
  | e :: es => if val ≤ e then 0 else 1 + search val es

/-- g711.c:76-106 `_af_linear2alaw`. SEG_SHIFT is 4, QUANT_MASK 0xf (g711.c:36-38). -/
def linear2alaw (pcmVal : Int) : Nat :=
  let mask : Nat := if pcmVal ≥ 0 then 0xD5 else 0x55
  let pcm : Int := if pcmVal ≥ 0 then pcmVal else -pcmVal - 8
  let seg := search pcm segEnd
  if seg ≥ 8 then 0x7F ^^^ mask
  else
    let quant := if seg < 2 then lowBits (sar pcm 4) 4 else lowBits (sar pcm (seg + 3)) 4
    ((seg <<< 4) ||| quant) ^^^ mask

/-- g711.c:112-135 `_af_alaw2linear`. -/
def alaw2linear (aVal : Nat) : Int :=
  let a := aVal ^^^ 0x55
  let t : Nat := (a &&& 0xF) <<< 4
  let seg := (a &&& 0x70) >>> 4
  let t : Nat := match seg with
    | 0 => t + 8
    | 1 => t + 0x108
    | _ => (t + 0x108) <<< (seg - 1)
  if a &&& 0x80 ≠ 0 then (t : Int) else -(t : Int)

/-- g711.c:170-199 `_af_linear2ulaw`; BIAS = 0x84 (g711.c:137). -/
def linear2ulaw (pcmVal : Int) : Nat :=
  let mask : Nat := if pcmVal < 0 then 0x7F else 0xFF
  let pcm : Int := if pcmVal < 0 then 0x84 - pcmVal else pcmVal + 0x84
  let seg := search pcm segEnd
  if seg ≥ 8 then 0x7F ^^^ mask
  else ((seg <<< 4) ||| lowBits (sar pcm (seg + 3)) 4) ^^^ mask

/-- g711.c:210-225 `_af_ulaw2linear`; `u_val = ~u_val` on an `unsigned char` is `255 - u_val`. -/
def ulaw2linear (uVal : Nat) : Int :=
  let u := uVal ^^^ 0xFF
  let t : Nat := ((u &&& 0xF) <<< 3) + 0x84
  let t : Nat := t <<< ((u &&& 0x70) >>> 4)
  if u &&& 0x80 ≠ 0 then 0x84 - (t : Int) else (t : Int) - 0x84

end AF.G711
