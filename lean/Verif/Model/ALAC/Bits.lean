import Verif.Model.Bytes
/-!
# Model of the bit buffers of the ALAC codec

`alac/ALACBitUtilities.c` and the bit access functions of `alac/ag_enc.c` and `alac/ag_dec.c`.

Memory is a function from byte addresses to bytes; a `BitBuffer` (ALACBitUtilities.h:62-69) is represented by one
absolute bit position `8 * (cur - begin) + bitIndex` (`cur` and `bitIndex < 8` are its quotient and remainder), its
memory and, where the code looks at it, its size in bytes. 32-bit registers are `BitVec 32`.
-/
namespace AF.ALAC

/-- The bytes of a buffer and of what lies behind it. -/
abbrev Mem := Nat → Byte

/-- How a function of the codec can end other than normally: `undefined` is undefined behaviour of C (a shift by 32 or
more, division by zero), `param` is the status `kALAC_ParamError`. -/
inductive Stop
  | undefined
  | param
  deriving DecidableEq, Repr

/-- ag_dec.c:106-115 `read32bit`, ag_enc.c:92-100 `unaligned_read32_be`. -/
def read32 (m : Mem) (i : Nat) : BitVec 32 :=
  ((m i).setWidth 32 <<< 24) ||| ((m (i + 1)).setWidth 32 <<< 16) ||| ((m (i + 2)).setWidth 32 <<< 8) |||
    (m (i + 3)).setWidth 32

/-- ag_enc.c:102-108 `unaligned_write32_be`. -/
def write32 (m : Mem) (i : Nat) (v : BitVec 32) : Mem := fun j =>
  if j = i then (v >>> 24).setWidth 8
  else if j = i + 1 then ((v >>> 16) &&& 0xff#32).setWidth 8
  else if j = i + 2 then ((v >>> 8) &&& 0xff#32).setWidth 8
  else if j = i + 3 then (v &&& 0xff#32).setWidth 8
  else m j

/-- ag_enc.c:187-207 `dyn_jam_noDeref`. The shifts are defined only for `1 ≤ numBits` and
`bitPos % 8 + numBits ≤ 32`. -/
def jam (m : Mem) (bitPos numBits : Nat) (value : BitVec 32) : Except Stop Mem :=
  if numBits = 0 ∨ 32 < bitPos % 8 + numBits then .error .undefined
  else
    let i := bitPos / 8
    let curr := read32 m i
    let shift := 32 - bitPos % 8 - numBits
    let mask := (BitVec.allOnes 32 >>> (32 - numBits)) <<< shift
    let value := (value <<< shift) &&& mask
    .ok (write32 m i (value ||| (curr &&& ~~~mask)))

/-- ag_enc.c:210-246 `dyn_jam_noDeref_large`. The shifts are defined only for `1 ≤ numBits ≤ 32`. -/
def jamLarge (m : Mem) (bitPos numBits : Nat) (value : BitVec 32) : Except Stop Mem :=
  if numBits = 0 ∨ 32 < numBits then .error .undefined
  else
    let i := bitPos / 8
    let curr := read32 m i
    if 32 < bitPos % 8 + numBits then
      -- `shiftvalue = -s`
      let s := bitPos % 8 + numBits - 32
      let w := value >>> s
      let mask := BitVec.allOnes 32 >>> s
      let w := w ||| (curr &&& ~~~mask)
      let tailbyte := ((value <<< (8 - s)) &&& 0xff#32).setWidth 8
      .ok (write32 (fun j => if j = i + 4 then tailbyte else m j) i w)
    else
      let shift := 32 - bitPos % 8 - numBits
      let mask := (BitVec.allOnes 32 >>> (32 - numBits)) <<< shift
      let w := (value <<< shift) &&& mask
      .ok (write32 m i (w ||| (curr &&& ~~~mask)))

/-- ag_dec.c:127-160 `getstreambits`. The shifts are defined only for `1 ≤ numBits ≤ 32`. -/
def getstreambits (m : Mem) (bitoffset numBits : Nat) : Except Stop (BitVec 32) :=
  if numBits = 0 ∨ 32 < numBits then .error .undefined
  else
    let byteoffset := bitoffset / 8
    let load1 := read32 m byteoffset
    let result :=
      if 32 < numBits + bitoffset % 8 then
        let result := load1 <<< (bitoffset % 8)
        let load2 : BitVec 32 := (m (byteoffset + 4)).setWidth 32
        let load2shift := 8 - (numBits + bitoffset % 8 - 32)
        let load2 := load2 >>> load2shift
        (result >>> (32 - numBits)) ||| load2
      else load1 >>> (32 - numBits - bitoffset % 8)
    .ok (if numBits ≠ 32 then result &&& ~~~(BitVec.allOnes 32 <<< numBits) else result)

/-- ag_dec.c:81-93, ag_enc.c:57-69 `lead`: the number of leading zero bits. -/
def lead (m : BitVec 32) : Nat :=
  go 32 0
where
  /-- the loop, with the number of rounds left -/
  go : Nat → Nat → Nat
  | 0, j => j
  | r + 1, j => if m.getMsbD j then j else go r (j + 1)

/-- One round of ALACBitUtilities.c:217-243: `curNum` bits, the upper ones of the `numBits` lower bits of `bitValues`,
go to the byte at `pos / 8`. -/
def bbWriteByte (m : Mem) (pos : Nat) (bitValues : BitVec 32) (numBits curNum : Nat) : Mem :=
  let tmp := bitValues >>> (numBits - curNum)
  let shift := 8 - pos % 8 - curNum
  let mask : BitVec 8 := ((0xff#32 >>> (8 - curNum)).setWidth 8) <<< shift
  fun j => if j = pos / 8 then
      (m j &&& ~~~mask) ||| ((((tmp.setWidth 8).setWidth 32 <<< shift) &&& mask.setWidth 32).setWidth 8)
    else m j

/-- ALACBitUtilities.c:206-246 `BitBufferWrite`; `numBits` is the number of rounds at most needed. Called with
`numBits ≤ 32` everywhere (a larger one would shift by more than 31). -/
def bbWrite (m : Mem) (pos : Nat) (bitValues : BitVec 32) (numBits : Nat) : Except Stop Mem :=
  if 32 < numBits then .error .undefined else .ok (go numBits m pos numBits)
where
  /-- the loop, with the number of rounds left -/
  go : Nat → Mem → Nat → Nat → Mem
  | 0, m, _, _ => m
  | r + 1, m, pos, numBits =>
    if numBits = 0 then m
    else
      let curNum := min (8 - pos % 8) numBits
      go r (bbWriteByte m pos bitValues numBits curNum) (pos + curNum) (numBits - curNum)

/-- ALACBitUtilities.c:40-63 `BitBufferRead`; the position moves by `numBits`. Called with `numBits ≤ 16`. -/
def bbRead (m : Mem) (pos numBits : Nat) : BitVec 32 :=
  let i := pos / 8
  let r : BitVec 32 := ((m i).setWidth 32 <<< 16) ||| ((m (i + 1)).setWidth 32 <<< 8) ||| (m (i + 2)).setWidth 32
  let r := r <<< (pos % 8)
  let r := r &&& 0x00FFFFFF#32
  r >>> (24 - numBits)

/-- ALACBitUtilities.c:65-87 `BitBufferReadSmall`; the position moves by `numBits`. Called with `numBits ≤ 8`. -/
def bbReadSmall (m : Mem) (pos numBits : Nat) : Byte :=
  let i := pos / 8
  let r : BitVec 16 := (((m i).setWidth 32 <<< 8) ||| (m (i + 1)).setWidth 32).setWidth 16
  let r : BitVec 16 := (r.setWidth 32 <<< (pos % 8)).setWidth 16
  (r >>> (16 - numBits)).setWidth 8

/-- ALACBitUtilities.c:89-106 `BitBufferReadOne`; the position moves by 1. -/
def bbReadOne (m : Mem) (pos : Nat) : Byte :=
  (((m (pos / 8)).setWidth 32 >>> (7 - pos % 8)) &&& 1#32).setWidth 8

end AF.ALAC
