import Verif.Model.Bytes
/-!
# Byte swapping and header fields

`byteorder.h` and the `readU16 … writeDouble` members of `_AFfilehandle`, for a host of either byte order.
Floating-point fields are moved as their bit patterns (`byteorder.h:59-82` swaps the union's integer).
-/
namespace AF

/-- byteorder.h:35-38 (`int` promotion of the operands does not matter: the result is cut to 16 bits) -/
def byteswap16 (x : BitVec 16) : BitVec 16 := (x >>> 8) ||| (x <<< 8)

/-- byteorder.h:40-46 -/
def byteswap32 (x : BitVec 32) : BitVec 32 :=
  ((x &&& 0x000000ff#32) <<< 24) |||
  ((x &&& 0x0000ff00#32) <<< 8) |||
  ((x &&& 0x00ff0000#32) >>> 8) |||
  ((x &&& 0xff000000#32) >>> 24)

/-- byteorder.h:48-58 -/
def byteswap64 (x : BitVec 64) : BitVec 64 :=
  ((x &&& 0x00000000000000ff#64) <<< 56) |||
  ((x &&& 0x000000000000ff00#64) <<< 40) |||
  ((x &&& 0x0000000000ff0000#64) <<< 24) |||
  ((x &&& 0x00000000ff000000#64) <<< 8) |||
  ((x &&& 0x000000ff00000000#64) >>> 8) |||
  ((x &&& 0x0000ff0000000000#64) >>> 24) |||
  ((x &&& 0x00ff000000000000#64) >>> 40) |||
  ((x &&& 0xff00000000000000#64) >>> 56)

/-- Widths of header fields. -/
inductive FieldSize | s1 | s2 | s4 | s8
  deriving DecidableEq

/-- `sizeof (T)` -/
@[reducible] def FieldSize.bytes : FieldSize → Nat
  | s1 => 1 | s2 => 2 | s4 => 4 | s8 => 8

/-- The overloaded `byteswap` (byteorder.h:84-93). One-byte fields are read and written without it
(FileHandle.cpp:387-388, 430-431). -/
def byteswap : (k : FieldSize) → BitVec (8 * k.bytes) → BitVec (8 * k.bytes)
  | .s1, x => x
  | .s2, x => byteswap16 x
  | .s4, x => byteswap32 x
  | .s8, x => byteswap64 x

/-- FileHandle.cpp `swapValue` with `bigToHost`/`littleToHost` (byteorder.h:95-117), on a host of order `h`. -/
def swapValue (h order : Endian) (k : FieldSize) (x : BitVec (8 * k.bytes)) : BitVec (8 * k.bytes) :=
  if order = h then x else byteswap k x

/-- `writeSwap` (FileHandle.cpp:380-385) with `writeValue`: the bytes put into the file. -/
def writeField (h order : Endian) (k : FieldSize) (x : BitVec (8 * k.bytes)) : List Byte :=
  toBytes h k.bytes (swapValue h order k x).toNat

/-- `readSwap` (FileHandle.cpp:372-378) with `readValue`: the value and the rest of the file, or failure at the
end of the file. -/
def readField (h order : Endian) (k : FieldSize) (bs : List Byte) : Option (BitVec (8 * k.bytes) × List Byte) :=
  if k.bytes ≤ bs.length then
    some (swapValue h order k (BitVec.ofInt _ (uintOf h (bs.take k.bytes))), bs.drop k.bytes)
  else none

end AF
