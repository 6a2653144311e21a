import Verif.Model.Reading
/-!
# Integers as bytes

How C integers lie in memory and in files, for either byte order. Used by all modules and headers.
-/
namespace AF

/-- Byte orders (`AF_BYTEORDER_LITTLEENDIAN`, `AF_BYTEORDER_BIGENDIAN`, audiofile.h). -/
inductive Endian | little | big
  deriving DecidableEq, Repr

/-- The `n` low bytes of a two's-complement integer, least significant first. -/
def leBytes : Nat → Int → List Byte
  | 0, _ => []
  | n + 1, x => BitVec.ofInt 8 x :: leBytes n (x / 256)

/-- The number with these bytes, least significant first. -/
def ofLE : List Byte → Int
  | [] => 0
  | b :: bs => b.toNat + 256 * ofLE bs

/-- The bytes of an `n`-byte integer object on a machine (or in a file) of byte order `e`. -/
def toBytes (e : Endian) (n : Nat) (x : Int) : List Byte :=
  match e with
  | .little => leBytes n x
  | .big => (leBytes n x).reverse

/-- The unsigned integer an object with these bytes holds. -/
def uintOf (e : Endian) (bs : List Byte) : Int :=
  match e with
  | .little => ofLE bs
  | .big => ofLE bs.reverse

end AF
