import Verif.Model.Bytes
/-!
# Specification: the chunks of a file

A file of chunks is read by going from one chunk header to the next. What the headers say is all these definitions depend on.
-/
namespace AF.Spec.Walk
open AF

/-- The number in four bytes at an offset, most or least significant first. (Bytes missing at the end of the file count as nothing.) -/
def be32 (file : List Byte) (p : Nat) : Nat := (ofLE ((file.drop p).take 4).reverse).toNat
def le32 (file : List Byte) (p : Nat) : Nat := (ofLE ((file.drop p).take 4)).toNat

/-- The signed number in eight bytes, most significant first. -/
def be64 (file : List Byte) (p : Nat) : Int := (ofLE ((file.drop p).take 8).reverse).bmod (2 ^ 64)

/-- The offsets of the chunk headers of a FORM file (AIFF, IFF): a type, a length, that many bytes, and a byte more if it is odd. -/
inductive FormChunk (file : List Byte) : Nat → Prop
  | first : FormChunk file 12
  | next {p : Nat} : FormChunk file p → p + 8 ≤ file.length →
      FormChunk file (p + 8 + be32 file (p + 4) + be32 file (p + 4) % 2)

/-- The offsets of the chunk headers of a RIFF file (WAVE), as far as the length in its own header reaches. -/
inductive RiffChunk (file : List Byte) : Nat → Prop
  | first : RiffChunk file 12
  | next {p : Nat} : RiffChunk file p → p < le32 file 4 + 8 →
      RiffChunk file (p + 8 + le32 file (p + 4) + le32 file (p + 4) % 2)

/-- A data chunk that reaches to the end of the file. -/
def OpenEnd (file : List Byte) (p : Nat) : Prop := (file.drop p).take 4 = [0x64, 0x61, 0x74, 0x61] ∧ be64 file (p + 4) = -1

/-- The offsets of the chunk headers of a CAF file: a type, a length of 64 bits, that many bytes. -/
inductive CafChunk (file : List Byte) : Nat → Prop
  | first : CafChunk file 8
  | next {p : Nat} : CafChunk file p → p + 12 ≤ file.length → ¬ OpenEnd file p →
      CafChunk file ((p : Int) + 12 + be64 file (p + 4)).toNat

end AF.Spec.Walk
