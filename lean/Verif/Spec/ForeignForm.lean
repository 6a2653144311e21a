import Verif.Spec.Foreign
import Verif.Spec.Double
/-!
# AIFF, AIFF-C and IFF 8SVX files of other programs
-/
namespace AF.Spec.Foreign
open AF AF.Setup AF.Spec AF.Spec.Formats AF.Spec.Files

/-- A chunk of an IFF file: the same, with the most significant byte of the size first. -/
def Chunk.form (c : Chunk) : List Byte := c.id ++ be 4 c.body.length ++ c.body ++ c.pad

/-- A file of chunks. -/
def formFile (type : String) (chunks : List Byte) : List Byte := text "FORM" ++ be 4 (chunks.length + 4) ++ text type ++ chunks

/-! ## AIFF and AIFF-C -/

/-- A marker: number, position, and a name (its length, the characters, and a byte more if that makes it even). -/
structure AMark where
  id : Nat
  position : Nat
  name : List Byte
  pad : List Byte

def AMark.bytes (m : AMark) : List Byte := be 2 m.id ++ be 4 m.position ++ be 1 m.name.length ++ m.name ++ m.pad

structure AMark.Ok (m : AMark) : Prop where
  name : m.name.length < 256
  pad : m.pad.length = (m.name.length + 1) % 2

/-- A chunk that says nothing about the sound. An instrument chunk has 20 bytes or more; a marker chunk has a number of markers,
and then the markers; the others may have anything. -/
structure AiffOther (c : Chunk) : Prop where
  ok : c.Ok
  id : c.id ≠ text "COMM" ∧ c.id ≠ text "SSND"
  inst : c.id = text "INST" → 20 ≤ c.body.length
  mark : c.id = text "MARK" → ∃ (ms : List AMark) (more : List Byte), c.body = be 2 ms.length ++ ms.flatMap AMark.bytes ++ more ∧ ms.length < 2 ^ 16 ∧ ∀ m ∈ ms, AMark.Ok m

structure Aiff where
  aifc : Bool
  channels : Nat
  frames : Nat
  bits : Nat
  /-- the rate, an 80-bit floating point number: exponent and mantissa -/
  exponent : Nat
  mantissa : Nat
  /-- in AIFF-C, four characters and a name -/
  compression : List Byte
  name : List Byte
  /-- what else there is in the chunk: the name's pad byte, or more -/
  more : List Byte
  commPad : List Byte
  /-- bytes before the sound, which its chunk says shall be skipped -/
  gap : List Byte
  blockSize : Nat
  sound : List Byte
  soundPad : List Byte
  /-- the sound chunk comes before the common chunk -/
  soundFirst : Bool
  /-- chunks before, between and after these two -/
  before : List Chunk
  between : List Chunk
  after : List Chunk

def Aiff.rate (x : Aiff) : Rat := (x.mantissa : Rat) * (2 : Rat) ^ ((x.exponent : Int) - 16446)

/-- The samples and their byte order. -/
def aiffKind (compression : List Byte) (bits : Nat) : Option (Kind × Int) :=
  let is (s : String) : Bool := compression = text s
  if is "NONE" ∨ is "twos" then if 1 ≤ bits ∧ bits ≤ 32 then some (signed bits, BIG) else none
  else if is "sowt" then if 1 ≤ bits ∧ bits ≤ 32 then some (signed bits, LITTLE) else none
  else if is "in24" then some (signed 24, BIG)
  else if is "in32" then some (signed 32, BIG)
  else if is "fl32" ∨ is "FL32" then some (float, BIG)
  else if is "fl64" ∨ is "FL64" then some (double, BIG)
  else if is "ulaw" ∨ is "ULAW" then some (muLaw, BIG)
  else if is "alaw" ∨ is "ALAW" then some (aLaw, BIG)
  else none

def Aiff.kind (x : Aiff) : Option (Kind × Int) := aiffKind (if x.aifc then x.compression else text "NONE") x.bits

def Aiff.comm (x : Aiff) : Chunk :=
  ⟨text "COMM", be 2 x.channels ++ be 4 x.frames ++ be 2 x.bits ++ (be 2 x.exponent ++ be 8 x.mantissa) ++
    (if x.aifc then x.compression ++ be 1 x.name.length ++ x.name else []) ++ x.more, x.commPad⟩

def Aiff.ssnd (x : Aiff) : Chunk := ⟨text "SSND", be 4 x.gap.length ++ be 4 x.blockSize ++ x.gap ++ x.sound, x.soundPad⟩

def Aiff.chunks (x : Aiff) : List Byte :=
  (x.before ++ [if x.soundFirst then x.ssnd else x.comm] ++ x.between ++ [if x.soundFirst then x.comm else x.ssnd] ++ x.after).flatMap Chunk.form

def Aiff.file (x : Aiff) : List Byte := formFile (if x.aifc then "AIFC" else "AIFF") x.chunks

structure Aiff.Ok (x : Aiff) : Prop where
  channels : 1 ≤ x.channels ∧ x.channels < 2 ^ 16
  frames : x.frames < 2 ^ 32
  bits : x.bits < 2 ^ 16
  /-- the rate is a number that a `double` can hold, too -/
  rate : 15372 ≤ x.exponent ∧ x.exponent ≤ 17385 ∧ x.mantissa < 2 ^ 64 ∧ IsDouble x.rate
  compression : x.compression.length = 4
  name : x.name.length < 256
  commPad : x.commPad.length = x.comm.body.length % 2
  soundPad : x.soundPad.length = x.ssnd.body.length % 2
  others : ∀ c ∈ x.before ++ x.between ++ x.after, AiffOther c
  size : x.file.length + 1 < 2 ^ 32

/-! ## IFF 8SVX -/

structure Svx where
  /-- samples of the highest octave's one-shot part, its repeated part, samples per cycle -/
  oneShot : Nat
  repeated : Nat
  cycle : Nat
  rate : Nat
  octaves : Nat
  compression : Nat
  volume : Nat
  more : List Byte
  vhdrPad : List Byte
  sound : List Byte
  soundPad : List Byte
  soundFirst : Bool
  before : List Chunk
  between : List Chunk
  after : List Chunk

def Svx.vhdr (x : Svx) : Chunk :=
  ⟨text "VHDR", be 4 x.oneShot ++ be 4 x.repeated ++ be 4 x.cycle ++ be 2 x.rate ++ be 1 x.octaves ++ be 1 x.compression ++
    be 4 x.volume ++ x.more, x.vhdrPad⟩

def Svx.body (x : Svx) : Chunk := ⟨text "BODY", x.sound, x.soundPad⟩

def Svx.chunks (x : Svx) : List Byte :=
  (x.before ++ [if x.soundFirst then x.body else x.vhdr] ++ x.between ++ [if x.soundFirst then x.vhdr else x.body] ++ x.after).flatMap Chunk.form

def Svx.file (x : Svx) : List Byte := formFile "8SVX" x.chunks

/-- One octave, not compressed. -/
structure Svx.Ok (x : Svx) : Prop where
  rate : x.rate < 2 ^ 16
  octaves : x.octaves = 1
  compression : x.compression = 0
  vhdrPad : x.vhdrPad.length = x.vhdr.body.length % 2
  soundPad : x.soundPad.length = x.body.body.length % 2
  others : ∀ c ∈ x.before ++ x.between ++ x.after, c.Ok ∧ c.id ∉ [text "VHDR", text "BODY"]
  /-- one channel -/
  mono : ∀ c ∈ x.before ++ x.between ++ x.after, c.id ≠ text "CHAN"
  size : x.file.length + 1 < 2 ^ 32

end AF.Spec.Foreign
