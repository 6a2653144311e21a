import Verif.Spec.Foreign
import Verif.Model.Files.CAF
/-!
# Core Audio files of other programs
-/
namespace AF.Spec.Foreign
open AF AF.Setup AF.Spec.Formats AF.Spec.Files

/-- A chunk of a Core Audio file: four characters, the size in eight bytes, the body. -/
structure Caff where
  id : List Byte
  body : List Byte
  deriving DecidableEq

def Caff.bytes (c : Caff) : List Byte := c.id ++ be 8 c.body.length ++ c.body

structure Caf where
  /-- the rate: the 64 bits of a floating point number -/
  rate : BitVec 64
  /-- four characters -/
  format : List Byte
  flags : Nat
  bytesPerPacket : Nat
  framesPerPacket : Nat
  channels : Nat
  bits : Nat
  editCount : Nat
  sound : List Byte
  /-- the size of the sound is given as −1: it is all there is up to the end of the file -/
  toEnd : Bool
  /-- chunks between the description, which comes first, and the sound; and after that -/
  between : List Caff
  after : List Caff

/-- The samples and their byte order: the lowest bit of the flags says floating point, the next one least significant byte first. -/
def cafKind (format : List Byte) (flags bits : Nat) : Option (Kind × Int) :=
  let order : Int := if flags / 2 % 2 = 1 then LITTLE else BIG
  if format = text "lpcm" then
    if flags % 2 = 1 then
      if bits = 32 then some (float, order) else if bits = 64 then some (double, order) else none
    else if 1 ≤ bits ∧ bits ≤ 32 then some (signed bits, order) else none
  else if format = text "ulaw" then some (muLaw, BIG)
  else if format = text "alaw" then some (aLaw, BIG)
  else none

def Caf.kind (x : Caf) : Option (Kind × Int) := cafKind x.format x.flags x.bits

def Caf.desc (x : Caf) : Caff :=
  ⟨text "desc", be 8 x.rate.toNat ++ x.format ++ be 4 x.flags ++ be 4 x.bytesPerPacket ++ be 4 x.framesPerPacket ++ be 4 x.channels ++
    be 4 x.bits⟩

/-- The chunk of the sound: its size (or −1), a count of edits, the sound. -/
def Caf.data (x : Caf) : List Byte :=
  text "data" ++ (if x.toEnd then List.replicate 8 255 else be 8 (4 + x.sound.length)) ++ be 4 x.editCount ++ x.sound

def Caf.file (x : Caf) : List Byte :=
  text "caff" ++ be 2 1 ++ be 2 0 ++ x.desc.bytes ++ x.between.flatMap Caff.bytes ++ x.data ++ x.after.flatMap Caff.bytes

structure Caf.Shape (x : Caf) : Prop where
  format : x.format.length = 4
  flags : x.flags < 2 ^ 32
  channels : 1 ≤ x.channels ∧ x.channels < 2 ^ 31
  bits : x.bits < 2 ^ 32
  /-- any other chunks, but no second description, no second sound, and no packet table, which is for packets of different sizes -/
  others : ∀ c ∈ x.between ++ x.after, c.id.length = 4 ∧ c.id ∉ [text "desc", text "data", text "pakt"]
  last : x.toEnd = true → x.after = []
  size : x.file.length < 2 ^ 63

/-- Also, a packet is a frame, and samples take no more bytes than they must. -/
structure Caf.Ok (x : Caf) : Prop extends Caf.Shape x where
  packet : x.framesPerPacket = 1 ∧ ∀ k o, x.kind = some (k, o) → x.bytesPerPacket = k.bytes * x.channels

end AF.Spec.Foreign
