import Verif.Spec.Foreign
/-!
# NIST SPHERE and SampleVision files of other programs
-/
namespace AF.Spec.Foreign
open AF AF.Setup AF.Spec.Formats AF.Spec.Files

/-- A number in decimal digits. -/
def decimal (n : Nat) : List Byte :=
  if n < 10 then [BitVec.ofNat 8 (48 + n)] else decimal (n / 10) ++ [BitVec.ofNat 8 (48 + n % 10)]
termination_by n

/-! ## NIST SPHERE -/

/-- A line of the header: a name, the type of the value, the value. -/
structure SphereField where
  name : List Byte
  type : List Byte
  value : List Byte
  deriving DecidableEq

def SphereField.line (f : SphereField) : List Byte := f.name ++ [32] ++ f.type ++ [32] ++ f.value

/-- Names have no spaces, and nothing has new lines or zero bytes. -/
structure SphereField.Ok (f : SphereField) : Prop where
  name : ∀ b ∈ f.name, b ≠ 0 ∧ b ≠ 10 ∧ b ≠ 32
  type : ∀ b ∈ f.type, b ≠ 0 ∧ b ≠ 10
  value : ∀ b ∈ f.value, b ≠ 0 ∧ b ≠ 10

/-- A number, and a word. -/
def sphereInt (name : String) (n : Nat) : SphereField := ⟨text name, text "-i", decimal n⟩
def sphereWord (name : String) (w : List Byte) : SphereField := ⟨text name, text "-s" ++ decimal w.length, w⟩

/-- The fields that describe the samples. -/
def sphereNames : List (List Byte) :=
  ["channel_count", "sample_count", "sample_rate", "sample_n_bytes", "sample_byte_format", "sample_sig_bits", "sample_coding"].map text

structure Nist where
  channels : Nat
  count : Nat
  rate : Nat
  /-- bytes of a sample -/
  bytes : Nat
  /-- the order of the bytes: their numbers, 0 for the least significant one -/
  order : Option (List Byte)
  /-- significant bits -/
  bits : Option Nat
  coding : Option (List Byte)
  /-- all lines, in whatever order -/
  fields : List SphereField
  /-- what fills the header up -/
  pad : List Byte
  sound : List Byte

/-- What the lines must say. -/
def Nist.says (x : Nist) : List SphereField :=
  [sphereInt "channel_count" x.channels, sphereInt "sample_count" x.count, sphereInt "sample_rate" x.rate, sphereInt "sample_n_bytes" x.bytes] ++
  x.order.toList.map (sphereWord "sample_byte_format") ++ x.bits.toList.map (sphereInt "sample_sig_bits") ++
  x.coding.toList.map (sphereWord "sample_coding")

def Nist.header (x : Nist) : List Byte :=
  text "NIST_1A\n   1024\n" ++ x.fields.flatMap (fun f => f.line ++ [10]) ++ text "end_head\n" ++ x.pad

def Nist.file (x : Nist) : List Byte := x.header ++ x.sound

/-- Byte orders. -/
def lowFirst (n : Nat) : List Byte := (List.range n).map fun i => BitVec.ofNat 8 (48 + i)
def highFirst (n : Nat) : List Byte := (lowFirst n).reverse

/-- The samples and the order of their bytes. Without a `sample_coding`, single bytes are µ-law and others are PCM. -/
def Nist.kind (x : Nist) : Option (Kind × Int) :=
  let width : Nat := match x.bits with
    | some b => if (b + 7) / 8 = x.bytes then b else 8 * x.bytes
    | none => 8 * x.bytes
  let pcm : Option (Kind × Int) :=
    if 2 ≤ x.bytes ∧ x.bytes ≤ 4 then
      if x.order = some (lowFirst x.bytes) then some (signed width, LITTLE)
      else if x.order = some (highFirst x.bytes) then some (signed width, BIG) else none
    else none
  let g711 (k : Kind) : Option (Kind × Int) := if x.bytes = 1 then some (k, BIG) else none
  match x.coding with
  | none => if x.bytes = 1 then g711 muLaw else pcm
  | some c =>
    if c = text "pcm" then pcm
    else if c = text "ulaw" ∨ c = text "mu-law" then g711 muLaw
    else if c = text "alaw" then g711 aLaw
    else none

structure Nist.Ok (x : Nist) : Prop where
  channels : 1 ≤ x.channels ∧ x.channels < 2 ^ 31
  count : x.count < 2 ^ 31
  rate : 1 ≤ x.rate ∧ x.rate < 2 ^ 31
  bits : ∀ b, x.bits = some b → 1 ≤ b ∧ b ≤ 32
  /-- single bytes have an order, too: one character -/
  order : x.bytes = 1 → ∃ b : Byte, x.order = some [b] ∧ 33 ≤ b.toNat
  fields : ∀ f ∈ x.fields, f.Ok
  says : ∀ f ∈ x.says, f ∈ x.fields
  known : ∀ f ∈ x.fields, f.name ∈ sphereNames → f ∈ x.says
  pad : ∀ b ∈ x.pad, b = 0 ∨ b = 10 ∨ b = 32
  size : x.header.length = 1024
  length : x.file.length < 2 ^ 63

/-! ## SampleVision -/

/-- A sample of one channel and 16 bits: texts of 30 and 60 characters, the sound, and behind it, loops (8 of 11 bytes after a
number), markers (8 of 14 bytes), a note, the rate, and two numbers about time code. -/
structure Smp where
  name : List Byte
  comment : List Byte
  sound : List Byte
  reserved : Nat
  loops : List Byte
  markers : List Byte
  note : Nat
  rate : Nat
  smpte : Nat
  cycle : Nat
  /-- anything that follows -/
  more : List Byte

def Smp.file (x : Smp) : List Byte :=
  text "SOUND SAMPLE DATA " ++ text "2.1 " ++ x.name ++ x.comment ++ le 4 (x.sound.length / 2) ++ x.sound ++ le 2 x.reserved ++
  x.loops ++ x.markers ++ le 1 x.note ++ le 4 x.rate ++ le 4 x.smpte ++ le 4 x.cycle ++ x.more

structure Smp.Ok (x : Smp) : Prop where
  name : x.name.length = 30
  comment : x.comment.length = 60
  sound : x.sound.length % 2 = 0 ∧ x.sound.length < 2 ^ 32
  loops : x.loops.length = 88
  markers : x.markers.length = 112
  rate : x.rate < 2 ^ 32

end AF.Spec.Foreign
