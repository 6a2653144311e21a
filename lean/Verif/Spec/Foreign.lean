import Verif.Spec.Files
import Verif.Spec.Formats
/-!
# Files of other programs

What the definitions of the file formats say of a file's bytes, whoever wrote them: chunks the library never writes, in orders
it never uses, header fields it does not set. Nothing here refers to how the library reads or writes files; only `AFmt`, the
record of a format's rate, samples, channels and compression, is the library's.
-/
namespace AF.Spec.Foreign
open AF AF.Setup AF.Spec.Formats AF.Spec.Files

/-- A number in `n` bytes, least or most significant byte first. -/
def le (n : Nat) (x : Nat) : List Byte := leBytes n x
def be (n : Nat) (x : Nat) : List Byte := (leBytes n x).reverse

/-- The bytes of a text. -/
def text (s : String) : List Byte := s.toList.map fun c => BitVec.ofNat 8 c.toNat

/-- What a header says about samples. Compressed ones are decoded to 16 bits. -/
structure Kind where
  sampleFormat : Int
  width : Nat
  compression : Int
  deriving DecidableEq

def signed (width : Nat) : Kind := ⟨TWOSCOMP, width, NONE⟩
def unsigned (width : Nat) : Kind := ⟨UNSIGNED, width, NONE⟩
def float : Kind := ⟨FLOAT, 32, NONE⟩
def double : Kind := ⟨DOUBLE, 64, NONE⟩
def muLaw : Kind := ⟨TWOSCOMP, 16, ULAW⟩
def aLaw : Kind := ⟨TWOSCOMP, 16, ALAW⟩

/-- Bytes of one sample. -/
def Kind.bytes (k : Kind) : Nat := if k.compression = NONE then (k.width + 7) / 8 else 1

/-- The format that a header describes. -/
def described (rate : Rat) (channels : Nat) (order : Int) (k : Kind) : AFmt :=
  { rate := rate, sampleFormat := k.sampleFormat, sampleWidth := k.width, byteOrder := order
    pcm := defaultMapping k.sampleFormat k.width, channels := channels, compression := k.compression }

/-! ## RIFF WAVE -/

/-- A chunk of a RIFF file: four characters, the size of the body, the body, and a byte more if the size is odd. -/
structure Chunk where
  id : List Byte
  body : List Byte
  pad : List Byte
  deriving DecidableEq

structure Chunk.Ok (c : Chunk) : Prop where
  id : c.id.length = 4
  pad : c.pad.length = c.body.length % 2

def Chunk.riff (c : Chunk) : List Byte := c.id ++ le 4 c.body.length ++ c.body ++ c.pad

/-- Chunks a program may skip because it does not know them: any but these. -/
def waveKnown : List (List Byte) :=
  ["fmt ", "data", "inst", "INST", "fact", "cue ", "LIST", "list", "plst"].map text

/-- The samples of a format chunk: PCM is unsigned up to 8 bits and signed above; then floats, and the two kinds of G.711
(also by the numbers IBM gave them). -/
def waveKind (tag bits : Nat) : Option Kind :=
  if tag = 1 then
    if 1 ≤ bits ∧ bits ≤ 8 then some (unsigned bits)
    else if 9 ≤ bits ∧ bits ≤ 32 then some (signed bits) else none
  else if tag = 3 then
    if bits = 32 then some float else if bits = 64 then some double else none
  else if tag = 6 ∨ tag = 0x102 then some aLaw
  else if tag = 7 ∨ tag = 0x101 then some muLaw
  else none

/-- The subformats of WAVE_FORMAT_EXTENSIBLE: the format tag and a fixed part. -/
def guid (tag : Nat) : List Byte := le 2 tag ++ [0, 0, 0, 0, 0x10, 0, 0x80, 0, 0, 0xaa, 0, 0x38, 0x9b, 0x71]

/-- A format chunk. -/
inductive WaveFmt where
  /-- format tag, bits per sample, and any bytes more -/
  | plain (tag bits : Nat) (more : List Byte)
  /-- WAVE_FORMAT_EXTENSIBLE: bits of the container, size of the extension, valid bits, speakers, format tag of the subformat -/
  | extensible (bits size valid mask tag : Nat) (more : List Byte)

/-- The samples it describes. In the extensible format the valid bits of PCM must fit the container. -/
def WaveFmt.kind : WaveFmt → Option Kind
  | .plain tag bits _ => waveKind tag bits
  | .extensible bits _ valid _ tag _ =>
    if tag = 1 then
      if valid ≤ bits ∧ (valid + 7) / 8 = (bits + 7) / 8 then waveKind 1 valid else none
    else if tag = 3 ∨ tag = 6 ∨ tag = 7 then waveKind tag bits else none

structure Wave where
  fmt : WaveFmt
  channels : Nat
  rate : Nat
  byteRate : Nat
  blockAlign : Nat
  fmtPad : List Byte
  /-- chunks before, between and after the format chunk, the fact chunk and the data chunk -/
  first : List Chunk
  second : List Chunk
  third : List Chunk
  last : List Chunk
  /-- the number of frames in a fact chunk, if there is one, and what else there is in it -/
  fact : Option (Nat × List Byte)
  factPad : List Byte
  sound : List Byte
  soundPad : List Byte

def Wave.fmtBody (w : Wave) : List Byte :=
  let head (tag : Nat) := le 2 tag ++ le 2 w.channels ++ le 4 w.rate ++ le 4 w.byteRate ++ le 2 w.blockAlign
  match w.fmt with
  | .plain tag bits more => head tag ++ le 2 bits ++ more
  | .extensible bits size valid mask tag more =>
    head 0xfffe ++ le 2 bits ++ le 2 size ++ le 2 valid ++ le 4 mask ++ guid tag ++ more

def Wave.factChunk (w : Wave) : List Byte :=
  match w.fact with
  | none => []
  | some (n, more) => (Chunk.mk (text "fact") (le 4 n ++ more) w.factPad).riff

/-- Everything after the first 12 bytes. -/
def Wave.chunks (w : Wave) : List Byte :=
  w.first.flatMap Chunk.riff ++ (Chunk.mk (text "fmt ") w.fmtBody w.fmtPad).riff ++ w.second.flatMap Chunk.riff ++ w.factChunk ++
  w.third.flatMap Chunk.riff ++ (Chunk.mk (text "data") w.sound w.soundPad).riff ++ w.last.flatMap Chunk.riff

def Wave.file (w : Wave) : List Byte := text "RIFF" ++ le 4 (w.chunks.length + 4) ++ text "WAVE" ++ w.chunks

/-- The numbers fit their fields, and the chunks are chunks. -/
structure Wave.Ok (w : Wave) : Prop where
  channels : 1 ≤ w.channels ∧ w.channels < 2 ^ 16
  rate : w.rate < 2 ^ 32
  bits : match w.fmt with
    | .plain tag bits _ => tag < 2 ^ 16 ∧ bits < 2 ^ 16
    | .extensible bits _ valid _ _ _ => bits < 2 ^ 16 ∧ valid < 2 ^ 16
  others : ∀ c ∈ w.first ++ w.second ++ w.third ++ w.last, c.Ok ∧ c.id ∉ waveKnown
  fmtPad : w.fmtPad.length = w.fmtBody.length % 2
  fact : ∀ n more, w.fact = some (n, more) → n < 2 ^ 32 ∧ w.factPad.length = more.length % 2
  soundPad : w.soundPad.length = w.sound.length % 2
  size : w.file.length + 1 < 2 ^ 32

/-- The number of frames: what the fact chunk says, or how many there are. -/
def Wave.frames (w : Wave) (k : Kind) : Nat :=
  match w.fact with
  | some (n, _) => n
  | none => w.sound.length / (k.bytes * w.channels)

/-! ## NeXT/Sun -/

def nextKind (encoding : Nat) : Option Kind :=
  match encoding with
  | 1 => some muLaw
  | 2 => some (signed 8)
  | 3 => some (signed 16)
  | 4 => some (signed 24)
  | 5 => some (signed 32)
  | 6 => some float
  | 7 => some double
  | 27 => some aLaw
  | _ => none

structure Next where
  /-- what the header says about the size of the sound -/
  size : Nat
  encoding : Nat
  rate : Nat
  channels : Nat
  /-- a comment of any length between the header and the sound -/
  comment : List Byte
  sound : List Byte
  rest : List Byte

def Next.file (x : Next) : List Byte :=
  text ".snd" ++ be 4 (24 + x.comment.length) ++ be 4 x.size ++ be 4 x.encoding ++ be 4 x.rate ++ be 4 x.channels ++
  x.comment ++ x.sound ++ x.rest

structure Next.Ok (x : Next) : Prop where
  /-- the size is right, or not known, or too large, and then all there is is sound -/
  size : x.size < 2 ^ 32 ∧ (x.size = x.sound.length ∨ x.rest = [] ∧ (x.size = 2 ^ 32 - 1 ∨ x.sound.length ≤ x.size))
  encoding : x.encoding < 2 ^ 32
  rate : x.rate < 2 ^ 32
  channels : 1 ≤ x.channels ∧ x.channels < 2 ^ 31
  length : x.file.length < 2 ^ 32

/-! ## AVR -/

structure Avr where
  name : List Byte
  stereo : Bool
  sixteen : Bool
  isSigned : Bool
  looped : Nat
  midi : Nat
  /-- the sampling rate, with anything in the upper 8 bits -/
  rate : Nat
  rateHigh : Nat
  loopStart : Nat
  loopEnd : Nat
  /-- the number of frames -/
  frames : Nat
  user : List Byte
  sound : List Byte
  rest : List Byte

def Avr.kind (x : Avr) : Kind :=
  if x.isSigned then signed (if x.sixteen then 16 else 8) else unsigned (if x.sixteen then 16 else 8)

def Avr.channels (x : Avr) : Nat := if x.stereo then 2 else 1

def Avr.file (x : Avr) : List Byte :=
  text "2BIT" ++ x.name ++ be 2 (if x.stereo then 0xffff else 0) ++ be 2 (if x.sixteen then 16 else 8) ++
  be 2 (if x.isSigned then 0xffff else 0) ++ be 2 x.looped ++ be 2 x.midi ++ be 4 (x.rateHigh * 2 ^ 24 + x.rate) ++
  be 4 x.frames ++ be 4 x.loopStart ++ be 4 x.loopEnd ++ x.user ++ x.sound ++ x.rest

structure Avr.Ok (x : Avr) : Prop where
  name : x.name.length = 8
  user : x.user.length = 90
  rate : x.rate < 2 ^ 24 ∧ x.rateHigh < 2 ^ 8
  frames : x.frames < 2 ^ 32 ∧ x.sound.length = x.frames * (x.kind.bytes * x.channels)

/-! ## IRCAM -/

/-- The signatures of the four machines, and the same signatures as a machine of the other byte order writes them. -/
inductive Machine | vax | sun | mips | next

def Machine.number : Machine → Nat
  | .vax => 1 | .sun => 2 | .mips => 3 | .next => 4

/-- Whether it stores the most significant byte first. -/
def Machine.big : Machine → Bool
  | .vax | .mips => false
  | .sun | .next => true

def ircamKind (packing : Nat) : Option Kind :=
  if packing = 1 then some (signed 8) else if packing = 2 then some (signed 16) else if packing = 3 then some (signed 24)
  else if packing = 0x40004 then some (signed 32) else if packing = 4 then some float else if packing = 8 then some double
  else if packing = 0x10001 then some aLaw else if packing = 0x20001 then some muLaw else none

structure Ircam where
  machine : Machine
  /-- the signature is the other way round, and so are all the numbers -/
  swapped : Bool
  /-- the bits of the rate, a `float` -/
  rate : Nat
  channels : Nat
  packing : Nat
  comment : List Byte
  sound : List Byte

def Ircam.big (x : Ircam) : Bool := x.machine.big != x.swapped

def Ircam.file (x : Ircam) : List Byte :=
  let n (k : Nat) := if x.big then be 4 k else le 4 k
  (if x.swapped then [0, BitVec.ofNat 8 x.machine.number, 0xa3, 0x64] else [0x64, 0xa3, BitVec.ofNat 8 x.machine.number, 0]) ++
  n x.rate ++ n x.channels ++ n x.packing ++ x.comment ++ x.sound

structure Ircam.Ok (x : Ircam) : Prop where
  rate : x.rate < 2 ^ 32
  channels : x.channels = 1 ∨ x.channels = 2 ∨ x.channels = 4
  packing : x.packing < 2 ^ 32
  comment : x.comment.length = 1008
  length : x.file.length < 2 ^ 63

/-! ## Creative Voice -/

/-- A block: its type, the size of what follows in three bytes, the body. -/
structure Block where
  type : Nat
  body : List Byte
  deriving DecidableEq

def Block.bytes (b : Block) : List Byte := [BitVec.ofNat 8 b.type] ++ le 3 b.body.length ++ b.body

/-- A block that says nothing about the sound: silence, markers, text, repetition, … -/
structure Block.Other (b : Block) : Prop where
  type : b.type < 256 ∧ b.type ∉ [0, 1, 8, 9]
  size : b.body.length < 2 ^ 24

/-- The sound in a file. -/
inductive VocSound where
  /-- a block of type 1: 8-bit mono; the rate is given by a divisor of 1 MHz -/
  | old (divisor : Nat)
  /-- the same after a block of type 8, which gives a more precise divisor and the number of channels; of the divisor in the
  sound block nothing is left -/
  | extended (precise pack : Nat) (stereo : Bool) (between : List Block) (divisor : Nat)
  /-- a block of type 9 -/
  | new (rate bits channels format reserved : Nat)

def VocSound.kind : VocSound → Option Kind
  | .old _ | .extended .. => some (unsigned 8)
  | .new _ _ _ format _ =>
    match format with
    | 0 => some (unsigned 8)
    | 4 => some (signed 16)
    | 6 => some aLaw
    | 7 => some muLaw
    | _ => none

def VocSound.channels : VocSound → Nat
  | .old _ => 1
  | .extended _ _ stereo _ _ => if stereo then 2 else 1
  | .new _ _ channels _ _ => channels

/-- Rates are whole numbers, rounded down. -/
def VocSound.rate : VocSound → Nat
  | .old divisor => 1000000 / (256 - divisor)
  | .extended precise _ stereo _ _ => (if stereo then 128000000 else 256000000) / (65536 - precise)
  | .new rate _ _ _ _ => rate

def VocSound.bytes (x : VocSound) (sound : List Byte) : List Byte :=
  match x with
  | .old divisor => (Block.mk 1 (le 1 divisor ++ le 1 0 ++ sound)).bytes
  | .extended precise pack stereo between divisor =>
    (Block.mk 8 (le 2 precise ++ le 1 pack ++ le 1 (if stereo then 1 else 0))).bytes ++ between.flatMap Block.bytes ++
    (Block.mk 1 (le 1 divisor ++ le 1 0 ++ sound)).bytes
  | .new rate bits channels format reserved =>
    (Block.mk 9 (le 4 rate ++ le 1 bits ++ le 1 channels ++ le 2 format ++ le 4 reserved ++ sound)).bytes

structure VocSound.Ok (x : VocSound) (sound : List Byte) : Prop where
  size : sound.length + 12 < 2 ^ 24
  fields : match x with
    | .old divisor => divisor < 256
    | .extended precise _ _ between divisor => precise < 65536 ∧ divisor < 256 ∧ ∀ b ∈ between, b.Other
    | .new rate _ channels format _ => rate < 2 ^ 32 ∧ 1 ≤ channels ∧ channels < 256 ∧ format < 2 ^ 16

structure Voc where
  /-- size of the header, version and its complement -/
  version : List Byte
  before : List Block
  soundBlock : VocSound
  sound : List Byte
  after : List Block

def Voc.file (x : Voc) : List Byte :=
  text "Creative Voice File" ++ [0x1a] ++ x.version ++ x.before.flatMap Block.bytes ++ x.soundBlock.bytes x.sound ++
  x.after.flatMap Block.bytes ++ [0]

structure Voc.Ok (x : Voc) : Prop where
  version : x.version.length = 6
  before : ∀ b ∈ x.before, b.Other
  after : ∀ b ∈ x.after, b.Other
  soundOk : x.soundBlock.Ok x.sound
  length : x.file.length < 2 ^ 63

end AF.Spec.Foreign
