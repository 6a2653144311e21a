import Verif.Spec.Walk
/-!
# Specification: files that have all of what they announce

For each format made of chunks or blocks: which bytes of a file have to be there. Only bytes of the file are looked at. Audio
data may be missing, and so may chunks that none of the headers lead to.
-/
namespace AF.Spec.Walk
open AF

/-- One byte, and numbers of two bytes. -/
def byteAt (file : List Byte) (p : Nat) : Nat := (file.getD p 0).toNat
def be16 (file : List Byte) (p : Nat) : Nat := 256 * byteAt file p + byteAt file (p + 1)
def le16 (file : List Byte) (p : Nat) : Nat := byteAt file p + 256 * byteAt file (p + 1)

/-- The four characters at an offset. -/
def fourAt (file : List Byte) (p : Nat) : List Byte := (file.drop p).take 4
def ascii (s : String) : List Byte := s.toList.map fun c => BitVec.ofNat 8 c.toNat
def Named (file : List Byte) (p : Nat) (s : String) : Prop := fourAt file p = ascii s

/-! ## AIFF, AIFF-C and IFF -/

/-- A FORM file whose chunks have what `needs` says of a chunk of a type whose contents begin at an offset: for each chunk that
begins inside the form and of which the file has the type. -/
structure FormWhole (file : List Byte) (needs : List Byte → Nat → Prop) : Prop where
  header : 12 ≤ file.length
  chunks : ∀ p, FormChunk file p → p < be32 file 4 + 8 → p + 4 ≤ file.length →
    be32 file (p + 4) < 2 ^ 32 - 8 ∧ needs (fourAt file p) (p + 8)

/-- Some chunk inside the form has a type. -/
def FormHas (file : List Byte) (s : String) : Prop :=
  ∃ p, FormChunk file p ∧ p < be32 file 4 + 8 ∧ p + 8 ≤ file.length ∧ Named file p s

/-- The markers of a MARK chunk with their names: an id, a position, the length of the name, the name, padded. -/
def MarksIn (file : List Byte) : Nat → Nat → Prop
  | 0, _ => True
  | n + 1, p => p + 7 + byteAt file (p + 6) ≤ file.length ∧
      MarksIn file n (p + 7 + byteAt file (p + 6) + (1 - byteAt file (p + 6) % 2))

def AiffNeeds (file : List Byte) (id : List Byte) (q : Nat) : Prop :=
  (id = ascii "COMM" → q + 18 ≤ file.length) ∧
  (id = ascii "INST" → q + 20 ≤ file.length) ∧
  (id = ascii "SSND" → q + 4 ≤ file.length) ∧
  (id = ascii "MARK" → q + 2 ≤ file.length ∧ MarksIn file (be16 file q) (q + 2))

def AiffWhole (file : List Byte) : Prop := FormWhole file (AiffNeeds file) ∧ FormHas file "COMM"

def IffNeeds (file : List Byte) (id : List Byte) (q : Nat) : Prop := id = ascii "VHDR" → q + 14 ≤ file.length

def IffWhole (file : List Byte) : Prop := FormWhole file (IffNeeds file) ∧ FormHas file "VHDR"

/-! ## WAVE -/

/-- The contents of a format chunk, by the format tag: what integer and floating-point samples, MS ADPCM (of which at most 256
coefficient pairs), IMA ADPCM and extensible formats have in addition to the first fourteen bytes. -/
def FmtIn (file : List Byte) (q : Nat) : Prop :=
  q + 14 ≤ file.length ∧
  (le16 file q = 1 ∨ le16 file q = 3 → q + 16 ≤ file.length) ∧
  (le16 file q = 2 → q + 22 ≤ file.length ∧ le16 file (q + 20) ≤ 256) ∧
  (le16 file q = 0x11 → q + 20 ≤ file.length) ∧
  (le16 file q = 0xfffe → q + 40 ≤ file.length)

/-- The offsets of the entries of a list that reaches to `stop`. -/
inductive ListEntry (file : List Byte) (start stop : Nat) : Nat → Prop
  | first : ListEntry file start stop start
  | next {e : Nat} : ListEntry file start stop e → e < stop →
      ListEntry file start stop (e + 8 + le32 file (e + 4) + le32 file (e + 4) % 2)

/-- A list of labels and notes, or of texts: all of its entries are there; a label or note has a marker id. -/
def ListIn (file : List Byte) (q size : Nat) : Prop :=
  Named file q "adtl" ∨ Named file q "INFO" →
    4 ≤ size ∧ ∀ e, ListEntry file (q + 4) (q + size) e → e < q + size →
      e + 8 + le32 file (e + 4) ≤ file.length ∧
      (Named file q "adtl" → Named file e "labl" ∨ Named file e "note" → 4 ≤ le32 file (e + 4))

def WaveNeeds (file : List Byte) (id : List Byte) (q size : Nat) : Prop :=
  (id = ascii "fmt " → FmtIn file q) ∧
  (id = ascii "fact" → q + 4 ≤ file.length) ∧
  (id = ascii "plst" → q + 4 ≤ file.length) ∧
  (id = ascii "cue " → q + 4 ≤ file.length ∧ q + 4 + 24 * le32 file q ≤ file.length) ∧
  (id = ascii "LIST" ∨ id = ascii "list" → ListIn file q size)

/-- A WAVE file of less than 4 GiB, like all its chunks, and none of whose chunk headers is cut by the end of the file. -/
structure WaveWhole (file : List Byte) : Prop where
  header : 12 ≤ file.length
  small : file.length < 2 ^ 32
  chunks : ∀ p, RiffChunk file p → p < 2 ^ 32 ∧ (p < le32 file 4 + 8 →
    file.length ≤ p ∨ p + 8 ≤ file.length ∧ WaveNeeds file (fourAt file p) (p + 8) (le32 file (p + 4)))

/-! ## CAF -/

/-- A CAF file: lengths are not negative and a description comes before the audio data. -/
structure CafWhole (file : List Byte) : Prop where
  small : file.length < 2 ^ 63
  lengths : ∀ p, CafChunk file p → p + 12 ≤ file.length → ¬ OpenEnd file p →
    0 ≤ be64 file (p + 4) ∧ (p : Int) + 12 + be64 file (p + 4) < 2 ^ 63
  described : ∃ p, CafChunk file p ∧ p + 12 ≤ file.length ∧ Named file p "desc"
  before : ∀ p, CafChunk file p → p + 12 ≤ file.length → Named file p "data" → ∃ q, q < p ∧ CafChunk file q ∧ Named file q "desc"

/-! ## VOC -/

/-- The offsets of the blocks of a VOC file: a type, a length of three bytes, that many bytes. -/
inductive VocBlock (file : List Byte) : Nat → Prop
  | first : VocBlock file 26
  | next {p : Nat} : VocBlock file p → p + 4 ≤ file.length → VocBlock file (p + 4 + le32 file p / 256)

/-- A VOC file with a sound block, and with the beginning of each sound block and each extension block. -/
structure VocWhole (file : List Byte) : Prop where
  header : 26 ≤ file.length
  blocks : ∀ p, VocBlock file p → p + 4 ≤ file.length →
    (byteAt file p = 1 → p + 6 ≤ file.length) ∧ (byteAt file p = 8 → p + 8 ≤ file.length) ∧ (byteAt file p = 9 → p + 12 ≤ file.length)
  sound : ∃ p, VocBlock file p ∧ p + 4 ≤ file.length ∧ (byteAt file p = 1 ∨ byteAt file p = 9)

/-! ## Sample Vision -/

/-- A Sample Vision file that has its header and what follows the audio data. -/
def SmpWhole (file : List Byte) : Prop :=
  116 ≤ file.length ∧ 116 + 2 * le32 file 112 % 2 ^ 32 + 207 ≤ file.length

/-! ## NIST -/

/-- White space and digits. -/
def Blank (b : Byte) : Prop := b.toNat = 32 ∨ (9 ≤ b.toNat ∧ b.toNat ≤ 13)
def Digit (b : Byte) : Prop := 48 ≤ b.toNat ∧ b.toNat ≤ 57

/-- A text begins with a decimal number of at most `k` digits, after which comes `rest`. -/
def NumberAt (k : Nat) (s rest : List Byte) : Prop :=
  ∃ blanks sign digits, s = blanks ++ (sign ++ (digits ++ rest)) ∧ (∀ b ∈ blanks, Blank b) ∧ (sign = [] ∨ sign = [43] ∨ sign = [45]) ∧
    digits ≠ [] ∧ digits.length ≤ k ∧ (∀ b ∈ digits, Digit b) ∧ ∀ b, rest.head? = some b → ¬ Digit b

/-- Wherever a line of the header begins with a name, a number follows. -/
def NumberField (text : List Byte) (name : String) (k : Nat) : Prop :=
  ∀ before after, text = before ++ (ascii ("\n" ++ name) ++ after) → ∃ rest, NumberAt k after rest

/-- Wherever a line of the header begins with a name, a number and a word follow. -/
def WordField (text : List Byte) (name : String) (k : Nat) : Prop :=
  ∀ before after, text = before ++ (ascii ("\n" ++ name) ++ after) → ∃ rest, NumberAt k after rest ∧ ∃ b ∈ rest, ¬ Blank b

/-- A NIST file all of whose fields have values. (Nine digits always fit an `int`, and so do eight bits for each of a number of
bytes of eight digits.) -/
structure NistWhole (file : List Byte) : Prop where
  channels : NumberField ((file.take 1024).takeWhile (· ≠ 0)) "channel_count -i" 9
  bytes : NumberField ((file.take 1024).takeWhile (· ≠ 0)) "sample_n_bytes -i" 8
  coding : WordField ((file.take 1024).takeWhile (· ≠ 0)) "sample_coding -s" 9
  order : WordField ((file.take 1024).takeWhile (· ≠ 0)) "sample_byte_format -s" 9
  bits : NumberField ((file.take 1024).takeWhile (· ≠ 0)) "sample_sig_bits -i" 9
  rate : NumberField ((file.take 1024).takeWhile (· ≠ 0)) "sample_rate -i" 9
  count : NumberField ((file.take 1024).takeWhile (· ≠ 0)) "sample_count -i" 9

end AF.Spec.Walk
