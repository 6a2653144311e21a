import Verif.Model.Files.SampleVision
/-!
# NIST SPHERE (NIST.cpp): a header of 1024 bytes of text

The text is made with `snprintf` and searched with `strstr` and `sscanf`; these are modelled on bytes. Bytes: 10 is a new
line, 32 a space, 45 `-`, 48 to 57 the digits.
-/
namespace AF.Files
open AF AF.Setup

/-! ## C library -/

/-- The decimal digits of a number. -/
def digits (n : Nat) : List Byte :=
  if n < 10 then [BitVec.ofNat 8 (48 + n)] else digits (n / 10) ++ [BitVec.ofNat 8 (48 + n % 10)]
termination_by n

/-- `%d` of `printf`. -/
def printInt (x : Int) : List Byte := if x < 0 then 45 :: digits x.natAbs else digits x.toNat

/-- `isspace` in the "C" locale. -/
def isSpace (b : Byte) : Bool := b = 32 || (9 ≤ b.toNat && b.toNat ≤ 13)
def isDigit (b : Byte) : Bool := 48 ≤ b.toNat && b.toNat ≤ 57

/-- `strstr`: what follows the first occurrence of `pat`. -/
def findAfter (pat : List Byte) : List Byte → Option (List Byte)
  | [] => if pat = [] then some [] else none
  | b :: s => if pat.isPrefixOf (b :: s) then some ((b :: s).drop pat.length) else findAfter pat s

/-- The value of a string of digits. -/
def digitsValue (ds : List Byte) : Nat := ds.foldl (fun v d => 10 * v + (d.toNat - 48)) 0

/-- The outcome of one `%d`: no number there, a number (and what follows it), or a number that does not fit an `int`
(undefined, C11 7.21.6.2). -/
inductive Scan
  | none
  | int (x : Int) (rest : List Byte)
  | overflow
  deriving DecidableEq

/-- An optional sign (true: minus) and what follows it. -/
def takeSign : List Byte → Bool × List Byte
  | b :: s => if b = 45 then (true, s) else if b = 43 then (false, s) else (false, b :: s)
  | [] => (false, [])

/-- `%d` of `sscanf`: skip white space, an optional sign, digits. -/
def scanInt (s : List Byte) : Scan :=
  let s := s.dropWhile isSpace
  let (neg, s) := takeSign s
  let ds := s.takeWhile isDigit
  if ds = [] then .none
  else
    let v : Int := if neg then -(digitsValue ds : Int) else digitsValue ds
    if v < -2 ^ 31 ∨ 2 ^ 31 ≤ v then .overflow else .int v (s.dropWhile isDigit)

/-- ` %79s` of `sscanf`: the word, or none if only white space is left. -/
def scanWord (s : List Byte) : Option (List Byte) :=
  let w := ((s.dropWhile isSpace).takeWhile fun b => !isSpace b).take 79
  if w = [] then none else some w

/-! ## Writing -/

/-- `(int) _af_format_sample_size(…)` (util.cpp:286-293, 265-284); the squish factor of G.711 is 2 (compression.cpp).
The number is positive, so the conversion of the quotient to `int` is division of integers. -/
def nistBytes (f : AFmt) : Int :=
  if f.compression = NONE then sampleSizeUncompressed f false else (sampleSizeUncompressed f false).tdiv 2

/-- `sample_byte_format` (NIST.cpp:377-395); for other sizes it returns NULL (the assertion is compiled out). -/
def nistByteFormat (f : AFmt) : List Byte :=
  if nistBytes f = 1 then [48] else if f.byteOrder = BIG then [49, 48] else [48, 49]

/-- `sample_coding` (NIST.cpp:397-409) -/
def nistCoding (f : AFmt) : List Byte :=
  if f.compression = NONE then tag "pcm" else if f.compression = ULAW then tag "ulaw" else tag "alaw"

def nistMagic : List Byte := tag "NIST_1A\n   1024\n"

/-- The text (NIST.cpp:411-437). -/
def nistText (t : Trk) : List Byte :=
  nistMagic ++
  tag "channel_count -i " ++ printInt t.f.channels ++ [10] ++
  tag "sample_count -i " ++ printInt (wrapS 32 t.frames) ++ [10] ++
  tag "sample_rate -i " ++ printInt (toUnsigned t.f.rate) ++ [10] ++
  tag "sample_n_bytes -i " ++ printInt (nistBytes t.f) ++ [10] ++
  tag "sample_byte_format -s" ++ printInt (nistBytes t.f) ++ [32] ++ nistByteFormat t.f ++ [10] ++
  tag "sample_sig_bits -i " ++ printInt t.f.sampleWidth ++ [10] ++
  tag "sample_coding -s" ++ printInt (nistCoding t.f).length ++ [32] ++ nistCoding t.f ++ [10] ++
  tag "end_head\n"

/-- The 1024 bytes that are written (NIST.cpp:439-443). `snprintf` would cut the text to 1023 bytes; it is never
that long (`nistText_length`). -/
def nistHeader (t : Trk) : List Byte := nistText t ++ List.replicate (1024 - (nistText t).length) 32

/-- Is the header defined? `sample_byte_format` returns a string only for sizes 1 and 2 (`%s` of NULL is undefined), and
the rate must fit an `int`. -/
def nistDefined (f : AFmt) : Bool := (nistBytes f = 1 || nistBytes f = 2) && toUnsigned f.rate < 2 ^ 31

/-- NIST.cpp:446-459; `none` where the behaviour is undefined. -/
def nistInit (f : AFmt) : Option (Disk × Trk × Unit) :=
  let t := { Trk.ofFormat f with first := 1024 }
  if nistDefined f then some (((⟨[], 0⟩ : Disk).seek 0).write (nistHeader t), t, ()) else none

/-- NIST.cpp:461-467 -/
def nistUpdate (t : Trk) (x : Unit) (d : Disk) : Disk × Unit := ((d.seek 0).write (nistHeader t), x)

/-! ## Reading -/

/-- `nist_header_read_int` (NIST.cpp:157-173) for `key` = "\n… -i": `none` if the key is missing; otherwise the content of the
variable, which keeps what it had (`cur`; `none`: never assigned) if there is no number. -/
def nistInt (text key : List Byte) (cur : Option Int) : Rd (Option (Option Int)) :=
  match findAfter key text with
  | none => return none
  | some rest =>
    match scanInt rest with
    | .none => return some cur
    | .int x _ => return some (some x)
    | .overflow => Rd.undefined

/-- `nist_header_read_string` (NIST.cpp:175-191) for `key` = "\n… -s": length and word. -/
def nistString (text key : List Byte) (cur : Option Int × Option (List Byte)) :
    Rd (Option (Option Int × Option (List Byte))) :=
  match findAfter key text with
  | none => return none
  | some rest =>
    match scanInt rest with
    | .none => return some cur
    | .overflow => Rd.undefined
    | .int x rest =>
      match scanWord rest with
      | none => return some (some x, cur.2)
      | some w => return some (some x, some w)

/-- Use of a variable. -/
def assigned {α : Type} : Option α → Rd α
  | some x => return x
  | none => Rd.undefined

/-- The search keys. -/
def keyChannels : List Byte := tag "\nchannel_count -i"
def keyBytes : List Byte := tag "\nsample_n_bytes -i"
def keyCoding : List Byte := tag "\nsample_coding -s"
def keyOrder : List Byte := tag "\nsample_byte_format -s"
def keyBits : List Byte := tag "\nsample_sig_bits -i"
def keyRate : List Byte := tag "\nsample_rate -i"
def keyCount : List Byte := tag "\nsample_count -i"

/-- NIST.cpp:193-375. `intval` and `strval` are shared by all lookups. `sample_n_bytes * 8` overflows from 2^28 on. The byte
order of a track without the field is what `allocateTrack` left there (Track.cpp:62-86: never assigned), recorded as 0. -/
def nistRead (h : Endian) : Rd Trk := do
  Rd.seek 0
  let header ← Rd.read 1024
  if header.length ≠ 1024 then Rd.fail
  else if header.take 16 ≠ nistMagic then Rd.fail
  else
    let text := cstring header
    match ← nistInt text keyChannels none with
    | none => Rd.fail
    | some intval =>
    let channels ← assigned intval
    if channels < 1 then Rd.fail
    else
    match ← nistInt text keyBytes none with
    | none => Rd.fail
    | some v =>
    let nbytes ← assigned v
    if nbytes ≠ 1 ∧ (nbytes * 8 < -2 ^ 31 ∨ 2 ^ 31 ≤ nbytes * 8) then Rd.undefined
    else
    let f : AFmt := { rate := 0, sampleFormat := TWOSCOMP, sampleWidth := if nbytes = 1 then 16 else nbytes * 8
                      byteOrder := 0, pcm := ⟨0, 0, 0, 0⟩, channels := channels
                      compression := if nbytes = 1 then ULAW else NONE }
    let bpp := if nbytes = 1 then channels else pcmBytesPerPacket f
    let coding ← nistString text keyCoding (intval, none)
    let (intval, strval) := coding.getD (intval, none)
    let some f ← (match coding with
      | none => return some f
      | some _ => do
        let s ← assigned strval
        if s = tag "pcm" then return some f
        else if s = tag "ulaw" ∨ s = tag "mu-law" then return some { f with compression := ULAW, sampleWidth := 16 }
        else if s = tag "alaw" then return some { f with compression := ALAW, sampleWidth := 16 }
        else return none) | Rd.fail
    let order ← nistString text keyOrder (intval, strval)
    let (intval, strval) := order.getD (intval, strval)
    let some f ← (match order with
      | some _ => do
        let n ← assigned intval
        if n > 1 then
          let s ← assigned strval
          return some { f with byteOrder := if s.take 2 = [48, 49] then LITTLE else BIG }
        else return some { f with byteOrder := native h }
      | none => return if f.compression = NONE ∧ f.sampleWidth > 8 then none else some f) | Rd.fail
    let bits ← nistInt text keyBits intval
    let intval := bits.getD intval
    let some f ← (match bits with
      | none => return some f
      | some _ => do
        let n ← assigned intval
        if n < 1 ∨ n > 32 then return none
        else if f.compression = NONE ∧ (n + 7).tdiv 8 = nbytes then return some { f with sampleWidth := n }
        else return some f) | Rd.fail
    match ← nistInt text keyRate intval with
    | none => Rd.fail
    | some intval =>
    let rate ← assigned intval
    if rate ≤ 0 then Rd.fail
    else
    let f := { f with rate := rate }
    match ← nistInt text keyCount intval with
    | none => Rd.fail
    | some intval =>
    let count ← assigned intval
    let (ok, f) := setSampleFormat f f.sampleFormat f.sampleWidth
    if !ok then Rd.fail
    else
    let fileLength ← Rd.length
    return { f := f, fpp := 1, bpp := bpp, first := 1024, afterData := 0
             dataSize := (fileLength : Int) - 1024, frames := count }

end AF.Files
