import Verif.Model.Setup
import Verif.Model.CInt
/-!
# Specification: which setups make a file

What a program asks for with the calls on a setup, the last valid call of each kind winning, and what becomes of it when a file is
opened for writing: a table, in the terms of audiofile.h. Only the names of the calls (`Op`) and of the file formats are shared with
the model.
-/
namespace AF.Spec.Create
open AF
open AF.Setup (Op FileFormat)

/-- What was asked for; `none` where nothing was. -/
structure Request where
  format : FileFormat
  rate : Option Rat
  channels : Option Int
  /-- sample format and width -/
  encoding : Option (Int × Int)
  order : Option Int
  compression : Option Int
  aes : Bool
  /-- how many markers -/
  markers : Option Nat
  /-- the instruments, with how many loops each has -/
  instruments : Option (List (Int × Nat))
  /-- miscellaneous chunks: id and type -/
  misc : Option (List (Int × Int))
  deriving DecidableEq

/-- The numbers of the file formats (`AF_FILE_*`) that exist. -/
def formatOf (n : Int) : Option FileFormat :=
  if n = 0 then some .raw else if n = 1 then some .aiffc else if n = 2 then some .aiff else if n = 3 then some .next
  else if n = 4 then some .wave else if n = 5 then some .ircam else if n = 9 then some .avr else if n = 10 then some .iff
  else if n = 11 then some .smp else if n = 12 then some .voc else if n = 13 then some .nist else if n = 15 then some .caf
  else if n = 16 then some .flac else none

/-- A new setup: WAVE, or AIFF-C on big-endian hosts. -/
def Request.initial (h : Endian) : Request :=
  { format := if h = .big then .aiffc else .wave, rate := none, channels := none, encoding := none, order := none, compression := none,
    aes := false, markers := none, instruments := none, misc := none }

/-- The encoding that results from asking for a sample format and width: widths 1 to 32 for integers, fixed ones for floating point. An
invalid call leaves the encoding as it was, but counts as having asked for it. -/
def askEncoding (old : Option (Int × Int)) (fmt width : Int) : Int × Int :=
  if fmt = 401 ∨ fmt = 402 then (if 1 ≤ width ∧ width ≤ 32 then (fmt, width) else old.getD (401, 16))
  else if fmt = 403 then (403, 32)
  else if fmt = 404 then (404, 64)
  else old.getD (401, 16)

/-- Changes the first entry with the key `k`. -/
def setFirst (k : Int) (v : Int) : List (Int × Int) → List (Int × Int)
  | [] => []
  | (a, b) :: l => if a = k then (a, v) :: l else (a, b) :: setFirst k v l

/-- The effect of a call. The only track is 1001. -/
def Request.step (r : Request) : Op → Request
  | .fileFormat n => { r with format := (formatOf n).getD r.format }
  | .channels t n => if t = 1001 ∧ 1 ≤ n then { r with channels := some n } else r
  | .sampleFormat t f w => if t = 1001 then { r with encoding := some (askEncoding r.encoding f w) } else r
  | .byteOrder t o => if t = 1001 ∧ (o = 501 ∨ o = 502) then { r with order := some o } else r
  | .rate t x => if t = 1001 ∧ 0 < x then { r with rate := some x } else r
  | .compression t c =>
    if t = 1001 ∧ c ∈ [(0 : Int), 502, 503, 519, 523, 530, 540] then { r with compression := some c } else r
  | .aes t on => if t = 1001 then { r with aes := on } else r
  | .markIDs t ids => if t = 1001 then { r with markers := some ids.length } else r
  | .instIDs ids => if ids.Nodup then { r with instruments := some (ids.map fun i => (i, 2)) } else r
  | .loopIDs i ids =>
    if ids.Nodup then
      { r with instruments := r.instruments.map (List.map fun x => if x.1 = i then (i, ids.length) else x) }
    else r
  | .miscIDs ids => { r with misc := some (ids.map fun i => (i, 0)) }
  | .miscType m t => { r with misc := r.misc.map (setFirst m t) }
  | _ => r

def Request.after (h : Endian) (ops : List Op) : Request := ops.foldl Request.step (Request.initial h)

/-! ## The table -/

def Request.enc (r : Request) : Int × Int := r.encoding.getD (401, 16)
def Request.comp (r : Request) : Int := r.compression.getD 0

/-- The byte order of the host. -/
def hostOrder : Endian → Int
  | .big => 501
  | .little => 502

/-- The encodings a format can be asked for. -/
def takesEncoding : FileFormat → Option (Int × Int) → Bool
  | .raw, _ | .wave, _ => true
  | .aiff, e => e.all fun (f, _) => f = 401
  | .aiffc, e | .caf, e => e.all fun (f, _) => f ≠ 402
  | .next, e => e.all fun (f, w) => f = 403 ∨ f = 404 ∨ w ∈ [8, 16, 24, 32]
  | .ircam, e => e.all fun (f, w) => f = 403 ∨ f = 404 ∨ (f = 401 ∧ w ∈ [8, 16, 24, 32])
  | .avr, e => e.all fun (f, w) => (f = 401 ∨ f = 402) ∧ (w = 8 ∨ w = 16)
  | .iff, e => e.all fun (f, w) => f = 401 ∧ w = 8
  | .smp, e => e.all fun (f, w) => f = 401 ∧ w = 16
  | .voc, e => e.all fun (f, w) => (f = 401 ∧ w = 16) ∨ (f = 402 ∧ w = 8)
  | .nist, e => e.all fun (f, w) => f = 401 ∧ w ≤ 16
  | .flac, e => e.all fun (f, w) => f = 401 ∧ (w = 16 ∨ w = 24)
  | _, _ => false

/-- The compression types a format can be asked for. -/
def takesCompression : FileFormat → Option Int → Bool
  | .raw, _ => true
  | .aiffc, c => c.all (· ∈ [(0 : Int), 502, 503, 519])
  | .next, c | .ircam, c | .voc, c | .nist, c => c.all (· ∈ [(0 : Int), 502, 503])
  | .wave, c => c.all (· ∈ [(0 : Int), 502, 503, 519, 523])
  | .caf, c => c.all (· ∈ [(0 : Int), 502, 503, 519, 540])
  | .flac, c => c.all (· = 530)
  | _, c => c.all (· = 0)

/-- The byte order a format prescribes for uncompressed samples. -/
def prescribed : FileFormat → Option Int
  | .aiff | .aiffc | .next | .avr | .iff => some 501
  | .wave | .voc | .smp => some 502
  | _ => none

/-- Asking for another byte order than the prescribed one is refused, unless samples are one byte or compressed; AVR refuses it
always, IFF/8SVX and SampleVision never. -/
def takesOrder (r : Request) : Bool :=
  match r.format with
  | .avr => r.order.all (· = 501)
  | .aiff | .aiffc | .next | .wave | .voc => r.comp ≠ 0 || r.enc.2 ≤ 8 || r.order.all (some · = prescribed r.format)
  | _ => true

def takesChannels : FileFormat → Option Int → Bool
  | .ircam, n => n.all (· ∈ [(1 : Int), 2, 4])
  | .iff, n => n.all (· = 1)
  | _, _ => true

/-- Metadata: AIFF and AIFF-C take AES data, markers, one instrument with two loops and the miscellaneous types 201–206; WAVE takes
markers, one instrument and the types 201–203, 210–212; IFF/8SVX any miscellaneous data; the others nothing. -/
def takesMetadata (r : Request) : Bool :=
  match r.format with
  | .aiff | .aiffc =>
    r.instruments.all (fun l => l.length ≤ 1 ∧ ∀ x ∈ l, x.2 = 2) && r.misc.all (fun l => ∀ x ∈ l, 201 ≤ x.2 ∧ x.2 ≤ 206)
  | .wave =>
    !r.aes && r.instruments.all (fun l => l.length ≤ 1) &&
      r.misc.all (fun l => ∀ x ∈ l, x.2 ∈ [(201 : Int), 202, 203, 210, 211, 212])
  | .iff => !r.aes && r.markers.all (· = 0) && r.instruments.all (· = [])
  | _ => !r.aes && r.markers.all (· = 0) && r.instruments.all (· = []) && r.misc.all (· = [])

/-- The sound of the file that is made. -/
structure Made where
  rate : Rat
  sampleFormat : Int
  sampleWidth : Int
  order : Int
  channels : Int
  compression : Int
  deriving DecidableEq

/-- The encoding of the file: NeXT files hold signed integers where unsigned ones were asked for; uncompressed WAVE files hold unsigned
integers up to 8 bits and signed ones above; IFF/8SVX files always hold 8 bits. -/
def madeEncoding (r : Request) : Int × Int :=
  match r.format with
  | .next => if r.enc.1 = 402 then (401, r.enc.2) else r.enc
  | .wave => if r.comp = 0 ∧ (r.enc.1 = 401 ∨ r.enc.1 = 402) then (if r.enc.2 ≤ 8 then 402 else 401, r.enc.2) else r.enc
  | .iff => (401, 8)
  | _ => r.enc

def made (h : Endian) (r : Request) : Made :=
  { rate := r.rate.getD 44100
    sampleFormat := (madeEncoding r).1
    sampleWidth := (madeEncoding r).2
    order :=
      if r.format = .flac then hostOrder h
      else match (if r.comp = 0 ∨ r.format = .smp then prescribed r.format else none) with
        | some o => o
        | none => r.order.getD (hostOrder h)
    channels := if r.format = .iff then 1 else r.channels.getD 2
    compression := if r.format = .flac then 530 else r.comp }

/-- The sounds a codec can handle: G.711, IMA and MS ADPCM want 16-bit signed integers in the host's byte order, the ADPCM codecs at most
two channels; ALAC 16, 20, 24 or 32 bits and at most 8 channels; FLAC 16 or 24 bits in the host's order and at most 8 channels. -/
def codecTakes (flac : Bool) (h : Endian) (m : Made) : Bool :=
  if m.compression = 0 then true
  else if m.compression = 502 ∨ m.compression = 503 then m.sampleFormat = 401 ∧ m.sampleWidth = 16 ∧ m.order = hostOrder h
  else if m.compression = 519 ∨ m.compression = 523 then
    m.sampleFormat = 401 ∧ m.sampleWidth = 16 ∧ m.order = hostOrder h ∧ (m.channels = 1 ∨ m.channels = 2)
  else if m.compression = 540 then m.sampleFormat = 401 ∧ m.sampleWidth ∈ [(16 : Int), 20, 24, 32] ∧ m.channels ≤ 8
  else flac ∧ m.sampleFormat = 401 ∧ (m.sampleWidth = 16 ∨ m.sampleWidth = 24) ∧ m.order = hostOrder h ∧ m.channels ≤ 8

/-- The sound a file format describes. -/
def soundOf (f : AF.Setup.AFmt) : Made :=
  { rate := f.rate, sampleFormat := f.sampleFormat, sampleWidth := f.sampleWidth, order := f.byteOrder, channels := f.channels,
    compression := f.compression }

inductive Outcome | refused | undefined | opened (m : Made)
  deriving DecidableEq

/-- What came of an attempt to open a file. -/
def outcomeOf : Except Abort (Option AF.Setup.AFmt) → Outcome
  | .error _ => .undefined
  | .ok none => .refused
  | .ok (some f) => .opened (soundOf f)

/-- The format's side of the table. -/
def formatTakes (r : Request) : Prop :=
  takesEncoding r.format r.encoding ∧ takesCompression r.format r.compression ∧ takesOrder r ∧ takesChannels r.format r.channels ∧
    takesMetadata r

instance (r : Request) : Decidable (formatTakes r) := by unfold formatTakes; infer_instance

/-- What becomes of a request. Compression in blocks or packets without a header to describe it is not refused. -/
def outcome (flac : Bool) (h : Endian) (r : Request) : Outcome :=
  if (r.format = .flac → flac = true) ∧ formatTakes r ∧ codecTakes flac h (made h r) then
    if r.format = .raw ∧ r.comp ∈ [(519 : Int), 523, 540] then .undefined
    else .opened (if r.comp = 540 then { made h r with order := hostOrder h } else made h r)
  else .refused

end AF.Spec.Create
