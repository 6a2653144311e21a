import Verif.Model.Codec
import Verif.Model.Query
import Verif.Model.Meta
import Verif.Model.SfConvert
/-!
# The program `sfinfo` (sfcommands/sfinfo.c, sfcommands/printinfo.c)

From the words of its command line to what it prints and its exit status.

Simplifications: messages of `getopt_long` and of the error handler are left out, and so is `POSIXLY_CORRECT`; how `printf` writes
fractions is left open (rate and duration are kept as numbers; without a rate there is no duration); memory can be had. The creation of
the codec (`Model/Codec`) and the miscellaneous chunks that a file format finds are not part of it: the latter are given.
-/
namespace AF.SfInfo
open AF AF.Setup AF.Files

/-! ## The command line -/

/-- What `getopt_long` and the loop sfinfo.c:85-104 make of the words. -/
inductive Scan
  | help
  | version
  | files (brief : Bool) (operands : List (List Byte))
  deriving DecidableEq

/-- What one word that is an option does. -/
inductive Word
  | help
  | version
  | go (brief : Bool)
  deriving DecidableEq

/-- A word of short options, without its `-` (`"srhv"`, sfinfo.c:82-104); unknown letters are skipped. -/
def letters : List Byte → Bool → Word
  | [], brief => .go brief
  | c :: rest, brief =>
    if c = 0x73 then letters rest true
    else if c = 0x68 then .help
    else if c = 0x76 then .version
    else letters rest brief

/-- A long option without its `--` (sfinfo.c:71-78): every beginning of a name will do, since no two begin alike; unknown names, and
options with a value (no option takes one), are skipped. -/
def long (a : List Byte) (brief : Bool) : Word :=
  if a.isPrefixOf (tag "short") then .go true
  else if a.isPrefixOf (tag "help") then .help
  else if a.isPrefixOf (tag "version") then .version
  else .go brief

/-- A word that begins with `-` and goes on is an option. -/
def word : List Byte → Bool → Option Word
  | 0x2d :: b :: c, brief => some (if b = 0x2d then long c brief else letters (b :: c) brief)
  | _, _ => none

/-- sfinfo.c:80-106: options are looked for in all the words up to `--`, and the other words are the files. -/
def scan : List (List Byte) → Bool → List (List Byte) → Scan
  | [], brief, names => .files brief names
  | a :: rest, brief, names =>
    if a = [0x2d, 0x2d] then .files brief (names ++ rest)
    else
      match word a brief with
      | some .help => .help
      | some .version => .version
      | some (.go brief) => scan rest brief names
      | none => scan rest brief (names ++ [a])

/-! ## What is printed -/

/-- printinfo.c:53-112, 128-134: the items of the long report. -/
structure Report where
  name : List Byte
  description : String
  label : String
  data : String
  bytes : Int
  offset : Int
  channels : Int
  plural : Bool
  frames : Int
  rate : Rat
  duration : Option Rat
  copyright : Option (List Byte)
  deriving DecidableEq

/-- printinfo.c:205-212: the items of the short report. -/
structure Short where
  duration : Option Rat
  rate : Rat
  label : String
  channels : Int
  width : Int
  compression : String
  name : List Byte
  deriving DecidableEq

inductive Item
  | usage
  | version
  | blank
  | full (r : Report)
  | short (r : Short)
  deriving DecidableEq

/-- A pointer that is used as a string. -/
def asText : Except Abort (Option Query.Pointed) → Option String
  | .ok (some (.text s)) => some s
  | _ => none

/-- printinfo.c:73-98: the byte order. -/
def orderText (f : AFmt) : String := if f.byteOrder = BIG then "big endian" else "little endian"

/-- printinfo.c:69-112: the data format. -/
def dataText (flac : Bool) (f : AFmt) : String :=
  if f.compression = NONE then
    if f.sampleFormat = TWOSCOMP then toString f.sampleWidth ++ "-bit integer (2's complement, " ++ orderText f ++ ")"
    else if f.sampleFormat = UNSIGNED then toString f.sampleWidth ++ "-bit integer (unsigned, " ++ orderText f ++ ")"
    else if f.sampleFormat = FLOAT then "single-precision (32-bit) floating point, " ++ orderText f
    else if f.sampleFormat = DOUBLE then "double-precision (64-bit) floating point, " ++ orderText f
    else "unknown"
  else
    match asText (Query.queryPointer flac 502 600 f.compression 0) with
    | some s => s ++ " compression"
    | none => "unknown compression"

/-- printinfo.c:139-167 `copyrightstring`: the block of memory that is returned, if any. (A chunk's `size` is an `int`; no memory can
be had for a negative one.) -/
def copyrightBlock (m : Meta.Handle) : Except Abort (Option (List Byte)) :=
  match (m.misc.map (·.id)).find? fun id => Meta.getMiscType m id == 201 with
  | none => .ok none
  | some id =>
    if Meta.getMiscSize m id < 0 then .ok none
    else (Meta.readMisc m id (Meta.getMiscSize m id)).map fun r => some r.2.1

/-- `printf("%s")` of a block, behind which the memory goes on. -/
def printed (block memory : List Byte) : List Byte := (block ++ memory).takeWhile (· ≠ 0)

/-- `afGetFrameCount / afGetRate`. -/
def duration (t : Trk) : Option Rat := if t.f.rate = 0 then none else some ((t.frames : Rat) / t.f.rate)

/-- What becomes of one file: nothing is printed (and all is closed); nothing is printed and the handle is left open; a report. -/
inductive Seen
  | refused
  | left
  | report (i : Item)
  | undefined
  | outside

/-- What is given: the machine, the chunks found in a file, what is in memory behind a block, the files. -/
structure Env where
  F32 : Files.Float32
  F64 : Files.Float64
  rnd : Rat → Convert.Dbl
  h : Endian
  fuel : Nat
  flac : Bool
  chunks : List Byte → Meta.Handle
  memory : List Byte
  files : List Byte → Option (List Byte)

/-- printinfo.c:41-137 `printfileinfo`. -/
def fullInfo (e : Env) (name : List Byte) : Seen :=
  match e.files name with
  | none => .refused
  | some file =>
    match identify file 0, openRead e.F32 e.F64 e.rnd e.h e.fuel file 0 with
    | .ok (some u, _), .ok (t, _) =>
      match asText (Query.queryPointer e.flac 501 601 (SfConvert.formatNumber u) 0), asText (Query.queryPointer e.flac 501 602 (SfConvert.formatNumber u) 0) with
      | some d, some l =>
        match copyrightBlock (e.chunks file) with
        | .error _ => .undefined
        | .ok c =>
          .report (.full { name := name, description := d, label := l, data := dataText e.flac t.f, bytes := t.dataSize, offset := t.first
                           channels := t.f.channels, plural := decide (t.f.channels > 1), frames := t.frames, rate := t.f.rate
                           duration := duration t, copyright := c.map fun b => printed b e.memory })
      | _, _ => .left
    | .error .undefined, _ => .undefined
    | _, .error .undefined => .undefined
    | .error .running, _ => .outside
    | _, .error .running => .outside
    | _, _ => .refused

/-- printinfo.c:177-216 `printshortinfo`. A null label would go to `printf("%s")`. -/
def shortInfo (e : Env) (name : List Byte) : Seen :=
  match e.files name with
  | none => .refused
  | some file =>
    match identify file 0, openRead e.F32 e.F64 e.rnd e.h e.fuel file 0 with
    | .ok (some u, _), .ok (t, _) =>
      match asText (Query.queryPointer e.flac 501 602 (SfConvert.formatNumber u) 0) with
      | none => .undefined
      | some l =>
        .report (.short { duration := duration t, rate := t.f.rate, label := l, channels := t.f.channels, width := t.f.sampleWidth
                          compression := if t.f.compression = NONE then "--"
                            else (asText (Query.queryPointer e.flac 502 600 t.f.compression 0)).getD "unk"
                          name := name })
    | .error .undefined, _ => .undefined
    | _, .error .undefined => .undefined
    | .error .running, _ => .outside
    | _, .error .running => .outside
    | _, _ => .refused

/-- How the program ends: the exit status, what it has printed, and how many handles were not closed. -/
inductive Outcome
  | exit (status : Int) (out : List Item) (left : Nat)
  | undefined
  | outside
  deriving DecidableEq

/-- What was printed and left before the rest. -/
def Outcome.after (out : List Item) (n : Nat) : Outcome → Outcome
  | .exit s o l => .exit s (out ++ o) (n + l)
  | o => o

/-- The loop sfinfo.c:108-117, and the `return 0` behind it. -/
def loop (one : List Byte → Seen) (brief : Bool) : List (List Byte) → Outcome
  | [] => .exit 0 [] 0
  | name :: rest =>
    match one name with
    | .undefined => .undefined
    | .outside => .outside
    | .refused => loop one brief rest
    | .left => (loop one brief rest).after [] 1
    | .report i => (loop one brief rest).after (if !brief ∧ !rest.isEmpty then [i, .blank] else [i]) 0

/-- sfinfo.c:58-120: the words of the command line without the program's name. -/
def main (e : Env) (args : List (List Byte)) : Outcome :=
  if args = [] then .exit 0 [.usage] 0
  else
    match scan args false [] with
    | .help => .exit 0 [.usage] 0
    | .version => .exit 0 [.version] 0
    | .files brief names => loop (if brief then shortInfo e else fullInfo e) brief names

end AF.SfInfo
