import Verif.Model.Program
import Verif.Model.Codec
import Verif.Model.Files.Simple
import Verif.Model.Files.NIST
/-!
# The program `sfconvert` (sfcommands/sfconvert.c)

From the words of its command line to the exit status and the files it leaves.

Simplifications: inputs and outputs without compression or with G.711 only (others are `outside`), a library built without
FLAC, the input and the output are different files, memory can be had and disks are not full, `printfileinfo`
at the end (which opens both files again for reading) is not part of it, nor are the messages.
-/
namespace AF.SfConvert
open AF AF.Setup AF.Files AF.Convert AF.Virtual AF.Program

/-! ## The command line -/

/-- sfconvert.c:75-78 -/
structure Options where
  fileFormat : Int
  sampleFormat : Int
  sampleWidth : Int
  channels : Int
  compression : Int
  deriving DecidableEq

/-- sfconvert.c:75-77: `AF_FILE_UNKNOWN`, −1, −1, −1, `AF_COMPRESSION_NONE`. -/
def Options.initial : Options := ⟨-1, -1, -1, -1, NONE⟩

/-- What becomes of the command line: options, `usageerror` (327-331), an unknown name (sfconvert.c:113-117, 186-190), or a number
that `atoi` cannot represent. -/
inductive Parsed
  | options (o : Options)
  | usage
  | unknown
  | undefined
  deriving DecidableEq

/-- sfconvert.c:91-111 -/
def formatNamed (a : List Byte) : Option Int :=
  if a = tag "aiff" then some 2 else if a = tag "aifc" then some 1 else if a = tag "wave" then some 4
  else if a = tag "next" then some 3 else if a = tag "bics" then some 5 else if a = tag "smp" then some 11
  else if a = tag "voc" then some 12 else if a = tag "nist" then some 13 else if a = tag "caf" then some 15
  else if a = tag "flac" then some 16 else none

/-- sfconvert.c:172-185 -/
def compressionNamed (a : List Byte) : Option Int :=
  if a = tag "none" then some 0 else if a = tag "ulaw" then some 502 else if a = tag "alaw" then some 503
  else if a = tag "ima" then some 519 else if a = tag "msadpcm" then some 523 else if a = tag "flac" then some 530
  else if a = tag "alac" then some 540 else none

/-- `atoi`; `none` where the number does not fit an `int` (C11 7.22.1). -/
def atoi (a : List Byte) : Option Int :=
  match scanInt a with
  | .none => some 0
  | .int x _ => some x
  | .overflow => none

/-- The loop sfconvert.c:82-200. -/
def parse : List (List Byte) → Options → Parsed
  | [], o => .options o
  | a :: rest, o =>
    if a = tag "format" then
      match rest with
      | [] => .usage
      | b :: rest =>
        match formatNamed b with
        | none => .unknown
        | some n => parse rest { o with fileFormat := n }
    else if a = tag "channels" then
      match rest with
      | [] => .usage
      | b :: rest =>
        match atoi b with
        | none => .undefined
        | some n => if n < 1 then .usage else parse rest { o with channels := n }
    else if a = tag "float" then
      match rest with
      | [] => .usage
      | _ :: rest => parse rest { o with sampleFormat := FLOAT, sampleWidth := 32 }
    else if a = tag "integer" then
      match rest with
      | [] => .usage
      | [_] => .usage
      | b :: c :: rest =>
        match atoi b with
        | none => .undefined
        | some n =>
          if n < 1 ∨ n > 32 then .usage
          else if c = tag "2scomp" then parse rest { o with sampleFormat := TWOSCOMP, sampleWidth := n }
          else if c = tag "unsigned" then parse rest { o with sampleFormat := UNSIGNED, sampleWidth := n }
          else .usage
    else if a = tag "compression" then
      match rest with
      | [] => .usage
      | b :: rest =>
        match compressionNamed b with
        | none => .unknown
        | some n => parse rest { o with compression := n }
    else parse rest o

/-! ## Copying -/

/-- The loop of `copyaudiodata` (sfconvert.c:336-365) for any two handles: `read` is `afReadFrames` (its return value and what
it stored in the buffer; `none`: a frame it did not store), `write` is `afWriteFrames` of that many frames of the buffer. A frame
that was not stored is handed on as such: the buffer still has there what it had before. -/
def copyLoop {ρ σ γ : Type} (read : Int → ρ → Except Abort ((Int × List (Option γ)) × ρ)) (write : Int → List (Option γ) → σ → Int × σ)
    (total done : Int) (r : ρ) (s : σ) : Except Abort (Bool × σ) :=
  if _h : done < total then
    let want := if total - done > 65536 then 65536 else total - done
    match read want r with
    | .error e => .error e
    | .ok ((n, fs), r) =>
      if _h2 : n < want then .ok (false, s)
      else
        let k := (write n fs s).1
        if _h3 : k < n then .ok (false, (write n fs s).2)
        else copyLoop read write total (done + k) r (write n fs s).2
  else .ok (true, s)
termination_by (total - done).toNat
decreasing_by
  simp only [want] at *
  split at _h2 <;> omega

/-- `copyaudiodata` from a track of the model of the modules to a handle that accepts everything: success, and the buffers handed
to `afWriteFrames`. -/
def copy (c : Reading.Cfg Fmt (List Byte) (List Byte)) (v : Fmt) : Except Abort (Bool × List (List (Option (List Byte)))) := do
  let ((total, _), s) ← Reading.step c (Reading.init c v) .count
  copyLoop (fun n s => Reading.step c s (.read n)) (fun n fs s => (n, s ++ [fs])) total 0 s []

/-! ## The files -/

/-- `AF_FILE_*` (audiofile.h:98-118). -/
def formatNumber : FileFormat → Int
  | .raw => 0 | .aiffc => 1 | .aiff => 2 | .next => 3 | .wave => 4 | .ircam => 5 | .mpeg1 => 6 | .sd1 => 7 | .sd2 => 8 | .avr => 9
  | .iff => 10 | .smp => 11 | .voc => 12 | .nist => 13 | .sf2 => 14 | .caf => 15 | .flac => 16

/-- The codecs that this model has. -/
def plainCodec (f : AFmt) : Bool := f.compression = NONE || f.compression = ULAW || f.compression = ALAW

/-- sfconvert.c:218-236: the calls on the setup, for an input of file format `u` whose track has the format `f`. (`afGetSampleFormat`,
`afGetChannels`, `afGetRate` give the format of the file, format.cpp:174-194, 285-295, 317-327.) -/
def setupCalls (p : Options) (u : FileFormat) (f : AFmt) : List Setup.Op :=
  let enc := if p.sampleFormat = -1 ∨ p.sampleWidth = -1 then (f.sampleFormat, f.sampleWidth) else (p.sampleFormat, p.sampleWidth)
  [.fileFormat (if p.fileFormat = -1 then formatNumber u else p.fileFormat), .compression 1001 p.compression,
   .sampleFormat 1001 enc.1 enc.2, .channels 1001 (if p.channels = -1 then f.channels else p.channels), .rate 1001 f.rate]

/-- The virtual format as the chain sees it. -/
def virtualFormat (v : AFmt) : Fmt := { chainFormat v with packed := false }

/-- The virtual format of a track that was opened for reading (openclose.cpp:371-390). -/
def readVirtual (h : Endian) (f : AFmt) : AFmt := { f with compression := NONE, byteOrder := native h }

/-- sfconvert.c:247-252: the virtual format of the output, `v` after opening. -/
def writeVirtual (v f : AFmt) : AFmt :=
  (setVirtualSampleFormat (setVirtualChannels v f.channels).2 f.sampleFormat f.sampleWidth).2

/-- What `afWriteFrames` of the frames in a buffer leaves in the file. -/
def blockEvent (h : Endian) (fm : Module → List Byte → List Byte) (v : Fmt) (f : AFmt) (fs : List (List Byte)) : Ev :=
  .data (fs.flatMap fun g => encodeFrame h f (toFile h fm v (chainFormat f) g)) fs.length

/-- The file of format `u` that is left when the handle is closed. `name`: the file name, which AVR stores. -/
def outBytes (F32 : Files.Float32) (F64 : Files.Float64) (h : Endian) (name : List Byte) (o : Opened) (f : AFmt) (evs : List Ev) :
    FileFormat → Except Err (List Byte)
  | .next => .ok (session (nextUpdate h) (nextInit h f) evs)
  | .avr => .ok (session (avrUpdate h) (avrInit h name f) evs)
  | .smp => .ok (session (smpUpdate h) (smpInit h f) evs)
  | .voc => .ok (session (vocUpdate h) (vocInit h f) evs)
  | .caf => .ok (session (cafUpdate h) (cafInit F64 h f) evs)
  | .ircam => match ircamInit F32 h f with
    | some s => .ok (session ircamUpdate s evs)
    | none => .error .undefined
  | .nist => match nistInit f with
    | some s => .ok (session nistUpdate s evs)
    | none => .error .undefined
  | .wave => match waveSession h o f (evs.map .ev) with
    | .ok (b, _) => .ok b
    | .error _ => .error .undefined
  | .aiff => match aiffSession h false o f (evs.map .ev) with
    | .ok (b, _) => .ok b
    | .error _ => .error .undefined
  | .aiffc => match aiffSession h true o f (evs.map .ev) with
    | .ok (b, _) => .ok b
    | .error _ => .error .undefined
  | .iff => match iffSession h o f (evs.map .ev) with
    | .ok (b, _) => .ok b
    | .error _ => .error .undefined
  | _ => .error .fail

/-- The files there are: the content, by name. -/
abbrev World : Type := List Byte → Option (List Byte)

/-- A file is made, overwritten or (`none`) removed. -/
def World.set (w : World) (name : List Byte) (content : Option (List Byte)) : World := fun n => if n = name then content else w n

/-- How the program ends, and the files it leaves. -/
inductive Outcome
  | exit (success : Bool) (w : World)
  | undefined
  | outside

/-- sfconvert.c:202-277 after the command line: `File::open` for writing creates the file or empties the one that is there
(File.cpp:62-80) before anything is known about the setup, and nothing removes it when `afOpenFile` fails. Where the codec
refuses the format (after the header was written, openclose.cpp:354-398) the result is `outside`, and so it is where a file is
converted onto itself (the input is then read from the file that is being written). -/
def convert (F32 : Files.Float32) (F64 : Files.Float64) (rnd : Rat → Dbl) (h : Endian) (fm : Module → List Byte → List Byte) (fuel : Nat)
    (p : Options) (input output : List Byte) (w : World) : Outcome :=
  match w input with
  | none => .exit false w
  | some file =>
    match identify file 0, openRead F32 F64 rnd h fuel file 0 with
    | .ok (some u, _), .ok (t, _) =>
      if !plainCodec t.f then .outside
      else
        let s := Setup.run (newSetup h) (setupCalls p u t.f)
        let w := w.set output (some [])
        match (openWrite h s).2 with
        | none => .exit false w
        | some o =>
          match o.f, o.v with
          | f :: _, v :: _ =>
            match codecCheck h f with
            | none => .outside
            | some f =>
              if !plainCodec f || input = output then .outside
              else if 2 ^ 31 ≤ 65536 * frameSizeUncompressed (readVirtual h t.f) true then .undefined
              else if hb : 0 < packetSize t.f then
                match copy (trackReader h fm file t hb) (virtualFormat (readVirtual h t.f)) with
                | .error _ => .undefined
                | .ok (false, _) => .exit false (w.set output none)
                | .ok (true, blocks) =>
                  match blocks.mapM (fun b => b.mapM id) with
                  | none => .undefined
                  | some bs =>
                    match outBytes F32 F64 h output o f (bs.map (blockEvent h fm (virtualFormat (writeVirtual v t.f)) f)) s.fileFormat with
                    | .ok b => .exit true (w.set output (some b))
                    | .error _ => .undefined
              else .undefined
          | _, _ => .outside
    | .error .undefined, _ => .undefined
    | _, .error .undefined => .undefined
    | .error .running, _ => .outside
    | _, .error .running => .outside
    | _, _ => .exit false w

/-- sfconvert.c:47-83: the words of the command line without the program's name. -/
def main (F32 : Files.Float32) (F64 : Files.Float64) (rnd : Rat → Dbl) (h : Endian) (fm : Module → List Byte → List Byte) (fuel : Nat)
    (args : List (List Byte)) (w : World) : Outcome :=
  match args with
  | [] => .exit false w
  | [a] => .exit (a = tag "--version" || a = tag "-v" || a = tag "--help" || a = tag "-h") w
  | input :: output :: rest =>
    match parse rest Options.initial with
    | .usage => .exit false w
    | .unknown => .exit false w
    | .undefined => .undefined
    | .options p => convert F32 F64 rnd h fm fuel p input output w

end AF.SfConvert
