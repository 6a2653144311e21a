import Verif.Model.Setup
import Verif.Model.Codec
import Verif.Model.FLAC
/-!
# Opening a file for writing, up to and including the codec

`_afOpenFile` for writing (openclose.cpp:268-405) as far as the setup decides its outcome: the format's `completeSetup`, `writeInit`
(which fails only when the file cannot be written or memory is short; both are assumed not to happen) and `ModuleState::init`
(ModuleState.cpp:52-108) with the codec's check of the format and the codec's creation. `flac`: the library was built with FLAC.
-/
namespace AF.Create
open AF AF.Setup

/-- The `completesetup` entries of units.cpp:56-261; FLACFile.cpp:281-285 without FLAC. -/
def complete (flac : Bool) (h : Endian) (s : Setup) : Setup × Option Setup :=
  if s.fileFormat = .flac then (if flac then FLAC.completeFLAC h s else (s, none)) else Setup.complete h s

/-- `_af_compression_unit_from_id` and `unit->fmtok` (ModuleState.cpp:54-60); FLAC.cpp:457-482, 486-489. -/
def codecCheck (flac : Bool) (h : Endian) (f : AFmt) : Option AFmt :=
  if f.compression = 530 then (if flac && FLAC.codecOk h f then some f else none) else Files.codecCheck h f

/-- Whether `initcompress` finds the parameters it needs in `compressionParams` (ModuleState.cpp:70-76): IMA.cpp:86-100 the type,
MSADPCM.cpp:352-380 the coefficients, ALAC.cpp:196-223 the codec data. They are put there by `writeInit` of WAVE (WAVE.cpp:1514-1535),
AIFF-C (AIFF.cpp:759-787) and CAF files (CAF.cpp:155-175); `RawFile::writeInit` (Raw.cpp:113-130) puts none there. -/
def hasParams (u : FileFormat) (f : AFmt) : Bool :=
  !(decide (u = .raw) && (decide (f.compression = IMA) || decide (f.compression = MSADPCM) || decide (f.compression = ALAC)))

/-- The outcome. When `initcompress` returns null nothing notices; `chunkFrames` is then read uninitialised
(ModuleState.cpp:69-91). The class of the handle goes by the caller's setup (openclose.cpp:335). -/
def create (flac : Bool) (h : Endian) (s : Setup) : Except Abort (Option AFmt) :=
  match (complete flac h s).2 with
  | none => .ok none
  | some c =>
    match c.tracks.head? with
    | none => .ok none
    | some tr =>
      match codecCheck flac h tr.f with
      | none => .ok none
      | some f => if hasParams s.fileFormat f then .ok (some f) else .error .uninitialised

/-- The caller's setup after an attempt to open a file with it: `completeSetup` works on the caller's setup (openclose.cpp:330;
e.g. NeXT.cpp:229-266, IFF.cpp:283-289, FLACFile.cpp:71-140). -/
def used (flac : Bool) (h : Endian) (s : Setup) : Setup := (complete flac h s).1

/-- What a program does with one setup: calls on it, and opening files with it. -/
inductive Use
  | call (op : Setup.Op)
  | file

/-- The setup, and what became of the files. -/
def uses (flac : Bool) (h : Endian) : Setup → List Use → Setup × List (Except Abort (Option AFmt))
  | s, [] => (s, [])
  | s, .call op :: l => uses flac h (Setup.step s op) l
  | s, .file :: l => let r := uses flac h (used flac h s) l; (r.1, create flac h s :: r.2)

end AF.Create
