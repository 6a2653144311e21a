import Verif.Model.Chunks
import Verif.Model.Codec
/-!
# Raw files (Raw.cpp): samples and nothing else
-/
namespace AF.Files
open AF AF.Setup

/-- `fpos_first_frame` (Raw.cpp:79-83, 128-131) -/
def rawFirst (tr : TrackSetup) : Int := if tr.dataOffsetSet then tr.dataOffset else 0

/-- Raw.cpp:116-134 -/
def rawInit (tr : TrackSetup) : Disk × Trk × Unit := (⟨[], 0⟩, { Trk.ofFormat tr.f with first := rawFirst tr }, ())

/-- Raw.cpp:136-139 -/
def rawUpdate (_ : Trk) (x : Unit) (d : Disk) : Disk × Unit := (d, x)

/-- `(int) _af_format_frame_size(&track->f, false)` (util.cpp:301-308): the size is positive, so the conversion rounds down. -/
def rawFrameBytes (f : AFmt) : Int := match frameSize f false with | some x => x.floor | none => 0

/-- Raw.cpp:62-114, for the track of the completed setup of the caller; dividing by zero is undefined, and so is the product of sample
size and channels if it is no `int` (util.cpp:295-299). `length` does not fail for files that can be sought in. -/
def rawRead (tr : TrackSetup) : Rd Trk := do
  let t := { Trk.ofFormat tr.f with first := rawFirst tr }
  if tr.frameCountSet then return { t with frames := tr.frameCount }
  else
    let size ← Rd.length
    if t.first > (size : Int) then Rd.fail
    else if rawFrameBytes tr.f = 0 ∨ 2 ^ 31 ≤ frameSizeUncompressed tr.f false then Rd.undefined
    else return { t with frames := ((size : Int) - t.first).tdiv (rawFrameBytes tr.f), dataSize := (size : Int) - t.first }

/-- The codec of a raw file. The completed setup has no compression parameters (Raw.cpp:183), so the ADPCM and ALAC codecs cannot
be created (IMA.cpp:379-384, 397-402, MSADPCM.cpp:348-376, ALAC.cpp:174-180, 203-209 return NULL without setting `chunkFrames`); nobody
tests for that, and the unassigned `chunkFrames` is used for the rebuffering module (ModuleState.cpp:70-92). -/
def rawCodec (f : AFmt) : Rd Unit :=
  if f.compression = NONE ∨ f.compression = ULAW ∨ f.compression = ALAW then pure () else Rd.undefined

/-- `_afOpenFile` for writing a raw file (openclose.cpp:272-403, ModuleState.cpp:52-100): the empty file, and the track. -/
def rawOpenWrite (h : Endian) (s : Setup) : Except Err (Disk × Trk × Unit) :=
  match (completeRaw s).2 with
  | none => .error .fail
  | some c =>
    match c.tracks.head? with
    | none => .error .fail
    | some tr =>
      match codecCheck h tr.f with
      | none => .error .fail
      | some f =>
        if f.compression = NONE ∨ f.compression = ULAW ∨ f.compression = ALAW then
          .ok ((rawInit tr).1, { (rawInit tr).2.1 with f := f }, ())
        else .error .undefined

/-- `_afOpenFile` for reading with a setup for raw files (openclose.cpp:272-403, ModuleState.cpp:52-100). -/
def rawOpen (h : Endian) (s : Setup) : Rd Trk :=
  match (completeRaw s).2 with
  | none => Rd.fail
  | some c =>
    match c.tracks.head? with
    | none => Rd.fail
    | some tr => do
      let t ← rawRead tr
      match codecCheck h t.f with
      | none => Rd.fail
      | some f =>
        rawCodec f
        return { t with f := f }

end AF.Files
