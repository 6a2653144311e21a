import Verif.Model.CInt
import Verif.Model.Reading
/-!
# Model of the write side of the API

`afWriteFrames`, `afSyncFile`, `afCloseFile` on one track opened for writing, with the file modules
`PCM`, `G711`, `BlockCodec` and the `RebufferModule`.

Simplifications, all stated:
* the underlying `File` accepts every write completely (no disk-full path);
* `data` is the content of the file from `fpos_first_frame` on, and file positions are relative to
  `fpos_first_frame`; updating the header does not touch `data` but may move the file position
  (`afterUpdate`);
* the codec's per-packet encoder `encode` is a parameter; it threads a state `ε` that lives as long as the
  file module (the ADPCM predictor); the conversion modules are a parameter `conv v`, frame by frame;
* virtual sample rate = file sample rate (other rates: `Verif/Model/Rate.lean`, `Verif/Props/RateWrite.lean`).
-/
namespace AF.Writing
open AF.Reading (Kind cAssert)

/-- The immutable part of a track opened for writing. -/
structure Cfg (V α γ ε : Type) where
  kind : Kind
  fpp : Nat
  bpp : Nat
  fpp_pos : 0 < fpp
  bpp_pos : 0 < bpp
  /-- `fpos_first_frame`: the size of the header -/
  first : Nat
  /-- encode one packet of `fpp` frames -/
  encode : ε → List α → List Byte × ε
  conv : V → γ → α
  /-- where `update()` leaves the file position, relative to the data; `none` when the format's `update`
  does nothing (Raw.cpp:132-135, IRCAM.cpp:436-439). For the others it is in the header
  (NeXT.cpp:296-325, AVR.cpp:243-263, WAVE.cpp:1243-1278, …). -/
  afterUpdate : Option Int
  /-- content of freshly allocated chunk memory between the rebuffer module and the codec -/
  junk : List α
  /-- `assert` is compiled in; the shipped libaudiofile/Makefile.am:124-125 and modules/Makefile.am:36-44 define
  `NDEBUG`, i.e. `false` -/
  checks : Bool

/-- The mutable part: `Track`, `RebufferModule` (`held` = `m_buffer[0 .. m_offset)`), the chunk buffer between
the rebuffer module and the codec (`outBuf`), the codec state and the file. -/
structure St (V α ε : Type) where
  v : V
  dirty : Bool
  nextf : Int
  totalf : Int
  fposNext : Int
  dataSize : Nat
  totalv : Int
  nextv : Int
  filePos : Int
  held : List α
  outBuf : List α
  enc : ε
  data : List Byte

variable {V α γ ε : Type}

/-- `FileModule::write` (FileModule.cpp:50-59) of `bs` at the current file position; bytes that fall before the
first frame overwrite the header, which is not part of `data`. -/
def fwrite (bs : List Byte) (s : St V α ε) : St V α ε :=
  let off := s.filePos.toNat
  let inData := bs.drop (-s.filePos).toNat
  { s with
      data := s.data.take off ++ inData ++ s.data.drop (off + inData.length)
      filePos := s.filePos + bs.length
      fposNext := s.fposNext + bs.length
      dataSize := s.dataSize + bs.length }

/-- Encode all whole packets of a frame list in order (the loop BlockCodec.cpp:96-100). -/
def encodePackets (c : Cfg V α γ ε) (e : ε) (fs : List α) : List Byte × ε :=
  if _h : c.fpp ≤ fs.length then
    let (b, e) := c.encode e (fs.take c.fpp)
    let (bs, e) := encodePackets c e (fs.drop c.fpp)
    (b ++ bs, e)
  else ([], e)
termination_by fs.length
decreasing_by have := c.fpp_pos; simp; omega

/-- `PCM::runPush` (PCM.cpp:91-122), `G711::runPush` (G711.cpp:123-154), `BlockCodec::runPush`
(BlockCodec.cpp:89-112) for a chunk whose buffer starts with `buf` and whose `frameCount` is `n`. -/
def filePush (c : Cfg V α γ ε) (buf : List α) (n : Nat) (s : St V α ε) : Except Abort (St V α ε) := do
  match c.kind with
  | .block =>
    let blocks := (n + c.fpp - 1) / c.fpp
    let (bs, e) := encodePackets c s.enc (buf.take (blocks * c.fpp))
    let s := fwrite bs { s with enc := e }
    let written := min (bs.length / c.bpp * c.fpp) n
    let s := { s with nextf := s.nextf + written }
    let s := { s with totalf := s.nextf }
    cAssert c.checks (s.filePos == s.fposNext)
    return s
  | _ =>
    let (bs, e) := encodePackets c s.enc (buf.take n)
    let s := fwrite bs { s with enc := e }
    let s := { s with nextf := s.nextf + (bs.length / c.bpp : Nat) }
    let s := { s with totalf := s.nextf }
    cAssert c.checks (s.filePos == s.fposNext)
    return s

/-- The loop of `RebufferModule::runPush` (RebufferModule.cpp:214-228), `m_multipleOf` false.
`held` is the pending content (`m_buffer[0 .. m_offset)` on the first round, empty afterwards). -/
def pushLoop (c : Cfg V α γ ε) (held fs : List α) (s : St V α ε) :
    Except Abort (List α × List α × St V α ε) := do
  if _h : held.length < c.fpp ∧ c.fpp ≤ held.length + fs.length then
    let block := held ++ fs.take (c.fpp - held.length)
    let s ← filePush c block c.fpp { s with outBuf := block }
    pushLoop c [] (fs.drop (c.fpp - held.length)) s
  else return (held, fs, s)
termination_by fs.length
decreasing_by have := c.fpp_pos; simp; omega

/-- `RebufferModule::runPush` (RebufferModule.cpp:184-248). -/
def rebufPush (c : Cfg V α γ ε) (fs : List α) (s : St V α ε) : Except Abort (St V α ε) := do
  cAssert c.checks (decide (s.held.length < c.fpp))
  let (held, fs, s) ← pushLoop c s.held fs s
  cAssert c.checks (decide (held.length + fs.length < c.fpp))
  return { s with held := held ++ fs }

/-- One chunk down the chain (ModuleState.cpp:405-409: conversions, rebuffer if needed, file module). -/
def chainPush (c : Cfg V α γ ε) (xs : List γ) (s : St V α ε) : Except Abort (St V α ε) :=
  let fs := xs.map (c.conv s.v)
  match c.kind with
  | .block => rebufPush c fs s
  | _ => filePush c fs fs.length s

/-- `ModuleState::setup` for writing (ModuleState.cpp:109-201), equal rates: new chunks are allocated and
`nextvframe = totalvframes = nextvframe`; the rebuffer and file modules keep their state. -/
def setup (c : Cfg V α γ ε) (s : St V α ε) : St V α ε :=
  { s with outBuf := c.junk, totalv := s.nextv, dirty := false }

/-- The chunk loop of `afWriteFrames` (data.cpp:98-114). -/
def writeLoop (c : Cfg V α γ ε) (xs : List γ) (s : St V α ε) : Except Abort (St V α ε) := do
  if _h : xs.length = 0 then return s
  else
    let s ← chainPush c (xs.take 1024) s
    writeLoop c (xs.drop 1024) s
termination_by xs.length
decreasing_by simp; omega

/-- `afWriteFrames` (data.cpp:42-123) of the frames `xs`; returns the number of frames accepted. Seeking to a negative
position fails. -/
def writeFrames (c : Cfg V α γ ε) (xs : List γ) (s : St V α ε) : Except Abort (Int × St V α ε) := do
  let s := if s.dirty then setup c s else s
  if c.first + s.fposNext < 0 then return (-1, s)
  let s := { s with filePos := s.fposNext }
  let s ← writeLoop c xs s
  return (xs.length, { s with nextv := s.nextv + xs.length, totalv := s.totalv + xs.length })

/-- `ModuleState::sync` (ModuleState.cpp:232-242): `sync1` of all modules, then `sync2` in order;
`RebufferModule::sync1/2` (RebufferModule.cpp:250-271), `BlockCodec::sync1/2` (BlockCodec.cpp:114-126),
`PCM::sync1/2` (PCM.cpp:124-140), `G711::sync1/2` (G711.cpp:156-172).
`PCM` saves the file position and the frame in an `int` (PCM.cpp:68-70). -/
def syncModules (c : Cfg V α γ ε) (s : St V α ε) : Except Abort (St V α ε) := do
  let savedNextf := if c.kind = .pcm then wrapS 32 s.nextf else s.nextf
  let savedPos := if c.kind = .pcm then wrapS 32 (c.first + s.fposNext) - c.first else s.fposNext
  let savedHeld := s.held
  let s ← (match c.kind with
    | .block => do
      cAssert c.checks (decide (s.held.length < c.fpp))
      let s := { s with outBuf := s.held ++ s.outBuf.drop s.held.length }
      let s ← filePush c s.outBuf s.held.length s
      return { s with held := savedHeld }
    | _ => return s)
  cAssert c.checks (s.filePos == s.fposNext)
  return { s with fposNext := savedPos, nextf := savedNextf }

/-- `afSyncFile` (openclose.cpp:408-443) on a file opened for writing. -/
def syncFile (c : Cfg V α γ ε) (s : St V α ε) : Except Abort (St V α ε) := do
  let s := if s.dirty then setup c s else s
  let s ← syncModules c s
  return { s with filePos := c.afterUpdate.getD s.filePos }

/-- Calls of a writing client. -/
inductive Op (V γ : Type)
  | write (xs : List γ)
  | sync
  | setFormat (v : V)

def step (c : Cfg V α γ ε) (s : St V α ε) : Op V γ → Except Abort (St V α ε)
  | .write xs => do let (_, s) ← writeFrames c xs s; return s
  | .sync => syncFile c s
  | .setFormat v => return { s with v := v, dirty := true }

def run (c : Cfg V α γ ε) (s : St V α ε) : List (Op V γ) → Except Abort (St V α ε)
  | [] => return s
  | op :: ops => do let s ← step c s op; run c s ops

/-- What is left on disk after `afCloseFile` (openclose.cpp:445-462: a last `afSyncFile`): the audio data
and the two numbers headers are made from. -/
structure Final where
  data : List Byte
  dataSize : Nat
  frameCount : Int
  deriving DecidableEq

def close (c : Cfg V α γ ε) (s : St V α ε) : Except Abort Final := do
  let s ← syncFile c s
  return ⟨s.data, s.dataSize, s.totalf⟩

/-- The track right after `afOpenFile` for writing (Track.cpp:62-86, FileModule.cpp:30-38,
ModuleState.cpp:62-68: the file is positioned at `fpos_first_frame`). -/
def init (e : ε) (v : V) : St V α ε :=
  { v := v, dirty := true, nextf := 0, totalf := 0, fposNext := 0, dataSize := 0, totalv := 0, nextv := 0,
    filePos := 0, held := [], outBuf := [], enc := e, data := [] }

/-- Open, make the calls, close. -/
def session (c : Cfg V α γ ε) (e : ε) (v : V) (ops : List (Op V γ)) : Except Abort Final := do
  let s ← run c (init e v) ops
  close c s

end AF.Writing
