import Verif.Model.CInt
import Verif.Model.Bytes
import Verif.Model.Writing
import Verif.Model.Setup
/-!
# FLAC files

modules/FLAC.cpp and FLACFile.cpp in a library built with FLAC (`ENABLE(FLAC)`), between the API and libFLAC. libFLAC itself is
external code; what is assumed of it is what its documentation says:

* `FLAC__stream_decoder_process_single` hands the next audio frame (here: a *block*) to the write callback; at the end of the
  stream it succeeds with the state `END_OF_STREAM`; it fails when the decoder is in an error state;
* `FLAC__stream_decoder_seek_absolute(t)` hands the rest of the block that holds sample `t`, from `t` on, to the write callback; when no
  block holds `t` it fails without handing over anything and may leave the decoder in the state `SEEK_ERROR`, in which it must be
  flushed or reset before decoding can continue (`brittle`; the library never flushes or resets it);
* a block has at most `FLAC__MAX_BLOCK_SIZE` = 65535 frames;
* `FLAC__stream_encoder_process_interleaved` takes the frames, or fails for good; it must not be called after
  `FLAC__stream_encoder_finish` (documented as an assertion).

Simplifications: virtual rate = file rate; the file under libFLAC does not change; the conversion modules are a parameter `conv v` that
turns a frame of packed samples in native order into a frame as delivered, or back.
-/
namespace AF.FLAC
open AF

/-- A FLAC frame as libFLAC hands it over: `header.channels` and the samples, one list per frame with one sample per channel. -/
structure Block where
  channels : Nat
  rows : List (List Int)
  deriving DecidableEq

/-- `FLAC__StreamMetadata_StreamInfo`, the fields FLACFile.cpp uses. -/
structure Info where
  channels : Nat
  rate : Nat
  width : Nat
  total : Nat
  deriving DecidableEq

/-- `_af_flac_format_ok` (FLAC.cpp:457-482) for a format made by `parseStreamInfo` (FLACFile.cpp:194-212): signed integers in
native order. -/
def formatOk (i : Info) : Bool := decide (i.channels ≤ 8) && (i.width == 16 || i.width == 24)

/-! ## Reading -/

/-- A FLAC track opened for reading. `V`: the virtual formats; `γ`: frames as delivered. -/
structure Cfg (V γ : Type) where
  host : Endian
  /-- `track->f.sampleWidth`, `track->f.channelCount`, `track->totalfframes` from the STREAMINFO block (FLACFile.cpp:194-212) -/
  width : Nat
  channels : Nat
  total : Nat
  /-- what the stream decodes to -/
  blocks : List Block
  /-- a failed seek leaves the decoder in `SEEK_ERROR` -/
  brittle : Bool
  conv : V → List Byte → γ

/-- The state: `Track`, `FLACDecoder` (`m_buffer`, `m_bufferedFrames`, `m_bufferedOffset`) and libFLAC's decoder: the next block and
whether it is in an error state. `buf ch i` is `m_buffer[ch][i]`, `none` before it is first written. -/
structure St (V : Type) where
  v : V
  dirty : Bool
  totalv : Int
  nextv : Int
  buf : Nat → Nat → Option Int
  buffered : Nat
  offset : Nat
  next : Nat
  broken : Bool

variable {V γ : Type}

/-- `didDecodeFrame` (FLAC.cpp:129-137): one `memcpy` per channel of the block into the `channels` buffers of
`FLAC__MAX_BLOCK_SIZE` samples. (`nextfframe` is not read again before it is set.) -/
def store (b : Block) (rows : List (List Int)) (s : St V) : St V :=
  { s with
      buf := fun ch i => if ch < b.channels ∧ i < rows.length then rows[i]?.bind (·[ch]?) else s.buf ch i
      buffered := rows.length
      offset := 0 }

/-- The bounds of those copies. -/
def fits (c : Cfg V γ) (b : Block) (rows : List (List Int)) : Except Abort Unit :=
  if c.channels < b.channels ∨ 65535 < rows.length then .error .bufferOverflow else .ok ()

/-- One sample as `convertAndInterleave` stores it (FLAC.cpp:193-238): an `int16_t`, or three bytes in native order. -/
def sampleOut (h : Endian) (width : Nat) (x : Int) : List Byte :=
  if width = 16 then toBytes h 2 (wrapS 16 x)
  else
    let low := BitVec.ofInt 8 x
    let mid := BitVec.ofInt 8 (sar x 8)
    let high := BitVec.ofInt 8 (sar x 16)
    match h with
    | .big => [high, mid, low]
    | .little => [low, mid, high]

/-- All of a list, unless one is missing. -/
def allSome {α : Type} : List (Option α) → Except Abort (List α)
  | [] => .ok []
  | none :: _ => .error .uninitialised
  | some x :: xs => (allSome xs).map (x :: ·)

/-- Frame `i` of the buffer as stored in the out chunk. -/
def frameAt (c : Cfg V γ) (s : St V) (i : Nat) : Except Abort (List Byte) :=
  (allSome ((List.range c.channels).map fun ch => s.buf ch i)).map fun xs => xs.flatMap (sampleOut c.host c.width)

/-- `convertAndInterleave` (FLAC.cpp:193-238): `k` frames from `i` on. -/
def gather (c : Cfg V γ) (s : St V) : Nat → Nat → Except Abort (List (List Byte))
  | _, 0 => .ok []
  | i, k + 1 => do
    let f ← frameAt c s i
    let fs ← gather c s (i + 1) k
    return f :: fs

/-- `FLACDecoder::runPull` (FLAC.cpp:240-260): the frames stored in the out chunk. Its `frameCount` is left at `want`. -/
def pull (c : Cfg V γ) (want : Nat) (s : St V) : Except Abort (List (List Byte) × St V) := do
  let k := min want (s.buffered - s.offset)
  let out ← gather c s s.offset k
  let s1 := { s with offset := s.offset + k }
  if want - k = 0 then return (out, s1)
  -- process_single fails
  else if s.broken then return (out, s1)
  else if _h : s.next < c.blocks.length then
    let b := c.blocks[s.next]
    fits c b b.rows
    let (more, s2) ← pull c (want - k) (store b b.rows { s1 with next := s.next + 1 })
    return (out ++ more, s2)
  -- END_OF_STREAM
  else return (out, s1)
termination_by c.blocks.length - s.next
decreasing_by simp only [store]; omega

/-- The block that holds frame `t` of the blocks `bs` (numbered from `n`), its number and the frames before `t` in it. -/
def locate : List Block → Nat → Nat → Option (Nat × Block × Nat)
  | [], _, _ => none
  | b :: bs, n, t => if t < b.rows.length then some (n, b, t) else locate bs (n + 1) (t - b.rows.length)

/-- `FLACDecoder::reset2` (FLAC.cpp:266-273): `seek_absolute`; a failure only raises an error. -/
def seekTo (c : Cfg V γ) (t : Nat) (s : St V) : Except Abort (St V) := do
  if s.broken then return s
  else match locate c.blocks 0 t with
    | some (n, b, k) =>
      fits c b (b.rows.drop k)
      return store b (b.rows.drop k) { s with next := n + 1 }
    | none => return { s with broken := c.brittle }

/-- `ModuleState::setup` and `reset` for reading (ModuleState.cpp:109-201, 213-230), equal rates. The position is never
negative. -/
def setup (c : Cfg V γ) (s : St V) : Except Abort (St V) :=
  seekTo c s.nextv.toNat { s with totalv := c.total, dirty := false }

/-- `if (isDirty()) setup()`, at the beginning of every call. -/
def ensure (c : Cfg V γ) (s : St V) : Except Abort (St V) := if s.dirty then setup c s else .ok s

/-- The chunk loop of `afReadFrames` (data.cpp:205-230): the chunk's `frameCount` is always the number asked for and nothing clears
`filemodhappy`. A frame that was not stored is `none`. -/
def readLoop (c : Cfg V γ) (left : Nat) (s : St V) : Except Abort (List (Option γ) × St V) := do
  if _hl : left = 0 then return ([], s)
  else
    let n := min 1024 left
    let (fs, s) ← pull c n s
    let out := fs.map (fun f => some (c.conv s.v f)) ++ List.replicate (n - fs.length) none
    let (rest, s) ← readLoop c (left - n) s
    return (out ++ rest, s)
termination_by left
decreasing_by omega

/-- `afReadFrames` (data.cpp:125-236): `fileModuleHandlesSeeking`, so the file is not positioned. -/
def readFrames (c : Cfg V γ) (wanted : Int) (s : St V) : Except Abort ((Int × List (Option γ)) × St V) := do
  let s ← ensure c s
  let toRead : Int := if wanted > s.totalv - s.nextv then s.totalv - s.nextv else wanted
  let (fs, s) ← readLoop c toRead.toNat s
  return ((fs.length, fs), { s with nextv := s.nextv + fs.length })

/-- `afSeekFrame`, `afTellFrame` (format.cpp:101-148). -/
def seekFrame (c : Cfg V γ) (frame : Int) (s : St V) : Except Abort (Int × St V) := do
  let s ← ensure c s
  if frame < 0 then return (s.nextv, s)
  else if frame = s.nextv then return (s.nextv, s)
  else
    let frame := if frame > s.totalv then s.totalv - 1 else frame
    let s ← setup c { s with nextv := frame }
    return (s.nextv, s)

/-- One call. -/
def step (c : Cfg V γ) (s : St V) : Spec.Call V → Except Abort ((Int × List (Option γ)) × St V)
  | .read n => readFrames c n s
  | .seek f => do let (r, s) ← seekFrame c f s; return ((r, []), s)
  | .tell => do let (r, s) ← seekFrame c (-1) s; return ((r, []), s)
  | .count => do let s ← ensure c s; return ((s.totalv, []), s)
  | .setFormat v => return ((0, []), { s with v := v, dirty := true })

/-- A sequence of calls; stops at the first abort. -/
def run (c : Cfg V γ) (s : St V) : List (Spec.Call V) → Except Abort (List (Int × List (Option γ)) × St V)
  | [] => return ([], s)
  | op :: ops => do
    let (o, s) ← step c s op
    let (os, s) ← run c s ops
    return (o :: os, s)

/-- After `afOpenFile`: the constructor `FLACDecoder` (FLAC.cpp:146-172), the file positioned at the first audio frame
(ModuleState.cpp:62-68), so that the decoder never sees the metadata. -/
def init (v : V) : St V :=
  { v := v, dirty := true, totalv := 0, nextv := 0, buf := fun _ _ => none, buffered := 0, offset := 0, next := 0, broken := false }

/-- What the calls show. -/
def observe (c : Cfg V γ) (v : V) (ops : List (Spec.Call V)) : Except Abort (List (Int × List (Option γ))) :=
  (run c (init v) ops).map (·.1)

/-- Opening for reading a file whose metadata and audio frames libFLAC reads as `i` and `bs`: FLACFile.cpp:139-212 and the codec check
ModuleState.cpp:58-60. -/
def openRead (host : Endian) (brittle : Bool) (conv : V → List Byte → γ) (i : Info) (bs : List Block) : Option (Cfg V γ) :=
  if formatOk i then
    some { host := host, width := i.width, channels := i.channels, total := i.total, blocks := bs, brittle := brittle, conv := conv }
  else none

/-! ## Writing -/

/-- A FLAC track opened for writing. `accepted`: libFLAC's `init_stream` accepts the parameters. `takes i`: the `i`-th call of
`process_interleaved` succeeds (it fails when the write callback does, i.e. when a write to the file comes short). -/
structure WCfg (V γ : Type) where
  host : Endian
  width : Nat
  channels : Nat
  accepted : Bool
  takes : Nat → Bool
  conv : V → γ → List Byte

/-- The state: `Track` and libFLAC's encoder: the frames it was given, the number of calls, whether one has failed, and whether
`finish` was called. -/
structure WSt (V : Type) where
  v : V
  dirty : Bool
  nextf : Int
  totalf : Int
  nextv : Int
  totalv : Int
  sent : List (List Int)
  tick : Nat
  failed : Bool
  finished : Bool

/-- One sample of the in chunk: `convert16To32`, `convert24To32` (FLAC.cpp:426-455). -/
def sampleIn (h : Endian) (width : Nat) (bs : List Byte) : Int :=
  if width = 16 then wrapS 16 (uintOf h (bs.take 2))
  else
    let b (i : Nat) : Int := ((bs[i]?.getD 0).toNat : Int)
    let t := match h with
      | .big => b 0 * 2 ^ 24 + b 1 * 2 ^ 16 + b 2 * 2 ^ 8
      | .little => b 2 * 2 ^ 24 + b 1 * 2 ^ 16 + b 0 * 2 ^ 8
    sar (wrapS 32 t) 8

/-- A frame of the in chunk. -/
def frameIn (h : Endian) (width channels : Nat) (bs : List Byte) : List Int :=
  (List.range channels).map fun ch => sampleIn h width (bs.drop (ch * (width / 8)))

/-- `FLACEncoder::runPush` (FLAC.cpp:397-412). Without an encoder `m_buffer` is null. -/
def push (c : WCfg V γ) (fs : List (List Byte)) (s : WSt V) : Except Abort (WSt V) := do
  if !c.accepted then throw .bufferOverflow
  if s.finished then throw .assertFailed
  let ok := !s.failed && c.takes s.tick
  let s := { s with sent := if ok then s.sent ++ fs.map (frameIn c.host c.width c.channels) else s.sent
                    failed := !ok, tick := s.tick + 1, nextf := s.nextf + fs.length }
  return { s with totalf := s.nextf }

/-- `ModuleState::setup` for writing (ModuleState.cpp:109-201), equal rates. -/
def wsetup (s : WSt V) : WSt V := { s with totalv := s.nextv, dirty := false }

/-- The chunk loop of `afWriteFrames` (data.cpp:98-114); nothing clears `filemodhappy`. -/
def writeLoop (c : WCfg V γ) (xs : List γ) (s : WSt V) : Except Abort (WSt V) := do
  if _h : xs.length = 0 then return s
  else
    let s ← push c ((xs.take 1024).map (c.conv s.v)) s
    writeLoop c (xs.drop 1024) s
termination_by xs.length
decreasing_by simp; omega

/-- `afWriteFrames` (data.cpp:42-123). -/
def writeFrames (c : WCfg V γ) (xs : List γ) (s : WSt V) : Except Abort (Int × WSt V) := do
  let s := if s.dirty then wsetup s else s
  let s ← writeLoop c xs s
  return (xs.length, { s with nextv := s.nextv + xs.length, totalv := s.totalv + xs.length })

/-- `afSyncFile` (openclose.cpp:408-443): `FLACEncoder::sync2` (FLAC.cpp:418-424) calls `finish` — harmless a second time, and an error
only raised —, `FLACFile::update` (FLACFile.cpp:189-192) does nothing. The encoder exists even when `init_stream` refused. -/
def syncFile (s : WSt V) : WSt V :=
  let s := if s.dirty then wsetup s else s
  { s with finished := true }

def wstep (c : WCfg V γ) (s : WSt V) : Writing.Op V γ → Except Abort (Int × WSt V)
  | .write xs => writeFrames c xs s
  | .sync => return (0, syncFile s)
  | .setFormat v => return (0, { s with v := v, dirty := true })

/-- The calls and their results. -/
def wrun (c : WCfg V γ) (s : WSt V) : List (Writing.Op V γ) → Except Abort (List Int × WSt V)
  | [] => return ([], s)
  | op :: ops => do
    let (r, s) ← wstep c s op
    let (rs, s) ← wrun c s ops
    return (r :: rs, s)

/-- After `afOpenFile` (FLAC.cpp:330-372). -/
def winit (v : V) : WSt V :=
  { v := v, dirty := true, nextf := 0, totalf := 0, nextv := 0, totalv := 0, sent := [], tick := 0, failed := false, finished := false }

/-- What is left: the frames libFLAC was given, whether it could write them all, and the results of the calls. -/
structure Final where
  sent : List (List Int)
  failed : Bool
  frameCount : Int
  results : List Int
  deriving DecidableEq

/-- Open, make the calls, close (openclose.cpp:445-462: a last `afSyncFile`). -/
def session (c : WCfg V γ) (v : V) (ops : List (Writing.Op V γ)) : Except Abort Final := do
  let (rs, s) ← wrun c (winit v) ops
  let s := syncFile s
  return ⟨s.sent, s.failed, s.totalf, rs⟩

/-! ## Setups -/
open AF.Setup

/-- `FLACFile::completeSetup` (FLACFile.cpp:71-137). The result of `_af_set_sample_format` is not looked at. -/
def completeFLAC (h : Endian) (s : Setup) : Setup × Option Setup :=
  match theTrack s with
  | none => (s, none)
  | some tr =>
    if tr.sampleFormatSet ∧ tr.f.sampleFormat ≠ TWOSCOMP then (s, none)
    else if tr.sampleWidthSet ∧ tr.f.sampleWidth ≠ 16 ∧ tr.f.sampleWidth ≠ 24 then (s, none)
    else
      let f := { (setSampleFormat tr.f TWOSCOMP tr.f.sampleWidth).2 with byteOrder := native h }
      if tr.compressionSet ∧ f.compression ≠ 530 then (s.withFormat f, none)
      else
        let f := { f with compression := 530 }
        let s := s.withFormat f
        if !noMetadata s tr then (s, none) else (s, some (filesetupCopy s .flac 0 true))

/-- `_af_flac_format_ok` (FLAC.cpp:457-482). -/
def codecOk (h : Endian) (f : AFmt) : Bool :=
  decide (f.channels ≤ 8) && decide (f.sampleFormat = TWOSCOMP ∧ (f.sampleWidth = 16 ∨ f.sampleWidth = 24)) &&
    decide (f.byteOrder = native h)

/-- `_afOpenFile` for writing a FLAC file (openclose.cpp:268-398): the track's file format, if the open succeeds. -/
def openWrite (h : Endian) (s : Setup) : Option AFmt :=
  match (completeFLAC h s).2 with
  | none => none
  | some c => match c.tracks.head? with
    | none => none
    | some tr => if codecOk h tr.f then some tr.f else none

end AF.FLAC
