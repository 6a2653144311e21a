import Verif.Spec.Cursor
/-!
# Model of the read side of the API

`afReadFrames`, `afSeekFrame`, `afTellFrame`, `afGetFrameCount` on one track opened for reading,
with the file modules `PCM`, `G711` and `BlockCodec` (IMA and MS ADPCM), the `RebufferModule`
and the frame-wise conversion modules behind them.

Simplifications, all stated:
* the underlying `File` never fails and never returns less than is available; `read(n)` returns
  `min n (bytes left)`;
* the codec's per-packet decoder is a parameter `decode`, the composition of the conversion modules
  selected by the virtual format `v` is a parameter `conv v` applied frame by frame
  (`SimpleModule::run` treats frames independently), and `hasConv v` says whether at least one such
  module is in the chain;
* virtual sample rate = file sample rate (so `llrint(n * f / v) = n`, ModuleState.cpp:111,187);
  what the code computes, and when this is right, is in `Verif/Model/Rate.lean` and `Verif/Props/Rate.lean`;
* an uncounted chunk is not observable: the observation of a read is the returned count and the
  first `count` frames of the user's buffer. A frame that was never stored by the call is `none`.
-/
namespace AF

abbrev Byte := BitVec 8

/-- Ways in which the C++ program leaves defined behaviour or dies. -/
inductive Abort
  /-- a failed `assert` -/
  | assertFailed
  /-- `operator new` of a negative (hence huge) size -/
  | badAlloc
  /-- a read or a copy beyond the end of a buffer -/
  | bufferOverflow
  /-- a signed `int` operation whose result does not fit -/
  | signedOverflow
  /-- a use of memory that was never written -/
  | uninitialised
  /-- an integer division by zero -/
  | divisionByZero
  deriving DecidableEq, Repr

deriving instance DecidableEq for Except

namespace Reading

/-- Which file module decodes the track (units.cpp:330-432). -/
inductive Kind | pcm | g711 | block
  deriving DecidableEq, Repr

/-- The immutable part of a track opened for reading.
`fpp`, `bpp`: frames and bytes per packet (for PCM and G.711: 1 and the frame size).
`V`: the virtual formats; `α`: decoded frames; `γ`: frames as delivered. -/
structure Cfg (V α γ : Type) where
  kind : Kind
  fpp : Nat
  bpp : Nat
  fpp_pos : 0 < fpp
  bpp_pos : 0 < bpp
  decode : List Byte → List α
  conv : V → α → γ
  hasConv : V → Bool
  file : List Byte
  /-- `track->fpos_first_frame` -/
  fposFirst : Int
  /-- `track->totalfframes`; −1 when the length of the file is not known (Raw.cpp:93-94) -/
  totalf : Int
  /-- `file->m_seekok` -/
  seekok : Bool
  /-- `assert` is compiled in; the shipped libaudiofile/Makefile.am:124-125 and modules/Makefile.am:36-44 define
  `NDEBUG`, i.e. `false` -/
  checks : Bool

/-- The mutable part: `Track` (Track.h), `RebufferModule` members and the file position.
`held` is `m_buffer[m_offset .. m_numFrames)`, so `m_offset = fpp - held.length`. -/
structure St (V α : Type) where
  v : V
  dirty : Bool
  nextf : Int
  ignore : Int
  fposNext : Int
  totalv : Int
  nextv : Int
  happy : Bool
  filePos : Int
  held : List α
  eof : Bool
  sent : Bool

variable {V α γ : Type}

/-- Split into as many whole packets of `k` bytes as there are
(`bytesRead / m_bytesPerPacket`, BlockCodec.cpp:50, PCM.cpp:164). -/
def packets (k : Nat) (hk : 0 < k) (bs : List Byte) : List (List Byte) :=
  if k ≤ bs.length then bs.take k :: packets k hk (bs.drop k) else []
termination_by bs.length
decreasing_by simp; omega

/-- File.cpp:230-233 (`read`) on an intact file, together with FileModule.cpp:40-48, which advances
`fpos_next_frame` by the number of bytes read. -/
def fread (c : Cfg V α γ) (n : Nat) (s : St V α) : List Byte × St V α :=
  let bs := (c.file.drop s.filePos.toNat).take n
  (bs, { s with filePos := s.filePos + bs.length, fposNext := s.fposNext + bs.length })

/-- FileModule.cpp:76-87 `reportReadError`: all it does to the track is to clear `filemodhappy`. -/
def reportReadError (s : St V α) : St V α := { s with happy := false }

/-- `assert(b)`, compiled in iff `checks`. -/
def cAssert (checks b : Bool) : Except Abort Unit :=
  if !checks || b then .ok () else .error .assertFailed

/-- `PCM::runPull` (PCM.cpp:141-182), `G711::runPull` (G711.cpp:186-221),
`BlockCodec::runPull` (BlockCodec.cpp:40-69), for a request of `n` frames.
The result list is the content of the out chunk; its length is the new `m_outChunk->frameCount`. -/
def filePull (c : Cfg V α γ) (n : Int) (s : St V α) : Except Abort (List α × St V α) := do
  match c.kind with
  | .pcm =>
    -- PCM.cpp:158-162: limit to the frames left in the track
    let n := if c.totalf ≠ -1 ∧ s.nextf + n > c.totalf then c.totalf - s.nextf else n
    -- a negative count converts to a huge `size_t`
    if n < 0 then throw .bufferOverflow
    let (bs, s) := fread c (c.bpp * n.toNat) s
    let ps := packets c.bpp c.bpp_pos bs
    let s := { s with nextf := s.nextf + ps.length }
    cAssert c.checks (!c.seekok || s.filePos == s.fposNext)
    let s := if (ps.length : Int) ≠ n ∧ c.totalf ≠ -1 then reportReadError s else s
    return (ps.flatMap c.decode, s)
  | .g711 =>
    if n < 0 then throw .bufferOverflow
    let (bs, s) := fread c (c.bpp * n.toNat) s
    let ps := packets c.bpp c.bpp_pos bs
    let s := { s with nextf := s.nextf + ps.length }
    cAssert c.checks (!c.seekok || s.filePos == s.fposNext)
    let s := if c.totalf ≠ -1 ∧ (ps.length : Int) ≠ n then reportReadError s else s
    return (ps.flatMap c.decode, s)
  | .block =>
    cAssert c.checks (n % c.fpp == 0)
    if n < 0 then throw .bufferOverflow
    let (bs, s) := fread c (c.bpp * (n.toNat / c.fpp)) s
    let ps := packets c.bpp c.bpp_pos bs
    let s := { s with nextf := s.nextf + (ps.length * c.fpp : Nat) }
    cAssert c.checks (s.filePos == s.fposNext)
    let s := if (ps.length * c.fpp : Nat) < n then reportReadError s else s
    return (ps.flatMap c.decode, s)

/-- The loop of `RebufferModule::runPull` (RebufferModule.cpp:109-153), `m_multipleOf` false
(it is false for every entry of units.cpp). `want > 0` is `framesToPull`; returns the frames copied
to the out chunk and the final `framesToPull`. -/
def rebufLoop (c : Cfg V α γ) (want : Nat) (s : St V α) : Except Abort (List α × Int × St V α) := do
  if _hw : want = 0 then return ([], 0, s)
  else if s.eof then return ([], (want : Int), s)
  else
    let (fs, s) ← filePull c c.fpp s
    if fs.length = c.fpp then
      if want < c.fpp then
        -- framesToPull becomes negative: keep the tail (RebufferModule.cpp:135-147)
        cAssert c.checks (s.held.length == 0)
        return (fs.take want, (want : Int) - c.fpp, { s with held := fs.drop want })
      else
        cAssert c.checks (s.held.length == 0)
        let (rest, left, s) ← rebufLoop c (want - c.fpp) s
        return (fs ++ rest, left, s)
    else
      let s := { s with eof := true }
      cAssert c.checks (s.held.length == 0)
      if want < fs.length then
        return (fs.take want, (want : Int) - fs.length, { s with held := fs.drop want })
      else
        return (fs, (want : Int) - fs.length, s)
termination_by want
decreasing_by have := c.fpp_pos; omega

/-- `RebufferModule::runPull` (RebufferModule.cpp:85-169). The result's length is the new
`m_outChunk->frameCount`. -/
def rebufPull (c : Cfg V α γ) (n : Nat) (s : St V α) : Except Abort (List α × St V α) := do
  cAssert c.checks (decide (s.held.length < c.fpp))
  cAssert c.checks (!s.sent)
  let out := s.held.take n
  if n < s.held.length then
    -- framesToPull ends up negative, no pull
    return (out, { s with held := s.held.drop n })
  else
    let want := n - s.held.length
    let s := { s with held := [] }
    let (more, left, s) ← rebufLoop c want s
    if s.eof && decide (left > 0) then
      cAssert c.checks (s.held.length == 0)
      return (out ++ more, { s with sent := true })
    else
      cAssert c.checks (decide (left ≤ 0))
      cAssert c.checks (decide ((s.held.length : Int) = -left))
      return (out ++ more, s)

/-- The first modules of the chain (ModuleState.cpp:321-325): the file module, and the rebuffer module
if the codec needs one (units.cpp:330-432 `needsRebuffer`: true for IMA and MS ADPCM). -/
def sourcePull (c : Cfg V α γ) (n : Nat) (s : St V α) : Except Abort (List α × St V α) :=
  match c.kind with
  | .block => rebufPull c n s
  | _ => filePull c n s

/-- The whole chain: the source, then the conversion modules. `SimpleModule::runPull` (SimpleModule.cpp:26-30) does
not look at how many frames its source delivered: its out chunk keeps the requested frame count.
Returns the content of the last chunk, `frameCount` frames of it. -/
def chainPull (c : Cfg V α γ) (n : Nat) (s : St V α) : Except Abort (List (Option γ) × St V α) := do
  let (fs, s) ← sourcePull c n s
  let out := fs.map (fun a => some (c.conv s.v a))
  if c.hasConv s.v then
    return (out ++ List.replicate (n - out.length) none, s)
  else return (out, s)

/-- `ModuleState::setup` for reading (ModuleState.cpp:109-201) with equal rates, and
`ModuleState::reset` (213-230): `RebufferModule::reset1` (171-177), `BlockCodec::reset1/2`
(BlockCodec.cpp:71-87; C division truncates), `PCM::reset2` (PCM.cpp:184-190), `G711::reset2`
(G711.cpp:223-231). -/
def setup (c : Cfg V α γ) (s : St V α) : St V α :=
  let s := { s with totalv := c.totalf, nextf := s.nextv, dirty := false, happy := true }
  match c.kind with
  | .block =>
    let aligned : Int := (s.nextf.tdiv c.fpp) * c.fpp
    let toIgnore : Int := s.nextf - aligned
    { s with
        held := [], eof := false, sent := false
        nextf := aligned
        fposNext := c.fposFirst + c.bpp * (aligned.tdiv c.fpp)
        ignore := toIgnore }
  | _ => { s with fposNext := c.fposFirst + c.bpp * s.nextf, ignore := 0 }

/-- The chunk loop of `afReadFrames` (data.cpp:205-230); `_AF_ATOMIC_NVFRAMES` is 1024
(modules/Module.h:128). `left` is `nvframes2read - vframe`. Returns the frames counted in `vframe`. -/
def readLoop (c : Cfg V α γ) (left : Nat) (s : St V α) :
    Except Abort (List (Option γ) × St V α) := do
  if _hl : left = 0 then return ([], s)
  else if s.happy = false then return ([], s)
  else
    let n := min 1024 left
    let (fs, s) ← chainPull c n s
    if s.happy then
      if fs.length < n then return (fs, s)
      else
        let (rest, s) ← readLoop c (left - n) s
        return (fs ++ rest, s)
    else return ([], s)
termination_by left
decreasing_by omega

/-- `afReadFrames` (data.cpp:125-236). The first component is the return value; on −1 nothing is
delivered. -/
def readFrames (c : Cfg V α γ) (wanted : Int) (s : St V α) :
    Except Abort ((Int × List (Option γ)) × St V α) := do
  let s := if s.dirty then setup c s else s
  -- data.cpp:147-154: position the file; `lseek` to a negative offset fails
  if c.seekok ∧ s.fposNext < 0 then return ((-1, []), s)
  let s := if c.seekok then { s with filePos := s.fposNext } else s
  let toRead : Int :=
    if s.totalv = -1 then wanted
    else if wanted > s.totalv - s.nextv then s.totalv - s.nextv else wanted
  let s := { s with happy := true }
  -- data.cpp:184-203: skip the frames before the seek target
  let (eof, s) ← (do
    if s.ignore ≠ 0 then
      if s.ignore < 0 then throw .badAlloc
      let want := s.ignore
      let (fs, s) ← chainPull c want.toNat s
      return (decide ((fs.length : Int) < want), { s with ignore := 0 })
    else return (false, s) : Except Abort (Bool × St V α))
  let (fs, s) ← if eof then pure ([], s) else readLoop c toRead.toNat s
  return ((fs.length, fs), { s with nextv := s.nextv + fs.length })

/-- `afSeekFrame` (format.cpp:101-143); a negative target only reports the position
(and is `afTellFrame`, format.cpp:145-148). -/
def seekFrame (c : Cfg V α γ) (frame : Int) (s : St V α) : Int × St V α :=
  let s := if s.dirty then setup c s else s
  if frame < 0 then (s.nextv, s)
  else if frame = s.nextv then (s.nextv, s)
  else
    let frame := if s.totalv ≠ -1 ∧ frame > s.totalv then s.totalv - 1 else frame
    let s := setup c { s with nextv := frame }
    (s.nextv, s)

/-- `afGetFrameCount` (format.cpp:196-209). -/
def frameCount (c : Cfg V α γ) (s : St V α) : Int × St V α :=
  let s := if s.dirty then setup c s else s
  (s.totalv, s)

/-- The calls of a reading client (`Spec.Call`). `setFormat` stands for `afSetVirtualByteOrder`,
`afSetVirtualSampleFormat`, `afSetVirtualChannels`, … (format.cpp:150-169 etc.): each stores the new
virtual format and calls `setDirty`. -/
abbrev Op := Spec.Call

/-- What a call shows to the caller: its return value and the frames stored. -/
abbrev Obs (γ : Type) := Int × List (Option γ)

/-- One call. -/
def step (c : Cfg V α γ) (s : St V α) : Op V → Except Abort (Obs γ × St V α)
  | .read n => do
    let ((r, fs), s) ← readFrames c n s
    return ((r, fs), s)
  | .seek f => let (r, s) := seekFrame c f s; return ((r, []), s)
  | .tell => let (r, s) := seekFrame c (-1) s; return ((r, []), s)
  | .count => let (r, s) := frameCount c s; return ((r, []), s)
  | .setFormat v => return ((0, []), { s with v := v, dirty := true })

/-- A sequence of calls; stops at the first abort. -/
def run (c : Cfg V α γ) (s : St V α) : List (Op V) → Except Abort (List (Obs γ) × St V α)
  | [] => return ([], s)
  | op :: ops => do
    let (o, s) ← step c s op
    let (os, s) ← run c s ops
    return (o :: os, s)

/-- The track right after `afOpenFile` for reading: openclose.cpp:371-398 (`ms->init`, and the
constructor `ModuleState() : m_isDirty(true)`), FileModule.cpp:30-38, RebufferModule ctor (29-66). -/
def init (c : Cfg V α γ) (v : V) : St V α :=
  { v := v, dirty := true, nextf := 0, ignore := 0, fposNext := c.fposFirst, totalv := 0, nextv := 0,
    happy := true, filePos := c.fposFirst, held := [], eof := false, sent := false }

end Reading
end AF
