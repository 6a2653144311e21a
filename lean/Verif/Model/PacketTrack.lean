import Verif.Model.Files.CAF
import Verif.Model.Writing
import Verif.Spec.Cursor
/-!
# Tracks with packets of varying size

`afWriteFrames`, `afSyncFile`, `afCloseFile`, `afReadFrames`, `afSeekFrame` on a track whose codec makes packets of
varying size that a packet table lists: ALAC in CAF files (modules/ALAC.cpp), with the `RebufferModule` and the frame-wise
conversion modules.

Simplifications, all stated:
* the underlying `File` never fails; reading returns what there is, writing writes everything; files are seekable;
* the codec is a parameter: `encode i fs` is what it makes of its `i`-th packet of frames (`none`: an error status; the
  dependence on `i` stands for the state the encoder keeps), `decode i bs` are the frames in the out chunk after packet
  `i` has been decoded from `bs` (decoding has no state other than what is left in buffers);
* the composition of the conversion modules is a parameter `conv v`, frame by frame, as in `Model/Reading.lean`;
* virtual sample rate = file sample rate;
* `assert` is compiled out (`-DNDEBUG`).
-/
namespace AF.Packets
open AF AF.Files

/-! ## Writing -/

/-- The immutable part of a track opened for writing. -/
structure WCfg (V α γ : Type) where
  host : Endian
  fpp : Nat
  fpp_pos : 0 < fpp
  encode : Nat → List α → Option (List Byte)
  conv : V → γ → α

/-- The mutable part: `Track`, `RebufferModule` (`held` = `m_buffer[0 .. m_offset)`), the number of packets given to
the encoder, the file object and the file. -/
structure WSt (V α : Type) where
  v : V
  dirty : Bool
  totalv : Int
  nextv : Int
  happy : Bool
  fposNext : Nat
  held : List α
  calls : Nat
  t : Trk
  x : CafObj
  disk : Disk

variable {V α γ : Type}

/-- PacketTable.cpp:58-61 `append`, and modules/ALAC.cpp:321-324. -/
def addPacket (size frames : Nat) (p : PacketTable) : PacketTable :=
  { p with sizes := p.sizes ++ [size], numValidFrames := p.numValidFrames + frames }

/-- modules/ALAC.cpp:274-325 `runPush` for a chunk of the frames `fs`; FileModule.cpp:50-59 `write`. (The track's
counters of frames are not touched.) -/
def filePush (c : WCfg V α γ) (fs : List α) (s : WSt V α) : WSt V α :=
  match c.encode s.calls fs with
  | none => { s with calls := s.calls + 1, happy := false }
  | some bs =>
    { s with calls := s.calls + 1, disk := s.disk.write bs, fposNext := s.fposNext + bs.length
             t := { s.t with dataSize := s.t.dataSize + bs.length }
             x := { s.x with table := s.x.table.map (addPacket bs.length fs.length) } }

/-- The loop of `RebufferModule::runPush` (RebufferModule.cpp:214-228), `m_multipleOf` false (units.cpp:355-367). -/
def pushLoop (c : WCfg V α γ) (held fs : List α) (s : WSt V α) : List α × List α × WSt V α :=
  if _h : held.length < c.fpp ∧ c.fpp ≤ held.length + fs.length then
    pushLoop c [] (fs.drop (c.fpp - held.length)) (filePush c (held ++ fs.take (c.fpp - held.length)) s)
  else (held, fs, s)
termination_by fs.length
decreasing_by have := c.fpp_pos; simp; omega

/-- `RebufferModule::runPush` (RebufferModule.cpp:184-248). -/
def rebufPush (c : WCfg V α γ) (fs : List α) (s : WSt V α) : WSt V α :=
  let (held, fs, s) := pushLoop c s.held fs s
  { s with held := held ++ fs }

/-- The chunk loop of `afWriteFrames` (data.cpp:98-114); the first component is `vframe`. -/
def writeLoop (c : WCfg V α γ) (xs : List γ) (s : WSt V α) : Nat × WSt V α :=
  if _h : xs.length = 0 then (0, s)
  else
    let s := rebufPush c ((xs.take 1024).map (c.conv s.v)) s
    if !s.happy then (0, s)
    else
      let r := writeLoop c (xs.drop 1024) s
      ((xs.take 1024).length + r.1, r.2)
termination_by xs.length
decreasing_by simp; omega

/-- `ModuleState::setup` for writing (ModuleState.cpp:109-201), equal rates. -/
def wsetup (s : WSt V α) : WSt V α := { s with totalv := s.nextv, dirty := false, happy := true }

/-- `afWriteFrames` (data.cpp:42-123) of the frames `xs`: the number of frames accepted. -/
def writeFrames (c : WCfg V α γ) (xs : List γ) (s : WSt V α) : Int × WSt V α :=
  let s := if s.dirty then wsetup s else s
  let r := writeLoop c xs { s with disk := s.disk.seek s.fposNext, happy := true }
  (r.1, { r.2 with nextv := r.2.nextv + r.1, totalv := r.2.totalv + r.1 })

/-- `afSyncFile` (openclose.cpp:408-443): ModuleState.cpp:232-242, RebufferModule.cpp:250-271, modules/ALAC.cpp:327-341,
CAF.cpp:251-260. The position in the file is put back, the packet table and the size of the data are not. -/
def syncFile (c : WCfg V α γ) (s : WSt V α) : WSt V α :=
  let s := if s.dirty then wsetup s else s
  let saved := s.fposNext
  let s := filePush c s.held { s with happy := true }
  let t := { s.t with afterData := s.disk.pos }
  let (d, x) := cafUpdate c.host t s.x s.disk
  { s with fposNext := saved, t := t, x := x, disk := d }

/-- One call of a writing client. -/
def wstep (c : WCfg V α γ) (s : WSt V α) : Writing.Op V γ → WSt V α
  | .write xs => (writeFrames c xs s).2
  | .sync => syncFile c s
  | .setFormat v => { s with v := v, dirty := true }

/-- The track right after `afOpenFile` for writing: `writeInit` (CAF.cpp:155-175), and then the codec puts its
configuration into the object's buffer (openclose.cpp:390-398, modules/ALAC.cpp:121-135). -/
def winit (F : Float64) (h : Endian) (f : Setup.AFmt) (cookie : List Byte) (v : V) : WSt V α :=
  let (d, t, x) := cafInit F h f
  { v := v, dirty := true, totalv := 0, nextv := 0, happy := true, fposNext := t.first.toNat, held := [], calls := 0
    t := t, x := { x with cookie := some cookie }, disk := d }

/-- Open, make the calls, close (openclose.cpp:445-462: a last `afSyncFile`): the file. -/
def wsession (c : WCfg V α γ) (F : Float64) (f : Setup.AFmt) (cookie : List Byte) (v : V) (ops : List (Writing.Op V γ)) : List Byte :=
  (syncFile c (ops.foldl (wstep c) (winit F c.host f cookie v))).disk.bytes

/-! ## Reading -/

/-- The immutable part of a track opened for reading. -/
structure RCfg (V α γ : Type) where
  fpp : Nat
  fpp_pos : 0 < fpp
  /-- the packet sizes; `none` without a packet table -/
  sizes : Option (List Nat)
  /-- the size of the in chunk's buffer; at least `bufferSize()`, modules/ALAC.cpp:268-272 -/
  capacity : Nat
  decode : Nat → List Byte → Except Abort (List α)
  /-- what is in the chunk between the codec and the rebuffer module when nothing has been stored there -/
  stale : List α
  conv : V → α → γ
  hasConv : V → Bool
  file : List Byte
  fposFirst : Nat
  /-- `track->totalfframes`: the number the packet table gives -/
  totalf : Int

/-- The mutable part; `held` is `m_buffer[m_offset .. m_numFrames)`, `cur` is `m_currentPacket`. -/
structure RSt (V α : Type) where
  v : V
  dirty : Bool
  nextf : Int
  ignore : Int
  fposNext : Int
  totalv : Int
  nextv : Int
  happy : Bool
  filePos : Int
  held : List α
  eof : Bool
  cur : Int

/-- modules/ALAC.cpp:225-250 `runPull`: the frames in the out chunk. A missing table is a null pointer, a packet that
is larger than the buffer is read over its end. -/
def filePull (c : RCfg V α γ) (s : RSt V α) : Except Abort (List α × RSt V α) :=
  match c.sizes with
  | none => .error .bufferOverflow
  | some sizes =>
    if s.cur ≥ sizes.length then .ok ([], s)
    else if s.cur < 0 then .error .bufferOverflow
    else
      let size := sizes.getD s.cur.toNat 0
      let bs := (c.file.drop s.filePos.toNat).take size
      if c.capacity < bs.length then .error .bufferOverflow
      else
        let s := { s with filePos := s.filePos + bs.length, fposNext := s.fposNext + bs.length }
        if bs.length < size then .ok (c.stale, { s with happy := false })
        else do
          let fs ← c.decode s.cur.toNat bs
          return (fs, { s with cur := s.cur + 1 })

/-- The loop of `RebufferModule::runPull` (RebufferModule.cpp:109-153), `m_multipleOf` false. A codec that delivers
more frames than were asked for makes it copy over the end of its buffer. -/
def rebufLoop (c : RCfg V α γ) (want : Nat) (s : RSt V α) : Except Abort (List α × Int × RSt V α) := do
  if _hw : want = 0 then return ([], 0, s)
  else if s.eof then return ([], (want : Int), s)
  else
    let (fs, s) ← filePull c s
    if fs.length > c.fpp then throw .bufferOverflow
    if fs.length = c.fpp then
      if want < c.fpp then return (fs.take want, (want : Int) - c.fpp, { s with held := fs.drop want })
      else
        let (rest, left, s) ← rebufLoop c (want - c.fpp) s
        return (fs ++ rest, left, s)
    else
      let s := { s with eof := true }
      if want < fs.length then return (fs.take want, (want : Int) - fs.length, { s with held := fs.drop want })
      else return (fs, (want : Int) - fs.length, s)
termination_by want
decreasing_by have := c.fpp_pos; omega

/-- `RebufferModule::runPull` (RebufferModule.cpp:85-169). -/
def rebufPull (c : RCfg V α γ) (n : Nat) (s : RSt V α) : Except Abort (List α × RSt V α) := do
  let out := s.held.take n
  if n < s.held.length then return (out, { s with held := s.held.drop n })
  else
    let (more, _, s) ← rebufLoop c (n - s.held.length) { s with held := [] }
    return (out ++ more, s)

/-- The whole chain, as in `Model/Reading.lean`. -/
def chainPull (c : RCfg V α γ) (n : Nat) (s : RSt V α) : Except Abort (List (Option γ) × RSt V α) := do
  let (fs, s) ← rebufPull c n s
  let out := fs.map (fun a => some (c.conv s.v a))
  if c.hasConv s.v then return (out ++ List.replicate (n - out.length) none, s) else return (out, s)

/-- `ModuleState::setup` for reading (ModuleState.cpp:109-201) with equal rates, and `ModuleState::reset` (213-230):
`RebufferModule::reset1` (171-177), modules/ALAC.cpp:252-266. `framesPerPacket` is a `size_t` and `m_currentPacket` an
`int`. The position of a packet that is not in the table is read from memory that does not belong to it
(PacketTable.cpp:63-69). -/
def setup (c : RCfg V α γ) (s : RSt V α) : Except Abort (RSt V α) :=
  let s := { s with totalv := c.totalf, dirty := false, happy := true }
  let nextFrame := s.nextv
  let cur := wrapS 32 (wrapU 64 nextFrame / c.fpp)
  let nextf := wrapS 64 (wrapU 64 cur * c.fpp)
  match c.sizes with
  | none => .error .bufferOverflow
  | some sizes =>
    match (⟨sizes, 0, 0, 0⟩ : PacketTable).startOfPacket (wrapU 64 cur).toNat with
    | none => .error .bufferOverflow
    | some off =>
      .ok { s with held := [], eof := false, cur := cur, nextf := nextf, ignore := nextFrame - nextf
                   fposNext := c.fposFirst + off }

/-- The chunk loop of `afReadFrames` (data.cpp:205-230). -/
def readLoop (c : RCfg V α γ) (left : Nat) (s : RSt V α) : Except Abort (List (Option γ) × RSt V α) := do
  if _hl : left = 0 then return ([], s)
  else if s.happy = false then return ([], s)
  else
    let n := min 1024 left
    let (fs, s) ← chainPull c n s
    if s.happy then
      if fs.length < n then return (fs, s)
      else
        let (rest, s) ← readLoop c (left - n) s
        return (fs ++ rest, s)
    else return ([], s)
termination_by left
decreasing_by omega

/-- `if (track->ms->isDirty() && …setup(…))` -/
def ensure (c : RCfg V α γ) (s : RSt V α) : Except Abort (RSt V α) := if s.dirty then setup c s else .ok s

/-- data.cpp:184-203: skip the frames before the seek target. -/
def skip (c : RCfg V α γ) (s : RSt V α) : Except Abort (Bool × RSt V α) := do
  if s.ignore = 0 then return (false, s)
  else if s.ignore < 0 then throw .badAlloc
  else
    let want := s.ignore
    let (fs, s) ← chainPull c want.toNat s
    return (decide ((fs.length : Int) < want), { s with ignore := 0 })

/-- `afReadFrames` (data.cpp:125-236). -/
def readFrames (c : RCfg V α γ) (wanted : Int) (s : RSt V α) : Except Abort ((Int × List (Option γ)) × RSt V α) := do
  let s ← ensure c s
  if s.fposNext < 0 then return ((-1, []), s)
  else
    let toRead : Int :=
      if s.totalv = -1 then wanted
      else if wanted > s.totalv - s.nextv then s.totalv - s.nextv else wanted
    let (eof, s) ← skip c { s with filePos := s.fposNext, happy := true }
    let (fs, s) ← if eof then pure ([], s) else readLoop c toRead.toNat s
    return ((fs.length, fs), { s with nextv := s.nextv + fs.length })

/-- `afSeekFrame` (format.cpp:101-143), `afTellFrame` (145-148). -/
def seekFrame (c : RCfg V α γ) (frame : Int) (s : RSt V α) : Except Abort (Int × RSt V α) := do
  let s ← ensure c s
  if frame < 0 then return (s.nextv, s)
  else if frame = s.nextv then return (s.nextv, s)
  else
    let frame := if s.totalv ≠ -1 ∧ frame > s.totalv then s.totalv - 1 else frame
    let s ← setup c { s with nextv := frame }
    return (s.nextv, s)

/-- One call: its return value and the frames stored. -/
def step (c : RCfg V α γ) (s : RSt V α) : Spec.Call V → Except Abort ((Int × List (Option γ)) × RSt V α)
  | .read n => readFrames c n s
  | .seek f => do let (r, s) ← seekFrame c f s; return ((r, []), s)
  | .tell => do let (r, s) ← seekFrame c (-1) s; return ((r, []), s)
  | .count => do let s ← ensure c s; return ((s.totalv, []), s)
  | .setFormat v => return ((0, []), { s with v := v, dirty := true })

/-- A sequence of calls; stops at the first abort. -/
def run (c : RCfg V α γ) (s : RSt V α) : List (Spec.Call V) → Except Abort (List (Int × List (Option γ)))
  | [] => return []
  | op :: ops => do
    let (o, s) ← step c s op
    let os ← run c s ops
    return o :: os

/-- The track right after `afOpenFile` for reading. -/
def init (c : RCfg V α γ) (v : V) : RSt V α :=
  { v := v, dirty := true, nextf := 0, ignore := 0, fposNext := c.fposFirst, totalv := 0, nextv := 0, happy := true
    filePos := c.fposFirst, held := [], eof := false, cur := 0 }

end AF.Packets
