import Verif.Model.Convert
/-!
# The buffers between the modules

`ModuleState::setup` (modules/ModuleState.cpp:109-201) makes one buffer size and gives a buffer of that size to every chunk
but the caller's. This file models how that size is computed and which bytes of which buffer every module touches when
frames are read and written: `afReadFrames`, `afWriteFrames` (data.cpp), `RebufferModule`, the file modules, the conversion
modules. Only sizes and counts are modelled, not contents: what the samples are does not decide how many of them there are.

Simplifications:
* every module touches a prefix of its input buffer and a prefix of its output buffer; the model has the length of the prefix;
* how many bytes the file delivers at each `read`, and how long each packet the ALAC encoder makes is, are an arbitrary list
  (`answers`): the models of Verif/Model/Reading.lean and Verif/Model/PacketTrack.lean compute them from the file. The
  limitation of `PCM::runPull` to the frames left in the track (PCM.cpp:158-162) is one such answer;
* virtual sample rate = file sample rate; numbers of channels are not negative;
* a sample count that does not fit `int` (`int count = …`, SimpleModule.h) is an error;
* whole blocks only: what a block decoder reads and stores inside a block is Verif/Model/IMA.lean, Verif/Model/MSADPCM.lean and
  Verif/Model/ALAC.
-/
namespace AF.Buffers
open AF.Convert

/-- `AudioFormat::bytesPerFrame(stretch3to4)` (AudioFormat.cpp:50-53). -/
def bytesPerFrame (f : Fmt) (stretch3to4 : Bool) : Nat := f.bytesPerSample stretch3to4 * f.channels

/-- The file modules (units.cpp:263-378). `block`: IMA and MS ADPCM. -/
inductive Codec | pcm | g711 | block | alac
  deriving DecidableEq, Repr

/-- `needsRebuffer` (units.cpp:281, 294, 307, 320, 333, 363). -/
def Codec.rebuffers : Codec → Bool
  | .pcm => false | .g711 => false | .block => true | .alac => true

/-- A track. `f` is `track->f`; `fpp`, `bpp`: its `framesPerPacket`, `bytesPerPacket`; `total`: `totalfframes`, `none` for −1;
`sizes`: the packet table; `frames i`: how many frames packet `i` decodes to (ALAC). `h`: the byte order of the machine. -/
structure Cfg where
  h : Endian
  codec : Codec
  f : Fmt
  fpp : Nat
  bpp : Nat
  fpp_pos : 0 < fpp
  total : Option Nat
  sizes : List Nat := []
  frames : Nat → Nat := fun _ => 0

/-- `describe()` of the file modules when reading: `PCM` has none; `G711` (G711.cpp:174-185), `IMA` (IMA.cpp:365-370), `MSADPCM`
(MSADPCM.cpp:331-336), `ALAC` (ALAC.cpp:162-167). -/
def Cfg.decoded (c : Cfg) : Fmt :=
  match c.codec with
  | .pcm => c.f
  | _ => { c.f with byteOrder := c.h, compressed := false }

/-- Formats of the chunks before, between and after the conversion modules (`addModule`, ModuleState.cpp:444-456). -/
def chunkFormats (g : Fmt) : List Module → List Fmt
  | [] => [g]
  | m :: ms => g :: chunkFormats (m.describe g) ms

/-! ## How large the buffers are -/

/-- `int bufsize = frames * bytes` (ModuleState.cpp:132, 153): a `size_t` product converted to `int`. -/
def bufsize (frames bytes : Nat) : Int := wrapS 32 ((frames * bytes : Nat) : Int)

/-- `m_fileModule->bufferSize()`: FileModule.cpp:119-125 with the frame count of its far chunk, ALAC.cpp:268-272. `g` is the
format on the near side of the file module. -/
def fileBufferSize (c : Cfg) (g : Fmt) : Int :=
  match c.codec with
  | .alac => wrapS 32 ((c.fpp * c.f.channels * ((10 + c.f.width) / 8) + 1 : Nat) : Int)
  | .block => bufsize c.fpp (bytesPerFrame g true)
  | _ => bufsize 1024 (bytesPerFrame g true)

/-- `if (bufsize > maxbufsize) maxbufsize = bufsize` over all chunks (ModuleState.cpp:121-169). -/
def largest (l : List Int) : Int := l.foldl (fun m x => if x > m then x else m) 0

/-- `maxbufsize`. `gs`: formats of the chunks from the conversion modules' source to their sink, all with
`_AF_ATOMIC_NVFRAMES` = 1024 frames (`Module::maxPull`, `maxPush`, Module.cpp:48-56); `g` the format between the file module
and the rebuffer module, `fpp` frames (`RebufferModule::maxPull`, `maxPush`, RebufferModule.cpp:67-83, `m_multipleOf` false). -/
def maxbufsize (c : Cfg) (gs : List Fmt) (g : Fmt) : Nat :=
  (largest (gs.map (fun g => bufsize 1024 (bytesPerFrame g true)) ++
    (if c.codec.rebuffers then [bufsize c.fpp (bytesPerFrame g true)] else []) ++ [fileBufferSize c g])).toNat

/-! ## What the modules touch -/

/-- Use the first `bytes` bytes of a buffer of `cap` bytes. -/
def use (cap bytes : Nat) : Except Abort Unit := if bytes ≤ cap then .ok () else .error .bufferOverflow

/-- Divide by `n`. -/
def divisor (n : Nat) : Except Abort Unit := if n = 0 then .error .divisionByZero else .ok ()

/-- Bytes per sample a conversion module reads and stores (`run` of the classes of SimpleModule.h; `transform<…>` uses the C types
of `IntTypes`, `float` and `double`). -/
def inSample : Module → Nat
  | .swap k => k
  | .expand3to4 _ => 3
  | .compress4to3 _ => 4
  | .sign c _ => c.storage
  | .clip c _ => c.storage
  | .intToFloat i _ => i.storage
  | .transform c _ _ => c.storage
  | .convertInt i _ => i.storage
  | .floatToInt i _ _ _ => i.storage
  | .convertFloat i _ => i.storage
  | .channelMatrix c _ _ _ _ => c.storage

/-- See `inSample`. -/
def outSample : Module → Nat
  | .swap k => k
  | .expand3to4 _ => 4
  | .compress4to3 _ => 3
  | .sign c _ => c.storage
  | .clip c _ => c.storage
  | .intToFloat _ o => o.storage
  | .transform c _ _ => c.storage
  | .convertInt _ o => o.storage
  | .floatToInt _ o _ _ => o.storage
  | .convertFloat _ o => o.storage
  | .channelMatrix c _ _ _ _ => c.storage

/-- Samples per frame read and stored: the channels of the input chunk, but those given to its constructor for
`ApplyChannelMatrix` (SimpleModule.cpp:107-127). -/
def inChannels (m : Module) (g : Fmt) : Nat :=
  match m with
  | .channelMatrix _ ic _ _ _ => ic
  | _ => g.channels

/-- See `inChannels`. -/
def outChannels (m : Module) (g : Fmt) : Nat :=
  match m with
  | .channelMatrix _ _ oc _ _ => oc
  | _ => g.channels

/-- Run the conversion modules one after the other; `g` is the format of the first input chunk and `n` its frame count.
When reading, `SimpleModule::runPull` (SimpleModule.cpp:26-30) leaves the frame count of its output chunk at what was asked
for, `req`, whatever it received; when writing (`runPush`, 32-37) all counts are equal. `cin`, `clast`: capacities of the first
and the last buffer, `cap`: of the others. -/
def runConvs (cap clast req : Nat) : List Module → (cin : Nat) → Fmt → (n : Nat) → Except Abort Unit
  | [], _, _, _ => .ok ()
  | m :: ms, cin, g, n => do
    if 2 ^ 31 ≤ g.channels * n then throw .signedOverflow
    use cin (n * (inChannels m g * inSample m))
    let cout := if ms.isEmpty then clast else cap
    use cout (n * (outChannels m g * outSample m))
    runConvs cap clast req ms cout (m.describe g) req

/-! ## Reading -/

/-- The mutable part of a track being read. `mods` and `cap` are what `setup` made; `held` is the number of frames in the rebuffer
module, `cur` the next packet (ALAC). -/
structure RSt where
  v : Fmt
  dirty : Bool
  mods : List Module
  cap : Nat
  nextv : Nat
  ignore : Nat
  held : Nat
  eof : Bool
  cur : Nat
  happy : Bool
  answers : List Nat

/-- What the next `read` of `request` bytes delivers. -/
def fread (request : Nat) (s : RSt) : Nat × RSt :=
  (min (s.answers.headD 0) request, { s with answers := s.answers.tail })

/-- `runPull` of the file modules for `n` frames: `PCM` (PCM.cpp:141-182) reads into its output chunk; `G711` (G711.cpp:192-226),
`BlockCodec` (BlockCodec.cpp:40-69) and `ALAC` (ALAC.cpp:225-250) read into their input chunk and decode into their output chunk.
`cin`, `cout`: capacities. Returns the frame count of the output chunk. -/
def filePull (c : Cfg) (cin cout n : Nat) (s : RSt) : Except Abort (Nat × RSt) := do
  match c.codec with
  | .pcm =>
    let (b, s) := fread (n * bytesPerFrame c.f false) s
    use cout b
    divisor (bytesPerFrame c.f false)
    let r := b / bytesPerFrame c.f false
    return (r, if r ≠ n ∧ c.total.isSome then { s with happy := false } else s)
  | .g711 =>
    let (b, s) := fread (n * c.f.channels) s
    use cin b
    use cin (n * c.f.channels)
    use cout (n * (2 * c.f.channels))
    divisor c.f.channels
    let r := b / c.f.channels
    return (r, if r ≠ n ∧ c.total.isSome then { s with happy := false } else s)
  | .block =>
    let (b, s) := fread (c.bpp * (n / c.fpp)) s
    use cin b
    divisor c.bpp
    let k := b / c.bpp
    use cin (k * c.bpp)
    use cout (k * c.fpp * (2 * c.f.channels))
    return (k * c.fpp, if k * c.fpp < n then { s with happy := false } else s)
  | .alac =>
    match c.sizes[s.cur]? with
    | none => return (0, s)
    | some p =>
      let (b, s) := fread p s
      use cin b
      if b < p then return (n, { s with happy := false })
      else
        let r := c.frames s.cur
        use cout (r * bytesPerFrame c.f false)
        return (r, { s with cur := s.cur + 1 })

/-- The loop of `RebufferModule::runPull` (RebufferModule.cpp:109-153): `want` frames are still to come, `got` are in the output
buffer of `cout` bytes. Returns how many there are in the end. -/
def rebufLoop (c : Cfg) (cap cout want got : Nat) (s : RSt) : Except Abort (Nat × RSt) := do
  if _hw : want = 0 then return (got, s)
  else if s.eof then return (got, s)
  else
    let bytes := bytesPerFrame c.f false
    let (r, s) ← filePull c cap cap c.fpp s
    use cap (min want r * bytes)
    use cout ((got + min want r) * bytes)
    if want < r then
      -- keep the rest in m_buffer, of fpp frames
      use cap (r * bytes)
      use (c.fpp * bytes) ((r - want) * bytes)
      return (got + want, { s with held := r - want, eof := s.eof || r ≠ c.fpp })
    else if r = c.fpp then rebufLoop c cap cout (want - c.fpp) (got + c.fpp) s
    else return (got + r, { s with eof := true })
termination_by want
decreasing_by have := c.fpp_pos; omega

/-- `RebufferModule::runPull` (RebufferModule.cpp:85-169); the frames held are the last ones of `m_buffer`. -/
def rebufPull (c : Cfg) (cap cout n : Nat) (s : RSt) : Except Abort (Nat × RSt) := do
  let bytes := bytesPerFrame c.f false
  use cout (min n s.held * bytes)
  if n < s.held then return (n, { s with held := s.held - n })
  else rebufLoop c cap cout (n - s.held) s.held { s with held := 0 }

/-- The first modules of the chain (ModuleState.cpp:321-325). -/
def sourcePull (c : Cfg) (cap cout n : Nat) (s : RSt) : Except Abort (Nat × RSt) :=
  if c.codec.rebuffers then rebufPull c cap cout n s else filePull c cap cout n s

/-- The chain for `n` frames into a buffer of the caller of `user` bytes: file module, rebuffer module if any, conversion modules. -/
def chainPull (c : Cfg) (user n : Nat) (s : RSt) : Except Abort (Nat × RSt) := do
  let cout := if s.mods.isEmpty then user else s.cap
  let (r, s) ← sourcePull c s.cap cout n s
  runConvs s.cap user n s.mods cout c.decoded r
  return (if s.mods.isEmpty then r else n, s)

/-- `ModuleState::setup` when reading (ModuleState.cpp:109-201) and `reset` (213-230) with `RebufferModule::reset1`
(RebufferModule.cpp:171-177), `BlockCodec::reset1/2` (BlockCodec.cpp:71-87), `ALAC::reset1/2` (ALAC.cpp:252-266); `none`: the formats
cannot be converted. -/
def setup (c : Cfg) (s : RSt) : Option RSt :=
  (arrange c.h true c.f s.v).map fun ch =>
    { s with
        dirty := false
        mods := ch.mods
        cap := maxbufsize c (chunkFormats c.decoded ch.mods) c.decoded
        held := 0, eof := false
        cur := s.nextv / c.fpp
        ignore := if c.codec.rebuffers then s.nextv % c.fpp else 0 }

/-- `if (track->ms->isDirty() && track->ms->setup(file, track) == AF_FAIL) return -1` -/
def ensure (c : Cfg) (s : RSt) : Option RSt := if s.dirty then setup c s else some s

/-- The chunk loop of `afReadFrames` (data.cpp:205-230). `left` is `nvframes2read - vframe`, so the part of the caller's buffer
from `userc->buffer` on has `left` frames. Returns the frames counted. -/
def readLoop (c : Cfg) (left : Nat) (s : RSt) : Except Abort (Nat × RSt) := do
  if _hl : left = 0 then return (0, s)
  else if s.happy = false then return (0, s)
  else
    let n := min 1024 left
    let (r, s) ← chainPull c (left * bytesPerFrame s.v true) n s
    if s.happy then
      if r < n then return (r, s)
      else
        let (k, s) ← readLoop c (left - n) s
        return (n + k, s)
    else return (0, s)
termination_by left
decreasing_by omega

/-- The frames between the start of the packet and the position go to a buffer of their own (data.cpp:184-203). The flag says that
the data ended. -/
def skip (c : Cfg) (s : RSt) : Except Abort (Bool × RSt) :=
  if s.ignore = 0 then .ok (false, s)
  else do
    let (r, s') ← chainPull c (s.ignore * bytesPerFrame s.v true) s.ignore s
    return (decide (r < s.ignore), { s' with ignore := 0 })

/-- How many frames to read (data.cpp:156-163). -/
def framesToRead (c : Cfg) (wanted : Nat) (s : RSt) : Nat :=
  match c.total with
  | none => wanted
  | some t => min wanted (t - s.nextv)

/-- `afReadFrames` (data.cpp:125-236) into a buffer for `wanted` frames, on a track that has been set up. -/
def readReady (c : Cfg) (wanted : Nat) (s : RSt) : Except Abort RSt := do
  let (stop, s) ← skip c { s with happy := true }
  if stop then return s
  else
    let (k, s) ← readLoop c (framesToRead c wanted s) s
    return { s with nextv := s.nextv + k }

/-- `afReadFrames`. -/
def readFrames (c : Cfg) (wanted : Nat) (s : RSt) : Except Abort RSt :=
  match ensure c s with
  | none => return s
  | some s => readReady c wanted s

/-- `afSeekFrame` (format.cpp:101-143) to a frame that is not negative. Beyond the end of an empty track it goes to −1 (C16). -/
def seekFrame (c : Cfg) (frame : Nat) (s : RSt) : Except Abort RSt := do
  match ensure c s with
  | none => return s
  | some s =>
    if frame = s.nextv then return s
    else match c.total with
      | some 0 => if frame = 0 then return (setup c { s with nextv := 0 }).getD s else throw .badAlloc
      | some (t + 1) => return (setup c { s with nextv := if frame > t + 1 then t else frame }).getD s
      | none => return (setup c { s with nextv := frame }).getD s

/-- The calls of a reading program. `setFormat`: the `afSetVirtual…` calls (format.cpp:150-346), which set `m_isDirty`. -/
inductive ROp
  | read (n : Nat)
  | seek (frame : Nat)
  | setFormat (v : Fmt)

def rstep (c : Cfg) (s : RSt) : ROp → Except Abort RSt
  | .read n => readFrames c n s
  | .seek f => seekFrame c f s
  | .setFormat v => return { s with v := v, dirty := true }

def rrun (c : Cfg) (s : RSt) : List ROp → Except Abort RSt
  | [] => return s
  | op :: ops => do let s ← rstep c s op; rrun c s ops

/-- The track right after `afOpenFile`. -/
def ropen (v : Fmt) (answers : List Nat) : RSt :=
  { v, dirty := true, mods := [], cap := 0, nextv := 0, ignore := 0, held := 0, eof := false, cur := 0, happy := true, answers }

/-! ## Writing -/

/-- The mutable part of a track being written; `held` is `m_offset` of the rebuffer module. -/
structure WSt where
  v : Fmt
  dirty : Bool
  mods : List Module
  cap : Nat
  held : Nat
  answers : List Nat

/-- `runPush` of the file modules for `n` frames: `PCM` (PCM.cpp:93-122), `G711` (G711.cpp:123-154), `BlockCodec` (BlockCodec.cpp:89-112),
`ALAC` (ALAC.cpp:274-325; the next answer is the length of the packet). Write errors are not modelled. -/
def filePush (c : Cfg) (cin cout n : Nat) (s : WSt) : Except Abort WSt := do
  match c.codec with
  | .pcm =>
    use cin (n * bytesPerFrame c.f false)
    divisor (bytesPerFrame c.f false)
    return s
  | .g711 =>
    use cin (n * (2 * c.f.channels))
    use cout (n * c.f.channels)
    divisor c.f.channels
    return s
  | .block =>
    let k := (n + c.fpp - 1) / c.fpp
    use cin (k * c.fpp * (2 * c.f.channels))
    use cout (k * c.bpp)
    divisor c.bpp
    return s
  | .alac =>
    use cin (n * bytesPerFrame c.f false)
    use cout (s.answers.headD 0)
    return { s with answers := s.answers.tail }

/-- The loop of `RebufferModule::runPush` (RebufferModule.cpp:213-230): `left` frames of the input, of which `used` have been
taken, are still to go. -/
def pushLoop (c : Cfg) (cin cap left used : Nat) (s : WSt) : Except Abort (Nat × Nat × WSt) := do
  if _h : s.held + left ≥ c.fpp ∧ s.held < c.fpp then
    let bytes := bytesPerFrame c.f false
    let n := c.fpp - s.held
    use cin ((used + n) * bytes)
    use cap ((s.held + n) * bytes)
    let s ← filePush c cap cap c.fpp s
    pushLoop c cin cap (left - n) (used + n) { s with held := 0 }
  else return (left, used, s)
termination_by left
decreasing_by omega

/-- `RebufferModule::runPush` (RebufferModule.cpp:184-243), `m_multipleOf` false. -/
def rebufPush (c : Cfg) (cin cap n : Nat) (s : WSt) : Except Abort WSt := do
  let bytes := bytesPerFrame c.f false
  if s.held + n ≥ c.fpp then use cap (s.held * bytes)
  let (left, used, s) ← pushLoop c cin cap n 0 s
  use cin ((used + left) * bytes)
  use (c.fpp * bytes) ((s.held + left) * bytes)
  return { s with held := s.held + left }

/-- One chunk of `n` frames down the chain, from a buffer of the caller of `user` bytes. -/
def chainPush (c : Cfg) (user n : Nat) (s : WSt) : Except Abort WSt := do
  runConvs s.cap s.cap n s.mods user s.v n
  let cin := if s.mods.isEmpty then user else s.cap
  if c.codec.rebuffers then rebufPush c cin s.cap n s else filePush c cin s.cap n s

/-- The format the conversion modules end in: that of the last but one chunk. -/
def lastFormat (g : Fmt) (ms : List Module) : Fmt := ms.foldl (fun g m => m.describe g) g

/-- `ModuleState::setup` when writing (ModuleState.cpp:109-201). -/
def wsetup (c : Cfg) (s : WSt) : Option WSt :=
  (arrange c.h false s.v c.f).map fun ch =>
    { s with
        dirty := false
        mods := ch.mods
        cap := maxbufsize c (chunkFormats s.v ch.mods) (lastFormat s.v ch.mods) }

def wensure (c : Cfg) (s : WSt) : Option WSt := if s.dirty then wsetup c s else some s

/-- The chunk loop of `afWriteFrames` (data.cpp:98-114). -/
def writeLoop (c : Cfg) (left : Nat) (s : WSt) : Except Abort WSt := do
  if _hl : left = 0 then return s
  else
    let n := min 1024 left
    let s ← chainPush c (left * bytesPerFrame s.v true) n s
    writeLoop c (left - n) s
termination_by left
decreasing_by omega

/-- `afWriteFrames` (data.cpp:42-123) from a buffer of `n` frames. -/
def writeFrames (c : Cfg) (n : Nat) (s : WSt) : Except Abort WSt :=
  match wensure c s with
  | none => return s
  | some s => writeLoop c n s

/-- `ModuleState::sync` (ModuleState.cpp:232-242): `RebufferModule::sync1/2` (RebufferModule.cpp:245-271) sends on what it holds. -/
def syncFile (c : Cfg) (s : WSt) : Except Abort WSt := do
  match wensure c s with
  | none => return s
  | some s =>
    if c.codec.rebuffers then
      let held := s.held
      use s.cap (held * bytesPerFrame c.f false)
      let s ← filePush c s.cap s.cap held s
      return { s with held := held }
    else return s

/-- The calls of a writing program. -/
inductive WOp
  | write (n : Nat)
  | sync
  | setFormat (v : Fmt)

def wstep (c : Cfg) (s : WSt) : WOp → Except Abort WSt
  | .write n => writeFrames c n s
  | .sync => syncFile c s
  | .setFormat v => return { s with v := v, dirty := true }

def wrun (c : Cfg) (s : WSt) : List WOp → Except Abort WSt
  | [] => return s
  | op :: ops => do let s ← wstep c s op; wrun c s ops

/-- The track right after `afOpenFile`. -/
def wopen (v : Fmt) (answers : List Nat) : WSt := { v, dirty := true, mods := [], cap := 0, held := 0, answers }

end AF.Buffers
