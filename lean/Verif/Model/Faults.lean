import Verif.Model.Writing
/-!
# Writing when the disk is full or a write fails

`Verif.Model.Writing` with a file that may take less than it is given (FilePOSIX::write is one `write(2)`, File.cpp:129-132; the
write function of a virtual file is the user's, af_vfs.cpp). All modules treat a negative result like 0 (PCM.cpp:108, G711.cpp:144,
BlockCodec.cpp:102), so only the number of bytes that were taken matters: the `i`-th write of `n` bytes takes
`min (taken i n) n` of them, the first ones.

Simplifications: those of `Verif.Model.Writing`; the library is built as shipped, without assertions; seeking does not fail;
`update()` reports success (the results of its writes are not looked at).
-/
namespace AF.Faults
open AF AF.Writing

/-- The state of `Verif.Model.Writing`, `Track::filemodhappy` (Track.h:88) and the number of writes so far. -/
structure FSt (V α ε : Type) where
  s : St V α ε
  happy : Bool
  tick : Nat

variable {V α γ ε : Type} (taken : Nat → Nat → Nat)

/-- `FileModule::write` (FileModule.cpp:50-59): positions and sizes move by what was taken; the result. -/
def fwrite (bs : List Byte) (x : FSt V α ε) : Nat × FSt V α ε :=
  let k := min (taken x.tick bs.length) bs.length
  (k, { x with s := Writing.fwrite (bs.take k) x.s, tick := x.tick + 1 })

/-- `PCM::runPush` (PCM.cpp:91-122), `G711::runPush` (G711.cpp:123-154), `BlockCodec::runPush` (BlockCodec.cpp:89-112);
`reportWriteError` (FileModule.cpp:90-117) clears `filemodhappy`. -/
def filePush (c : Cfg V α γ ε) (buf : List α) (n : Nat) (x : FSt V α ε) : FSt V α ε :=
  match c.kind with
  | .block =>
    let blocks := (n + c.fpp - 1) / c.fpp
    let (bs, e) := encodePackets c x.s.enc (buf.take (blocks * c.fpp))
    let (k, x) := fwrite taken bs { x with s := { x.s with enc := e } }
    let written := min (k / c.bpp * c.fpp) n
    let x := { x with s := { x.s with nextf := x.s.nextf + written } }
    let x := { x with s := { x.s with totalf := x.s.nextf } }
    if written < n then { x with happy := false } else x
  | _ =>
    let (bs, e) := encodePackets c x.s.enc (buf.take n)
    let (k, x) := fwrite taken bs { x with s := { x.s with enc := e } }
    let written := k / c.bpp
    let x := if written ≠ n then { x with happy := false } else x
    let x := { x with s := { x.s with nextf := x.s.nextf + written } }
    { x with s := { x.s with totalf := x.s.nextf } }

/-- The loop of `RebufferModule::runPush` (RebufferModule.cpp:214-228): it goes on whether the file module is happy or not. -/
def pushLoop (c : Cfg V α γ ε) (held fs : List α) (x : FSt V α ε) : List α × List α × FSt V α ε :=
  if _h : held.length < c.fpp ∧ c.fpp ≤ held.length + fs.length then
    let block := held ++ fs.take (c.fpp - held.length)
    let x := filePush taken c block c.fpp { x with s := { x.s with outBuf := block } }
    pushLoop c [] (fs.drop (c.fpp - held.length)) x
  else (held, fs, x)
termination_by fs.length
decreasing_by have := c.fpp_pos; simp; omega

/-- `RebufferModule::runPush` (RebufferModule.cpp:184-248). -/
def rebufPush (c : Cfg V α γ ε) (fs : List α) (x : FSt V α ε) : FSt V α ε :=
  let (held, fs, x) := pushLoop taken c x.s.held fs x
  { x with s := { x.s with held := held ++ fs } }

/-- One chunk down the chain (ModuleState.cpp:405-409). -/
def chainPush (c : Cfg V α γ ε) (xs : List γ) (x : FSt V α ε) : FSt V α ε :=
  let fs := xs.map (c.conv x.s.v)
  match c.kind with
  | .block => rebufPush taken c fs x
  | _ => filePush taken c fs fs.length x

/-- The chunk loop of `afWriteFrames` (data.cpp:98-114): a chunk counts if the file module is happy after it; otherwise the loop
ends. -/
def writeLoop (c : Cfg V α γ ε) (xs : List γ) (x : FSt V α ε) : Nat × FSt V α ε :=
  if _h : xs.length = 0 then (0, x)
  else
    let x := chainPush taken c (xs.take 1024) x
    if x.happy then
      let (k, x) := writeLoop c (xs.drop 1024) x
      ((xs.take 1024).length + k, x)
    else (0, x)
termination_by xs.length
decreasing_by simp; omega

/-- `afWriteFrames` (data.cpp:42-123) of the frames `xs`; returns the number of frames counted. -/
def writeFrames (c : Cfg V α γ ε) (xs : List γ) (x : FSt V α ε) : Int × FSt V α ε :=
  let x := if x.s.dirty then { x with s := setup c x.s } else x
  if c.first + x.s.fposNext < 0 then (-1, x)
  else
    let x := { x with s := { x.s with filePos := x.s.fposNext }, happy := true }
    let (k, x) := writeLoop taken c xs x
    (k, { x with s := { x.s with nextv := x.s.nextv + k, totalv := x.s.totalv + k } })

/-- `ModuleState::sync` (ModuleState.cpp:230-242): `filemodhappy` is looked at between `sync1` of all modules and `sync2` of all
modules; only `RebufferModule::sync2` writes. -/
def syncModules (c : Cfg V α γ ε) (x : FSt V α ε) : Int × FSt V α ε :=
  let x := { x with happy := true }
  let savedNextf := if c.kind = .pcm then wrapS 32 x.s.nextf else x.s.nextf
  let savedPos := if c.kind = .pcm then wrapS 32 (c.first + x.s.fposNext) - c.first else x.s.fposNext
  let savedHeld := x.s.held
  if !x.happy then (-1, x)
  else
    let x := match c.kind with
      | .block =>
        let x := { x with s := { x.s with outBuf := x.s.held ++ x.s.outBuf.drop x.s.held.length } }
        let x := filePush taken c x.s.outBuf x.s.held.length x
        { x with s := { x.s with held := savedHeld } }
      | _ => x
    (0, { x with s := { x.s with fposNext := savedPos, nextf := savedNextf } })

/-- `afSyncFile` (openclose.cpp:408-443) on a file opened for writing. -/
def syncFile (c : Cfg V α γ ε) (x : FSt V α ε) : Int × FSt V α ε :=
  let x := if x.s.dirty then { x with s := setup c x.s } else x
  let (r, x) := syncModules taken c x
  if r ≠ 0 then (-1, x)
  else (0, { x with s := { x.s with filePos := c.afterUpdate.getD x.s.filePos } })

/-- A call and its result. -/
def step (c : Cfg V α γ ε) (x : FSt V α ε) : Op V γ → Int × FSt V α ε
  | .write xs => writeFrames taken c xs x
  | .sync => syncFile taken c x
  | .setFormat v => (0, { x with s := { x.s with v := v, dirty := true } })

def run (c : Cfg V α γ ε) (x : FSt V α ε) : List (Op V γ) → List Int × FSt V α ε
  | [] => ([], x)
  | op :: ops =>
    let (r, x) := step taken c x op
    let (rs, x) := run c x ops
    (r :: rs, x)

/-- `afCloseFile` (openclose.cpp:445-462) does not look at the result of `afSyncFile` and returns 0. -/
def close (c : Cfg V α γ ε) (x : FSt V α ε) : Int × Final :=
  let (_, x) := syncFile taken c x
  (0, ⟨x.s.data, x.s.dataSize, x.s.totalf⟩)

/-- Open, make the calls, close: the results of the calls, the result of `afCloseFile`, and what is left on disk. -/
def session (c : Cfg V α γ ε) (e : ε) (v : V) (ops : List (Op V γ)) : List Int × Int × Final :=
  let (rs, x) := run taken c ⟨init e v, true, 0⟩ ops
  (rs, close taken c x)

end AF.Faults
