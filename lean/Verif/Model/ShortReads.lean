import Verif.Model.Reading
/-!
# Reading when reads come short

`Verif.Model.Reading` with a file that may deliver less than it is asked for: a file that is shorter than its header says, a pipe or
network file system, a signal, a device error (FilePOSIX::read is one `read(2)`, File.cpp:124-127; the read function of a virtual
file is the user's). A negative result counts as 0 (FileModule.cpp:40-48, PCM.cpp:165, G711.cpp:196, BlockCodec.cpp:50). The `i`-th
read of audio data sees the first `seen i` bytes of the file: by the choice of `seen i` it delivers any number of the bytes it was
asked for; a file that was cut off is one with the same `seen i` for all `i`.

Simplifications: those of `Verif.Model.Reading`; the library is built as shipped, without assertions; seeking does not fail; the bytes
that are delivered are right. The first reads, which parse the header when the file is opened, are not described here.
-/
namespace AF.ShortReads
open AF AF.Reading

variable {V α γ : Type} (seen : Nat → Nat)

/-- The file as a read sees it that gets no further than byte `m`. -/
def upto (c : Cfg V α γ) (m : Nat) : Cfg V α γ := { c with file := c.file.take m }

/-- The state of `Verif.Model.Reading` and the number of reads so far. -/
structure FSt (V α : Type) where
  s : St V α
  tick : Nat

/-- `PCM::runPull` (PCM.cpp:141-182), `G711::runPull` (G711.cpp:192-221), `BlockCodec::runPull` (BlockCodec.cpp:40-69). -/
def filePull (c : Cfg V α γ) (n : Int) (x : FSt V α) : Except Abort (List α × FSt V α) := do
  let (fs, s) ← Reading.filePull (upto c (seen x.tick)) n x.s
  return (fs, ⟨s, x.tick + 1⟩)

/-- The loop of `RebufferModule::runPull` (RebufferModule.cpp:109-153): it does not look at `filemodhappy`. -/
def rebufLoop (c : Cfg V α γ) (want : Nat) (x : FSt V α) : Except Abort (List α × Int × FSt V α) := do
  if _hw : want = 0 then return ([], 0, x)
  else if x.s.eof then return ([], (want : Int), x)
  else
    let (fs, x) ← filePull seen c c.fpp x
    if fs.length = c.fpp then
      if want < c.fpp then
        return (fs.take want, (want : Int) - c.fpp, { x with s := { x.s with held := fs.drop want } })
      else
        let (rest, left, x) ← rebufLoop c (want - c.fpp) x
        return (fs ++ rest, left, x)
    else
      let x := { x with s := { x.s with eof := true } }
      if want < fs.length then
        return (fs.take want, (want : Int) - fs.length, { x with s := { x.s with held := fs.drop want } })
      else
        return (fs, (want : Int) - fs.length, x)
termination_by want
decreasing_by have := c.fpp_pos; omega

/-- `RebufferModule::runPull` (RebufferModule.cpp:85-169). -/
def rebufPull (c : Cfg V α γ) (n : Nat) (x : FSt V α) : Except Abort (List α × FSt V α) := do
  let out := x.s.held.take n
  if n < x.s.held.length then
    return (out, { x with s := { x.s with held := x.s.held.drop n } })
  else
    let want := n - x.s.held.length
    let x := { x with s := { x.s with held := [] } }
    let (more, left, x) ← rebufLoop seen c want x
    if x.s.eof && decide (left > 0) then
      return (out ++ more, { x with s := { x.s with sent := true } })
    else
      return (out ++ more, x)

/-- The first modules of the chain (ModuleState.cpp:321-325). -/
def sourcePull (c : Cfg V α γ) (n : Nat) (x : FSt V α) : Except Abort (List α × FSt V α) :=
  match c.kind with
  | .block => rebufPull seen c n x
  | _ => filePull seen c n x

/-- The whole chain; conversion modules keep the frame count that was asked for (SimpleModule.cpp:26-30). -/
def chainPull (c : Cfg V α γ) (n : Nat) (x : FSt V α) : Except Abort (List (Option γ) × FSt V α) := do
  let (fs, x) ← sourcePull seen c n x
  let out := fs.map (fun a => some (c.conv x.s.v a))
  if c.hasConv x.s.v then
    return (out ++ List.replicate (n - out.length) none, x)
  else return (out, x)

/-- The chunk loop of `afReadFrames` (data.cpp:205-230). -/
def readLoop (c : Cfg V α γ) (left : Nat) (x : FSt V α) : Except Abort (List (Option γ) × FSt V α) := do
  if _hl : left = 0 then return ([], x)
  else if x.s.happy = false then return ([], x)
  else
    let n := min 1024 left
    let (fs, x) ← chainPull seen c n x
    if x.s.happy then
      if fs.length < n then return (fs, x)
      else
        let (rest, x) ← readLoop c (left - n) x
        return (fs ++ rest, x)
    else return ([], x)
termination_by left
decreasing_by omega

/-- data.cpp:184-203: the frames before the target of a seek are pulled and dropped; the result says whether the end was met. -/
def skipFrames (c : Cfg V α γ) (x : FSt V α) : Except Abort (Bool × FSt V α) := do
  if x.s.ignore ≠ 0 then
    if x.s.ignore < 0 then throw .badAlloc
    let want := x.s.ignore
    let (fs, x) ← chainPull seen c want.toNat x
    return (decide ((fs.length : Int) < want), { x with s := { x.s with ignore := 0 } })
  else return (false, x)

/-- `afReadFrames` (data.cpp:125-236). -/
def readFrames (c : Cfg V α γ) (wanted : Int) (x : FSt V α) : Except Abort ((Int × List (Option γ)) × FSt V α) := do
  let s := if x.s.dirty then setup c x.s else x.s
  if c.seekok ∧ s.fposNext < 0 then return ((-1, []), { x with s := s })
  let s := if c.seekok then { s with filePos := s.fposNext } else s
  let toRead : Int :=
    if s.totalv = -1 then wanted
    else if wanted > s.totalv - s.nextv then s.totalv - s.nextv else wanted
  let s := { s with happy := true }
  let (eof, x) ← skipFrames seen c { x with s := s }
  let (fs, x) ← if eof then pure ([], x) else readLoop seen c toRead.toNat x
  return ((fs.length, fs), { x with s := { x.s with nextv := x.s.nextv + fs.length } })

/-- One call; the others do not read. -/
def step (c : Cfg V α γ) (x : FSt V α) : Op V → Except Abort (Obs γ × FSt V α)
  | .read n => readFrames seen c n x
  | op => do
    let (o, s) ← Reading.step c x.s op
    return (o, { x with s := s })

/-- A sequence of calls. -/
def run (c : Cfg V α γ) (x : FSt V α) : List (Op V) → Except Abort (List (Obs γ) × FSt V α)
  | [] => return ([], x)
  | op :: ops => do
    let (o, x) ← step seen c x op
    let (os, x) ← run c x ops
    return (o :: os, x)

/-- What a program sees. -/
def observe (c : Cfg V α γ) (v : V) (ops : List (Op V)) : Except Abort (List (Obs γ)) := do
  let (os, _) ← run seen c ⟨init c v, 0⟩ ops
  return os

end AF.ShortReads
