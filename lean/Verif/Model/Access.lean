import Verif.Model.Meta
import Verif.Model.Reading
import Verif.Model.Writing
/-!
# The access checks of the API

An open file as the public calls see it: metadata (`Meta.Handle`, which holds `m_access`) and the audio state. In the
C++ one `Track` serves both directions; here it appears as the state of the reader and the state of the writer, so
that an unguarded call in the wrong direction would have an effect.
-/
namespace AF.Access

variable {V α γ ε : Type}

structure File (V α γ ε : Type) where
  info : Meta.Handle
  rcfg : Reading.Cfg V α γ
  rd : Reading.St V α
  wcfg : Writing.Cfg V α γ ε
  wr : Writing.St V α ε

inductive Call (V γ : Type)
  | info (op : Meta.Op)
  | readFrames (track n : Int)
  | writeFrames (track : Int) (xs : List γ)
  | seekFrame (track frame : Int)
  | sync

/-- What the caller gets: a return value and frames, or the result of a metadata call. -/
inductive Ret (γ : Type)
  | frames (n : Int) (fs : List (Option γ))
  | num (n : Int)
  | info (r : Meta.Ret)

/-- afReadFrames (data.cpp:125-143), afWriteFrames (data.cpp:42-60), afSeekFrame (format.cpp:101-111): the checks in
front of what `Reading` and `Writing` model; afSyncFile (openclose.cpp:408-443). -/
def step (f : File V α γ ε) : Call V γ → Except Abort (Ret γ × File V α γ ε)
  | .info op => do
    let (r, h) ← Meta.step f.info op
    return (.info r, { f with info := h })
  | .readFrames t n =>
    if f.info.access ≠ .read then .ok (.frames (-1) [], f) else
    match f.info.getTrack t with
    | none => .ok (.frames (-1) [], f)
    | some _ => do
      let ((r, fs), s) ← Reading.readFrames f.rcfg n f.rd
      return (.frames r fs, { f with rd := s })
  | .writeFrames t xs =>
    if f.info.access ≠ .write then .ok (.num (-1), f) else
    match f.info.getTrack t with
    | none => .ok (.num (-1), f)
    | some _ => do
      let (r, s) ← Writing.writeFrames f.wcfg xs f.wr
      return (.num r, { f with wr := s })
  | .seekFrame t fr =>
    if f.info.access ≠ .read then .ok (.num (-1), f) else
    match f.info.getTrack t with
    | none => .ok (.num (-1), f)
    | some _ =>
      let (r, s) := Reading.seekFrame f.rcfg fr f.rd
      .ok (.num r, { f with rd := s })
  | .sync =>
    if f.info.access = .write then do
      let s ← Writing.syncFile f.wcfg f.wr
      return (.num 0, { f with wr := s })
    else .ok (.num 0, f)

/-- A history of calls. -/
def run (f : File V α γ ε) : List (Call V γ) → Except Abort (List (Ret γ) × File V α γ ε)
  | [] => .ok ([], f)
  | c :: cs => do
    let (r, f1) ← step f c
    let (rs, f2) ← run f1 cs
    return (r :: rs, f2)

end AF.Access
