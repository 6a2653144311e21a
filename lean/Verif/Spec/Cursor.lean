/-!
# Specification of reading: a cursor over a list of frames

Independent of the library: `F` is the list of all frames of the track, `p` the position.
-/
namespace AF.Spec

/-- The calls, as in the manual pages afReadFrames(3), afSeekFrame(3), afTellFrame(3),
afGetFrameCount(3), afSetVirtual…(3). -/
inductive Call (V : Type)
  | read (n : Int)
  | seek (frame : Int)
  | tell
  | count
  | setFormat (v : V)

/-- Abstract reader state: current position and current delivery format. -/
structure Cursor (V : Type) where
  pos : Nat
  fmt : V

variable {V α γ : Type}

/-- Where a seek to `f ≥ 0` goes in a track of `n` frames: to `f`, or to the last frame when `f` lies
beyond the end. -/
def target (n : Nat) (f : Int) : Int := if f > n then n - 1 else f

/-- What a call returns: a number and the frames delivered. -/
def answer (F : List α) (conv : V → α → γ) (c : Cursor V) : Call V → Int × List γ
  | .read n =>
    let fs := ((F.drop c.pos).take n.toNat).map (conv c.fmt)
    (fs.length, fs)
  | .seek f => (if f < 0 then c.pos else target F.length f, [])
  | .tell => (c.pos, [])
  | .count => (F.length, [])
  | .setFormat _ => (0, [])

/-- How a call moves the cursor. -/
def move (F : List α) (c : Cursor V) : Call V → Cursor V
  | .read n => { c with pos := c.pos + ((F.drop c.pos).take n.toNat).length }
  | .seek f => if f < 0 then c else { c with pos := (target F.length f).toNat }
  | .setFormat v => { c with fmt := v }
  | _ => c

/-- Answers to a sequence of calls. -/
def answers (F : List α) (conv : V → α → γ) (c : Cursor V) : List (Call V) → List (Int × List γ)
  | [] => []
  | op :: ops => answer F conv c op :: answers F conv (move F c op) ops

/-- A call is in range unless it is a seek beyond the end of an empty track. -/
def InRange (n : Nat) : Call V → Prop
  | .seek f => f ≤ n ∨ 0 < n
  | _ => True

end AF.Spec
