import Verif.Model.Reading
import Verif.Model.Writing
import Verif.Model.FloatInt
/-!
# Model of the sample rates of a track opened for reading

`ModuleState::setup` converts between frame positions of the file and of the caller with the two sample rates
(ModuleState.cpp:111,180-187), in `double` arithmetic. `Verif/Model/Reading.lean` takes both conversions as the identity; here they
are what the code computes. No module resamples: `ModuleState::arrange` (ModuleState.cpp:291-) does not look at the rates.

`rnd` rounds a result to a `double`. Simplifications: the sign of a zero is not kept (a division by it is an infinity
of the sign of the dividend; `llrint` gives the same number for both infinities); a signed overflow of the file position wraps around,
as the compiled code does, although the language leaves it undefined.
-/
namespace AF.Convert.Dbl

/-- IEEE division -/
def div (rnd : Rat → Dbl) : Dbl → Dbl → Dbl
  | fin p, fin q => if q = 0 then (if p = 0 then nan else inf (decide (p < 0))) else rnd (p / q)
  | fin _, inf _ => fin 0
  | inf s, fin q => inf (s != decide (q < 0))
  | _, _ => nan

/-- The nearest whole number, the even one of two. -/
def nearestEven (q : Rat) : Int :=
  let r := (q + 1 / 2).floor
  if (r : Rat) = q + 1 / 2 ∧ r % 2 = 1 then r - 1 else r

/-- `llrint` (ModuleState.cpp:111,182,187) with the usual rounding direction. For what is not a number of 64 bits the language
specifies no result; it is that of the instruction the compiler uses on x86-64, −2^63. -/
def llrint : Dbl → Int
  | fin q => if -2 ^ 63 ≤ nearestEven q ∧ nearestEven q < 2 ^ 63 then nearestEven q else -2 ^ 63
  | _ => -2 ^ 63

/-- `n * to / from` for an `AFframecount n` (ModuleState.cpp:111,187): the conversion to `double`, the product and the quotient are
each rounded. -/
def scale (rnd : Rat → Dbl) (n : Int) (to from' : Dbl) : Int := llrint (div rnd (mul rnd (rnd n) to) from')

/-- `n * (to / from)` (ModuleState.cpp:182-183). -/
def scaleTotal (rnd : Rat → Dbl) (n : Int) (to from' : Dbl) : Int := llrint (mul rnd (rnd n) (div rnd to from'))

end AF.Convert.Dbl

namespace AF.Reading.Rate
open AF.Convert (Dbl)
variable {V α γ : Type}

/-- The track and the rate the caller asked for (`track->v.sampleRate`); `track->f.sampleRate` never changes. -/
structure St (V α : Type) where
  s : Reading.St V α
  rate : Dbl

/-- `ModuleState::setup` for reading (ModuleState.cpp:109-201), followed by `reset` (213-230); `rf` is `track->f.sampleRate`. -/
def setup (rnd : Rat → Dbl) (c : Cfg V α γ) (rf : Dbl) (x : St V α) : St V α :=
  -- ModuleState.cpp:111
  let fpos := Dbl.scale rnd x.s.nextv rf x.rate
  -- the rest, with the position in the file
  let s := Reading.setup c { x.s with nextv := fpos }
  { x with s := { s with
      -- ModuleState.cpp:180-184
      totalv := if c.totalf = -1 then -1 else Dbl.scaleTotal rnd c.totalf x.rate rf
      -- ModuleState.cpp:187
      nextv := Dbl.scale rnd fpos x.rate rf
      fposNext := s.fposNext.bmod (2 ^ 64) } }

/-- What each call does first (data.cpp:144, format.cpp:113, format.cpp:205). -/
def ensure (rnd : Rat → Dbl) (c : Cfg V α γ) (rf : Dbl) (x : St V α) : St V α :=
  if x.s.dirty then setup rnd c rf x else x

/-- `afSeekFrame` (format.cpp:101-143). -/
def seek (rnd : Rat → Dbl) (c : Cfg V α γ) (rf : Dbl) (frame : Int) (x : St V α) : Int × St V α :=
  let x := ensure rnd c rf x
  if frame < 0 then (x.s.nextv, x)
  else if frame = x.s.nextv then (x.s.nextv, x)
  else
    let frame := if x.s.totalv ≠ -1 ∧ frame > x.s.totalv then x.s.totalv - 1 else frame
    let x := setup rnd c rf { x with s := { x.s with nextv := frame } }
    (x.s.nextv, x)

/-- The calls of a client that also sets the rate. -/
inductive Op (V : Type)
  | call (o : Reading.Op V)
  | setRate (rate : Dbl)

/-- One call. `afSetVirtualRate` (format.cpp:328-347) refuses what is less than zero; what it stores it does not look at
otherwise. The other calls are those of `Verif/Model/Reading.lean` after the setup. -/
def step (rnd : Rat → Dbl) (c : Cfg V α γ) (rf : Dbl) (x : St V α) : Op V → Except Abort (Obs γ × St V α)
  | .call (.seek f) => .ok ((((seek rnd c rf f x).1, []), (seek rnd c rf f x).2))
  | .call .tell => .ok ((((seek rnd c rf (-1) x).1, []), (seek rnd c rf (-1) x).2))
  | .call .count => .ok ((((ensure rnd c rf x).s.totalv, []), ensure rnd c rf x))
  | .call (.setFormat v) => .ok ((0, []), { x with s := { x.s with v := v, dirty := true } })
  | .call (.read n) =>
    match readFrames c n (ensure rnd c rf x).s with
    | .ok (o, s) => .ok (o, { x with s := s })
    | .error e => .error e
  | .setRate r =>
    if Dbl.lt r (.fin 0) then .ok ((-1, []), x)
    else .ok ((0, []), { s := { x.s with dirty := true }, rate := r })

/-- A sequence of calls; stops at the first abort. -/
def run (rnd : Rat → Dbl) (c : Cfg V α γ) (rf : Dbl) (x : St V α) : List (Op V) → Except Abort (List (Obs γ) × St V α)
  | [] => .ok ([], x)
  | op :: ops => do
    let (o, x) ← step rnd c rf x op
    let (os, x) ← run rnd c rf x ops
    return (o :: os, x)

/-- After `afOpenFile`: the caller's format is the file's, the rate included (openclose.cpp:371-398). -/
def init (c : Cfg V α γ) (rf : Dbl) (v : V) : St V α := ⟨Reading.init c v, rf⟩

end AF.Reading.Rate

namespace AF.Convert

/-- Rounding to nearest of IEEE binary64: 53 significant bits, exponents from −1074 to 971, the even one of two, infinities beyond. -/
def roundDouble (q : Rat) : Dbl :=
  if q = 0 then .fin 0 else
  let a := if q < 0 then -q else q
  -- 2^51 < a / 2^e < 2^53
  let e : Int := (a.num.toNat.log2 : Int) - a.den.log2 - 52
  let e := if a < (2 : Rat) ^ (e + 52) then e - 1 else e
  let e := if e < -1074 then -1074 else e
  let m := (Dbl.nearestEven (a / (2 : Rat) ^ e) : Rat) * (2 : Rat) ^ e
  if m ≥ 2 ^ 1024 then .inf (decide (q < 0)) else .fin (if q < 0 then -m else m)

end AF.Convert

namespace AF.Writing.Rate
open AF.Convert (Dbl)
variable {V α γ ε : Type}

/-- `ModuleState::setup` for writing (ModuleState.cpp:109-201); the numbers of frames written so far are computed from the two
rates and cut off, not rounded (ModuleState.cpp:195-196). A result that is no number of 64 bits is left undefined by the language. -/
def setup (rnd : Rat → Dbl) (c : Cfg V α γ ε) (rf rv : Dbl) (s : St V α ε) : Except Abort (St V α ε) :=
  match Dbl.toInt 64 (Dbl.div rnd (Dbl.mul rnd (rnd (Dbl.scale rnd s.nextv rf rv)) rv) rf) with
  | some n => .ok { Writing.setup c s with nextv := n, totalv := n }
  | none => .error .signedOverflow

/-- What each call does first (data.cpp:60, format.cpp:205, openclose.cpp:415). -/
def ensure (rnd : Rat → Dbl) (c : Cfg V α γ ε) (rf rv : Dbl) (s : St V α ε) : Except Abort (St V α ε) :=
  if s.dirty then setup rnd c rf rv s else .ok s

/-- The calls of a writing client that also counts. -/
inductive Op (V γ : Type)
  | call (o : Writing.Op V γ)
  | count

/-- One call and the number it returns: the frames accepted, `afGetFrameCount` (format.cpp:196-209), 0. -/
def step (rnd : Rat → Dbl) (c : Cfg V α γ ε) (rf rv : Dbl) (s : St V α ε) : Op V γ → Except Abort (Int × St V α ε)
  | .call (.write xs) => do
    let s ← ensure rnd c rf rv s
    writeFrames c xs s
  | .call .sync => do
    let s ← ensure rnd c rf rv s
    let s ← syncFile c s
    return (0, s)
  | .call (.setFormat v) => return (0, { s with v := v, dirty := true })
  | .count => do
    let s ← ensure rnd c rf rv s
    return (s.totalv, s)

/-- A sequence of calls. -/
def run (rnd : Rat → Dbl) (c : Cfg V α γ ε) (rf rv : Dbl) (s : St V α ε) : List (Op V γ) → Except Abort (List Int × St V α ε)
  | [] => return ([], s)
  | op :: ops => do
    let (r, s) ← step rnd c rf rv s op
    let (rs, s) ← run rnd c rf rv s ops
    return (r :: rs, s)

end AF.Writing.Rate

namespace AF.Writing.Rate
open AF.Convert (Dbl)
variable {V α γ ε : Type}

/-- The calls of a writing client that also sets the rate. -/
inductive OpR (V γ : Type)
  | op (o : Op V γ)
  | setRate (rate : Dbl)

/-- A sequence of calls; `rv` is the caller's rate (`track->v.sampleRate`). `afSetVirtualRate` is format.cpp:328-347. -/
def runR (rnd : Rat → Dbl) (c : Cfg V α γ ε) (rf rv : Dbl) (s : St V α ε) : List (OpR V γ) → Except Abort (List Int × Dbl × St V α ε)
  | [] => return ([], rv, s)
  | .op o :: ops => do
    let (r, s) ← step rnd c rf rv s o
    let (rs, rv, s) ← runR rnd c rf rv s ops
    return (r :: rs, rv, s)
  | .setRate r :: ops =>
    if Dbl.lt r (.fin 0) then do
      let (rs, rv, s) ← runR rnd c rf rv s ops
      return (-1 :: rs, rv, s)
    else do
      let (rs, rv, s) ← runR rnd c rf r { s with dirty := true } ops
      return (0 :: rs, rv, s)

/-- The file after the calls and afCloseFile (openclose.cpp:445-462); at the beginning the caller's rate is the file's. -/
def sessionR (rnd : Rat → Dbl) (c : Cfg V α γ ε) (rf : Dbl) (e : ε) (v : V) (ops : List (OpR V γ)) : Except Abort Final := do
  let (_, rv, s) ← runR rnd c rf rf (init e v) ops
  let s ← ensure rnd c rf rv s
  close c s

end AF.Writing.Rate
