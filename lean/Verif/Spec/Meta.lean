import Verif.Model.Meta
/-!
# Specification of metadata calls on an open file

A file's metadata as plain maps from ids to values, as described in afGetMarkPosition(3), afGetLoopMode(3),
afGetInstParams(3), afGetAESChannelData(3), afReadMisc(3). Only the names of the calls (`Op`) and the type of their
results (`Ret`) are shared with the model.
-/
namespace AF.Spec.Meta
open AF.Meta (Op Ret LoopField)

/-- What a loop records. -/
structure LoopRec where
  mode : Int
  count : Int
  start : Int
  endd : Int
  track : Int
  deriving DecidableEq

/-- A chunk of fixed size with a position. -/
structure Stream where
  data : List Byte
  pos : Nat
  deriving DecidableEq

/-- Metadata: `mark t m` is the position of marker `m` of track `t`, and so on; `none` where there is no such object.
`aes t = some none` is a track without AES data. -/
structure State where
  writable : Bool
  mark : Int → Int → Option Int
  aes : Int → Option (Option (List Byte))
  loop : Int → Int → Option LoopRec
  param : Int → Int → Option (BitVec 64)
  misc : Int → Option Stream
  /-- Legal values of instrument parameters. -/
  legal : Int → Int → Bool
  markIDs : Int → Option (List Int)
  loopIDs : Int → Option (List Int)
  instIDs : List Int
  miscIDs : List Int
  miscType : Int → Int

def upd1 {β : Type} (f : Int → β) (a : Int) (b : β) : Int → β := fun x => if x = a then b else f x
def upd2 {β : Type} (f : Int → Int → β) (a a' : Int) (b : β) : Int → Int → β :=
  fun x y => if x = a ∧ y = a' then b else f x y

/-- Move an existing marker of a writable file. -/
def State.moveMark (s : State) (t m pos : Int) : State :=
  if s.writable ∧ (s.mark t m).isSome then { s with mark := upd2 s.mark t m (some pos) } else s

/-- One item of a parameter list: it takes effect if the instrument has the parameter, the item is a `long` and the
value is legal. -/
def State.setParam (s : State) (i : Int) (it : Pv.Item) : State :=
  if (s.param i it.param).isSome ∧ it.type = Pv.LONG ∧ s.legal it.param it.value.toInt then
    { s with param := upd2 s.param i it.param (some it.value) }
  else s

/-- The items a call processes: the first `npv`, or as many as there are. -/
def firstItems (pv : Pv.PvList) (npv : Int) : List Pv.Item := (pv.getD []).take npv.toNat

/-- The frame a loop's marker stands at. -/
def State.frameOf (s : State) (t m : Int) : Int := (s.mark t m).getD 0

/-- Setting one field of a loop: result and new state. -/
def State.setLoop (s : State) (f : LoopField) (i l v : Int) : Ret × State :=
  let target := if s.writable then s.loop i l else none
  let put (r : LoopRec) : State := { s with loop := upd2 s.loop i l (some r) }
  match f, target with
  | .mode, some r => (.void, if v = 0 ∨ v = 1 ∨ v = 2 then put { r with mode := v } else s)
  | .start, some r => (.void, put { r with start := v })
  | .endd, some r => (.void, put { r with endd := v })
  | .track, some r => (.void, put { r with track := v })
  | .count, some r => if 1 ≤ v then (.num 0, put { r with count := v }) else (.num (-1), s)
  | .startFrame, some r => if 0 ≤ v then (.num 0, s.moveMark r.track r.start v) else (.num (-1), s)
  | .endFrame, some r => if 0 ≤ v then (.num 0, s.moveMark r.track r.endd v) else (.num (-1), s)
  | .count, none | .startFrame, none | .endFrame, none => (.num (-1), s)
  | .mode, none | .start, none | .endd, none | .track, none => (.void, s)

/-- Reading one field of a loop. -/
def State.getLoop (s : State) (f : LoopField) (i l : Int) : Int :=
  match s.loop i l with
  | none => -1
  | some r => match f with
    | .mode => r.mode
    | .count => r.count
    | .start => r.start
    | .endd => r.endd
    | .track => r.track
    | .startFrame => s.frameOf r.track r.start
    | .endFrame => s.frameOf r.track r.endd

def Stream.write (c : Stream) (b : List Byte) : Int × Stream :=
  let k := min b.length (c.data.length - c.pos)
  (k, { data := c.data.take c.pos ++ b.take k ++ c.data.drop (c.pos + k), pos := c.pos + k })

def Stream.read (c : Stream) (n : Nat) : List Byte × Stream :=
  let b := (c.data.drop c.pos).take n
  (b, { c with pos := c.pos + b.length })

/-- Result and effect of a call. -/
def State.step (s : State) : Op → Ret × State
  | .setMark t m p => (.void, s.moveMark t m (max p 0))
  | .getMark t m => (.num (s.frameOf t m), s)
  | .markIDs t => (match s.markIDs t with | none => .ids (-1) [] | some l => .ids l.length l, s)
  | .setAES t b =>
    (.void, match s.aes t with
      | some (some _) => if s.writable then { s with aes := upd1 s.aes t (some (some (b.take 24))) } else s
      | _ => s)
  | .getAES t =>
    (match s.aes t with
      | none => .bytes (-1) []
      | some none => .bytes 0 (List.replicate 24 0)
      | some (some b) => .bytes 1 b, s)
  | .setLoop f i l v => s.setLoop f i l v
  | .getLoop f i l => (.num (s.getLoop f i l), s)
  | .loopIDs i => (match s.loopIDs i with | none => .ids (-1) [] | some l => .ids l.length l, s)
  | .setParams i pv n => (.void, if s.writable then (firstItems pv n).foldl (·.setParam i ·) s else s)
  | .getParams i pv n =>
    (.pv (pv.map fun l => l.mapIdx fun k it => if (k : Int) < n then
        match s.param i it.param with
        | none => it
        | some v => { it with type := Pv.LONG, value := v } else it), s)
  | .setParamLong i p v => (.void, if s.writable then s.setParam i { type := Pv.LONG, param := p, value := v } else s)
  | .getParamLong i p => (.long ((s.param i p).getD 0), s)
  | .instIDs => (.ids s.instIDs.length s.instIDs, s)
  | .miscIDs => (.ids s.miscIDs.length s.miscIDs, s)
  | .writeMisc id b =>
    match s.misc id with
    | none => (.num (-1), s)
    | some c =>
      if s.writable ∧ b ≠ [] then (.num (c.write b).1, { s with misc := upd1 s.misc id (some (c.write b).2) })
      else (.num (-1), s)
  | .readMisc id n =>
    match s.misc id with
    | none => (.bytes (-1) [], s)
    | some c =>
      if s.writable = false ∧ 0 < n then
        let r := c.read n.toNat
        (.bytes r.1.length r.1, { s with misc := upd1 s.misc id (some r.2) })
      else (.bytes (-1) [], s)
  | .seekMisc id o =>
    match s.misc id with
    | none => (.num (-1), s)
    | some c =>
      if o < c.data.length then (.num o, { s with misc := upd1 s.misc id (some { c with pos := o.toNat }) })
      else (.num (-1), s)
  | .miscSize id => (.num (match s.misc id with | none => -1 | some c => c.data.length), s)
  | .miscType id => (.num (s.miscType id), s)

/-- A history of calls. -/
def State.run (s : State) : List Op → List Ret × State
  | [] => ([], s)
  | op :: ops => let r := s.step op; let rs := State.run r.2 ops; (r.1 :: rs.1, rs.2)

/-- Legal values of the instrument parameters: MIDI notes 0…127, velocities 1…127, detune −50…50 cents; gain and
the AIFF loop references are free. -/
def limits : AF.Meta.Family → Int → Int → Bool
  | .other, _, _ => false
  | f, p, v =>
    if p = 301 ∨ p = 303 ∨ p = 304 then 0 ≤ v && v ≤ 127
    else if p = 305 ∨ p = 306 then 1 ≤ v && v ≤ 127
    else if p = 302 then -50 ≤ v && v ≤ 50
    else if p = 307 then true
    else if p = 308 ∨ p = 309 then f == .aiff
    else false

/-- The instrument parameters of a kind of file (afGetInstParams(3)): 301 to 309 (base note, detune, low and high
note, low and high velocity, gain, sustain loop, release loop) for AIFF, without the loops for WAVE. -/
def hasParam : AF.Meta.Family → Int → Prop
  | .aiff, p => 301 ≤ p ∧ p ≤ 309
  | .wave, p => 301 ≤ p ∧ p ≤ 307
  | .other, _ => False

instance (f : AF.Meta.Family) (p : Int) : Decidable (hasParam f p) := by
  cases f <;> unfold hasParam <;> infer_instance

end AF.Spec.Meta
