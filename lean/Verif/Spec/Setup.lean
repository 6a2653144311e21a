import Verif.Model.Setup
/-!
# Specification of the id lists of a setup

afInitInstIDs(3), afInitLoopIDs(3), afInitMarkIDs(3), afInitMiscIDs(3): each call replaces a list; instrument and
loop lists with a repeated id are refused. Only the names of the calls (`Op`) are shared with the model.
-/
namespace AF.Spec.Setup
open AF.Setup (Op FileFormat)

/-- The lists a program has set; `none` where it has not called. `loops i` is the loop list of instrument `i`, if
there is such an instrument. -/
structure Lists where
  insts : Option (List Int)
  loops : Int → Option (List Int)
  marks : Option (List Int)
  misc : Option (List Int)

/-- Before any call: the default instrument with loops 1 and 2. -/
def Lists.initial : Lists := ⟨none, fun i => if i = 2001 then some [1, 2] else none, none, none⟩

/-- The effect of a call. New instruments have loops 1 and 2. The only track is 1001. -/
def Lists.step (l : Lists) : Op → Lists
  | .instIDs ids =>
    if ids.Nodup then { l with insts := some ids, loops := fun i => if i ∈ ids then some [1, 2] else none } else l
  | .loopIDs i ids =>
    if ids.Nodup ∧ (l.loops i).isSome then { l with loops := fun j => if j = i then some ids else l.loops j } else l
  | .markIDs t ids => if t = 1001 then { l with marks := some ids } else l
  | .miscIDs ids => { l with misc := some ids }
  | _ => l

def Lists.after (ops : List Op) : Lists := ops.foldl Lists.step Lists.initial

/-- Instruments a file gets when the program set none. -/
def defaultInsts : FileFormat → List Int
  | .aiff | .aiffc | .smp | .voc | .caf => [2001]
  | _ => []

/-- Markers a file gets when the program set none. -/
def defaultMarks : FileFormat → List Int
  | .aiff | .aiffc | .iff | .ircam | .nist | .smp | .voc | .caf => [1, 2, 3, 4]
  | _ => []

/-- Sample widths that go with a sample format. -/
def LegalWidth (sampleFormat width : Int) : Prop :=
  ((sampleFormat = 401 ∨ sampleFormat = 402) ∧ 1 ≤ width ∧ width ≤ 32) ∨
  (sampleFormat = 403 ∧ width = 32) ∨ (sampleFormat = 404 ∧ width = 64)

/-- Bytes taken by an uncompressed sample in a file: whole bytes. -/
def sampleBytes (sampleFormat width : Int) : Nat :=
  if sampleFormat = 403 then 4 else if sampleFormat = 404 then 8 else ((width + 7) / 8).toNat

end AF.Spec.Setup
