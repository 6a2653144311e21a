import Verif.Spec.Cursor
/-!
# Specification: reading a file that may come short

A reader has its place until a call delivers fewer frames than it should. From then on nothing is said about the frames that are
delivered, until the program seeks to another position or chooses a delivery format.
-/
namespace AF.Spec.ShortReads
open AF.Spec

/-- The position, and whether the reader has lost its place. -/
structure Reader (V : Type) where
  cur : Cursor V
  lost : Bool

variable {V α γ : Type}

/-- The frames a complete read would deliver. -/
def due (F : List α) (conv : V → α → γ) (cur : Cursor V) (n : Int) : List γ := ((F.drop cur.pos).take n.toNat).map (conv cur.fmt)

/-- What a call may answer, and where it leaves the reader. `none` is a frame that was not stored. -/
def Allowed (F : List α) (conv : V → α → γ) (r : Reader V) (call : Call V) (obs : Int × List (Option γ)) (r' : Reader V) : Prop :=
  match call with
  | .read n =>
    obs.1 = obs.2.length ∧ obs.2.length ≤ (due F conv r.cur n).length ∧
    r'.cur = { r.cur with pos := r.cur.pos + obs.2.length } ∧
    (r.lost = false → obs.2 = ((due F conv r.cur n).take obs.2.length).map some ∧
      (0 < obs.2.length → obs.2.length = (due F conv r.cur n).length → r'.lost = false))
  | .seek f =>
    obs = ((answer F conv r.cur call).1, []) ∧ r'.cur = move F r.cur call ∧
    (r.lost = false ∨ (0 ≤ f ∧ f ≠ r.cur.pos) → r'.lost = false)
  | .setFormat _ => obs = (0, []) ∧ r'.cur = move F r.cur call ∧ r'.lost = false
  | _ => obs = ((answer F conv r.cur call).1, []) ∧ r'.cur = r.cur ∧ (r.lost = false → r'.lost = false)

/-- A whole conversation. -/
def Conversation (F : List α) (conv : V → α → γ) (r : Reader V) : List (Call V) → List (Int × List (Option γ)) → Prop
  | [], [] => True
  | call :: calls, o :: os => ∃ r', Allowed F conv r call o r' ∧ Conversation F conv r' calls os
  | _, _ => False

/-- No read goes past the first `E` frames. -/
def StaysBefore (F : List α) (E : Nat) (cur : Cursor V) : List (Call V) → Prop
  | [] => True
  | call :: calls => (match call with | .read _ => (move F cur call).pos ≤ E | _ => True) ∧ StaysBefore F E (move F cur call) calls

end AF.Spec.ShortReads
