import Verif.Model.Descriptors
/-!
# Specification: who owns a descriptor

A ledger of the descriptors and virtual files of a process, kept from the calls and their results alone.
-/
namespace AF.Spec.Descriptors
open AF AF.Descriptors

inductive Owner
  /-- the program: it may use it, and has to close it -/
  | program
  /-- the library, for this handle -/
  | handle (h : Nat)
  deriving DecidableEq

/-- The owners of the open descriptors and of the virtual files, and the handles there are. -/
structure Ledger where
  fds : Nat → Option Owner
  virtuals : Nat → Option Owner
  handles : Nat → Bool

def Ledger.nothing : Ledger := ⟨fun _ => none, fun _ => none, fun _ => false⟩

/-- What the program may do: give away only what it owns, close only handles it has; and the operating system and the allocator give
out only what is not in use. -/
def Allowed (L : Ledger) : FileCall → Prop
  | .openFile _ _ got _ _ h => (∀ fd o, got = some (fd, o) → L.fds fd = none) ∧ L.handles h = false
  | .openFD fd _ _ _ h => L.fds fd = some .program ∧ L.handles h = false
  | .openVirtual v _ _ _ h => L.virtuals v = some .program ∧ L.handles h = false
  | .identifyFD fd dup => (L.fds fd).isSome ∧ ∀ d, dup = some d → L.fds d = none
  | .closeFile h _ => L.handles h = true
  | .ownOpen fd _ => L.fds fd = none
  | .ownClose fd => L.fds fd = some .program
  | .ownVirtual v => L.virtuals v = none

/-- What a call does to the ledger, given its result (the handle, or null):
afOpenFile adds a descriptor if it succeeds and leaves none behind if it fails; afOpenFD takes the descriptor over if it succeeds, closes it
if it fails, and leaves it alone if the mode is not one; afOpenVirtualFile the same; afIdentifyFD changes nothing; afCloseFile closes what
the handle has. -/
def Ledger.after (L : Ledger) (c : FileCall) (result : Option Nat) : Ledger :=
  match c, result with
  | .openFile _ _ got _ _ _, some h =>
    match got with
    | some (fd, _) => { L with fds := upd L.fds fd (some (.handle h)), handles := upd L.handles h true }
    | none => L
  | .openFile .., none => L
  | .openFD fd _ _ _ _, some h => { L with fds := upd L.fds fd (some (.handle h)), handles := upd L.handles h true }
  | .openFD fd mode _ _ _, none => if mode = .r ∨ mode = .w then { L with fds := upd L.fds fd none } else L
  | .openVirtual v _ _ _ _, some h => { L with virtuals := upd L.virtuals v (some (.handle h)), handles := upd L.handles h true }
  | .openVirtual v mode _ _ _, none => if mode = .r ∨ mode = .w then { L with virtuals := upd L.virtuals v none } else L
  | .identifyFD .., _ => L
  | .closeFile h _, _ =>
    { fds := fun fd => if L.fds fd = some (.handle h) then none else L.fds fd
      virtuals := fun v => if L.virtuals v = some (.handle h) then none else L.virtuals v
      handles := upd L.handles h false }
  | .ownOpen fd _, _ => { L with fds := upd L.fds fd (some .program) }
  | .ownClose fd, _ => { L with fds := upd L.fds fd none }
  | .ownVirtual v, _ => { L with virtuals := upd L.virtuals v (some .program) }

/-- A program's history, from a world and a ledger to others: every call is allowed. -/
inductive History : World → Ledger → World → Ledger → Prop
  | start (w : World) (L : Ledger) : History w L w L
  | call {w L w1 L1 w2 r} {c : FileCall} : History w L w1 L1 → Allowed L1 c → step w1 c = .ok (w2, r) → History w L w2 (L1.after c r)

/-- The world is as the ledger says: the open descriptors, the virtual files that have not been destroyed, the handles. -/
structure Agrees (w : World) (L : Ledger) : Prop where
  fds : ∀ fd, (w.table fd).isSome = (L.fds fd).isSome
  virtuals : ∀ v, w.virtuals v = (L.virtuals v).isSome
  handles : ∀ h, (w.handles h).isSome = L.handles h

/-- Nothing is open. -/
def World.Fresh (w : World) : Prop := (∀ fd, w.table fd = none) ∧ (∀ v, w.virtuals v = false) ∧ ∀ h, w.handles h = none

/-- A virtual file whose functions do what those of a file do: the functions' author's promise. -/
structure Behaves {σ : Type} (v : Virtual σ) (bytes : σ → Bytes) : Prop where
  read : ∀ s n, (v.read s n).1 = ((bytes s).read n).1 ∧ bytes (v.read s n).2 = ((bytes s).read n).2
  length : ∀ s, v.length s = (bytes s).data.length
  write : ∀ s bs, bytes (v.write s bs) = (bytes s).write bs
  seek : ∀ s x rel, (v.seek s x rel).1 = ((bytes s).goto (if rel then (bytes s).pos + x else x)).1 ∧
    bytes (v.seek s x rel).2 = ((bytes s).goto (if rel then (bytes s).pos + x else x)).2
  tell : ∀ s, v.tell s = (bytes s).pos

end AF.Spec.Descriptors
