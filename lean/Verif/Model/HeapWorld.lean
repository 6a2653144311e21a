import Verif.Model.HeapHandle
/-!
# Model: a program that uses setups and handles, in memory

The program keeps the pointers it has been given, also those to what it has freed or closed since.
-/
namespace AF.Heap

/-- A call of the program; setups and handles are numbered in the order in which they were made. -/
inductive WOp
  | new
  | set (i : Nat) (op : Setup.Op)
  | freeSetup (i : Nat)
  | openWrite (i : Nat) (written codec : Bool)
  | call (j : Nat) (op : Meta.Op)
  | virt (j : Nat) (op : VOp)
  | close (j : Nat)

/-- The pointers the program has. -/
structure Roots where
  setups : List Ptr
  handles : List Ptr

/-- A call on a handle: the null handle is refused (`_af_filehandle_ok`, util.cpp:71-84). -/
def onHandle {α : Type} (R : Roots) (j : Nat) (c : Ptr → M α) (other : α) : M α :=
  match R.handles[j]? with
  | none => fault
  | some h => if h = 0 then pure other else c h

/-- One call: the pointers afterwards, and what a call on the metadata of a handle answers (nothing for the null handle).
`afNewFileSetup` (Setup.cpp:225-263), `afFreeFileSetup` (Setup.cpp:265-283), `_afOpenFile` (openclose.cpp:271-405), `afCloseFile`
(openclose.cpp:444-462; that the header is written again and the file closed is not part of this model). -/
def exec (e : Endian) (R : Roots) : WOp → M (Roots × Option Meta.Ret)
  | .new => do
    let p ← newFileSetup e
    return ({ R with setups := R.setups ++ [p] }, none)
  | .set i op =>
    match R.setups[i]? with
    | none => fault
    | some p => do
      setupCall p op
      return (R, none)
  | .freeSetup i =>
    match R.setups[i]? with
    | none => fault
    | some p => do
      freeFileSetup p
      return (R, none)
  | .openWrite i written codec =>
    match R.setups[i]? with
    | none => fault
    | some p => do
      let h ← openWrite e p written codec
      return ({ R with handles := R.handles ++ [h] }, none)
  | .call j op => do
    let r ← onHandle R j (fun h => do let r ← handleCall h op; return some r) none
    return (R, r)
  | .virt j op => do
    onHandle R j (fun h => virtualCall h op) ()
    return (R, none)
  | .close j => do
    onHandle R j deleteHandle ()
    return (R, none)

/-- A history of calls, from the start: the pointers at the end and the answers. -/
def execAll (e : Endian) (R : Roots) : List WOp → M (Roots × List (Option Meta.Ret))
  | [] => pure (R, [])
  | op :: ops => do
    let (R, r) ← exec e R op
    let (R, rs) ← execAll e R ops
    return (R, r :: rs)

/-- The program starts with nothing in memory. -/
def start : St := ⟨fun _ => none, 0⟩

end AF.Heap
