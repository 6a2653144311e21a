import Verif.Model.CInt
/-!
# Parameter/value lists (aupv.c, aupvinternal.h)

`aupv.c` is compiled with `-DNDEBUG` (Makefile.am:124), so its `assert`s are not present. The value union
`{ long l; double d; void *v; }` is 8 bytes on LP64 whatever member is used: it is modelled as the bit pattern.
The `valid` magic numbers are set by `AUpvnew` and never change; lists are modelled as valid or NULL (`none`).
-/
namespace AF.Pv

/-- `struct _AUpvitem` (aupvinternal.h) -/
structure Item where
  type : Int
  param : Int
  value : BitVec 64
  deriving DecidableEq

/-- `AUpvlist`: NULL or an array of items. -/
abbrev PvList := Option (List Item)

def LONG : Int := 1
def DOUBLE : Int := 2
def PTR : Int := 3
/-- `_AU_SUCCESS` -/
def SUCCESS : Int := 0
/-- `AU_BAD_PVLIST` -/
def BAD_PVLIST : Int := -5
/-- `AU_BAD_PVITEM` -/
def BAD_PVITEM : Int := -6

/-- aupv.c:40-72. Allocation is assumed to succeed. -/
def new (maxitems : Int) : PvList :=
  if maxitems ≤ 0 then none
  else some (List.replicate maxitems.toNat { type := LONG, param := 0, value := 0 })

/-- aupv.c:74-84 -/
def getMaxItems : PvList → Int
  | none => BAD_PVLIST
  | some l => l.length

/-- The common argument check: NULL list, then index (e.g. aupv.c:114-121). -/
def check (l : PvList) (item : Int) : Except Int (List Item × Nat) :=
  match l with
  | none => .error BAD_PVLIST
  | some is => if item < 0 ∨ item > is.length - 1 then .error BAD_PVITEM else .ok (is, item.toNat)

/-- aupv.c:107-125 -/
def setParam (l : PvList) (item param : Int) : Int × PvList :=
  match check l item with
  | .error e => (e, l)
  | .ok (is, i) => (SUCCESS, some (is.modify i fun x => { x with param := param }))

/-- aupv.c:127-145 (no check of `type`) -/
def setValType (l : PvList) (item type : Int) : Int × PvList :=
  match check l item with
  | .error e => (e, l)
  | .ok (is, i) => (SUCCESS, some (is.modify i fun x => { x with type := type }))

/-- aupv.c:147-180. `v` is the 8 bytes the pointer argument points to. -/
def setVal (l : PvList) (item : Int) (v : BitVec 64) : Int × PvList :=
  match check l item with
  | .error e => (e, l)
  | .ok (is, i) =>
    match is[i]? with
    | none => (BAD_PVITEM, l)
    | some x =>
      if x.type = LONG ∨ x.type = DOUBLE ∨ x.type = PTR then
        (SUCCESS, some (is.modify i fun x => { x with value := v }))
      else (BAD_PVLIST, l)

/-- aupv.c:182-200: status and, on success, what is stored through the pointer. -/
def getParam (l : PvList) (item : Int) : Int × Option Int :=
  match check l item with
  | .error e => (e, none)
  | .ok (is, i) => (SUCCESS, is[i]?.map (·.param))

/-- aupv.c:202-220 -/
def getValType (l : PvList) (item : Int) : Int × Option Int :=
  match check l item with
  | .error e => (e, none)
  | .ok (is, i) => (SUCCESS, is[i]?.map (·.type))

/-- aupv.c:222-252: for an unknown type nothing is stored, yet success is returned. -/
def getVal (l : PvList) (item : Int) : Int × Option (BitVec 64) :=
  match check l item with
  | .error e => (e, none)
  | .ok (is, i) =>
    (SUCCESS, match is[i]? with
      | none => none
      | some x => if x.type = LONG ∨ x.type = DOUBLE ∨ x.type = PTR then some x.value else none)

/-- A modifying call. -/
inductive Op
  | setParam (item param : Int)
  | setValType (item type : Int)
  | setVal (item : Int) (v : BitVec 64)

/-- One modifying call (aupv.c:107-180). -/
def step (l : PvList) : Op → Int × PvList
  | .setParam i p => setParam l i p
  | .setValType i t => setValType l i t
  | .setVal i v => setVal l i v

/-- The list after a history of calls. -/
def run (l : PvList) : List Op → PvList
  | [] => l
  | op :: ops => run (step l op).2 ops

end AF.Pv
