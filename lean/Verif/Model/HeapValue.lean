import Verif.Model.Setup
/-!
# Model: the value of a handle, track by track
-/
namespace AF.Heap
open AF.Setup (AFmt)

/-- A track of a handle: what `Model/Meta.lean` has of it, its formats, the names and comments of its markers, and the channel
matrix if one was set. -/
structure TrackVal where
  track : Meta.Track
  f : AFmt
  v : AFmt
  names : List (List Byte × List Byte)
  matrix : Option (List (BitVec 64))
  deriving DecidableEq

/-- A handle. -/
structure HandleVal where
  access : Meta.Access
  family : Meta.Family
  tracks : List TrackVal
  instruments : List Meta.Instrument
  misc : List Meta.Misc
  deriving DecidableEq

/-- The metadata, as `Model/Meta.lean` has them. -/
def HandleVal.metadata (V : HandleVal) : Meta.Handle :=
  { access := V.access, family := V.family, tracks := V.tracks.map (·.track), instruments := V.instruments, misc := V.misc }

/-- The handle, as `Model/Setup.lean` has it. -/
def HandleVal.opened (V : HandleVal) : Setup.Opened :=
  { handle := V.metadata, f := V.tracks.map (·.f), v := V.tracks.map (·.v), names := V.tracks.map (·.names) }

/-- The same the other way round, for a handle that has just been opened and has no channel matrix. -/
def HandleVal.ofOpened (o : Setup.Opened) : HandleVal :=
  { access := o.handle.access, family := o.handle.family
    tracks := (o.handle.tracks.zip (o.f.zip (o.v.zip o.names))).map fun x => ⟨x.1, x.2.1, x.2.2.1, x.2.2.2, none⟩
    instruments := o.handle.instruments, misc := o.handle.misc }

end AF.Heap
