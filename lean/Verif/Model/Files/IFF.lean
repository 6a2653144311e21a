import Verif.Model.Files.FORM
/-!
# IFF/8SVX (IFF.cpp), big-endian (IFF.cpp:77)
-/
namespace AF.Files
open AF AF.Setup

/-! ## Writing -/

/-- The members of `IFFFile` (IFF.h:57-60) and of the handle that the header is made from; offsets are 0 until set. -/
structure IffObj where
  handle : Meta.Handle
  vhdr : Nat
  misc : Nat
  body : Nat
  deriving DecidableEq

/-- IFF.cpp:358-409 `writeVHDR`: a rate of 16 bits. -/
def iffVHDR (h : Endian) (t : Trk) : List Byte :=
  tag "VHDR" ++ fieldBytes h .big .s4 20 ++ fieldBytes h .big .s4 t.frames ++ fieldBytes h .big .s4 0 ++
  fieldBytes h .big .s4 0 ++ fieldBytes h .big .s2 (toUnsigned t.f.rate) ++ fieldBytes h .big .s1 0 ++
  fieldBytes h .big .s1 0 ++ fieldBytes h .big .s4 65536

/-- IFF.cpp:465-477: other types get the default `Tag`, four zeros. -/
def iffMiscTag (type : Int) : List Byte :=
  if type = 203 then tag "NAME" else if type = 202 then tag "AUTH" else if type = 201 then tag "(c) "
  else if type = 204 then tag "ANNO" else [0, 0, 0, 0]

/-- IFF.cpp:411-445 `writeBODY`: the size is the number of frames, as 32 bits; a pad byte follows the data if it is odd. -/
def iffWriteBODY (h : Endian) (t : Trk) (x : IffObj) (d : Disk) : Disk × IffObj :=
  let (d, offset) := d.atOffset x.body
  let d := d.write (tag "BODY" ++ fieldBytes h .big .s4 t.frames)
  let size := (t.frames % 2 ^ 32).toNat
  let d := if size % 2 = 1 then (d.seek (offset + 8 + size)).write (fieldBytes h .big .s1 0) else d
  (d, { x with body := offset })

/-- IFF.cpp:329-331, 342-344: all chunks in order (for miscellaneous data IFF.cpp:451-500). -/
def iffWrite (h : Endian) (t : Trk) (x : IffObj) (d : Disk) : Disk × IffObj :=
  let (d, offset) := d.atOffset x.vhdr
  let d := d.write (iffVHDR h t)
  let x := { x with vhdr := offset }
  let (d, offset) := d.atOffset x.misc
  let d := x.handle.misc.foldl (formMisc iffMiscTag h) d
  iffWriteBODY h t { x with misc := offset } d

/-- IFF.cpp:318-336 `writeInit`; the audio data begins where BODY's header ends (IFF.cpp:433-434; no frames have been
written, so there is no pad byte). -/
def iffInit (h : Endian) (handle : Meta.Handle) (f : AFmt) : Disk × Trk × IffObj :=
  let t := Trk.ofFormat f
  let d := (⟨[], 0⟩ : Disk).write (tag "FORM" ++ fieldBytes h .big .s4 0 ++ tag "8SVX")
  let (d, x) := iffWrite h t ⟨handle, 0, 0, 0⟩ d
  (d, { t with first := d.pos }, x)

/-- IFF.cpp:338-356 `update`. -/
def iffUpdate (h : Endian) (t : Trk) (x : IffObj) (d : Disk) : Disk × IffObj :=
  let (d, x) := iffWrite h t x d
  let length : Int := d.bytes.length
  ((d.seek 4).write (fieldBytes h .big .s4 (length - 8)), x)

/-- Metadata calls act on the handle. -/
def iffCall (op : Meta.Op) (x : IffObj) : Except Abort IffObj := do
  let r ← Meta.step x.handle op
  return { x with handle := r.2 }

/-- A whole life of an IFF file opened for writing: the bytes left, and the object when it was closed. -/
def iffSession (h : Endian) (o : Opened) (f : AFmt) (evs : List MEv) : Except Abort (List Byte × IffObj) :=
  msession (iffUpdate h) iffCall (iffInit h o.handle f) evs

/-! ## Reading -/

/-- What `readInit` has found so far. -/
structure IffRead where
  hasVHDR : Bool
  t : Trk
  misc : List Meta.Misc

/-- IFF.cpp:129-163 `parseVHDR`: only the rate is used. -/
def iffParseVHDR (h : Endian) (s : IffRead) : Rd IffRead := do
  let _ ← Rd.field? h .big .s4
  let _ ← Rd.field? h .big .s4
  let _ ← Rd.field? h .big .s4
  let rate ← Rd.field h .big .s2
  let _ ← Rd.field? h .big .s1
  let _ ← Rd.field? h .big .s1
  let _ ← Rd.field? h .big .s4
  let f : AFmt := { rate := rate, sampleFormat := TWOSCOMP, sampleWidth := 8, byteOrder := BIG, pcm := ⟨0, 0, 0, 0⟩
                    channels := 1, compression := NONE }
  return { s with hasVHDR := true, t := { s.t with f := (setSampleFormat f TWOSCOMP 8).2, fpp := 1, bpp := pcmBytesPerPacket f } }

/-- IFF.cpp:165-182 `parseBODY`. -/
def iffParseBODY (size : Nat) (s : IffRead) : Rd IffRead := do
  let p ← Rd.tell
  return { s with t := { s.t with frames := size, dataSize := size, first := p } }

/-- IFF.cpp:103-110 -/
def iffMiscType (id : List Byte) : Option Int :=
  if id = tag "NAME" then some 203 else if id = tag "AUTH" then some 202 else if id = tag "(c) " then some 201
  else if id = tag "ANNO" then some 204 else none

/-- The dispatch on chunk ids (IFF.cpp:198-213). -/
def iffChunk (h : Endian) (id : List Byte) (size : Nat) (s : IffRead) : Rd IffRead :=
  if id = tag "VHDR" then iffParseVHDR h s
  else if id = tag "BODY" then iffParseBODY size s
  else match iffMiscType id with
    | some type => do
      let ms ← formParseMisc type size s.misc
      return { s with misc := ms }
    | none => return s

/-- IFF.cpp:184-243 `readInit`, with at most `fuel` chunks. The VHDR chunk may be missing: the track's format is then
uninitialised memory, which `afOpenFile` uses (openclose.cpp:365-398). -/
def iffRead (h : Endian) (fuel : Nat) : Rd IffRead := do
  Rd.seek 0
  let type ← Rd.read 4
  let size ← Rd.field h .big .s4
  let formtype ← Rd.read 4
  if type ≠ tag "FORM" ∨ formtype ≠ tag "8SVX" then Rd.fail
  else
    let f : AFmt := { rate := 0, sampleFormat := 0, sampleWidth := 0, byteOrder := 0, pcm := ⟨0, 0, 0, 0⟩, channels := 0
                      compression := 0 }
    let s ← Rd.loop (formRound (iffChunk h) h size) fuel (4, ⟨false, Trk.ofFormat f, []⟩)
    if !s.hasVHDR then Rd.undefined else return s

end AF.Files
