import Verif.Model.Files.FORM
import Verif.Model.Extended
/-!
# AIFF and AIFF-C (AIFF.cpp), big-endian (AIFF.cpp:101)
-/
namespace AF.Files
open AF AF.Setup AF.Convert

/-! ## Writing -/

/-- The members of `AIFFFile` and of the handle that the header is made from; offsets are 0 until set
(AIFF.cpp:103-109). `aifc` is `isAIFFC()` (AIFF.h:86): the file format the setup asked for (openclose.cpp:352). -/
structure AiffObj where
  aifc : Bool
  handle : Meta.Handle
  /-- names and comments of the markers of the (only) track -/
  names : List (List Byte × List Byte)
  fver : Nat
  comm : Nat
  mark : Nat
  aesd : Nat
  misc : Nat
  ssnd : Nat
  deriving DecidableEq

/-- AIFF.cpp:1054-1076 `writeFVER`. -/
def aiffFVER (h : Endian) : List Byte := tag "FVER" ++ fieldBytes h .big .s4 4 ++ fieldBytes h .big .s4 0xa2805140

/-- The compression id and name of an AIFF-C file (AIFF.cpp:824-875). (No other format gets past `completeSetup`.) -/
def aiffCompression (f : AFmt) : List Byte × List Byte :=
  if f.compression = NONE then
    if f.sampleFormat = TWOSCOMP then (tag "NONE", tag "not compressed")
    else if f.sampleFormat = FLOAT then (tag "fl32", tag "32-bit Floating Point")
    else (tag "fl64", tag "64-bit Floating Point")
  else if f.compression = ULAW then (tag "ulaw", tag "CCITT G.711 u-law")
  else if f.compression = ALAW then (tag "alaw", tag "CCITT G.711 A-law")
  else (tag "ima4", tag "IMA 4:1 compression")

/-- AIFF.cpp:1204-1226 `writePString`: nothing for more than 255 characters. -/
def pString (s : List Byte) : List Byte :=
  if s.length > 255 then [] else [BitVec.ofNat 8 s.length] ++ s ++ if s.length % 2 = 0 then [0] else []

/-- AIFF.cpp:903-907: the frame count; packets for IMA. -/
def aiffFrameCount (t : Trk) : Int := if t.f.compression = IMA then t.frames.tdiv t.fpp else t.frames

/-- AIFF.cpp:806-929 `writeCOMM`. -/
def aiffCOMM (h : Endian) (aifc : Bool) (t : Trk) : List Byte :=
  tag "COMM" ++
  fieldBytes h .big .s4 (if aifc then 22 + ((aiffCompression t.f).2.length : Int) + 1 else 18) ++
  fieldBytes h .big .s2 t.f.channels ++ fieldBytes h .big .s4 (aiffFrameCount t) ++ fieldBytes h .big .s2 t.f.sampleWidth ++
  Extended.encode (.fin t.f.rate) ++
  if aifc then (aiffCompression t.f).1 ++ pString (aiffCompression t.f).2 else []

/-- AIFF.cpp:1028-1042: one marker; the comment is not written. -/
def aiffMark (h : Endian) (m : WMark) : List Byte :=
  fieldBytes h .big .s2 m.id ++ fieldBytes h .big .s4 m.position ++ pString m.name

/-- AIFF.cpp:1004-1052 `writeMARK`, in one piece: the length is written last. -/
def aiffMARK (h : Endian) (ms : List WMark) : List Byte :=
  let body := fieldBytes h .big .s2 ms.length ++ ms.flatMap (aiffMark h)
  tag "MARK" ++ fieldBytes h .big .s4 body.length ++ body

/-- AIFF.cpp:1004-1052. -/
def aiffWriteMARK (h : Endian) (x : AiffObj) (d : Disk) : Disk × AiffObj :=
  let ms := wmarks x.handle x.names
  if ms.length = 0 then (d, x) else
  let (d, offset) := d.atOffset x.mark
  (d.write (aiffMARK h ms), { x with mark := offset })

/-- AIFF.cpp:943-1002 `writeINST`: always for the instrument `AF_DEFAULT_INST` and the loops 1 and 2, through the
functions of the API. -/
def aiffINST (h : Endian) (hd : Meta.Handle) : List Byte :=
  let p (id : Int) : Int := (Meta.getInstParamLong hd DEFAULT_INST id).toInt
  tag "INST" ++ fieldBytes h .big .s4 20 ++
  fieldBytes h .big .s1 (p 301) ++ fieldBytes h .big .s1 (p 302) ++ fieldBytes h .big .s1 (p 303) ++
  fieldBytes h .big .s1 (p 304) ++ fieldBytes h .big .s1 (p 305) ++ fieldBytes h .big .s1 (p 306) ++
  fieldBytes h .big .s2 (p 307) ++
  fieldBytes h .big .s2 (Meta.getLoopMode hd DEFAULT_INST 1) ++ fieldBytes h .big .s2 (Meta.getLoopStart hd DEFAULT_INST 1) ++
  fieldBytes h .big .s2 (Meta.getLoopEnd hd DEFAULT_INST 1) ++
  fieldBytes h .big .s2 (Meta.getLoopMode hd DEFAULT_INST 2) ++ fieldBytes h .big .s2 (Meta.getLoopStart hd DEFAULT_INST 2) ++
  fieldBytes h .big .s2 (Meta.getLoopEnd hd DEFAULT_INST 2)

/-- The AES data of the track, if it has any: an array of 24 bytes. -/
def aesOf (hd : Meta.Handle) : Option (List Byte) :=
  match hd.tracks with
  | [] => none
  | t :: _ => if t.hasAES then some ((t.aes ++ List.replicate 24 0).take 24) else none

/-- AIFF.cpp:935-958 `writeAESD`. -/
def aiffWriteAESD (h : Endian) (x : AiffObj) (d : Disk) : Disk × AiffObj :=
  match aesOf x.handle with
  | none => (d, x)
  | some b =>
    let (d, offset) := d.atOffset x.aesd
    (d.write (tag "AESD" ++ fieldBytes h .big .s4 24 ++ b), { x with aesd := offset })

/-- AIFF.cpp:1126-1140 -/
def aiffMiscTag (type : Int) : List Byte :=
  if type = 203 then tag "NAME" else if type = 202 then tag "AUTH" else if type = 201 then tag "(c) "
  else if type = 204 then tag "ANNO" else if type = 206 then tag "MIDI" else if type = 205 then tag "APPL"
  else [0, 0, 0, 0]

/-- AIFF.cpp:1082-1165 `writeMiscellaneous`. -/
def aiffWriteMisc (h : Endian) (x : AiffObj) (d : Disk) : Disk × AiffObj :=
  let (d, offset) := d.atOffset x.misc
  (x.handle.misc.foldl (formMisc aiffMiscTag h) d, { x with misc := offset })

/-- AIFF.cpp:960-985 `writeSSND`: what is written, and `fpos_first_frame` if it was not set. -/
def aiffWriteSSND (h : Endian) (t : Trk) (x : AiffObj) (d : Disk) : Disk × AiffObj :=
  let (d, offset) := d.atOffset x.ssnd
  (d.write (tag "SSND" ++ fieldBytes h .big .s4 (t.dataSize + 8) ++ fieldBytes h .big .s4 0 ++ fieldBytes h .big .s4 0),
    { x with ssnd := offset })

/-- AIFF.cpp:776-786, 796-802: all chunks in order. -/
def aiffWrite (h : Endian) (t : Trk) (x : AiffObj) (d : Disk) : Disk × AiffObj :=
  let (d, x) :=
    if x.aifc then
      let (d, offset) := d.atOffset x.fver
      (d.write (aiffFVER h), { x with fver := offset })
    else (d, x)
  let (d, offset) := d.atOffset x.comm
  let d := d.write (aiffCOMM h x.aifc t)
  let x := { x with comm := offset }
  let (d, x) := aiffWriteMARK h x d
  let d := d.write (aiffINST h x.handle)
  let (d, x) := aiffWriteAESD h x d
  let (d, x) := aiffWriteMisc h x d
  aiffWriteSSND h t x d

/-- AIFF.cpp:1168-1189 `initCompressionParams`. -/
def aiffTrack (f : AFmt) : Trk :=
  if f.compression = IMA then { Trk.ofFormat f with fpp := 64, bpp := 34 * f.channels } else Trk.ofFormat f

/-- AIFF.cpp:760-789 `writeInit`. -/
def aiffInit (h : Endian) (aifc : Bool) (handle : Meta.Handle) (names : List (List Byte × List Byte)) (f : AFmt) :
    Disk × Trk × AiffObj :=
  let t := aiffTrack f
  let d := (⟨[], 0⟩ : Disk).write (tag "FORM" ++ fieldBytes h .big .s4 0 ++ tag (if aifc then "AIFC" else "AIFF"))
  let (d, x) := aiffWrite h t ⟨aifc, handle, names, 0, 0, 0, 0, 0, 0⟩ d
  (d, { t with first := d.pos }, x)

/-- AIFF.cpp:791-804 `update`. -/
def aiffUpdate (h : Endian) (t : Trk) (x : AiffObj) (d : Disk) : Disk × AiffObj :=
  let length : Int := d.bytes.length
  aiffWrite h t x ((d.seek 4).write (fieldBytes h .big .s4 (length - 8)))

/-- Metadata calls act on the handle. -/
def aiffCall (op : Meta.Op) (x : AiffObj) : Except Abort AiffObj := do
  let r ← Meta.step x.handle op
  return { x with handle := r.2 }

/-- A whole life of an AIFF file opened for writing: the bytes left, and the object when it was closed. -/
def aiffSession (h : Endian) (aifc : Bool) (o : Opened) (f : AFmt) (evs : List MEv) : Except Abort (List Byte × AiffObj) :=
  msession (aiffUpdate h) aiffCall (aiffInit h aifc o.handle (o.names.headD []) f) evs

/-! ## Reading -/

/-- What `readInit` has found so far. -/
structure AiffRead where
  hasCOMM : Bool
  hasSSND : Bool
  t : Trk
  markers : List RMark
  misc : List Meta.Misc
  inst : Option Meta.Instrument
  aes : Option (List Byte)

/-- AIFF.cpp:118-144 `parseAESD`; when it fails the array keeps its zeros (Track.cpp:62-86). -/
def aiffParseAESD (s : AiffRead) : Rd AiffRead := do
  let b ← Rd.read 24
  return { s with aes := some (if b.length = 24 then b else List.replicate 24 0) }

/-- AIFF.cpp:202-262 `parseINST`. -/
def aiffParseINST (h : Endian) (s : AiffRead) : Rd AiffRead := do
  let baseNote ← Rd.field h .big .s1
  let detune ← Rd.field h .big .s1
  let lowNote ← Rd.field h .big .s1
  let highNote ← Rd.field h .big .s1
  let lowVelocity ← Rd.field h .big .s1
  let highVelocity ← Rd.field h .big .s1
  let gain ← Rd.field h .big .s2
  let mode1 ← Rd.field h .big .s2
  let begin1 ← Rd.field h .big .s2
  let end1 ← Rd.field h .big .s2
  let mode2 ← Rd.field h .big .s2
  let begin2 ← Rd.field h .big .s2
  let end2 ← Rd.field h .big .s2
  let long (x : Int) : BitVec 64 := BitVec.ofInt 64 x
  let inst : Meta.Instrument :=
    ⟨DEFAULT_INST, [⟨1, mode1, 0, begin1, end1, DEFAULT_TRACK⟩, ⟨2, mode2, 0, begin2, end2, DEFAULT_TRACK⟩],
     [long baseNote, long (wrapS 8 detune), long lowVelocity, long highVelocity, long lowNote, long highNote,
      long (wrapS 16 gain), 1, 2]⟩
  return { s with inst := some inst }

/-- `readU8`, … into a variable that was set to zero before. -/
def Rd.uInit (h o : Endian) (k : FieldSize) : Rd Nat := fun file p =>
  match readField h o k (file.drop p) with
  | some (x, _) => .ok (x.toNat, p + k.bytes)
  | none => .ok ((uintOf h (file.drop p ++ List.replicate (k.bytes - (file.drop p).length) 0)).toNat, p + (file.drop p).length)

/-- AIFF.cpp:284-313: one marker. `Marker::id` is a `short`. A name that the file does not have in full is indeterminate. -/
def aiffReadMark (h : Endian) : Rd RMark := do
  let id ← Rd.uInit h .big .s2
  let position ← Rd.uInit h .big .s4
  let size ← Rd.uInit h .big .s1
  let name ← Rd.read size
  if name.length < size then Rd.undefined
  else
    Rd.skip (if size % 2 = 0 then 1 else 0)
    return ⟨wrapS 16 id, position, name ++ [0], [0]⟩

/-- AIFF.cpp:268-316 `parseMARK`. -/
def aiffParseMARK (h : Endian) (s : AiffRead) : Rd AiffRead := do
  let n ← Rd.field h .big .s2
  let ms ← Rd.times (aiffReadMark h) n
  return { s with markers := ms }

/-- AIFF.cpp:363-445: the format, `framesPerPacket`, `bytesPerPacket` and frame count for a compression id. -/
def aiffFormat (h : Endian) (f : AFmt) (frames : Int) (id : List Byte) : Option (AFmt × Int × Int × Int) :=
  if id = tag "NONE" ∨ id = tag "twos" then some (f, 1, 0, frames)
  else if id = tag "in24" then some ({ f with sampleWidth := 24 }, 1, 0, frames)
  else if id = tag "in32" then some ({ f with sampleWidth := 32 }, 1, 0, frames)
  else if id = tag "ulaw" ∨ id = tag "ULAW" then
    some ({ f with compression := ULAW, byteOrder := native h, sampleWidth := 16 }, 1, f.channels, frames)
  else if id = tag "alaw" ∨ id = tag "ALAW" then
    some ({ f with compression := ALAW, byteOrder := native h, sampleWidth := 16 }, 1, f.channels, frames)
  else if id = tag "fl32" ∨ id = tag "FL32" then some ({ f with sampleFormat := FLOAT, sampleWidth := 32 }, 1, 0, frames)
  else if id = tag "fl64" ∨ id = tag "FL64" then some ({ f with sampleFormat := DOUBLE, sampleWidth := 64 }, 1, 0, frames)
  else if id = tag "sowt" then some ({ f with byteOrder := LITTLE }, 1, 0, frames)
  else if id = tag "ima4" then
    some ({ f with compression := IMA, byteOrder := native h, sampleWidth := 16 }, 64, 34 * f.channels, frames * 64)
  else none

/-- The rate of the track. The rates of formats are rational numbers here: one that is not finite becomes 0. -/
def dblValue : Dbl → Rat
  | .fin q => q
  | _ => 0

/-- AIFF.cpp:360-368, 1193-1202: the compression id; the name is read and not used. -/
def aiffReadCompression (aifc : Bool) : Rd (List Byte) :=
  if aifc then do
    let id ← Rd.tag
    let n ← Rd.read 1
    let _ ← Rd.read (match n with | [b] => b.toNat | _ => 0)
    return id
  else return tag "NONE"

/-- AIFF.cpp:323-454 `parseCOMM`. `rnd` is how the machine rounds. (An AIFF file is treated like one whose compression id
is `NONE`.) -/
def aiffParseCOMM (rnd : Rat → Dbl) (h : Endian) (aifc : Bool) (s : AiffRead) : Rd AiffRead := do
  let channels ← Rd.field h .big .s2
  if channels = 0 then Rd.fail
  else
    let frames ← Rd.field h .big .s4
    let sampleSize ← Rd.field h .big .s2
    let rate ← Rd.read 10
    if rate.length < 10 then Rd.undefined
    else
      let f : AFmt := { rate := dblValue (Extended.decode rnd (Extended.byteAt rate)), sampleFormat := TWOSCOMP
                        sampleWidth := sampleSize, byteOrder := BIG, pcm := ⟨0, 0, 0, 0⟩, channels := channels
                        compression := NONE }
      let id ← aiffReadCompression aifc
      match aiffFormat h f frames id with
      | none => Rd.fail
      | some (f, fpp, bpp, frames) =>
        let bpp := if f.isUncompressed then pcmBytesPerPacket f else bpp
        let r := setSampleFormat f f.sampleFormat f.sampleWidth
        if !r.1 then Rd.fail
        else return { s with hasCOMM := true, t := { s.t with f := r.2, fpp := fpp, bpp := bpp, frames := frames } }

/-- AIFF.cpp:460-476 `parseSSND`. -/
def aiffParseSSND (h : Endian) (size : Nat) (s : AiffRead) : Rd AiffRead := do
  let offset ← Rd.field h .big .s4
  let _ ← Rd.field? h .big .s4
  let p ← Rd.tell
  return { s with hasSSND := true, t := { s.t with dataSize := (size : Int) - 8 - offset, first := (p : Int) + offset } }

/-- AIFF.cpp:171-184 -/
def aiffMiscType (id : List Byte) : Option Int :=
  if id = tag "NAME" then some 203 else if id = tag "AUTH" then some 202 else if id = tag "(c) " then some 201
  else if id = tag "ANNO" then some 204 else if id = tag "APPL" then some 205 else if id = tag "MIDI" then some 206
  else none

/-- The dispatch on chunk ids (AIFF.cpp:500-547). -/
def aiffChunk (rnd : Rat → Dbl) (h : Endian) (aifc : Bool) (id : List Byte) (size : Nat) (s : AiffRead) : Rd AiffRead :=
  if id = tag "COMM" then aiffParseCOMM rnd h aifc s
  else if id = tag "FVER" then do let _ ← Rd.field? h .big .s4; return s
  else if id = tag "INST" then aiffParseINST h s
  else if id = tag "MARK" then aiffParseMARK h s
  else if id = tag "AESD" then aiffParseAESD s
  else match aiffMiscType id with
    | some type => do
      let ms ← formParseMisc type size s.misc
      return { s with misc := ms }
    | none =>
      if id = tag "SSND" then if s.hasSSND then Rd.fail else aiffParseSSND h size s
      else return s

/-- AIFF.cpp:478-571 `readInit`, with at most `fuel` chunks. `isAIFFC()` is what the file was recognised as (AIFF.cpp:573-597):
that is the form type. A missing COMM chunk is only reported; the track's format is then uninitialised memory, which
`afOpenFile` uses (openclose.cpp:365-398). -/
def aiffRead (rnd : Rat → Dbl) (h : Endian) (fuel : Nat) : Rd AiffRead := do
  Rd.seek 0
  let type ← Rd.read 4
  let size ← Rd.field h .big .s4
  let formtype ← Rd.read 4
  if type ≠ tag "FORM" ∨ (formtype ≠ tag "AIFF" ∧ formtype ≠ tag "AIFC") then Rd.fail
  else
    let f : AFmt := { rate := 0, sampleFormat := 0, sampleWidth := 0, byteOrder := 0, pcm := ⟨0, 0, 0, 0⟩, channels := 0
                      compression := 0 }
    let s ← Rd.loop (formRound (aiffChunk rnd h (formtype = tag "AIFC")) h size) fuel
      (4, ⟨false, false, Trk.ofFormat f, [], [], none, none⟩)
    if !s.hasCOMM then Rd.undefined else return s

/-- The handle of a file that was opened for reading, as far as metadata goes. -/
def AiffRead.handle (s : AiffRead) : Meta.Handle :=
  { access := .read, family := .aiff
    tracks := [⟨DEFAULT_TRACK, s.markers.map (fun m => ⟨m.id, m.position⟩), s.aes.isSome, s.aes.getD (List.replicate 24 0)⟩]
    instruments := s.inst.toList, misc := s.misc }

end AF.Files
