import Verif.Model.Chunks
/-!
# RIFF WAVE (WAVE.cpp), little-endian (WAVE.cpp:152)
-/
namespace AF.Files
open AF AF.Setup

/-! ## Writing -/

/-- The members of `WAVEFile` and of the handle that the header is made from; the offsets are 0 until set
(WAVE.cpp:154-157). -/
structure WaveObj where
  handle : Meta.Handle
  /-- names and comments of the markers of the (only) track -/
  names : List (List Byte × List Byte)
  miscOffset : Nat
  markOffset : Nat
  factOffset : Nat
  dataSizeOffset : Nat
  deriving DecidableEq

/-- WAVE.cpp:1281-1299 `misc_type_to_wave`. -/
def waveMiscTag (type : Int) : Option (List Byte) :=
  if type = 202 then some (tag "IART") else if type = 203 then some (tag "INAM")
  else if type = 201 then some (tag "ICOP") else if type = 210 then some (tag "ICMT")
  else if type = 211 then some (tag "ICRD") else if type = 212 then some (tag "ISFT")
  else none

/-- WAVE.cpp:1313-1329: bytes of one entry; C's `%` rounds toward zero. -/
def waveMiscSize (m : Meta.Misc) : Int :=
  match waveMiscTag m.type with
  | none => 0
  | some _ => 8 + m.size + (if m.size.tmod 2 ≠ 0 then 1 else 0)

/-- WAVE.cpp:1360-1393: one entry. A buffer that was never written to is a gap. -/
def waveMisc (h : Endian) (d : Disk) (m : Meta.Misc) : Disk :=
  match waveMiscTag m.type with
  | none => d
  | some id =>
    let d := d.write (id ++ fieldBytes h .little .s4 m.size)
    match m.buffer with
    | some b =>
      let d := d.write b
      if m.size.tmod 2 ≠ 0 then d.write (fieldBytes h .little .s1 0) else d
    | none => d.skip (m.size + if m.size.tmod 2 ≠ 0 then 1 else 0)

/-- WAVE.cpp:1301-1398 `writeMiscellaneous`. -/
def waveWriteMisc (h : Endian) (x : WaveObj) (d : Disk) : Disk × WaveObj :=
  if x.handle.misc.length = 0 then (d, x) else
  let total : Int := 12 + (x.handle.misc.map waveMiscSize).sum
  let offset := if x.miscOffset = 0 then d.pos else x.miscOffset
  let d := (d.seek offset).write (tag "LIST" ++ fieldBytes h .little .s4 (total - 8) ++ tag "INFO")
  (x.handle.misc.foldl (waveMisc h) d, { x with miscOffset := offset })

/-- WAVE.cpp:1502-1521: a C string with its zero, and another if the length is odd. -/
def zString (s : List Byte) : List Byte := s ++ [0] ++ if (s.length + 1) % 2 = 1 then [0] else []

/-- WAVE.cpp:1424-1452: one cue point. -/
def waveCue (h : Endian) (i : Nat) (m : WMark) : List Byte :=
  fieldBytes h .little .s4 m.id ++ fieldBytes h .little .s4 i ++ tag "data" ++ fieldBytes h .little .s4 0 ++
  fieldBytes h .little .s4 0 ++ fieldBytes h .little .s4 m.position

/-- WAVE.cpp:1479-1497: name and comment of one marker. -/
def waveLabel (h : Endian) (m : WMark) : List Byte :=
  tag "labl" ++ fieldBytes h .little .s4 (4 + (zString m.name).length) ++ fieldBytes h .little .s4 m.id ++ zString m.name ++
  tag "note" ++ fieldBytes h .little .s4 (4 + (zString m.comment).length) ++ fieldBytes h .little .s4 m.id ++
  zString m.comment

/-- The bytes written by `writeCues` (WAVE.cpp:1400-1500), in one piece: nothing is skipped between them. -/
def waveCueBytes (h : Endian) (ms : List WMark) : List Byte :=
  tag "cue " ++ fieldBytes h .little .s4 (4 + ms.length * 24) ++ fieldBytes h .little .s4 ms.length ++
  (ms.zipIdx.flatMap fun p => waveCue h p.2 p.1) ++
  tag "LIST" ++
  fieldBytes h .little .s4 (4 + (ms.map fun m => ((12 + (zString m.name).length + (12 + (zString m.comment).length) : Nat) : Int)).sum) ++
  tag "adtl" ++ ms.flatMap (waveLabel h)

/-- WAVE.cpp:1400-1500 `writeCues`. -/
def waveWriteCues (h : Endian) (x : WaveObj) (d : Disk) : Disk × WaveObj :=
  let ms := wmarks x.handle x.names
  if ms.length = 0 then (d, x) else
  let offset := if x.markOffset = 0 then d.pos else x.markOffset
  ((d.seek offset).write (waveCueBytes h ms), { x with markOffset := offset })

/-- WAVE.cpp:1597-1607 -/
def msadpcmCoefficients : List (Int × Int) :=
  [(256, 0), (512, -256), (0, 0), (192, 64), (240, 0), (460, -208), (392, -232)]

/-- WAVE.cpp:1081-1142: chunk size, format tag, block alignment and bits per sample for a compression type. (A format
for which `writeFormat` fails is not accepted by `completeSetup`.) -/
def waveFmtParams (t : Trk) : Int × Int × Int × Int :=
  if t.f.compression = ULAW then (18, 0x101, t.f.channels, 8)
  else if t.f.compression = ALAW then (18, 0x102, t.f.channels, 8)
  else if t.f.compression = IMA then (20, 0x11, t.bpp, 4)
  else if t.f.compression = MSADPCM then (50, 2, t.bpp, 4)
  else (16, if t.f.sampleFormat = FLOAT ∨ t.f.sampleFormat = DOUBLE then 3 else 1,
        frameSizeUncompressed t.f false, 8 * sampleSizeUncompressed t.f false)

/-- WAVE.cpp:1153-1159. Computed in floating point in the code; here without rounding (no reader of the library looks
at the number). -/
def waveAverage (t : Trk) : Int :=
  if t.f.compression = IMA ∨ t.f.compression = MSADPCM then toUnsigned (t.f.rate * (t.bpp : Rat) / (t.fpp : Rat))
  else toUnsigned (t.f.rate * ((frameSize t.f false).getD 0))

/-- WAVE.cpp:1165-1195: what follows the bits per sample. -/
def waveFmtExtra (h : Endian) (t : Trk) : List Byte :=
  if t.f.compression = ULAW ∨ t.f.compression = ALAW then fieldBytes h .little .s2 0
  else if t.f.compression = IMA then fieldBytes h .little .s2 2 ++ fieldBytes h .little .s2 t.fpp
  else if t.f.compression = MSADPCM then
    fieldBytes h .little .s2 (2 + 2 + 7 * 4) ++ fieldBytes h .little .s2 t.fpp ++ fieldBytes h .little .s2 7 ++
    msadpcmCoefficients.flatMap fun c => fieldBytes h .little .s2 c.1 ++ fieldBytes h .little .s2 c.2
  else []

/-- WAVE.cpp:1071-1198 `writeFormat`. -/
def waveFmt (h : Endian) (t : Trk) : List Byte :=
  let (chunkSize, formatTag, blockAlign, bits) := waveFmtParams t
  tag "fmt " ++ fieldBytes h .little .s4 chunkSize ++ fieldBytes h .little .s2 formatTag ++
  fieldBytes h .little .s2 t.f.channels ++ fieldBytes h .little .s4 (toUnsigned t.f.rate) ++
  fieldBytes h .little .s4 (waveAverage t) ++ fieldBytes h .little .s2 blockAlign ++ fieldBytes h .little .s2 bits ++
  waveFmtExtra h t

/-- WAVE.cpp:1200-1228 `writeFrameCount`. -/
def waveWriteFact (h : Endian) (t : Trk) (x : WaveObj) (d : Disk) : Disk × WaveObj :=
  if t.f.compression = NONE ∧ (t.f.sampleFormat = TWOSCOMP ∨ t.f.sampleFormat = UNSIGNED) then (d, x) else
  let offset := if x.factOffset = 0 then d.pos else x.factOffset
  ((d.seek offset).write (tag "fact" ++ fieldBytes h .little .s4 4 ++ fieldBytes h .little .s4 t.frames),
    { x with factOffset := offset })

/-- WAVE.cpp:1553-1620 `initCompressionParams`. -/
def waveTrack (f : AFmt) : Trk :=
  if f.compression = IMA then { Trk.ofFormat f with fpp := 505, bpp := 256 * f.channels }
  else if f.compression = MSADPCM then { Trk.ofFormat f with fpp := 500, bpp := 256 * f.channels }
  else Trk.ofFormat f

/-- WAVE.cpp:1523-1542, 1230-1243 (`writeInit`, `writeData`). -/
def waveInit (h : Endian) (handle : Meta.Handle) (names : List (List Byte × List Byte)) (f : AFmt) : Disk × Trk × WaveObj :=
  let t := waveTrack f
  let x : WaveObj := ⟨handle, names, 0, 0, 0, 0⟩
  let d := ((⟨[], 0⟩ : Disk).seek 0).write (tag "RIFF" ++ [0, 0, 0, 0] ++ tag "WAVE")
  let (d, x) := waveWriteMisc h x d
  let (d, x) := waveWriteCues h x d
  let d := d.write (waveFmt h t)
  let (d, x) := waveWriteFact h t x d
  let d := d.write (tag "data")
  let x := { x with dataSizeOffset := d.pos }
  let d := d.write (fieldBytes h .little .s4 t.dataSize)
  (d, { t with first := d.pos }, x)

/-- WAVE.cpp:1245-1279 `update`. -/
def waveUpdate (h : Endian) (t : Trk) (x : WaveObj) (d : Disk) : Disk × WaveObj :=
  let (d, x) :=
    if t.first ≠ 0 then
      let (d, x) := waveWriteFact h t x d
      let d := (d.seek x.dataSizeOffset).write (fieldBytes h .little .s4 t.dataSize)
      let fileLength : Int := d.bytes.length
      ((d.seek 4).write (fieldBytes h .little .s4 (fileLength - 8)), x)
    else (d, x)
  let (d, x) := waveWriteMisc h x d
  waveWriteCues h x d

/-- Metadata calls act on the handle. -/
def waveCall (op : Meta.Op) (x : WaveObj) : Except Abort WaveObj := do
  let r ← Meta.step x.handle op
  return { x with handle := r.2 }

/-- A whole life of a WAVE file opened for writing, on a handle of one track: the bytes left, and the object when it
was closed. -/
def waveSession (h : Endian) (o : Opened) (f : AFmt) (evs : List MEv) : Except Abort (List Byte × WaveObj) :=
  msession (waveUpdate h) waveCall (waveInit h o.handle (o.names.headD []) f) evs

/-! ## Reading -/

/-- What `readInit` has found so far. -/
structure WaveRead where
  index : Nat
  hasFormat : Bool
  hasData : Bool
  hasFrameCount : Bool
  t : Trk
  markers : List RMark
  misc : List Meta.Misc

/-- The GUIDs of WAVE_FORMAT_EXTENSIBLE subformats (WAVE.cpp:130-149) differ in their first byte. -/
def waveGuid (b : Byte) : List Byte := [b, 0, 0, 0, 0, 0, 0x10, 0, 0x80, 0, 0, 0xaa, 0, 0x38, 0x9b, 0x71]

/-- `readS16` of a coefficient (WAVE.cpp:285-289): the values do not matter here. -/
def waveCoefficient (h : Endian) : Rd Unit := do
  let _ ← Rd.field? h .little .s2
  let _ ← Rd.field? h .little .s2
  return ()

/-- An integer format for a number of bits (WAVE.cpp:204-227). -/
def wavePCM (f : AFmt) (bits valid : Int) : Option AFmt :=
  if bits = 0 ∨ bits > 32 then none
  else some { f with sampleWidth := valid, sampleFormat := if bits ≤ 8 then UNSIGNED else TWOSCOMP }

/-- A floating-point format (WAVE.cpp:247-263). -/
def waveFloat (f : AFmt) (bits : Int) : AFmt :=
  if bits = 64 then { f with sampleWidth := 64, sampleFormat := DOUBLE }
  else { f with sampleWidth := 32, sampleFormat := FLOAT }

/-- G.711 (WAVE.cpp:229-245). -/
def waveG711 (h : Endian) (f : AFmt) (compression : Int) : AFmt :=
  { f with sampleWidth := 16, sampleFormat := TWOSCOMP, byteOrder := native h, compression := compression }

/-- The switch of `parseFormat` (WAVE.cpp:202-427): the format, `framesPerPacket` and, where the switch sets it,
`bytesPerPacket`. The coefficient table has 256 rows (WAVE.h:71); the `assert` on `numCoefficients` is compiled out. -/
def waveSwitch (h : Endian) (f : AFmt) (blockAlign : Option Nat) (formatTag : Nat) : Rd (AFmt × Int × Int) :=
  if formatTag = 1 then do
    let bits ← Rd.field h .little .s2
    match wavePCM f bits bits with
    | none => Rd.fail
    | some f => return (f, 1, 0)
  else if formatTag = 7 ∨ formatTag = 0x101 then return (waveG711 h f ULAW, 1, f.channels)
  else if formatTag = 6 ∨ formatTag = 0x102 then return (waveG711 h f ALAW, 1, f.channels)
  else if formatTag = 3 then do
    let bits ← Rd.field h .little .s2
    return (waveFloat f bits, 1, 0)
  else if formatTag = 2 then do
    let _ ← Rd.field? h .little .s2
    let _ ← Rd.field? h .little .s2
    let samplesPerBlock ← Rd.field h .little .s2
    let numCoefficients ← Rd.field h .little .s2
    if numCoefficients > 256 then Rd.undefined
    else
      let _ ← Rd.times (waveCoefficient h) numCoefficients
      match blockAlign with
      | none => Rd.undefined
      | some b =>
        return ({ f with sampleWidth := 16, sampleFormat := TWOSCOMP, compression := MSADPCM, byteOrder := native h },
          samplesPerBlock, b)
  else if formatTag = 0x11 then do
    let _ ← Rd.field? h .little .s2
    let _ ← Rd.field? h .little .s2
    let samplesPerBlock ← Rd.field h .little .s2
    match blockAlign with
    | none => Rd.undefined
    | some b =>
      return ({ f with sampleWidth := 16, sampleFormat := TWOSCOMP, compression := IMA, byteOrder := native h },
        samplesPerBlock, b)
  else if formatTag = 0xfffe then do
    let bits ← Rd.field h .little .s2
    let _ ← Rd.field? h .little .s2
    let reserved ← Rd.field h .little .s2
    let _ ← Rd.field? h .little .s4
    let guid ← Rd.read 16
    if guid.length ≠ 16 then Rd.undefined
    else if guid = waveGuid 1 then
      let valid := if reserved ≤ bits ∧ (reserved + 7) / 8 = (bits + 7) / 8 then reserved else bits
      match wavePCM f bits valid with
      | none => Rd.fail
      | some f => return (f, 1, 0)
    else if guid = waveGuid 3 then return (waveFloat f bits, 1, 0)
    else if guid = waveGuid 6 then return (waveG711 h f ALAW, 1, f.channels)
    else if guid = waveGuid 7 then return (waveG711 h f ULAW, 1, f.channels)
    else Rd.fail
  else Rd.fail

/-- WAVE.cpp:175-435 `parseFormat`. -/
def waveParseFormat (h : Endian) (s : WaveRead) : Rd WaveRead := do
  let formatTag ← Rd.field? h .little .s2
  let channelCount ← Rd.field h .little .s2
  let sampleRate ← Rd.field? h .little .s4
  let _ ← Rd.field? h .little .s4
  let blockAlign ← Rd.field? h .little .s2
  if channelCount = 0 then Rd.fail
  else
    match formatTag, sampleRate with
    | some formatTag, some sampleRate =>
      let f : AFmt := { rate := sampleRate, sampleFormat := 0, sampleWidth := 0, byteOrder := LITTLE
                        pcm := ⟨0, 0, 0, 0⟩, channels := channelCount, compression := NONE }
      let (f, fpp, bpp) ← waveSwitch h f blockAlign formatTag
      let bpp := if f.isUncompressed then pcmBytesPerPacket f else bpp
      let f := (setSampleFormat f f.sampleFormat f.sampleWidth).2
      return { s with hasFormat := true, t := { s.t with f := f, fpp := fpp, bpp := bpp } }
    | _, _ => Rd.undefined

/-- WAVE.cpp:437-445 `parseData`. -/
def waveParseData (s : WaveRead) (size : Nat) : Rd WaveRead := do
  let first ← Rd.tell
  return { s with hasData := true, t := { s.t with first := first, dataSize := size } }

/-- WAVE.cpp:163-173 `parseFrameCount`. -/
def waveParseFact (h : Endian) (s : WaveRead) : Rd WaveRead := do
  let n ← Rd.field h .little .s4
  return { s with hasFrameCount := true, t := { s.t with frames := n } }

/-- WAVE.cpp:488-517: one cue point. `Marker::id` is a `short`. -/
def waveReadCue (h : Endian) : Rd RMark := do
  let id ← Rd.field h .little .s4
  let _ ← Rd.field? h .little .s4
  let _ ← Rd.field? h .little .s4
  let _ ← Rd.field? h .little .s4
  let _ ← Rd.field? h .little .s4
  let offset ← Rd.field h .little .s4
  return ⟨wrapS 16 id, offset, [0], [0]⟩

/-- WAVE.cpp:471-520 `parseCues`. (The allocation of the markers is assumed to succeed.) -/
def waveParseCues (h : Endian) (s : WaveRead) : Rd WaveRead := do
  let n ← Rd.field h .little .s4
  let ms ← Rd.times (waveReadCue h) n
  return { s with markers := ms }

/-- A new name or comment for the marker with an id (`getMarker`, Track.cpp:133-143; WAVE.cpp:545-563). -/
def setText (isName : Bool) (text : List Byte) (id : Int) (ms : List RMark) : List RMark :=
  Meta.updFirst (·.id == id) (fun m => if isName then { m with name := text } else { m with comment := text }) ms

/-- One round of WAVE.cpp:529-580. `endPos` is where the list ends. `length = chunkSize - 4` is computed in 32 bits;
the allocation is assumed to succeed. -/
def waveADTL (h : Endian) (endPos : Nat) (ms : List RMark) : Rd (List RMark ⊕ List RMark) := do
  let p ← Rd.tell
  if p < endPos then
    let id ← Rd.tag
    let size ← Rd.field h .little .s4
    if id = tag "labl" ∨ id = tag "note" then
      let mark ← Rd.field? h .little .s4
      let text ← Rd.read ((size + 2 ^ 32 - 4) % 2 ^ 32)
      match mark with
      | none => Rd.undefined
      | some mark =>
        let ms := setText (id = tag "labl") text (wrapS 32 mark) ms
        Rd.skip (size % 2)
        return .inl ms
    else
      Rd.skip ((size + size % 2) % 2 ^ 32)
      return .inl ms
  else return .inr ms

/-- WAVE.cpp:594-608: the miscellaneous type of an INFO entry. -/
def waveInfoType (id : List Byte) : Option Int :=
  if id = tag "IART" then some 202 else if id = tag "INAM" then some 203 else if id = tag "ICOP" then some 201
  else if id = tag "ICMT" then some 210 else if id = tag "ICRD" then some 211 else if id = tag "ISFT" then some 212
  else none

/-- One round of WAVE.cpp:588-636. A buffer of no bytes is the null pointer (util.cpp:84-91). -/
def waveINFO (h : Endian) (endPos : Nat) (ms : List Meta.Misc) : Rd (List Meta.Misc ⊕ List Meta.Misc) := do
  let p ← Rd.tell
  if p < endPos then
    let id ← Rd.tag
    let size ← Rd.field h .little .s4
    match waveInfoType id with
    | some type =>
      let b ← Rd.read size
      Rd.skip (size % 2)
      return .inl (ms ++ [⟨ms.length + 1, type, wrapS 32 size, if size = 0 then none else some b, 0⟩])
    | none =>
      Rd.skip size
      Rd.skip (size % 2)
      return .inl ms
  else return .inr ms

/-- WAVE.cpp:525-665: `parseList` and the two loops, with at most `fuel` rounds each. `size -= 4` is 32-bit
arithmetic. -/
def waveParseList (h : Endian) (fuel : Nat) (s : WaveRead) (size : Nat) : Rd WaveRead := do
  let typeID ← Rd.tag
  let size := (size + 2 ^ 32 - 4) % 2 ^ 32
  let p ← Rd.tell
  if typeID = tag "adtl" then
    let ms ← Rd.loop (waveADTL h (p + size)) fuel s.markers
    return { s with markers := ms }
  else if typeID = tag "INFO" then
    let ms ← Rd.loop (waveINFO h (p + size)) fuel s.misc
    return { s with misc := ms }
  else
    Rd.skip size
    return s

/-- WAVE.cpp:447-469: nothing that is read is kept. -/
def wavePlayList (h : Endian) (s : WaveRead) : Rd WaveRead := do
  let n ← Rd.field h .little .s4
  let _ ← Rd.times (do
    let _ ← Rd.field? h .little .s4
    let _ ← Rd.field? h .little .s4
    let _ ← Rd.field? h .little .s4
    return ()) n
  return s

/-- The dispatch on chunk ids (WAVE.cpp:730-791). `inst`/`INST` (WAVE.cpp:667-685) read eight bytes that are not kept. -/
def waveChunk (h : Endian) (fuel : Nat) (id : List Byte) (size : Nat) (s : WaveRead) : Rd WaveRead :=
  if id = tag "fmt " then waveParseFormat h s
  else if id = tag "data" then if !s.hasFormat then Rd.fail else waveParseData s size
  else if id = tag "inst" then do let _ ← Rd.read 8; return s
  else if id = tag "fact" then waveParseFact h s
  else if id = tag "cue " then waveParseCues h s
  else if id = tag "LIST" ∨ id = tag "list" then waveParseList h fuel s size
  else if id = tag "INST" then do let _ ← Rd.read 8; return s
  else if id = tag "plst" then wavePlayList h s
  else return s

/-- WAVE.cpp:793-799: the next chunk's index, all in 32 bits. -/
def waveNext (index size : Nat) : Nat :=
  let i := (index + (size + 8)) % 2 ^ 32
  if i % 2 ≠ 0 then (i + 1) % 2 ^ 32 else i

/-- One round of the loop of `readInit` (WAVE.cpp:721-800). -/
def waveRound (h : Endian) (fuel : Nat) (size : Nat) (s : WaveRead) : Rd (WaveRead ⊕ WaveRead) :=
  if s.index < size then do
    let id ← Rd.tag
    let chunksize ← Rd.u32Init h .little
    let s ← waveChunk h fuel id chunksize s
    let index := waveNext s.index chunksize
    Rd.seek ((index + 8) % 2 ^ 32)
    return .inl { s with index := index }
  else return .inr s

/-- WAVE.cpp:699-826 `readInit`, with at most `fuel` rounds of any loop. (Until a format chunk is found `t.f` is
uninitialised; nothing reads it before.) -/
def waveRead (h : Endian) (fuel : Nat) : Rd WaveRead := do
  Rd.seek 0
  let _ ← Rd.tag
  let size ← Rd.field h .little .s4
  let _ ← Rd.tag
  let f : AFmt := { rate := 0, sampleFormat := 0, sampleWidth := 0, byteOrder := 0, pcm := ⟨0, 0, 0, 0⟩, channels := 0
                    compression := 0 }
  let s ← Rd.loop (waveRound h fuel size) fuel ⟨4, false, false, false, Trk.ofFormat f, [], []⟩
  if !s.hasFormat ∨ !s.hasData then Rd.fail
  else if !s.hasFrameCount then
    if s.t.bpp ≠ 0 ∧ s.t.fpp ≠ 0 then return { s with t := s.t.computeTotalFileFrames } else Rd.fail
  else return s

end AF.Files
