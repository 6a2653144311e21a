import Verif.Model.Disk
/-!
# Core Audio Format (CAF.cpp, PacketTable.cpp), big-endian (CAF.cpp:81)

`cafInit h f` is the disk, the track and the file object after `writeInit`; `cafUpdate h` is `update`; `cafRead h` is
`readInit`.
-/
namespace AF.Files
open AF AF.Setup

/-- How `double`s are stored: the 64 bits of a number, and back. (Numbers that are not finite are not modelled.) -/
structure Float64 where
  enc : Rat → BitVec 64
  dec : BitVec 64 → Rat

/-! ## Packet tables -/

/-- `PacketTable` (PacketTable.h:28-55). -/
structure PacketTable where
  sizes : List Nat
  numValidFrames : Int
  primingFrames : Int
  remainderFrames : Int
  deriving DecidableEq

/-- PacketTable.cpp:32-37 -/
def PacketTable.empty : PacketTable := ⟨[], 0, 0, 0⟩

/-- PacketTable.cpp:63-69 `startOfPacket`: the loop over `m_bytesPerPacket[i]`, `i < packet`; indices beyond the vector
read memory that does not belong to it (`none`). -/
def PacketTable.startOfPacket (t : PacketTable) (packet : Nat) : Option Nat :=
  (List.range packet).foldl (fun acc i => do
    let a ← acc
    let b ← t.sizes[i]?
    return a + b) (some 0)

/-- CAF.cpp:408-445 `encodeBERInteger` of a `uint32_t`. -/
def berEncode (value : BitVec 32) : List Byte :=
  if value &&& 0x7f = value then [value.setWidth 8]
  else if value &&& 0x3fff = value then [(value >>> 7 ||| 0x80).setWidth 8, (value &&& 0x7f).setWidth 8]
  else if value &&& 0x1fffff = value then
    [(value >>> 14 ||| 0x80).setWidth 8, ((value >>> 7 &&& 0x7f) ||| 0x80).setWidth 8, (value &&& 0x7f).setWidth 8]
  else if value &&& 0x0fffffff = value then
    [(value >>> 21 ||| 0x80).setWidth 8, ((value >>> 14 &&& 0x7f) ||| 0x80).setWidth 8,
     ((value >>> 7 &&& 0x7f) ||| 0x80).setWidth 8, (value &&& 0x7f).setWidth 8]
  else
    [(value >>> 28 ||| 0x80).setWidth 8, ((value >>> 21 &&& 0x7f) ||| 0x80).setWidth 8,
     ((value >>> 14 &&& 0x7f) ||| 0x80).setWidth 8, ((value >>> 7 &&& 0x7f) ||| 0x80).setWidth 8,
     (value &&& 0x7f).setWidth 8]

/-- The loop of `readBERInteger` (CAF.cpp:392-406) over the remaining bytes (`*numBytes` of them); `result` and `size`
are the variables. Returns the number and the bytes it took; after five bytes with a sixth to come the number is 0. -/
def berLoop : List Byte → (result : BitVec 32) → (size : Nat) → BitVec 32 × Nat
  | [], result, size => (result, size)
  | data :: rest, result, size =>
    let result := (result <<< 7) ||| (data &&& 0x7f).setWidth 32
    if size + 1 > 5 then (0, size + 1)
    else if data &&& 0x80 ≠ 0 then berLoop rest result (size + 1)
    else (result, size + 1)

/-- CAF.cpp:392-406 -/
def berDecode (bs : List Byte) : BitVec 32 × Nat := berLoop bs 0 0

/-- The loop of CAF.cpp:476-486: sizes until the end of the buffer or a size of 0. -/
def berSizes : Nat → List Byte → List Nat
  | 0, _ => []
  | fuel + 1, bs =>
    if bs = [] then []
    else
      let r := berDecode bs
      if r.1 = 0 then [] else r.1.toNat :: berSizes fuel (bs.drop r.2)

/-! ## Writing -/

/-- The members of `CAFFile`, and of the track's packet table. -/
structure CafObj where
  /-- `m_codecData` -/
  cookie : Option (List Byte)
  /-- `m_cookieDataOffset`, `m_dataOffset`; `none` is −1 -/
  cookieOffset : Option Nat
  dataOffset : Option Nat
  table : Option PacketTable
  deriving DecidableEq

/-- CAF.cpp:678-738: the parameters of compressed tracks opened for writing. -/
def cafParams (f : AFmt) (t : Trk) : Trk × CafObj :=
  if f.compression = IMA then ({ t with bpp := 34 * f.channels, fpp := 64 }, ⟨none, none, none, none⟩)
  else if f.compression = ALAC then
    ({ t with bpp := 0, fpp := 4096 },
     ⟨some (List.replicate (if f.channels > 2 then 48 else 24) 0), none, none, some PacketTable.empty⟩)
  else (t, ⟨none, none, none, none⟩)

/-- CAF.cpp:525-573: format id, flags, bytes per packet, frames per packet, bits per channel. -/
def cafFields (t : Trk) : List Byte × Int × Int × Int × Int :=
  let f := t.f
  if f.compression = ULAW then (tag "ulaw", 0, f.channels, 1, 8)
  else if f.compression = ALAW then (tag "alaw", 0, f.channels, 1, 8)
  else if f.compression = IMA then (tag "ima4", 0, t.bpp, t.fpp, 16)
  else
    let flags : Int := (if f.byteOrder = LITTLE then 2 else 0) + (if f.sampleFormat = FLOAT ∨ f.sampleFormat = DOUBLE then 1 else 0)
    if f.compression = ALAC then
      let flags := if f.sampleWidth = 16 then 1 else if f.sampleWidth = 20 then 2 else if f.sampleWidth = 24 then 3
        else if f.sampleWidth = 32 then 4 else flags
      (tag "alac", flags, t.bpp, t.fpp, f.sampleWidth)
    else (tag "lpcm", flags, frameSizeUncompressed f false, 1, f.sampleWidth)

/-- CAF.cpp:521-586 `writeDescription`. -/
def cafDesc (F : Float64) (h : Endian) (t : Trk) : List Byte :=
  let (id, flags, bpp, fpp, bits) := cafFields t
  tag "desc" ++ fieldBytes h .big .s8 32 ++ writeField h .big .s8 (F.enc t.f.rate) ++ id ++ fieldBytes h .big .s4 flags ++
  fieldBytes h .big .s4 bpp ++ fieldBytes h .big .s4 fpp ++ fieldBytes h .big .s4 t.f.channels ++ fieldBytes h .big .s4 bits

/-- The chunk written by `writeCookieData` (CAF.cpp:666-673). -/
def cafCookieChunk (h : Endian) (c : List Byte) : List Byte := tag "kuki" ++ fieldBytes h .big .s8 c.length ++ c

/-- CAF.cpp:656-676 `writeCookieData`. -/
def cafWriteCookie (h : Endian) (x : CafObj) (d : Disk) : Disk × CafObj :=
  match x.cookie with
  | none => (d, x)
  | some c =>
    match x.cookieOffset with
    | none => (d.write (cafCookieChunk h c), { x with cookieOffset := some d.pos })
    | some p => ((d.seek p).write (cafCookieChunk h c), x)

/-- The chunk header written by `writeData` (CAF.cpp:597-606). -/
def cafDataHead (h : Endian) (length : Int) : List Byte :=
  tag "data" ++ fieldBytes h .big .s8 length ++ fieldBytes h .big .s4 0

/-- CAF.cpp:588-610 `writeData`; `length` is −1 or, in an update, `data_size + 4`. -/
def cafWriteData (h : Endian) (length : Int) (x : CafObj) (d : Disk) : Disk × CafObj :=
  match x.dataOffset with
  | none => (d.write (cafDataHead h length), { x with dataOffset := some d.pos })
  | some p => ((d.seek p).write (cafDataHead h length), x)

/-- The chunk written by `writePacketTable` (CAF.cpp:622-651); sizes are cut to `uint32_t`. -/
def cafTable (h : Endian) (t : PacketTable) : List Byte :=
  let bers := t.sizes.flatMap fun n => berEncode (BitVec.ofNat 32 n)
  tag "pakt" ++ fieldBytes h .big .s8 (24 + bers.length) ++ fieldBytes h .big .s8 t.sizes.length ++
  fieldBytes h .big .s8 t.numValidFrames ++ fieldBytes h .big .s4 t.primingFrames ++ fieldBytes h .big .s4 t.remainderFrames ++ bers

/-- CAF.cpp:612-654 `writePacketTable`. -/
def cafWriteTable (h : Endian) (t : Trk) (x : CafObj) (d : Disk) : Disk :=
  let d := d.seek t.afterData.toNat
  match x.table with
  | none => d
  | some p => d.write (cafTable h p)

/-- CAF.cpp:155-175 `writeInit`. -/
def cafInit (F : Float64) (h : Endian) (f : AFmt) : Disk × Trk × CafObj :=
  let (t, x) := cafParams f (Trk.ofFormat f)
  let d := (((⟨[], 0⟩ : Disk).write (tag "caff")).write [0, 1, 0, 0]).write (cafDesc F h t)
  let (d, x) := cafWriteCookie h x d
  let (d, x) := cafWriteData h (-1) x d
  (d, { t with first := d.pos }, x)

/-- CAF.cpp:251-260 `update`. -/
def cafUpdate (h : Endian) (t : Trk) (x : CafObj) (d : Disk) : Disk × CafObj :=
  let (d, x) := cafWriteCookie h x d
  let (d, x) := cafWriteData h (t.dataSize + 4) x d
  (cafWriteTable h t x d, x)

/-! ## Reading -/

/-- The codec parameters of the track (`f.compressionParams`). -/
inductive CafParams
  | none
  | ima
  | cookie (bs : List Byte)
  deriving DecidableEq

/-- What `readInit` has found so far. The track's format is uninitialised until the description has been read. -/
structure CafRead where
  hasDesc : Bool
  t : Trk
  params : CafParams
  table : Option PacketTable
  deriving DecidableEq

/-- `readS64`: checked. -/
def Rd.s64 (h : Endian) : Rd Int := do
  match ← Rd.field? h .big .s8 with
  | some x => return wrapS 64 x
  | none => Rd.fail

/-- `readU32`, checked. -/
def Rd.u32 (h : Endian) : Rd Nat := do
  match ← Rd.field? h .big .s4 with
  | some x => return x
  | none => Rd.fail

/-- `readTag` (FileHandle.cpp:447-457), checked. -/
def Rd.tag4 : Rd (List Byte) := do
  let bs ← Rd.read 4
  if bs.length < 4 then Rd.fail else return bs

/-- CAF.cpp:286-373: the format for a format id. -/
def cafFormat (h : Endian) (id : List Byte) (flags fpp bits : Nat) (f : AFmt) (s : CafRead) : Option CafRead :=
  let s := { s with t := { s.t with fpp := 1 } }
  if id = tag "lpcm" then
    if flags % 2 = 1 ∧ bits ≠ 32 ∧ bits ≠ 64 then none
    else
      let fmt : Int := if flags % 2 = 1 then (if bits = 32 then FLOAT else DOUBLE) else TWOSCOMP
      let f := { f with compression := NONE, sampleFormat := fmt, byteOrder := if flags / 2 % 2 = 1 then LITTLE else BIG }
      match setSampleFormat f fmt f.sampleWidth with
      | (true, f) => some { s with hasDesc := true, t := { s.t with f := f, bpp := pcmBytesPerPacket f } }
      | (false, _) => none
  else if id = tag "ulaw" then
    some { s with hasDesc := true, t := { s.t with
      f := (setSampleFormat { f with compression := ULAW, byteOrder := native h } TWOSCOMP 16).2, bpp := f.channels } }
  else if id = tag "alaw" then
    some { s with hasDesc := true, t := { s.t with
      f := (setSampleFormat { f with compression := ALAW, byteOrder := native h } TWOSCOMP 16).2, bpp := f.channels } }
  else if id = tag "ima4" then
    some { s with hasDesc := true, params := .ima, t := { s.t with
      f := (setSampleFormat { f with compression := IMA, byteOrder := native h } TWOSCOMP 16).2,
      bpp := 34 * f.channels, fpp := 64 } }
  else if id = tag "alac" then
    let w : Option Int := if flags = 1 then some 16 else if flags = 2 then some 20 else if flags = 3 then some 24
      else if flags = 4 then some 32 else none
    w.map fun w => { s with hasDesc := true, t := { s.t with
      f := (setSampleFormat { f with compression := ALAC, byteOrder := native h, sampleWidth := w } TWOSCOMP w).2,
      fpp := fpp, bpp := 0 } }
  else none

/-- CAF.cpp:262-373 `parseDescription`. -/
def cafParseDesc (F : Float64) (h : Endian) (s : CafRead) : Rd CafRead := do
  match ← Rd.field? h .big .s8 with
  | none => Rd.fail
  | some rate =>
    let id ← Rd.tag4
    let flags ← Rd.u32 h
    let _ ← Rd.u32 h
    let fpp ← Rd.u32 h
    let channels ← Rd.u32 h
    let bits ← Rd.u32 h
    if channels = 0 then Rd.fail
    else
      let f : AFmt := { rate := F.dec (BitVec.ofNat 64 rate), sampleFormat := 0, sampleWidth := wrapS 32 bits, byteOrder := 0
                        pcm := ⟨0, 0, 0, 0⟩, channels := wrapS 32 channels, compression := 0 }
      match cafFormat h id flags fpp bits f s with
      | some s => return s
      | none => Rd.fail

/-- CAF.cpp:375-390 `parseData`. Before a description has been read, `computeTotalFileFrames` uses uninitialised
memory. (`length` is not −1 here: the caller has replaced it.) -/
def cafParseData (h : Endian) (length : Int) (s : CafRead) : Rd CafRead := do
  let _ ← Rd.u32 h
  let p ← Rd.tell
  if !s.hasDesc then Rd.undefined
  else return { s with t := Trk.computeTotalFileFrames { s.t with dataSize := length - 4, first := p } }

/-- CAF.cpp:447-495 `parsePacketTable`. The last `assert` is compiled out. -/
def cafParseTable (h : Endian) (length : Int) (s : CafRead) : Rd CafRead := do
  if length < 24 then Rd.fail
  else
    let numPackets ← Rd.s64 h
    let numValidFrames ← Rd.s64 h
    let priming ← Rd.u32 h
    let remainder ← Rd.u32 h
    if numPackets = 0 then return s
    else
      let n := (length - 24).toNat
      let bs ← Rd.read n
      if bs.length ≠ n then Rd.fail
      else return { s with table := some ⟨berSizes bs.length bs, numValidFrames, wrapS 32 priming, wrapS 32 remainder⟩
                           t := { s.t with frames := numValidFrames } }

/-- CAF.cpp:497-519 `parseCookieData`. A negative length is the size of a buffer and of a read. -/
def cafParseCookie (length : Int) (s : CafRead) : Rd CafRead := do
  if length < 0 then Rd.undefined
  else
    let bs ← Rd.read length.toNat
    if bs.length ≠ length.toNat then Rd.fail
    else return { s with params := .cookie bs }

/-- The dispatch on chunk types, CAF.cpp:127-146. -/
def cafChunk (F : Float64) (h : Endian) (type : List Byte) (length : Int) (s : CafRead) : Rd CafRead :=
  if type = tag "desc" then cafParseDesc F h s
  else if type = tag "data" then cafParseData h length s
  else if type = tag "pakt" then cafParseTable h length s
  else if type = tag "kuki" then cafParseCookie length s
  else return s

/-- One round of the chunk walk, CAF.cpp:110-150: the state is `currentOffset` and what was found. A negative length is
only reported; a seek before the start of the file fails, returns −1 and leaves the position as it is. A sum that does
not fit 64 bits is undefined. -/
def cafRound (F : Float64) (h : Endian) (fileLength : Nat) (s : Int × CafRead) : Rd ((Int × CafRead) ⊕ CafRead) := do
  if s.1 < fileLength then
    let type ← Rd.tag4
    let length ← Rd.s64 h
    let current := s.1 + 12
    let length := if type = tag "data" ∧ length = -1 then (fileLength : Int) - current else length
    let x ← cafChunk F h type length s.2
    let next := current + length
    if next < -2 ^ 63 ∨ 2 ^ 63 ≤ next then Rd.undefined
    else if next < 0 then return .inl (-1, x)
    else
      Rd.seek next.toNat
      return .inl (next, x)
  else return .inr s.2

/-- CAF.cpp:100-153 `readInit`, with at most `fuel` chunks. Without a description the track's format is uninitialised
memory, which `afOpenFile` uses (openclose.cpp:365-398). -/
def cafRead (F : Float64) (h : Endian) (fuel : Nat) : Rd CafRead := do
  Rd.seek 8
  let n ← Rd.length
  let f : AFmt := { rate := 0, sampleFormat := 0, sampleWidth := 0, byteOrder := 0, pcm := ⟨0, 0, 0, 0⟩, channels := 0
                    compression := 0 }
  let s ← Rd.loop (cafRound F h n) fuel (8, ⟨false, Trk.ofFormat f, .none, none⟩)
  if !s.hasDesc then Rd.undefined else return s

end AF.Files
