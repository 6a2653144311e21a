import Verif.Model.Disk
/-!
# Headers of fixed size: NeXT/Sun, AVR, IRCAM

`writeInit`, `update` and `readInit`. For each format `xInit h f` is the disk, the track and the file object after
`writeInit` of a track with format `f` on a host of byte order `h`; `xUpdate h` is `update`; `xRead h` is `readInit`.
-/
namespace AF.Files
open AF AF.Setup

/-! ## NeXT/Sun (NeXT.cpp), big-endian (NeXT.cpp:102-105) -/

/-- NeXT.cpp:327-357 `nextencodingtype` (enum at 66-97). -/
def nextEncoding (f : AFmt) : Int :=
  if f.compression ≠ NONE then
    if f.compression = ULAW then 1 else if f.compression = ALAW then 27 else 0
  else if f.sampleFormat = TWOSCOMP then
    if f.sampleWidth = 8 then 2 else if f.sampleWidth = 16 then 3
    else if f.sampleWidth = 24 then 4 else if f.sampleWidth = 32 then 5 else 0
  else if f.sampleFormat = FLOAT then 6
  else if f.sampleFormat = DOUBLE then 7
  else 0

/-- The 24 bytes written by `NeXTFile::writeHeader` (NeXT.cpp:302-325). -/
def nextHeader (h : Endian) (t : Trk) : List Byte :=
  tag ".snd" ++ fieldBytes h .big .s4 t.first ++ fieldBytes h .big .s4 t.dataSize ++
  fieldBytes h .big .s4 (nextEncoding t.f) ++ fieldBytes h .big .s4 (toUnsigned t.f.rate) ++
  fieldBytes h .big .s4 t.f.channels

/-- NeXT.cpp:359-371: the header is written before `fpos_first_frame` is set to 28. -/
def nextInit (h : Endian) (f : AFmt) : Disk × Trk × Unit :=
  let t := Trk.ofFormat f
  (((⟨[], 0⟩ : Disk).seek 0).write (nextHeader h t), { t with first := 28 }, ())

/-- NeXT.cpp:296-300 -/
def nextUpdate (h : Endian) (t : Trk) (x : Unit) (d : Disk) : Disk × Unit := ((d.seek 0).write (nextHeader h t), x)

/-- NeXT.cpp:146-192: the format for an encoding number. -/
def nextFormat (h : Endian) (f : AFmt) : Nat → Option AFmt
  | 1 => some { f with sampleWidth := 16, sampleFormat := TWOSCOMP, compression := ULAW, byteOrder := native h }
  | 27 => some { f with sampleWidth := 16, sampleFormat := TWOSCOMP, compression := ALAW, byteOrder := native h }
  | 2 => some { f with sampleWidth := 8, sampleFormat := TWOSCOMP }
  | 3 => some { f with sampleWidth := 16, sampleFormat := TWOSCOMP }
  | 4 => some { f with sampleWidth := 24, sampleFormat := TWOSCOMP }
  | 5 => some { f with sampleWidth := 32, sampleFormat := TWOSCOMP }
  | 6 => some { f with sampleWidth := 32, sampleFormat := FLOAT }
  | 7 => some { f with sampleWidth := 64, sampleFormat := DOUBLE }
  | _ => none

/-- NeXT.cpp:107-203. The tag is not tested here (an `assert` that is compiled out); `lengthAvailable` is a signed
64-bit number, `length` a `uint32_t`. -/
def nextRead (h : Endian) : Rd Trk := do
  Rd.seek 0
  let _ ← Rd.read 4
  let offset ← Rd.field h .big .s4
  let length ← Rd.field h .big .s4
  let encoding ← Rd.field h .big .s4
  let sampleRate ← Rd.field h .big .s4
  let channelCount ← Rd.field h .big .s4
  if channelCount = 0 then Rd.fail
  else
    let fileLength ← Rd.length
    let lengthAvailable : Int := (fileLength : Int) - offset
    let length : Int :=
      if length = 0xffffffff ∨ (length : Int) > lengthAvailable then wrapU 32 lengthAvailable else length
    let f : AFmt := { rate := sampleRate, sampleFormat := 0, sampleWidth := 0, byteOrder := BIG, pcm := ⟨0, 0, 0, 0⟩,
                      channels := wrapS 32 channelCount, compression := NONE }
    match nextFormat h f encoding with
    | none => Rd.fail
    | some f =>
      let bpp := if f.isUncompressed then pcmBytesPerPacket f else f.channels
      let f := (setSampleFormat f f.sampleFormat f.sampleWidth).2
      return Trk.computeTotalFileFrames
        { f := f, fpp := 1, bpp := bpp, first := offset, afterData := 0, dataSize := length, frames := 0 }

/-! ## AVR (AVR.cpp), big-endian (AVR.cpp:62-65) -/

/-- The 128 bytes written by `AVRFile::writeInit` (AVR.cpp:275-342) for a file whose base name starts with the bytes
`name` (cut and zero-padded to 8 by `strncpy`). -/
def avrHeader (h : Endian) (name : List Byte) (t : Trk) : List Byte :=
  tag "2BIT" ++ (name ++ List.replicate 8 0).take 8 ++
  fieldBytes h .big .s2 (if t.f.channels = 1 then 0 else 0xffff) ++
  fieldBytes h .big .s2 t.f.sampleWidth ++
  fieldBytes h .big .s2 (if t.f.sampleFormat = UNSIGNED then 0 else 0xffff) ++
  fieldBytes h .big .s2 0 ++ fieldBytes h .big .s2 0xffff ++
  -- `rate |= 0xff000000`
  fieldBytes h .big .s4 (0xff000000 + toUnsigned t.f.rate % 2 ^ 24) ++
  fieldBytes h .big .s4 t.frames ++ fieldBytes h .big .s4 0 ++ fieldBytes h .big .s4 t.frames ++
  List.replicate 26 0 ++ List.replicate 64 0

/-- AVR.cpp:275-342 -/
def avrInit (h : Endian) (name : List Byte) (f : AFmt) : Disk × Trk × Unit :=
  let t := Trk.ofFormat f
  let d := ((⟨[], 0⟩ : Disk).seek 0).write (avrHeader h name t)
  (d, { t with first := d.pos }, ())

/-- AVR.cpp:243-263 -/
def avrUpdate (h : Endian) (t : Trk) (x : Unit) (d : Disk) : Disk × Unit :=
  ((d.seek 26).write
    (fieldBytes h .big .s4 t.frames ++ fieldBytes h .big .s4 0 ++ fieldBytes h .big .s4 t.frames), x)

/-- AVR.cpp:79-167 -/
def avrRead (h : Endian) : Rd Trk := do
  Rd.seek 0
  let magic ← Rd.read 4
  if magic ≠ tag "2BIT" then Rd.fail
  else
    let _ ← Rd.read 8
    let mono ← Rd.field h .big .s2
    let resolution ← Rd.field h .big .s2
    let sign ← Rd.field h .big .s2
    let _ ← Rd.field? h .big .s2
    let _ ← Rd.field? h .big .s2
    let rate ← Rd.field h .big .s4
    let size ← Rd.field h .big .s4
    let _ ← Rd.field? h .big .s4
    let _ ← Rd.field? h .big .s4
    let _ ← Rd.read 26
    let _ ← Rd.read 64
    if sign ≠ 0 ∧ sign ≠ 0xffff then Rd.fail
    else if resolution ≠ 8 ∧ resolution ≠ 16 then Rd.fail
    else if mono ≠ 0 ∧ mono ≠ 0xffff then Rd.fail
    else
      let f : AFmt := { rate := ((rate % 2 ^ 24 : Nat) : Rat)
                        sampleFormat := if sign = 0 then UNSIGNED else TWOSCOMP
                        sampleWidth := resolution, byteOrder := BIG, pcm := ⟨0, 0, 0, 0⟩
                        channels := if mono = 0 then 1 else 2, compression := NONE }
      let bpp := pcmBytesPerPacket f
      let f := (setSampleFormat f f.sampleFormat f.sampleWidth).2
      let first ← Rd.tell
      return { f := f, fpp := 1, bpp := bpp, first := first, afterData := 0
               dataSize := size * frameSizeUncompressed f false, frames := size }

/-! ## IRCAM/BICSF (IRCAM.cpp) -/

/-- IRCAM.cpp:68-75; the two magic numbers the library writes, and all it accepts with the byte order they mean. -/
def ircamMagics : List (List Byte × Endian) :=
  [([0x64, 0xa3, 0x01, 0x00], .little), ([0x00, 0x01, 0xa3, 0x64], .big),
   ([0x64, 0xa3, 0x02, 0x00], .big), ([0x00, 0x02, 0xa3, 0x64], .little),
   ([0x64, 0xa3, 0x03, 0x00], .little), ([0x00, 0x03, 0xa3, 0x64], .big),
   ([0x64, 0xa3, 0x04, 0x00], .big), ([0x00, 0x04, 0xa3, 0x64], .little)]

def ircamMagic : Endian → List Byte
  | .big => [0x64, 0xa3, 0x02, 0x00]
  | .little => [0x64, 0xa3, 0x01, 0x00]

/-- How `float`s are stored: a rate as the 32 bits of the nearest `float`, and back. -/
structure Float32 where
  enc : Rat → BitVec 32
  dec : BitVec 32 → Rat

/-- The choice of `packMode` (IRCAM.cpp:382-422): `none` when `writeInit` fails. -/
def ircamPack (f : AFmt) : Option Int :=
  if f.compression ≠ NONE ∧ f.compression ≠ ULAW ∧ f.compression ≠ ALAW then none
  else if f.compression = ULAW then some 0x20001
  else if f.compression = ALAW then some 0x10001
  else if f.isSigned then
    match sampleSizeUncompressed f false with
    | 1 => some 1
    | 2 => some 2
    | 3 => some 3
    | 4 => some 0x40004
    | _ => none
  else if f.sampleFormat = FLOAT ∨ f.sampleFormat = DOUBLE then
    if f.sampleWidth = 32 then some 4 else if f.sampleWidth = 64 then some 8 else none
  else if f.isUnsigned then none
  else some 0

/-- IRCAM.cpp:355-434: the format's byte order is the host's (`_AFfilehandle`'s default, FileHandle.cpp). -/
def ircamInit (F : Float32) (h : Endian) (f : AFmt) : Option (Disk × Trk × Unit) :=
  (ircamPack f).map fun pack =>
    (((⟨[], 0⟩ : Disk).seek 0).write
      (ircamMagic h ++ writeField h h .s4 (F.enc f.rate) ++ fieldBytes h h .s4 f.channels ++ fieldBytes h h .s4 pack ++
        List.replicate 1008 0),
     { Trk.ofFormat f with first := 1024 }, ())

/-- IRCAM.cpp:436-439 -/
def ircamUpdate (_ : Trk) (x : Unit) (d : Disk) : Disk × Unit := (d, x)

/-- IRCAM.cpp:283-329: the format for a packing mode. -/
def ircamFormat (h : Endian) (f : AFmt) : Nat → Option AFmt
  | 1 => some { f with byteOrder := native h, sampleFormat := TWOSCOMP, sampleWidth := 8 }
  | 2 => some { f with sampleFormat := TWOSCOMP, sampleWidth := 16 }
  | 3 => some { f with sampleFormat := TWOSCOMP, sampleWidth := 24 }
  | 0x40004 => some { f with sampleFormat := TWOSCOMP, sampleWidth := 32 }
  | 4 => some { f with sampleFormat := FLOAT, sampleWidth := 32 }
  | 8 => some { f with sampleFormat := DOUBLE, sampleWidth := 64 }
  | 0x10001 => some { f with compression := ALAW, byteOrder := native h, sampleFormat := TWOSCOMP, sampleWidth := 16 }
  | 0x20001 => some { f with compression := ULAW, byteOrder := native h, sampleFormat := TWOSCOMP, sampleWidth := 16 }
  | _ => none

/-- IRCAM.cpp:218-353. The `float` mapping's slope is set to `maxAmp` = 1, its default. -/
def ircamRead (F : Float32) (h : Endian) : Rd Trk := do
  Rd.seek 0
  let magic ← Rd.read 4
  match ircamMagics.find? (·.1 == magic) with
  | none => Rd.fail
  | some (_, o) =>
    let rate ← Rd.field h o .s4
    let channels ← Rd.field h o .s4
    let packMode ← Rd.field h o .s4
    if channels ≠ 1 ∧ channels ≠ 2 ∧ channels ≠ 4 then Rd.fail
    else
      let f : AFmt := { rate := F.dec (BitVec.ofNat 32 rate), sampleFormat := 0, sampleWidth := 0, byteOrder := native o
                        pcm := ⟨0, 0, 0, 0⟩, channels := channels, compression := NONE }
      match ircamFormat h f packMode with
      | none => Rd.fail
      | some f =>
        let bpp := if f.isUncompressed then pcmBytesPerPacket f else f.channels
        let f := (setSampleFormat f f.sampleFormat f.sampleWidth).2
        let fileLength ← Rd.length
        return Trk.computeTotalFileFrames
          { f := f, fpp := 1, bpp := bpp, first := 1024, afterData := 0
            dataSize := (fileLength : Int) - 1024, frames := 0 }

end AF.Files
