import Verif.Model.Chunks
/-!
# SampleVision (SampleVision.cpp), little-endian (SampleVision.cpp:67-71)

A header of 116 bytes, 16-bit samples, and behind them a trailer of 215 bytes that has the sample rate.
-/
namespace AF.Files
open AF AF.Setup

/-- SampleVision.cpp:31-32 -/
def smpMagic : List Byte := tag "SOUND SAMPLE DATA "
/-- SampleVision.cpp:33-34 -/
def smpVersion : List Byte := tag "2.1 "

/-- What `writeInit` writes in front of the frame count (SampleVision.cpp:266-276): magic, version, and a name and a comment
of spaces. -/
def smpTop : List Byte := smpMagic ++ smpVersion ++ List.replicate 30 0x20 ++ List.replicate 60 0x20

/-- SampleVision.cpp:261-284. The file has just been created, so the first write is at its beginning;
`m_frameCountOffset` is the position behind the comment, 112. -/
def smpInit (h : Endian) (f : AFmt) : Disk × Trk × Nat :=
  let d := (⟨[], 0⟩ : Disk).write smpTop
  let off := d.pos
  let d := d.write (fieldBytes h .little .s4 0)
  (d, { Trk.ofFormat f with first := d.pos }, off)

/-- One of the eight loops of `writeLoops` (SampleVision.cpp:322-336). -/
def smpLoop (h : Endian) : List Byte :=
  fieldBytes h .little .s4 0xffffffff ++ fieldBytes h .little .s4 0 ++ fieldBytes h .little .s1 0 ++
  fieldBytes h .little .s2 0

/-- One of the eight markers of `writeMarkers` (SampleVision.cpp:338-350). -/
def smpMarker (h : Endian) : List Byte := List.replicate 10 0x20 ++ fieldBytes h .little .s4 0xffffffff

/-- `writeTrailer` (SampleVision.cpp:296-320). -/
def smpTrailer (h : Endian) (rate : Rat) : List Byte :=
  fieldBytes h .little .s2 0 ++ (List.replicate 8 (smpLoop h)).flatten ++ (List.replicate 8 (smpMarker h)).flatten ++
  fieldBytes h .little .s1 60 ++ fieldBytes h .little .s4 (toUnsigned rate) ++
  fieldBytes h .little .s4 0 ++ fieldBytes h .little .s4 0

/-- `update` (SampleVision.cpp:286-294): the trailer goes to `fpos_after_data`, which is where the file was positioned when
`afSyncFile` was called (PCM.cpp:129). -/
def smpUpdate (h : Endian) (t : Trk) (off : Nat) (d : Disk) : Disk × Nat :=
  let d := (d.seek off).write (fieldBytes h .little .s4 t.frames)
  ((d.seek t.afterData.toNat).write (smpTrailer h t.f.rate), off)

/-- The C string in a buffer. -/
def cstring (bs : List Byte) : List Byte := bs.takeWhile (· ≠ 0)

/-- `trimTrailingSpaces` (SampleVision.cpp:57-65); the loop stops at index 0, so the first character stays. -/
def trimTrailing : List Byte → List Byte
  | [] => []
  | b :: bs => b :: (bs.reverse.dropWhile (· = 0x20)).reverse

/-- A text field of `n` bytes and the miscellaneous item made from it (SampleVision.cpp:177-188, 246-259): 203 is
`AF_MISC_NAME`, 210 `AF_MISC_COMMENT`. The result of `read` is not checked: bytes that are missing are never assigned. -/
def smpText (type : Int) (n : Nat) : Rd (List (Int × List Byte)) := do
  let bs ← Rd.read n
  if bs.length < n then Rd.undefined
  else
    let s := trimTrailing (cstring bs)
    return if 0 < s.length then [(type, s)] else []

/-- `parseLoops` (SampleVision.cpp:216-230): everything is thrown away. -/
def smpSkipLoop (h : Endian) : Rd Unit := do
  let _ ← Rd.field? h .little .s4
  let _ ← Rd.field? h .little .s4
  let _ ← Rd.field? h .little .s1
  let _ ← Rd.field? h .little .s2
  return ()

/-- `parseMarkers` (SampleVision.cpp:232-244) -/
def smpSkipMarker (h : Endian) : Rd Unit := do
  let _ ← Rd.read 10
  let _ ← Rd.field? h .little .s4
  return ()

/-- SampleVision.cpp:157-214: the track and the miscellaneous items. `2 * frameCount` is computed in 32 bits. -/
def smpRead (h : Endian) : Rd (Trk × List (Int × List Byte)) := do
  Rd.seek 0
  let magic ← Rd.read 18
  if magic ≠ smpMagic then Rd.fail
  else
    let version ← Rd.read 4
    if version ≠ smpVersion then Rd.fail
    else
      let name ← smpText 203 30
      let comment ← smpText 210 60
      let frameCount ← Rd.field h .little .s4
      let first ← Rd.tell
      let size := 2 * frameCount % 2 ^ 32
      Rd.seek (first + size)
      let _ ← Rd.field? h .little .s2
      let _ ← Rd.times (smpSkipLoop h) 8
      let _ ← Rd.times (smpSkipMarker h) 8
      let _ ← Rd.field? h .little .s1
      let sampleRate ← Rd.field h .little .s4
      let _ ← Rd.field? h .little .s4
      let _ ← Rd.field? h .little .s4
      let f : AFmt := { rate := sampleRate, sampleFormat := 0, sampleWidth := 0, byteOrder := LITTLE, pcm := ⟨0, 0, 0, 0⟩
                        channels := 1, compression := NONE }
      let f := (setSampleFormat f TWOSCOMP 16).2
      return ({ f := f, fpp := 1, bpp := pcmBytesPerPacket f, first := first, afterData := 0
                dataSize := size, frames := frameCount }, name ++ comment)

end AF.Files
