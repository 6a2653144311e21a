import Verif.Model.Disk
/-!
# Creative Voice files (VOC.cpp), little-endian (VOC.cpp:83-87)
-/
namespace AF.Files
open AF AF.Setup

/-- VOC.cpp:34-37 -/
def vocMagic : List Byte := tag "Creative Voice File" ++ [0x1a]

/-- VOC.cpp:363-371: what comes before the sound block. `0x1234 + ~version` is cut to 16 bits. -/
def vocStart (h : Endian) : List Byte :=
  vocMagic ++ fieldBytes h .little .s2 0x1a ++ fieldBytes h .little .s2 0x114 ++
  fieldBytes h .little .s2 (0x1234 + (-1 - 0x114))

/-- VOC.cpp:403-424: the `format` field. (For a compression type it has no value for, `format` is not assigned:
`completeSetup` has refused those.) -/
def vocFormat (f : AFmt) : Int :=
  if f.compression = ULAW then 7 else if f.compression = ALAW then 6
  else if f.isUnsigned then 0 else 4

/-- `writeSoundData` (VOC.cpp:383-436), the 16 bytes of the block header. `blockSize << 8` loses the upper 8 bits. -/
def vocBlock (h : Endian) (t : Trk) : List Byte :=
  fieldBytes h .little .s4 ((12 + t.dataSize) * 256 + 9) ++
  fieldBytes h .little .s4 (toUnsigned t.f.rate) ++
  fieldBytes h .little .s1 (if t.f.compression = ULAW ∨ t.f.compression = ALAW then 8 else t.f.sampleWidth) ++
  fieldBytes h .little .s1 t.f.channels ++
  fieldBytes h .little .s2 (vocFormat t.f) ++
  fieldBytes h .little .s4 0

/-- VOC.cpp:358-374: `m_soundDataOffset` is 26 afterwards, `fpos_first_frame` 42. -/
def vocInit (h : Endian) (f : AFmt) : Disk × Trk × Unit :=
  let t := Trk.ofFormat f
  let d := ((⟨[], 0⟩ : Disk).write (vocStart h)).write (vocBlock h t)
  (d, { t with first := d.pos }, ())

/-- VOC.cpp:376-381, 438-446: the sound block's header again, and the terminator. -/
def vocUpdate (h : Endian) (t : Trk) (x : Unit) (d : Disk) : Disk × Unit :=
  ((((d.seek 26).write (vocBlock h t)).seek (t.first + t.dataSize).toNat).write (fieldBytes h .little .s1 0), x)

/-- What the block loop has found so far: the position, channels and rate from an extended information block, and the
track once a sound block was seen. -/
structure VocState where
  position : Nat
  ext : Option (Int × Rat)
  track : Option Trk

/-- VOC.cpp:289-340: the format for a `format` field. -/
def vocSample (h : Endian) (rate : Rat) (channels : Int) (format : Nat) : Option AFmt :=
  let f : AFmt := { rate := rate, sampleFormat := 0, sampleWidth := 0, byteOrder := LITTLE, pcm := ⟨0, 0, 0, 0⟩,
                    channels := channels, compression := NONE }
  match format with
  | 0 => some (setSampleFormat f UNSIGNED 8).2
  | 4 => some (setSampleFormat f TWOSCOMP 16).2
  | 6 => some (setSampleFormat { f with compression := ALAW, byteOrder := native h } TWOSCOMP 16).2
  | 7 => some (setSampleFormat { f with compression := ULAW, byteOrder := native h } TWOSCOMP 16).2
  | _ => none

/-- One round of the loop of `readInit` (VOC.cpp:194-353); the result is the track, if a sound block was found.
`blockSize - 12` is `uint32_t` arithmetic. -/
def vocRound (h : Endian) (s : VocState) : Rd (VocState ⊕ Option Trk) := do
  let fileLength ← Rd.length
  if s.position < fileLength then
    match ← Rd.field? h .little .s4 with
    | none => return .inr s.track
    | some header =>
      let type := header % 256
      let size := header / 256
      let next : Nat := s.position + (4 + size)
      if type = 1 then
        if s.track.isSome then Rd.fail
        else
          let divisor ← Rd.field? h .little .s1
          let codec ← Rd.field h .little .s1
          if codec ≠ 0 then Rd.fail
          else
            let (channels, rate) ← match s.ext, divisor with
              | some e, _ => pure e
              | none, some d => pure ((1 : Int), ((1000000 / (256 - d) : Nat) : Rat))
              | none, none => Rd.undefined
            let f := (setSampleFormat { rate := rate, sampleFormat := 0, sampleWidth := 0, byteOrder := LITTLE,
                                        pcm := ⟨0, 0, 0, 0⟩, channels := channels, compression := NONE } UNSIGNED 8).2
            let first ← Rd.tell
            let t : Trk := Trk.computeTotalFileFrames
              { f := f, fpp := 1, bpp := pcmBytesPerPacket f, first := first, afterData := 0
                dataSize := (fileLength : Int) - 1 - first, frames := 0 }
            Rd.seek next
            return .inl { s with position := next, track := some t }
      else if type = 8 then
        if s.track.isSome then Rd.fail
        else
          let divisor ← Rd.field h .little .s2
          let _ ← Rd.field? h .little .s1
          let stereo ← Rd.field h .little .s1
          let dividend : Nat := if stereo ≠ 0 then 128000000 else 256000000
          Rd.seek next
          return .inl { s with position := next
                               ext := some (if stereo ≠ 0 then 2 else 1, ((dividend / (65536 - divisor) : Nat) : Rat)) }
      else if type = 9 then
        if s.track.isSome then Rd.fail
        else
          let rate ← Rd.field h .little .s4
          let _ ← Rd.field? h .little .s1
          let channels ← Rd.field h .little .s1
          let format ← Rd.field h .little .s2
          let _ ← Rd.field? h .little .s4
          if channels = 0 then Rd.fail
          else
            let first ← Rd.tell
            match vocSample h rate channels format with
            | none => Rd.fail
            | some f =>
              let t : Trk := Trk.computeTotalFileFrames
                { f := f, fpp := 1, bpp := if f.isUncompressed then pcmBytesPerPacket f else f.channels
                  first := first, afterData := 0, dataSize := wrapU 32 ((size : Int) - 12), frames := 0 }
              Rd.seek next
              return .inl { s with position := next, track := some t }
      else
        Rd.seek next
        return .inl { s with position := next }
  else return .inr s.track

/-- VOC.cpp:179-356, with at most `fuel` blocks. `readInit` succeeds even when there was no sound block; the track's
format is then uninitialised memory. -/
def vocRead (h : Endian) (fuel : Nat) : Rd Trk := do
  Rd.seek 20
  let _ ← Rd.field? h .little .s2
  let _ ← Rd.field? h .little .s2
  let _ ← Rd.field? h .little .s2
  let position ← Rd.tell
  match ← Rd.loop (vocRound h) fuel { position := position, ext := none, track := none } with
  | some t => return t
  | none => Rd.undefined

end AF.Files
