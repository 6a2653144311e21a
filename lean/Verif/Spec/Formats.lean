import Verif.Model.Disk
import Verif.Spec.Setup
/-!
# Well-formed formats

What the parts of the library that convert and decode samples assume about a track opened for reading.
-/
namespace AF.Spec.Formats
open AF AF.Setup AF.Files AF.Spec.Setup

/-- Formats the codecs work on. -/
inductive Coded (h : Endian) (f : AFmt) : Prop
  /-- uncompressed, either byte order -/
  | pcm (c : f.compression = NONE) (o : f.byteOrder = BIG ∨ f.byteOrder = LITTLE)
  /-- G.711 and ADPCM: 16-bit signed samples in the order of the machine -/
  | sixteen (c : f.compression = ULAW ∨ f.compression = ALAW ∨ f.compression = IMA ∨ f.compression = MSADPCM)
      (s : f.sampleFormat = TWOSCOMP) (w : f.sampleWidth = 16) (o : f.byteOrder = native h)
  /-- ALAC: signed samples in the order of the machine -/
  | alac (c : f.compression = ALAC) (s : f.sampleFormat = TWOSCOMP)
      (w : f.sampleWidth = 16 ∨ f.sampleWidth = 20 ∨ f.sampleWidth = 24 ∨ f.sampleWidth = 32) (o : f.byteOrder = native h)

/-- The meaning of sample values that the documentation gives for a sample format (pcm.cpp:30-55): integers are centred on 0 or
on half their range and fill it, floating point samples go from −1 to 1. -/
def defaultMapping (sampleFormat width : Int) : Convert.PCM :=
  let half : Rat := ((2 ^ (8 * ((width + 7) / 8).toNat - 1) : Nat) : Rat)
  if sampleFormat = TWOSCOMP then ⟨half, 0, -half, half - 1⟩
  else if sampleFormat = UNSIGNED then ⟨half, half, 0, ((2 ^ (8 * ((width + 7) / 8).toNat) : Nat) : Rat) - 1⟩
  else ⟨1, 0, 0, 0⟩

/-- The track of a file opened on a machine of byte order `h` is well formed. -/
structure WellFormed (h : Endian) (t : Trk) : Prop where
  width : LegalWidth t.f.sampleFormat t.f.sampleWidth
  coded : Coded h t.f
  /-- An uncompressed packet is a frame. -/
  pcm : t.f.compression = NONE → t.fpp = 1 ∧ t.bpp = sampleBytes t.f.sampleFormat t.f.sampleWidth * t.f.channels
  /-- A G.711 packet is a frame of one byte per channel. -/
  g711 : t.f.compression = ULAW ∨ t.f.compression = ALAW → t.fpp = 1 ∧ t.bpp = t.f.channels
  /-- Sample values have their usual meaning. -/
  mapping : t.f.pcm = defaultMapping t.f.sampleFormat t.f.sampleWidth

end AF.Spec.Formats
