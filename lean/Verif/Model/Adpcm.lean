import Verif.Model.Program
import Verif.Model.IMA
import Verif.Model.MSADPCM
/-!
# Programs that write and read ADPCM tracks, down to the bytes of the file

As `Verif.Model.Program`, for the codecs that make a block of bytes from many frames (BlockCodec.cpp). The modules in between are those
of `Verif.Model.Writing` and `Verif.Model.Reading`, with the codecs of `Verif.Model.IMA` and `Verif.Model.MSADPCM`.

Simplifications: those of `Verif.Model.Program`; no `afSyncFile` while writing (C17 says what it does). The table of coefficients of
MS ADPCM is the one that the library writes (WAVE.cpp:285-289 reads it back from the header).
-/
namespace AF.Adpcm
open AF AF.Setup AF.Files AF.Convert AF.Virtual AF.Spec AF.Program

/-- The two halves of a block codec: frames to a block, with what the encoder remembers, and a block to frames. -/
structure Codec (ε : Type) where
  enc : ε → List (List Int) → Except Abort (List Byte × ε)
  dec : List Byte → Except Abort (List (List Int))

/-- IMA ADPCM as in WAVE files (IMA.cpp:162-199, 277-310) for `ch` channels and blocks of `fpp` frames. -/
def imaWave (ch fpp : Nat) : Codec (List IMA.St) where
  enc := IMA.encodeBlockWAVE fpp
  dec := IMA.decodeBlockWAVE ch fpp

/-- IMA ADPCM as in QuickTime, AIFF-C and CAF files (IMA.cpp:201-226, 312-363). -/
def imaQT (ch fpp : Nat) : Codec (List IMA.St) where
  enc := IMA.encodeBlockQT fpp
  dec := IMA.decodeBlockQT ch fpp

/-- MS ADPCM (MSADPCM.cpp:150-229, 231-329); the encoder remembers nothing. -/
def ms (ch fpp : Nat) : Codec Unit where
  enc := fun _ xs => (MSADPCM.encodeBlock MSADPCM.defaultCoefs ch fpp xs).map fun b => (b, ())
  dec := MSADPCM.decodeBlock MSADPCM.defaultCoefs ch fpp

/-- A frame of 16-bit samples in memory (`int16_t *`, IMA.cpp:162, 277, MSADPCM.cpp:150, 231). -/
def samples16 (h : Endian) : List Byte → List Int
  | a :: b :: rest => sval h [a, b] :: samples16 h rest
  | _ => []

/-- The track of format `f` opened for writing with a header of `first` bytes; `junk` is what a fresh buffer has in it. A codec that
aborts leaves zeros in the model. -/
def blockWriter {ε : Type} (h : Endian) (fm : Module → List Byte → List Byte) (f : AFmt) (C : Codec ε) (fpp bpp : Nat) (hf : 0 < fpp)
    (hb : 0 < bpp) (junk : List (List Byte)) (update : Option Int) (first : Nat) : Writing.Cfg Fmt (List Byte) (List Int) ε where
  kind := .block
  fpp := fpp
  bpp := bpp
  fpp_pos := hf
  bpp_pos := hb
  first := first
  encode := fun e fs => match C.enc e (fs.map (samples16 h)) with
    | .ok (b, e') => ((b ++ List.replicate bpp 0).take bpp, e')
    | .error _ => (List.replicate bpp 0, e)
  conv := fun v fr => toFile h fm v (chainFormat f) (userBytes v.byteOrder ((v.width + 7) / 8) fr)
  afterUpdate := update
  junk := junk
  checks := false

/-- The track `t` that opening `file` reports. A codec that aborts leaves empty frames in the model. -/
def blockReader {ε : Type} (h : Endian) (fm : Module → List Byte → List Byte) (file : List Byte) (t : Trk) (C : Codec ε)
    (hf : 0 < t.fpp.toNat) (hb : 0 < t.bpp.toNat) : Reading.Cfg Fmt (List Byte) (List Byte) where
  kind := .block
  fpp := t.fpp.toNat
  bpp := t.bpp.toNat
  fpp_pos := hf
  bpp_pos := hb
  decode := fun p => match C.dec p with
    | .ok fs => (fs.map (packedBytes h 2) ++ List.replicate t.fpp.toNat []).take t.fpp.toNat
    | .error _ => List.replicate t.fpp.toNat []
  conv := fun v => fromFile h fm v (chainFormat t.f)
  hasConv := fun v => match arrange h true (chainFormat t.f) v with
    | some c => !c.mods.isEmpty
    | none => false
  file := file
  fposFirst := t.first
  totalf := t.frames
  seekok := true
  checks := false

end AF.Adpcm
