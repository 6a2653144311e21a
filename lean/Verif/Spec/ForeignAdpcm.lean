import Verif.Spec.ImaDecoder
import Verif.Spec.MsDecoder
import Verif.Spec.Adpcm
import Verif.Spec.ForeignForm
import Verif.Spec.ForeignCaf
import Verif.Model.Codec
/-!
# Specification: ADPCM files of other programs

The sound of a file is a sequence of blocks of equal size; the frames in it are those of its complete blocks, by the definition of the codec.
-/
namespace AF.Spec.Foreign
open AF AF.Setup AF.Files AF.Convert AF.Spec AF.Spec.Program AF.Spec.Adpcm AF.Adpcm

/-- `n` frames from the samples of `ch` channels. -/
def rows (ch n : Nat) (channel : Nat → List Int) : List (List Int) :=
  (List.range n).map fun i => (List.range ch).map fun c => (channel c).getD i 0

/-- The complete blocks of a sound. -/
def soundBlocks (size : Nat) (sound : List Byte) : List (List Byte) :=
  (List.range (sound.length / size)).map fun i => (sound.drop (i * size)).take size

/-- The frames of a sound of IMA ADPCM, as in WAVE, in blocks of `size` bytes with `8 * k + 1` frames. -/
def imaWaveFrames (ch k size : Nat) (sound : List Byte) : List (List Int) :=
  (soundBlocks size sound).flatMap fun b => rows ch (8 * k + 1) (Spec.Ima.waveChannel ch k b)

/-- The frames of a sound of IMA ADPCM, as in QuickTime: 34 bytes a channel and 64 frames. -/
def imaQtFrames (ch : Nat) (sound : List Byte) : List (List Int) :=
  (soundBlocks (34 * ch) sound).flatMap fun b => rows ch 64 (Spec.Ima.qtChannel 32 b)

/-- The seven pairs of coefficients that every file of Microsoft ADPCM has. -/
def msCoefs : List (Int × Int) := [(256, 0), (512, -256), (0, 0), (192, 64), (240, 0), (460, -208), (392, -232)]

/-- The frames of a sound of Microsoft ADPCM in blocks of `size` bytes with `n + 2` frames. -/
def msFrames (ch n size : Nat) (sound : List Byte) : List (List Int) :=
  (soundBlocks size sound).flatMap fun b => rows ch (n + 2) (Spec.Ms.channel msCoefs ch n b)

/-- The file opens on a machine of either byte order with this rate, these channels and this compression, and any program that reads and
seeks gets the frames of `sound`, as many as reported. -/
def OpensBlocks {ε : Type} (F32 : Files.Float32) (F64 : Files.Float64) (rnd : Rat → Dbl) (fuel : Nat) (file : List Byte) (C : Codec ε) (rate : Rat)
    (channels : Nat) (compression : Int) (sound : List (List Int)) : Prop :=
  ∀ (h : Endian) (fm : Module → List Byte → List Byte), ∃ t p, openRead F32 F64 rnd h fuel file 0 = .ok (t, p) ∧
    t.f.rate = rate ∧ t.f.channels = channels ∧ t.f.compression = compression ∧ t.f.sampleFormat = TWOSCOMP ∧ t.f.sampleWidth = 16 ∧
    Plays h fm C sound file t

/-! ## WAVE -/

/-- The format chunk of IMA ADPCM: after the bits per sample, the size of the extension and the frames per block. -/
def imaFmt (bits size k : Nat) (more : List Byte) : WaveFmt := .plain 0x11 bits (le 2 size ++ le 2 (8 * k + 1) ++ more)

def pairBytes (c : Int × Int) : List Byte := le 2 (c.1 % 65536).toNat ++ le 2 (c.2 % 65536).toNat

/-- The format chunk of Microsoft ADPCM: also the number of coefficients, and these. -/
def msFmt (bits size n : Nat) (more : List Byte) : WaveFmt :=
  .plain 2 bits (le 2 size ++ le 2 (n + 2) ++ le 2 7 ++ msCoefs.flatMap pairBytes ++ more)

/-- The number of frames: what the fact chunk says, or how many there are in the complete blocks. -/
def Wave.blockFrames (w : Wave) (perBlock : Nat) : Nat :=
  match w.fact with
  | some (n, _) => n
  | none => w.sound.length / w.blockAlign * perBlock

/-- IMA ADPCM: a block has room for its frames, indices of step sizes are legal, and there are the frames that a fact chunk promises. -/
structure Wave.ImaOk (w : Wave) (k : Nat) : Prop extends Wave.Ok w where
  channels2 : w.channels = 1 ∨ w.channels = 2
  perBlock : 8 * k + 1 < 2 ^ 16
  align : (4 + 4 * k) * w.channels ≤ w.blockAlign ∧ w.blockAlign < 2 ^ 16
  index : ∀ b ∈ soundBlocks w.blockAlign w.sound, ∀ c, c < w.channels → Spec.Ima.byteAt b (4 * c + 2) ≤ 88
  enough : w.blockFrames (8 * k + 1) ≤ w.sound.length / w.blockAlign * (8 * k + 1)

/-- Microsoft ADPCM: the same; the coefficients of a block are among the seven, and its step sizes do not grow too large. -/
structure Wave.MsOk (w : Wave) (n : Nat) : Prop extends Wave.Ok w where
  channels2 : w.channels = 1 ∧ n % 2 = 0 ∨ w.channels = 2
  perBlock : n + 2 < 2 ^ 16
  align : 2 * (7 * w.channels) + n * w.channels ≤ 2 * w.blockAlign ∧ w.blockAlign < 2 ^ 16
  coefs : ∀ b ∈ soundBlocks w.blockAlign w.sound, ∀ c, c < w.channels → Spec.Ima.byteAt b c < 7
  steady : ∀ b ∈ soundBlocks w.blockAlign w.sound, Spec.Ms.SteadyBlock msCoefs w.channels n b
  enough : w.blockFrames (n + 2) ≤ w.sound.length / w.blockAlign * (n + 2)

/-! ## AIFF-C and Core Audio -/

/-- The blocks of QuickTime's IMA ADPCM have legal indices of step sizes. -/
def QtIndices (ch : Nat) (sound : List Byte) : Prop := ∀ b ∈ soundBlocks (34 * ch) sound, ∀ c, c < ch → Spec.Ima.byteAt b (34 * c + 1) % 128 ≤ 88

/-- AIFF-C: the number of frames in the common chunk counts blocks of 64. -/
structure Aiff.ImaOk (x : Aiff) : Prop extends Aiff.Ok x where
  aifc : x.aifc = true
  ima4 : x.compression = text "ima4"
  channels2 : x.channels = 1 ∨ x.channels = 2
  index : QtIndices x.channels x.sound
  enough : x.frames ≤ x.sound.length / (34 * x.channels)

/-- Core Audio, without a packet table. -/
structure Caf.ImaOk (x : Caf) : Prop extends Caf.Shape x where
  ima4 : x.format = text "ima4"
  channels2 : x.channels = 1 ∨ x.channels = 2
  index : QtIndices x.channels x.sound
  short : x.sound.length < 2 ^ 62

end AF.Spec.Foreign
