import Verif.Model.Setup
/-!
# What sfinfo promises
-/
namespace AF.Spec.SfInfo
open AF AF.Setup

/-- What a file format is called, in full and in short. -/
def names : FileFormat → String × String
  | .raw => ("Raw Sound Data", "raw")
  | .aiffc => ("AIFF-C File Format", "aifc")
  | .aiff => ("Audio Interchange File Format", "aiff")
  | .next => ("NeXT .snd/Sun .au Format", "next")
  | .wave => ("Microsoft RIFF WAVE Format", "wave")
  | .ircam => ("Berkeley/IRCAM/CARL Sound Format", "bicsf")
  | .mpeg1 => ("MPEG Audio Bitstream", "mpeg")
  | .sd1 => ("Sound Designer 1 File Format", "sd1")
  | .sd2 => ("Sound Designer 2 File Format", "sd2")
  | .avr => ("Audio Visual Research File Format", "avr")
  | .iff => ("Amiga IFF/8SVX Sound File Format", "iff")
  | .smp => ("Sample Vision File Format", "smp")
  | .voc => ("Creative Voice File Format", "voc")
  | .nist => ("NIST SPHERE File Format", "nist")
  | .sf2 => ("SoundFont 2 File Format", "sf2")
  | .caf => ("Core Audio Format", "caf")
  | .flac => ("Free Lossless Audio Codec", "flac")

/-- Two track formats that are the same as far as the way samples are stored goes: the same codec, and without one the same kind of
samples, width, and place of the most significant byte. -/
def SameStorage (f g : AFmt) : Prop :=
  f.compression = g.compression ∧
  (f.compression = NONE → f.sampleFormat = g.sampleFormat ∧ f.sampleWidth = g.sampleWidth ∧ (f.byteOrder = BIG ↔ g.byteOrder = BIG))

/-- How samples are stored: integers, floating point numbers, or a codec. -/
inductive Kind
  | int (unsigned big : Bool) (w : Nat)
  | flt (double big : Bool)
  | codec (i : Nat)
  deriving DecidableEq

/-- Most or least significant byte first. -/
def order (big : Bool) : String := if big then "big endian" else "little endian"

/-- The codecs, by name. -/
def codecs : List String := ["CCITT G.711 u-law", "CCITT G.711 A-law", "IMA ADPCM", "MS ADPCM", "ALAC"]

/-- What a report says about it. -/
def kindText : Kind → String
  | .int false big w => toString (w : Int) ++ "-bit integer (2's complement, " ++ order big ++ ")"
  | .int true big w => toString (w : Int) ++ "-bit integer (unsigned, " ++ order big ++ ")"
  | .flt false big => "single-precision (32-bit) floating point, " ++ order big
  | .flt true big => "double-precision (64-bit) floating point, " ++ order big
  | .codec i => codecs.getD i "" ++ " compression"

/-- How the samples of a track are stored. -/
def kindOf (f : AFmt) : Kind :=
  if f.compression = NONE then
    if f.sampleFormat = TWOSCOMP then .int false (decide (f.byteOrder = BIG)) f.sampleWidth.toNat
    else if f.sampleFormat = UNSIGNED then .int true (decide (f.byteOrder = BIG)) f.sampleWidth.toNat
    else .flt (decide (f.sampleFormat = DOUBLE)) (decide (f.byteOrder = BIG))
  else .codec (if f.compression = ULAW then 0 else if f.compression = ALAW then 1 else if f.compression = IMA then 2
    else if f.compression = MSADPCM then 3 else 4)

/-- The answer to some of the questions, in order. -/
def answers {α β : Type} (ask : α → Option β) (l : List α) : List β := l.filterMap ask

/-- A text in memory, as C takes it: up to the first zero byte. -/
def upToZero : List (BitVec 8) → List (BitVec 8)
  | [] => []
  | b :: rest => if b = 0 then [] else b :: upToZero rest

/-- The long reports with their blank lines: one behind each, but for the file that is named last. -/
def layout {α β : Type} (ask : α → Option β) (blank : β) (l : List α) : List β :=
  (l.dropLast.flatMap fun x => match ask x with
    | some y => [y, blank]
    | none => []) ++ answers ask l.getLast?.toList

end AF.Spec.SfInfo
