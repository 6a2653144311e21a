import Verif.Spec.Program
import Verif.Spec.Files
import Verif.Spec.Create
import Verif.Model.Files.NIST
/-!
# Specification of `sfconvert`

The samples of a file, and the keywords of the command line.
-/
namespace AF.Spec.SfConvert
open AF AF.Setup AF.Files AF.Convert AF.Spec AF.Spec.Files

/-- The byte order of the samples of a track. -/
def orderOf (f : AFmt) : Endian := if f.byteOrder = BIG then .big else .little

/-- The sample that some bytes are: two's complement or unsigned; for floating point samples the number whose bits they are. -/
def sampleOf (f : AFmt) (bs : List Byte) : Int :=
  if f.sampleFormat = TWOSCOMP then wrapS (8 * bs.length) (uintOf (orderOf f) bs) else uintOf (orderOf f) bs

/-- Cuts a list into pieces of `n`. -/
def pieces {α : Type} (n : Nat) (l : List α) : List (List α) := (List.range (l.length / n)).map fun i => (l.drop (i * n)).take n

/-- The samples of a frame, of the bytes that stand for it in the file. -/
def frameSamples (f : AFmt) (p : List Byte) : List Int :=
  if f.compression = ULAW then p.map fun b => G711.ulaw2linear b.toNat
  else if f.compression = ALAW then p.map fun b => G711.alaw2linear b.toNat
  else (pieces ((f.sampleWidth + 7) / 8).toNat p).map (sampleOf f)

/-- The `i`-th frame of a file whose track is `t`. -/
def frameAt (file : List Byte) (t : Trk) (i : Nat) : List Int :=
  frameSamples t.f ((file.drop (t.first.toNat + i * bytesPerFrame t.f)).take (bytesPerFrame t.f))

/-- All frames of the track. -/
def sound (file : List Byte) (t : Trk) : List (List Int) := (List.range t.frames.toNat).map (frameAt file t)

/-- The frames that the track is said to have are in the file. -/
structure Complete (file : List Byte) (t : Trk) : Prop where
  codec : t.f.compression = NONE ∨ t.f.compression = ULAW ∨ t.f.compression = ALAW
  channels : 1 ≤ t.f.channels
  first : 0 ≤ t.first
  frames : 0 ≤ t.frames
  inFile : t.first + t.frames * bytesPerFrame t.f ≤ file.length

/-- The bytes of a frame in the copying program's buffer: 3-byte samples take 4. -/
def bufferFrame (f : AFmt) : Int := (if (f.sampleWidth + 7) / 8 = 3 then 4 else (f.sampleWidth + 7) / 8) * f.channels

/-- Samples of the input can be stored in the output without floating point arithmetic: as many channels, and integers as integers or
floating point numbers as the same floating point numbers. -/
structure Storable (f g : AFmt) : Prop where
  channels : g.channels = f.channels
  kind : (f.sampleFormat = TWOSCOMP ∨ f.sampleFormat = UNSIGNED) ∧ (g.sampleFormat = TWOSCOMP ∨ g.sampleFormat = UNSIGNED) ∨
    (f.sampleFormat = FLOAT ∨ f.sampleFormat = DOUBLE) ∧ g.sampleFormat = f.sampleFormat ∧ g.compression = NONE

/-- Handing frames from a reader to a writer: what was read is what is written next, all of it is accepted, and nothing is left out. -/
inductive Transfers {ρ σ γ : Type} (read : Int → ρ → Except Abort ((Int × List (Option γ)) × ρ))
    (write : Int → List (Option γ) → σ → Int × σ) : ρ → σ → List Int → ρ → σ → Prop
  | nil (r s) : Transfers read write r s [] r s
  | cons {n fs r r1 s ns r2 s2} (hr : read n r = .ok ((n, fs), r1)) (hw : (write n fs s).1 = n)
      (rest : Transfers read write r1 (write n fs s).2 ns r2 s2) : Transfers read write r s (n :: ns) r2 s2

/-! ## The command line -/

/-- The keywords. Names are those of the manual page. -/
inductive Keyword
  | format (name : String)
  | channels (n : Nat)
  | float (maxamp : List Byte)
  | integer (width : Nat) (unsigned : Bool)
  | compression (name : String)
  /-- any other word, which has no effect (a message is printed) -/
  | word (w : List Byte)

/-- File formats by name. -/
def formats : List (String × Int) :=
  [("aiff", 2), ("aifc", 1), ("wave", 4), ("next", 3), ("bics", 5), ("smp", 11), ("voc", 12), ("nist", 13), ("caf", 15), ("flac", 16)]

/-- Compression types by name. -/
def compressions : List (String × Int) :=
  [("none", 0), ("ulaw", 502), ("alaw", 503), ("ima", 519), ("msadpcm", 523), ("flac", 530), ("alac", 540)]

/-- Keywords as they should be. -/
def Keyword.Valid : Keyword → Prop
  | .format n => n ∈ formats.map (·.1)
  | .channels n => 1 ≤ n ∧ n < 2 ^ 31
  | .float _ => True
  | .integer w _ => 1 ≤ w ∧ w ≤ 32
  | .compression n => n ∈ compressions.map (·.1)
  | .word w => w ∉ ["format", "channels", "float", "integer", "compression"].map tag

/-- The words of a keyword. -/
def Keyword.words : Keyword → List (List Byte)
  | .format n => [tag "format", tag n]
  | .channels n => [tag "channels", digits n]
  | .float m => [tag "float", m]
  | .integer w u => [tag "integer", digits w, if u then tag "unsigned" else tag "2scomp"]
  | .compression n => [tag "compression", tag n]
  | .word w => [w]

/-- What is asked for: the last keyword of each kind counts. -/
structure Wish where
  format : Option Int
  encoding : Option (Int × Int)
  channels : Option Int
  compression : Int
  deriving DecidableEq

def Wish.step (w : Wish) : Keyword → Wish
  | .format n => { w with format := formats.lookup n }
  | .channels n => { w with channels := some n }
  | .float _ => { w with encoding := some (FLOAT, 32) }
  | .integer b u => { w with encoding := some (if u then UNSIGNED else TWOSCOMP, b) }
  | .compression n => { w with compression := (compressions.lookup n).getD 0 }
  | .word _ => w

def Wish.of (ks : List Keyword) : Wish := ks.foldl Wish.step ⟨none, none, none, NONE⟩

/-- What the output is to be, for a wish and an input of file format `u` with a track of format `f`: what was not wished for is as in the input
(compression: none). A sample rate that is not positive cannot be asked for. -/
def Wish.request (w : Wish) (h : Endian) (u : FileFormat) (f : AFmt) : Create.Request :=
  { Create.Request.initial h with
    format := (w.format.bind Create.formatOf).getD u
    rate := if 0 < f.rate then some f.rate else none
    channels := if 1 ≤ w.channels.getD f.channels then some (w.channels.getD f.channels) else none
    encoding := some (w.encoding.getD (f.sampleFormat, f.sampleWidth))
    compression := some w.compression }

end AF.Spec.SfConvert
