import Verif.Model.Program
import Verif.Spec.Formats
import Verif.Spec.Cursor
import Verif.Spec.Chunks
/-!
# Specification: what a program that reads a file gets of the frames another program wrote

A frame is a list of samples; a sample is a number (for floating point samples, the number whose bits they are).
-/
namespace AF.Spec.Program
open AF AF.Setup AF.Files AF.Convert AF.Spec AF.Spec.Formats AF.Program

/-- Bytes of a sample. -/
def bytesOf (v : Fmt) : Nat := (v.width + 7) / 8

/-- Integers of 1 to 32 bits with the usual meaning. -/
structure Integer (v : Fmt) : Prop where
  kind : v.sampleFormat = .twos ∨ v.sampleFormat = .unsigned
  width : 1 ≤ v.width ∧ v.width ≤ 32
  mapping : v.pcm = defaultMapping (if v.sampleFormat = .unsigned then UNSIGNED else TWOSCOMP) v.width

/-- Floating point numbers with the usual meaning. -/
structure Floating (v : Fmt) : Prop where
  kind : v.sampleFormat = .float ∧ v.width = 32 ∨ v.sampleFormat = .double ∧ v.width = 64
  mapping : v.pcm = ⟨1, 0, 0, 0⟩

/-- The virtual formats this is about, for a track of format `f` on a machine of byte order `h`: uncompressed, the channels of the
track, 3-byte samples only in the order of the machine (`C48_negation_24bit_swapped` says why), and either any integers on a track
of integers, or on a track of floating point samples the same floating point samples. -/
structure Usable (h : Endian) (f : AFmt) (v : Fmt) : Prop where
  uncompressed : v.compressed = false
  channels : (v.channels : Int) = f.channels
  order : v.byteOrder = h ∨ bytesOf v ≠ 3
  kind : Integer v ∧ (f.sampleFormat = TWOSCOMP ∨ f.sampleFormat = UNSIGNED) ∨
    Floating v ∧ f.compression = NONE ∧
      (f.sampleFormat = FLOAT ∧ v.sampleFormat = .float ∨ f.sampleFormat = DOUBLE ∧ v.sampleFormat = .double)

/-- A frame that fits the virtual format. -/
def Fits (f : AFmt) (v : Fmt) (fr : List Int) : Prop :=
  (fr.length : Int) = f.channels ∧ (Integer v → ∀ x ∈ fr, SampleRange (bytesOf v) (v.sampleFormat == .unsigned) x)

/-- What the codec leaves of a sample. -/
def coded (f : AFmt) (x : Int) : Int :=
  if f.compression = ULAW then G711.ulaw2linear (G711.linear2ulaw x)
  else if f.compression = ALAW then G711.alaw2linear (G711.linear2alaw x)
  else x

/-- A sample given in format `v`, stored in a track of format `f`, asked for in format `w`. -/
def heard (f : AFmt) (v w : Fmt) (x : Int) : Int :=
  if v.sampleFormat = .float ∨ v.sampleFormat = .double then x
  else
    let B := ((f.sampleWidth + 7) / 8).toNat
    let u : Bool := f.sampleFormat = UNSIGNED
    convertSample B u (bytesOf w) (w.sampleFormat == .unsigned) (coded f (convertSample (bytesOf v) (v.sampleFormat == .unsigned) B u x))

/-- The bytes of a frame in the reading program's buffer. -/
def delivered (f : AFmt) (v w : Fmt) (fr : List Int) : List Byte := userBytes w.byteOrder (bytesOf w) (fr.map (heard f v w))

/-- Samples of the same type (their byte order may differ). -/
def SameSamples (v w : Fmt) : Prop := w.sampleFormat = v.sampleFormat ∧ bytesOf w = bytesOf v

/-- All frames that the program wrote, in order. -/
def written (calls : List AF.Program.Call) : List (List Int) :=
  calls.flatMap fun | .write frames => frames | _ => []

/-- A call of the reading program that this is about. -/
def CallOk (h : Endian) (f : AFmt) (n : Nat) (c : Spec.Call Fmt) : Prop :=
  InRange n c ∧ ∀ w, c = .setFormat w → Usable h f w

/-- What the reading program finds in the track `t` of the file: the channels and the number of frames that were written (in a
track of format `f` from virtual format `v`); and whatever it calls (reads of any size, seeks, questions for position and length,
changes of the virtual format), the answers are those of a cursor moving over the frames that were written. -/
structure PlaysBack (h : Endian) (fm : Module → List Byte → List Byte) (f : AFmt) (v : Fmt) (frames : List (List Int))
    (file : List Byte) (t : Trk) : Prop where
  channels : t.f.channels = f.channels
  count : t.frames = frames.length
  size : 0 < packetSize t.f
  sound : ∀ (w : Fmt) (calls : List (Spec.Call Fmt)), Usable h f w → (∀ c ∈ calls, CallOk h f frames.length c) →
    Reading.observe (trackReader h fm file t size) w calls
      = .ok ((answers frames (delivered f v) ⟨0, w⟩ calls).map fun a => (a.1, a.2.map some))

end AF.Spec.Program
