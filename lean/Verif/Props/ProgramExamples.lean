import Verif.Props.Program
/-!
# C67: programs that meet the hypotheses
-/
namespace AF.Program
open AF AF.Setup AF.Files AF.Convert AF.Spec AF.Virtual AF.Spec.Setup AF.Spec.Formats AF.Spec.Files AF.Spec.Program

instance (v : Fmt) : Decidable (Integer v) :=
  decidable_of_iff ((v.sampleFormat = .twos ∨ v.sampleFormat = .unsigned) ∧ (1 ≤ v.width ∧ v.width ≤ 32) ∧
    v.pcm = defaultMapping (if v.sampleFormat = .unsigned then UNSIGNED else TWOSCOMP) v.width)
    ⟨fun ⟨a, b, c⟩ => ⟨a, b, c⟩, fun ⟨a, b, c⟩ => ⟨a, b, c⟩⟩
instance (v : Fmt) : Decidable (Floating v) :=
  decidable_of_iff ((v.sampleFormat = .float ∧ v.width = 32 ∨ v.sampleFormat = .double ∧ v.width = 64) ∧ v.pcm = ⟨1, 0, 0, 0⟩)
    ⟨fun ⟨a, b⟩ => ⟨a, b⟩, fun ⟨a, b⟩ => ⟨a, b⟩⟩
instance (h : Endian) (f : AFmt) (v : Fmt) : Decidable (Usable h f v) :=
  decidable_of_iff (v.compressed = false ∧ (v.channels : Int) = f.channels ∧ (v.byteOrder = h ∨ bytesOf v ≠ 3) ∧
    (Integer v ∧ (f.sampleFormat = TWOSCOMP ∨ f.sampleFormat = UNSIGNED) ∨
    Floating v ∧ f.compression = NONE ∧
      (f.sampleFormat = FLOAT ∧ v.sampleFormat = .float ∨ f.sampleFormat = DOUBLE ∧ v.sampleFormat = .double)))
    ⟨fun ⟨a, b, c, d⟩ => ⟨a, b, c, d⟩, fun ⟨a, b, c, d⟩ => ⟨a, b, c, d⟩⟩
instance (f : AFmt) (v : Fmt) (fr : List Int) : Decidable (Program.Fits f v fr) := by unfold Program.Fits SampleRange; infer_instance
instance (h : Endian) (f : AFmt) (v : Fmt) (calls : List Call) : Decidable (Recorded h f v calls) :=
  decidable_of_iff ((f.compression = NONE ∨ f.compression = ULAW ∨ f.compression = ALAW) ∧ codecCheck h f = some f ∧
    f.pcm = defaultMapping f.sampleFormat f.sampleWidth ∧ Usable h f v ∧ ∀ fr ∈ written calls, Fits f v fr)
    ⟨fun ⟨a, b, c, d, e⟩ => ⟨a, b, c, d, e⟩, fun ⟨a, b, c, d, e⟩ => ⟨a, b, c, d, e⟩⟩

/-- The virtual format of two channels of signed 16-bit samples, in the given order. -/
def stereo16 (e : Endian) : Fmt := ⟨.twos, 16, 2, e, false, false, ⟨32768, 0, -32768, 32767⟩⟩
/-- Two channels of unsigned bytes. -/
def stereo8 : Fmt := ⟨.unsigned, 8, 2, .big, false, false, ⟨128, 128, 0, 255⟩⟩
/-- One channel of signed 24-bit samples. -/
def mono24 : Fmt := ⟨.twos, 24, 1, .little, false, false, ⟨8388608, 0, -8388608, 8388607⟩⟩
/-- One channel of single precision floating point. -/
def monoFloat : Fmt := ⟨.float, 32, 1, .big, false, false, ⟨1, 0, 0, 0⟩⟩

def stereoCalls : List Call := [.write [[1, 2], [255, 0]], .sync, .write [], .write [[100, 77]]]
def quietCalls : List Call := [.write [[1], [-300000]], .sync, .write [[8388607]]]

def ulawOps : List Setup.Op := [.fileFormat 3, .channels 1001 2, .rate 1001 8000, .compression 1001 502]

/-- μ-law in a NeXT file on a little-endian machine, from unsigned bytes and from 16-bit samples of either order. -/
example : ∃ s' o f, openWrite .little (Setup.run (newSetup .little) ulawOps) = (s', some o) ∧ o.f = [f] ∧
    (Setup.run (newSetup .little) ulawOps).fileFormat = .next ∧ f.rate < 2 ^ 32 ∧ f.channels < 2 ^ 31 ∧ f.compression = ULAW ∧
    Recorded .little f stereo8 stereoCalls ∧ Recorded .little f (stereo16 .big) stereoCalls ∧
    Recorded .little f (stereo16 .little) stereoCalls ∧
    written stereoCalls ≠ [] ∧ (written stereoCalls).length * bytesPerFrame f < 2 ^ 32 - 1 ∧
    heard f stereo8 (stereo16 .little) 1 = -32124 := by
  refine ⟨_, _, _, rfl, rfl, ?_⟩
  decide +kernel

/-- 24-bit samples in a NeXT file, read as such and as others. -/
example : ∃ s' o f, openWrite .little (Setup.run (newSetup .little) [.fileFormat 3, .channels 1001 1, .sampleFormat 1001 401 24]) = (s', some o) ∧
    o.f = [f] ∧ f.compression = NONE ∧ Recorded .little f mono24 quietCalls ∧ (bytesOf mono24 : Int) ≤ (f.sampleWidth + 7) / 8 ∧
    SameSamples mono24 mono24 ∧ Usable .little f mono24 ∧ ¬ Usable .big f mono24 ∧
    delivered f mono24 mono24 [-300000] = [0x20, 0x6c, 0xfb, 0xff] := by
  refine ⟨_, _, _, rfl, rfl, ?_⟩
  unfold SameSamples
  decide +kernel

/-- Floating point samples. -/
example : ∃ s' o f, openWrite .little (Setup.run (newSetup .little) [.fileFormat 3, .channels 1001 1, .sampleFormat 1001 403 32]) = (s', some o) ∧
    o.f = [f] ∧ Recorded .little f monoFloat [.write [[0x3f800000]]] ∧ delivered f monoFloat monoFloat [0x3f800000] = [0x3f, 0x80, 0, 0] := by
  refine ⟨_, _, _, rfl, rfl, ?_⟩
  decide +kernel

def waveCalls : List Call :=
  [.about (.setMark 1001 7 1), .write [[1, 2], [255, 0]], .about (.writeMisc 1 (tag "title")), .sync, .write [[100, 77]],
   .about (.setMark 1001 (-3) 2)]

/-- 24-bit WAVE from unsigned bytes, with markers and texts. -/
example : ∃ o f file x, WaveWritten .little waveOps o f (mevents .little (fun _ b => b) stereo8 f waveCalls) file x ∧
    WaveFits o f (mevents .little (fun _ b => b) stereo8 f waveCalls) file x ∧ Recorded .little f stereo8 waveCalls := by
  obtain ⟨s', o, f, ho, hf, hr, hm⟩ : ∃ s' o f, openWrite .little (Setup.run (newSetup .little) waveOps) = (s', some o) ∧ o.f = [f] ∧
      Recorded .little f stereo8 waveCalls ∧
      (waveDemo .little waveOps (mevents .little (fun _ b => b) stereo8 f waveCalls)).any (fun r =>
        waveFitsB r.1 r.2.1 (mevents .little (fun _ b => b) stereo8 f waveCalls) r.2.2.1 r.2.2.2) = true := by
    refine ⟨_, _, _, rfl, rfl, ?_, ?_⟩
    · decide +kernel
    · decide +kernel
  obtain ⟨o', f', file, x, hw, hp⟩ := waveDemo_written (by decide) hm
  obtain ⟨s2, h2⟩ := hw.opened
  rw [ho] at h2
  cases h2
  have e := hw.format
  rw [hf] at e
  cases e
  exact ⟨o, f, file, x, hw, waveFits_of hp, hr⟩

/-- 12-bit AIFF-C with markers, an instrument and AES data. -/
example : ∃ o f file x, AiffWritten .little true aiffOps o f (mevents .little (fun _ b => b) (stereo16 .little) f waveCalls) file x ∧
    AiffFits o f (mevents .little (fun _ b => b) (stereo16 .little) f waveCalls) file x ∧ Recorded .little f (stereo16 .little) waveCalls := by
  obtain ⟨s', o, f, ho, hf, hr, hm⟩ : ∃ s' o f, openWrite .little (Setup.run (newSetup .little) aiffOps) = (s', some o) ∧ o.f = [f] ∧
      Recorded .little f (stereo16 .little) waveCalls ∧
      (aiffDemo .little true aiffOps (mevents .little (fun _ b => b) (stereo16 .little) f waveCalls)).any (fun r =>
        aiffFitsB 44100 r.1 r.2.1 (mevents .little (fun _ b => b) (stereo16 .little) f waveCalls) r.2.2.1 r.2.2.2) = true := by
    refine ⟨_, _, _, rfl, rfl, ?_, ?_⟩
    · decide +kernel
    · decide +kernel
  obtain ⟨o', f', file, x, hw, hp⟩ := aiffDemo_written (by decide) hm
  obtain ⟨s2, h2⟩ := hw.opened
  rw [ho] at h2
  cases h2
  have e := hw.format
  rw [hf] at e
  cases e
  exact ⟨o, f, file, x, hw, aiffFits_of hp, hr⟩

/-- 8SVX from 24-bit samples. -/
example : ∃ o f file x, IffWritten .little (iffOps 22050) o f (mevents .little (fun _ b => b) mono24 f quietCalls) file x ∧
    file.length < 2 ^ 32 ∧ (∀ m ∈ o.handle.misc, 0 ≤ m.size ∧ m.size < 2 ^ 31) ∧ Recorded .little f mono24 quietCalls := by
  obtain ⟨s', o, f, ho, hf, hr, hm⟩ : ∃ s' o f, openWrite .little (Setup.run (newSetup .little) (iffOps 22050)) = (s', some o) ∧ o.f = [f] ∧
      Recorded .little f mono24 quietCalls ∧
      (iffDemo .little (iffOps 22050) (mevents .little (fun _ b => b) mono24 f quietCalls)).any (fun r =>
        iffFitsB r.1 (mevents .little (fun _ b => b) mono24 f quietCalls) r.2.2.1) = true := by
    refine ⟨_, _, _, rfl, rfl, ?_, ?_⟩
    · decide +kernel
    · decide +kernel
  obtain ⟨o', f', file, x, hw, hp⟩ := iffDemo_written (by decide) hm
  obtain ⟨s2, h2⟩ := hw.opened
  rw [ho] at h2
  cases h2
  have e := hw.format
  rw [hf] at e
  cases e
  have := iffFits_of hp
  exact ⟨o, f, file, x, hw, this.length, this.misc, hr⟩

end AF.Program
