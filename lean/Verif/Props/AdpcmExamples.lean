import Verif.Props.Adpcm
import Verif.Props.ProgramExamples
/-!
# C78: programs that meet the hypotheses
-/
namespace AF.Adpcm
open AF AF.Setup AF.Files AF.Convert AF.Spec AF.Virtual AF.Spec.Setup AF.Spec.Formats AF.Spec.Files AF.Program AF.Spec.Program AF.Spec.Adpcm

instance (h : Endian) (f : AFmt) (v : Fmt) (frames : List (List Int)) : Decidable (Adpcm.Recorded h f v frames) :=
  decidable_of_iff (codecCheck h f = some f ∧ f.pcm = defaultMapping f.sampleFormat f.sampleWidth ∧ Integer v ∧ Usable h f v ∧
    ∀ fr ∈ frames, Program.Fits f v fr) ⟨fun ⟨a, b, c, d, e⟩ => ⟨a, b, c, d, e⟩, fun ⟨a, b, c, d, e⟩ => ⟨a, b, c, d, e⟩⟩

instance (ch : Nat) (fr : List Int) : Decidable (Frame16 ch fr) := by unfold Frame16; infer_instance

/-- The data a session of writes leaves. -/
def dataLeft {ε : Type} (c : Writing.Cfg Fmt (List Byte) (List Int) ε) (e : ε) (v : Fmt) (ps : List (List (List Int))) : List Byte :=
  match Writing.session c e v (Writing.writes ps) with
  | .ok r => r.data
  | .error _ => []

theorem dataLeft_ok {ε : Type} {C : Codec ε} {I : ε → Prop} {fpp bpp ch : Nat} (g : Good C I fpp bpp ch) (hf0 : 0 < fpp) (hb0 : 0 < bpp) (h : Endian)
    (fm : Module → List Byte → List Byte) {f : AFmt} {v : Fmt} {ps : List (List (List Int))} (r : Adpcm.Recorded h f v ps.flatten)
    (hc : f.compression = IMA ∨ f.compression = MSADPCM) (hch : f.channels = ch) {e : ε} (hI : I e)
    {J : List (List Int)} (hJ : J.length = fpp ∧ ∀ fr ∈ J, Frame16 ch fr) (update : Option Int) (first : Nat) {D : List Byte} {n : Nat}
    (hD : dataLeft (blockWriter h fm f C fpp bpp hf0 hb0 (J.map (packedBytes h 2)) update first) e v ps = D) (hn : ps.flatten.length = n) :
    Writing.session (blockWriter h fm f C fpp bpp hf0 hb0 (J.map (packedBytes h 2)) update first) e v (Writing.writes ps) = .ok ⟨D, D.length, n⟩ := by
  obtain ⟨Bs, -, -, w, -⟩ := written_blocks g hf0 hb0 h fm r hc hch hI hJ.1 hJ.2 update first
  unfold dataLeft at hD
  rw [w] at hD
  subst hD hn
  exact w

def adpcmFrames : List (List (List Int)) := [[[1, 2], [255, 0]], [], [[100, 77]]]

def imaJunk (n : Nat) : List (List Int) := List.replicate n [-32768, 77]

def imaWaveOps : List Setup.Op := [.fileFormat 4, .compression 1001 519, .channels 1001 2, .rate 1001 8000]
def msWaveOps : List Setup.Op := [.fileFormat 4, .compression 1001 523, .channels 1001 2, .rate 1001 8000]
def imaAiffOps : List Setup.Op := [.fileFormat 1, .compression 1001 519, .channels 1001 2, .rate 1001 8000]
def imaCafOps : List Setup.Op := [.fileFormat 15, .compression 1001 519, .channels 1001 2, .rate 1001 44100]

def imaWaveWriter (f : AFmt) : Writing.Cfg Fmt (List Byte) (List Int) (List IMA.St) :=
  blockWriter .little (fun _ b => b) f (imaWave 2 505) 505 (256 * 2) (by decide) (by decide) ((imaJunk 505).map (packedBytes .little 2)) none 60
def msWaveWriter (f : AFmt) : Writing.Cfg Fmt (List Byte) (List Int) Unit :=
  blockWriter .little (fun _ b => b) f (ms 2 500) 500 (256 * 2) (by decide) (by decide) ((imaJunk 500).map (packedBytes .little 2)) none 90
def imaAiffWriter (f : AFmt) : Writing.Cfg Fmt (List Byte) (List Int) (List IMA.St) :=
  blockWriter .little (fun _ b => b) f (imaQT 2 64) 64 (34 * 2) (by decide) (by decide) ((imaJunk 64).map (packedBytes .little 2)) none 60

/-- IMA ADPCM in a WAVE file. -/
example : ∃ o f file x evs, WaveWritten .little imaWaveOps o f evs file x ∧ WaveFits o f evs file x ∧ f.compression = IMA ∧
    Adpcm.Recorded .little f stereo8 adpcmFrames.flatten ∧ f.channels = (2 : Nat) ∧ framesOfM evs = 3 ∧
    ((imaJunk 505).length = 505 ∧ ∀ fr ∈ imaJunk 505, Frame16 2 fr) ∧
    Writing.session (imaWaveWriter f) (IMA.initial 2) stereo8 (Writing.writes adpcmFrames) =
      .ok ⟨dataOfM evs, (dataOfM evs).length, framesOfM evs⟩ := by
  obtain ⟨s', o, f, ho, hf, ⟨hr, hc, hch⟩, hm⟩ : ∃ s' o f, openWrite .little (Setup.run (newSetup .little) imaWaveOps) = (s', some o) ∧ o.f = [f] ∧
      (Adpcm.Recorded .little f stereo8 adpcmFrames.flatten ∧ f.compression = IMA ∧ f.channels = (2 : Nat)) ∧
      (waveDemo .little imaWaveOps [.ev (.data (dataLeft (imaWaveWriter f) (IMA.initial 2) stereo8 adpcmFrames) 3)]).any (fun r =>
        waveFitsB r.1 r.2.1 [.ev (.data (dataLeft (imaWaveWriter f) (IMA.initial 2) stereo8 adpcmFrames) 3)] r.2.2.1 r.2.2.2) = true := by
    refine ⟨_, _, _, rfl, rfl, ?_, ?_⟩
    · decide +kernel
    · decide +kernel
  obtain ⟨o', f', file, x, hw, hp⟩ := waveDemo_written (by decide) hm
  obtain ⟨s2, h2⟩ := hw.opened
  rw [ho] at h2
  cases h2
  have e := hw.format
  rw [hf] at e
  cases e
  have hJ : (imaJunk 505).length = 505 ∧ ∀ fr ∈ imaJunk 505, Frame16 2 fr := by
    refine ⟨List.length_replicate, fun fr hm => ?_⟩
    rw [List.eq_of_mem_replicate hm]
    decide
  refine ⟨o, f, file, x, _, hw, waveFits_of hp, hc, hr, hch, rfl, hJ, ?_⟩
  exact dataLeft_ok (imaWave_good 2 63) (by decide) (by decide) .little _ hr (.inl hc) hch (ima_initial 2) hJ none 60
    (by show _ = _ ++ []; rw [List.append_nil]; rfl) rfl

/-- MS ADPCM. -/
example : ∃ o f file x evs, WaveWritten .little msWaveOps o f evs file x ∧ WaveFits o f evs file x ∧ f.compression = MSADPCM ∧
    Adpcm.Recorded .little f stereo8 adpcmFrames.flatten ∧ f.channels = (2 : Nat) ∧ framesOfM evs = 3 ∧
    ((imaJunk 500).length = 500 ∧ ∀ fr ∈ imaJunk 500, Frame16 2 fr) ∧
    Writing.session (msWaveWriter f) () stereo8 (Writing.writes adpcmFrames) =
      .ok ⟨dataOfM evs, (dataOfM evs).length, framesOfM evs⟩ := by
  obtain ⟨s', o, f, ho, hf, ⟨hr, hc, hch⟩, hm⟩ : ∃ s' o f, openWrite .little (Setup.run (newSetup .little) msWaveOps) = (s', some o) ∧ o.f = [f] ∧
      (Adpcm.Recorded .little f stereo8 adpcmFrames.flatten ∧ f.compression = MSADPCM ∧ f.channels = (2 : Nat)) ∧
      (waveDemo .little msWaveOps [.ev (.data (dataLeft (msWaveWriter f) () stereo8 adpcmFrames) 3)]).any (fun r =>
        waveFitsB r.1 r.2.1 [.ev (.data (dataLeft (msWaveWriter f) () stereo8 adpcmFrames) 3)] r.2.2.1 r.2.2.2) = true := by
    refine ⟨_, _, _, rfl, rfl, ?_, ?_⟩
    · decide +kernel
    · decide +kernel
  obtain ⟨o', f', file, x, hw, hp⟩ := waveDemo_written (by decide) hm
  obtain ⟨s2, h2⟩ := hw.opened
  rw [ho] at h2
  cases h2
  have e := hw.format
  rw [hf] at e
  cases e
  have hJ : (imaJunk 500).length = 500 ∧ ∀ fr ∈ imaJunk 500, Frame16 2 fr := by
    refine ⟨List.length_replicate, fun fr hm => ?_⟩
    rw [List.eq_of_mem_replicate hm]
    decide
  refine ⟨o, f, file, x, _, hw, waveFits_of hp, hc, hr, hch, rfl, hJ, ?_⟩
  exact dataLeft_ok ms_good2 (by decide) (by decide) .little _ hr (.inr hc) hch trivial hJ none 90
    (by show _ = _ ++ []; rw [List.append_nil]; rfl) rfl

/-- IMA ADPCM in an AIFF-C file. -/
example : ∃ o f file x evs, AiffWritten .little true imaAiffOps o f evs file x ∧ AiffFits o f evs file x ∧ f.compression = IMA ∧
    Adpcm.Recorded .little f stereo8 adpcmFrames.flatten ∧ f.channels = (2 : Nat) ∧ framesOfM evs = 3 ∧
    ((imaJunk 64).length = 64 ∧ ∀ fr ∈ imaJunk 64, Frame16 2 fr) ∧
    Writing.session (imaAiffWriter f) (IMA.initial 2) stereo8 (Writing.writes adpcmFrames) =
      .ok ⟨dataOfM evs, (dataOfM evs).length, framesOfM evs⟩ := by
  obtain ⟨s', o, f, ho, hf, ⟨hr, hc, hch⟩, hm⟩ : ∃ s' o f, openWrite .little (Setup.run (newSetup .little) imaAiffOps) = (s', some o) ∧ o.f = [f] ∧
      (Adpcm.Recorded .little f stereo8 adpcmFrames.flatten ∧ f.compression = IMA ∧ f.channels = (2 : Nat)) ∧
      (aiffDemo .little true imaAiffOps [.ev (.data (dataLeft (imaAiffWriter f) (IMA.initial 2) stereo8 adpcmFrames) 3)]).any (fun r =>
        aiffFitsB 8000 r.1 r.2.1 [.ev (.data (dataLeft (imaAiffWriter f) (IMA.initial 2) stereo8 adpcmFrames) 3)] r.2.2.1 r.2.2.2) = true := by
    refine ⟨_, _, _, rfl, rfl, ?_, ?_⟩
    · decide +kernel
    · decide +kernel
  obtain ⟨o', f', file, x, hw, hp⟩ := aiffDemo_written (by decide) hm
  obtain ⟨s2, h2⟩ := hw.opened
  rw [ho] at h2
  cases h2
  have e := hw.format
  rw [hf] at e
  cases e
  have hJ : (imaJunk 64).length = 64 ∧ ∀ fr ∈ imaJunk 64, Frame16 2 fr := by
    refine ⟨List.length_replicate, fun fr hm => ?_⟩
    rw [List.eq_of_mem_replicate hm]
    decide
  refine ⟨o, f, file, x, _, hw, aiffFits_of hp, hc, hr, hch, rfl, hJ, ?_⟩
  exact dataLeft_ok (imaQT_good 2 32) (by decide) (by decide) .little _ hr (.inl hc) hch (ima_initial 2) hJ none 60
    (by show _ = _ ++ []; rw [List.append_nil]; rfl) rfl

/-- IMA ADPCM in a CAF file. -/
example : ∃ s' o f evs, openWrite .little (Setup.run (newSetup .little) imaCafOps) = (s', some o) ∧ o.f = [f] ∧
    (Setup.run (newSetup .little) imaCafOps).fileFormat = .caf ∧ f.compression = IMA ∧ demoF64.dec (demoF64.enc f.rate) = f.rate ∧
    Adpcm.Recorded .little f stereo8 adpcmFrames.flatten ∧ f.channels = (2 : Nat) ∧ framesOf evs = 3 ∧ 2 * (dataOf evs).length < 2 ^ 63 - 68 ∧
    Writing.session (imaAiffWriter f) (IMA.initial 2) stereo8 (Writing.writes adpcmFrames) =
      .ok ⟨dataOf evs, (dataOf evs).length, framesOf evs⟩ := by
  obtain ⟨s', o, f, ho, hf, ⟨hr, hc, hch⟩, hm⟩ : ∃ s' o f, openWrite .little (Setup.run (newSetup .little) imaCafOps) = (s', some o) ∧ o.f = [f] ∧
      (Adpcm.Recorded .little f stereo8 adpcmFrames.flatten ∧ f.compression = IMA ∧ f.channels = (2 : Nat)) ∧
      (Setup.run (newSetup .little) imaCafOps).fileFormat = .caf ∧ demoF64.dec (demoF64.enc f.rate) = f.rate ∧
      2 * (dataOf [.data (dataLeft (imaAiffWriter f) (IMA.initial 2) stereo8 adpcmFrames) 3]).length < 2 ^ 63 - 68 := by
    refine ⟨_, _, _, rfl, rfl, ?_, ?_⟩
    · decide +kernel
    · decide +kernel
  have hJ : (imaJunk 64).length = 64 ∧ ∀ fr ∈ imaJunk 64, Frame16 2 fr := by
    refine ⟨List.length_replicate, fun fr hm => ?_⟩
    rw [List.eq_of_mem_replicate hm]
    decide
  refine ⟨s', o, f, [.data (dataLeft (imaAiffWriter f) (IMA.initial 2) stereo8 adpcmFrames) 3], ho, hf, hm.1, hc, hm.2.1, hr, hch, rfl, hm.2.2, ?_⟩
  exact dataLeft_ok (imaQT_good 2 32) (by decide) (by decide) .little _ hr (.inl hc) hch (ima_initial 2) hJ none 60
    (by show _ = _ ++ []; rw [List.append_nil]; rfl) rfl

end AF.Adpcm
