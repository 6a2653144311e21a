import Verif.Proof.BuffersRun
/-!
# Conversion buffers are large enough (C65)

The model (Verif/Model/Buffers.lean) makes every access behind the end of a buffer, of the library's or of the caller's, the result
`.error .bufferOverflow`.
-/
namespace AF.Buffers
open AF AF.Convert AF.Spec.Buffers

/-- C65. Whatever a program does with a track it reads — frames, seeks, changes of the virtual format, in any order and number —
and whatever the file delivers, no conversion module, codec or rebuffering step leaves its buffers, and the caller's buffer
receives no more than the frames asked for; for tracks whose packets fit and virtual formats that do not widen packets of more
than 1024 frames. -/
theorem C65_reading {c : Cfg} (hc : Readable c) {v : Fmt} (hv : ReadAs c v) (answers : List Nat) (ops : List ROp)
    (ho : ∀ op ∈ ops, MayRead c op) : ∃ s', rrun c (ropen v answers) ops = .ok s' :=
  rrun_ok hc ops _ ⟨hv, (fun h => by cases h), c.fpp_pos, .inl rfl⟩ ho

/-- C65. The same for writing: every virtual format of fewer than 2^18 channels will do. -/
theorem C65_writing {c : Cfg} (hc : Writable c) {v : Fmt} (hu : v.compressed = false) (hv : Few v) (answers : List Nat)
    (hp : Packed c answers) (ops : List WOp) (ho : ∀ op ∈ ops, MayWrite op) : ∃ s', wrun c (wopen v answers) ops = .ok s' :=
  wrun_ok hc ops _ ⟨hu, hv, (fun h => by cases h), c.fpp_pos, hp⟩ ho

/-- Only modules that do not change the size of samples in memory. -/
def Plain (c : Chain) : Prop := ∀ m ∈ c.mods, m = .expand3to4 true ∨ ∃ k p, m = .clip k p

theorem asOpened_mods {c : Cfg} (ht : c.f.sampleFormat = .twos) (hcomp : c.f.compressed = true) {ch : Chain}
    (h : arrange c.h true c.f (asOpened c) = some ch) : ∀ m ∈ ch.mods, m = .expand3to4 true ∨ ∃ k p, m = .clip k p := by
  have hu : c.f.isUnsigned = false := by simp [Fmt.isUnsigned, ht]
  have hsg : c.f.isSigned = true := by simp [Fmt.isSigned, ht]
  have hu' : (asOpened c).isUnsigned = false := hu
  have hb : (asOpened c).bytesPerSample false = c.f.bytesPerSample false := by simp [Fmt.bytesPerSample, asOpened]
  have hcode : (asOpened c).code = c.f.code := by unfold Fmt.code; rw [hb]; rfl
  unfold arrange at h
  rw [hcode] at h
  cases hk : c.f.code with
  | none => rw [hk] at h; cases h
  | some k =>
    rw [hk] at h
    have hki : k.isInteger = true := by
      unfold Fmt.code at hk
      rw [ht] at hk
      dsimp only at hk
      split at hk <;> first | (cases hk; rfl) | cases hk
    have hn : (c.f.byteOrder ≠ c.h ∧ c.f.bytesPerSample (!true) > 1 ∧ !c.f.compressed) = False := by
      simp [hcomp]
    simp only [toNative, toSigned, hn, hu, hsg, Chain.addIf, decide_false, Bool.false_eq_true, if_false] at h
    have htr : ∀ p, transforming p p k k = false := by intro p; simp [transforming]
    have hop : outPCM (asOpened c) k = c.f.pcm := by simp only [outPCM, hu', Bool.false_eq_true, if_false]; rfl
    generalize hc1 : (if decide (c.f.isInteger = true ∧ c.f.bytesPerSample false = 3 ∧ (True ∨ c.f.compressed = true)) = true then
        (⟨[], c.f⟩ : Chain).add (Module.expand3to4 true) else ⟨[], c.f⟩) = c1 at h
    have g1 : Plain c1 ∧ c1.f.pcm = c.f.pcm := by
      rw [← hc1]
      split
      · exact ⟨fun m hm => .inl (by simpa [Chain.add] using hm), rfl⟩
      · exact ⟨fun m hm => (by cases hm), rfl⟩
    rw [hop, g1.2] at h
    have hcc : c.f.channels = (asOpened c).channels := rfl
    have hcmp : (asOpened c).compressed = false := rfl
    simp only [middle, htr, hki, Chain.addIf, toOutput, hu', hcc, hcmp, Bool.false_eq_true, decide_false, if_false, and_self,
      if_true, ne_eq, not_true, false_and, and_false, Bool.not_true, false_or] at h
    have clip : ∀ (b : Prop) [Decidable b] (c : Chain) (p : PCM), Plain c → Plain (if b then c.add (.clip k p) else c) := by
      intro b _ c p hc
      split
      · intro m hm
        rcases List.mem_append.1 hm with hm | hm
        · exact hc m hm
        · exact .inr ⟨k, p, List.mem_singleton.1 hm⟩
      · exact hc
    have e := Option.some.inj h
    rw [← e, if_neg (by simp [asOpened])]
    show Plain _
    apply clip
    apply clip
    exact g1.1

/-- C65. The virtual format a track has after `afOpenFile` may be read whatever the length of the packets. -/
theorem C65_as_opened {c : Cfg} (hc : Readable c) : ReadAs c (asOpened c) := by
  refine ⟨rfl, hc.few, fun hr => .inr ?_⟩
  have ht : c.f.sampleFormat = .twos := by
    cases hk : c.codec with
    | pcm => rw [hk] at hr; cases hr
    | g711 => rw [hk] at hr; cases hr
    | block => exact (hc.coded.block hk).1
    | alac => exact (hc.coded.alac hk).1
  intro ch hch g hg
  have hs : ∀ g ∈ chunkFormats c.decoded ch.mods, g.sampleFormat = c.f.sampleFormat ∧ g.width = c.f.width ∧ g.channels = c.f.channels ∧
      g.compressed = false := by
    have hd : c.decoded.sampleFormat = c.f.sampleFormat ∧ c.decoded.width = c.f.width ∧ c.decoded.channels = c.f.channels ∧
        c.decoded.compressed = false := by
      cases hk : c.codec with
      | pcm => rw [hk] at hr; cases hr
      | g711 => rw [hk] at hr; cases hr
      | block => simp [Cfg.decoded, hk]
      | alac => simp [Cfg.decoded, hk]
    have hm : ∀ m ∈ ch.mods, m = .expand3to4 true ∨ ∃ k p, m = .clip k p := by
      exact asOpened_mods ht (hc.coded.others (by rintro e; rw [e] at hr; cases hr)) hch
    clear hg g hch
    generalize ch.mods = ms at hm ⊢
    generalize c.decoded = d at hd ⊢
    induction ms generalizing d with
    | nil => intro g hg; rw [List.mem_singleton.1 hg]; exact hd
    | cons m ms ih =>
      intro g hg
      rcases List.mem_cons.1 hg with rfl | hg
      · exact hd
      · refine ih (fun m h => hm m (List.mem_cons_of_mem _ h)) (m.describe d) ?_ g hg
        rcases hm m List.mem_cons_self with rfl | ⟨k, p, rfl⟩
        · exact hd
        · exact hd
  obtain ⟨a1, a2, a3, a4⟩ := hs g hg
  obtain ⟨b1, b2, b3, b4⟩ := hs c.decoded (by cases ch.mods <;> simp [chunkFormats])
  unfold bytesPerFrame Fmt.bytesPerSample
  rw [a1, a2, a3, a4, b1, b2, b3, b4]
  exact Nat.le_refl _

/-! ## Tracks that are read and written within the buffers -/

/-- 16-bit stereo, big-endian: a typical AIFF file. -/
def be16 : Fmt := ⟨.twos, 16, 2, .big, false, true, defaultSigned 2⟩
/-- `AF_SAMPFMT_FLOAT`, and `AF_SAMPFMT_DOUBLE`. -/
def float32 (channels : Nat) : Fmt := ⟨.float, 32, channels, .little, false, true, ⟨1, 0, 0, 0⟩⟩
def float64 (channels : Nat) : Fmt := ⟨.double, 64, channels, .little, false, true, ⟨1, 0, 0, 0⟩⟩
/-- What the block codecs deliver and take. -/
def coded16 (channels : Nat) : Fmt := ⟨.twos, 16, channels, .little, true, true, defaultSigned 2⟩

def aiffTrack : Cfg := { h := .little, codec := .pcm, f := be16, fpp := 1, bpp := 4, fpp_pos := by decide, total := some 100000 }
/-- An IMA WAVE file as this library writes it: 505 frames in 512 bytes for two channels (WAVE.cpp:1556-1561). -/
def imaTrack : Cfg := { h := .little, codec := .block, f := coded16 2, fpp := 505, bpp := 512, fpp_pos := by decide, total := some 100000 }
/-- An ALAC CAF file as this library writes it. -/
def alacTrack : Cfg :=
  { h := .little, codec := .alac, f := coded16 1, fpp := 4096, bpp := 0, fpp_pos := by decide, total := some 100000
    sizes := [5000, 10], frames := fun i => if i = 0 then 4096 else 3 }

example : Readable aiffTrack ∧ ReadAs aiffTrack (float64 6) ∧
    ∀ op ∈ [ROp.read 5000, .seek 70, .setFormat (float32 1), .read 3], MayRead aiffTrack op := by
  refine ⟨⟨⟨fun _ => rfl, (fun h => absurd rfl h), nofun, nofun, nofun⟩, ?_, nofun, nofun, nofun, nofun, fun _ => (by decide), nofun⟩,
    ⟨rfl, ?_, nofun⟩, ?_⟩
  · show 2 < 2 ^ 18; decide
  · show 6 < 2 ^ 18; decide
  · intro op hop
    simp only [List.mem_cons, List.not_mem_nil, or_false] at hop
    rcases hop with rfl | rfl | rfl | rfl
    · exact trivial
    · exact nofun
    · exact ⟨rfl, (show 1 < 2 ^ 18 by decide), nofun⟩
    · exact trivial

theorem imaTrack_readable : Readable imaTrack :=
  ⟨⟨nofun, fun _ => rfl, nofun, fun _ => ⟨rfl, rfl⟩, nofun⟩, (show 2 < 2 ^ 18 by decide), fun _ => (show 505 * (8 * 2) < 2 ^ 31 by decide),
    fun _ => ⟨(show 0 < 512 by decide), (show 512 ≤ 2 * 2 * max 1024 505 by decide)⟩, nofun, nofun, nofun, nofun⟩

/-- The blocks of files this library writes are short enough for every virtual format. -/
example : ReadAs imaTrack (float64 2) := ⟨rfl, (show 2 < 2 ^ 18 by decide), fun _ => .inl (show 505 ≤ 1024 by decide)⟩

theorem alacTrack_readable : Readable alacTrack := by
  refine ⟨⟨nofun, fun _ => rfl, nofun, nofun, fun _ => ⟨rfl, (show 16 ≤ 32 by decide)⟩⟩, (show 1 < 2 ^ 18 by decide),
    fun _ => (show 4096 * (8 * 1) < 2 ^ 31 by decide), nofun, fun _ => ?_, fun _ i => ?_, nofun, nofun⟩
  · show ∀ p ∈ [5000, 10], p ≤ 4096 * 1 * ((10 + 16) / 8) + 1
    decide
  · show (if i = 0 then 4096 else 3) ≤ 4096
    split <;> decide

/-- As it was opened, an ALAC track can be read and sought in. -/
example : ∃ s', rrun alacTrack (ropen (asOpened alacTrack) [5000, 10]) [.seek 4000, .read 10000, .seek 1, .read 1] = .ok s' :=
  C65_reading alacTrack_readable (C65_as_opened alacTrack_readable) _ _ (by
    intro op hop
    simp only [List.mem_cons, List.not_mem_nil, or_false] at hop
    rcases hop with rfl | rfl | rfl | rfl
    · exact nofun
    · exact trivial
    · exact nofun
    · exact trivial)

example : Writable alacTrack ∧ Packed alacTrack [12289, 5] :=
  ⟨⟨alacTrack_readable.coded, alacTrack_readable.few, alacTrack_readable.packet, nofun, nofun, nofun⟩, by
    show ∀ p ∈ [12289, 5], p ≤ 4096 * 1 * ((10 + 16) / 8) + 1
    decide⟩

/-! ## Tracks that are not -/

/-- The run ended with an access behind the end of a buffer. -/
def overflows {α : Type} : Except Abort α → Bool
  | .error .bufferOverflow => true
  | _ => false

/-- C65. `frames2ignore` frames are converted at once after a seek (data.cpp:184-203), but the buffers between the conversion
modules are made for 1024 frames: with an ALAC file as this library writes it, `afSetVirtualSampleFormat(…, AF_SAMPFMT_FLOAT, 32)`,
`afSeekFrame(…, 4000)` and `afReadFrames` of one frame write 3711 bytes behind the end of a buffer on the heap. -/
theorem C65_long_packets :
    overflows (rrun alacTrack (ropen (asOpened alacTrack) [5000, 10]) [.setFormat (float32 1), .seek 4000, .read 1]) = true := by
  decide +kernel

end AF.Buffers
