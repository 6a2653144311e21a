import Verif.Proof.Files.Post
import Verif.Model.Files.Simple
import Verif.Model.Files.VOC
import Verif.Model.Files.WAVE
import Verif.Model.Files.AIFF
import Verif.Model.Files.IFF
import Verif.Model.Files.CAF
import Verif.Model.Files.NIST
import Verif.Model.Files.SampleVision
/-!
# The formats reported by the readers, for any file
-/
namespace AF.Files
open AF AF.Setup AF.Spec.Setup AF.Spec.Formats

/-- A format ready to be put into a track. -/
structure Ready (h : Endian) (f : AFmt) : Prop where
  width : LegalWidth f.sampleFormat f.sampleWidth
  coded : Coded h f

theorem Ready.pcm {h : Endian} {f : AFmt} (m : Convert.PCM) (hf : Ready h f) : Ready h { f with pcm := m } := by
  obtain ⟨w, c⟩ := hf
  refine ⟨w, ?_⟩
  cases c with
  | pcm a b => exact .pcm a b
  | sixteen a b c d => exact .sixteen a b c d
  | alac a b c d => exact .alac a b c d

/-- The end of every reader of a simple format: set the sample format to itself, and count. -/
theorem Ready.track {h : Endian} {f : AFmt} (hf : Ready h f) (hn : f.compression = NONE ∨ f.compression = ULAW ∨ f.compression = ALAW)
    (first a d n : Int) :
    WellFormed h { f := (setSampleFormat f f.sampleFormat f.sampleWidth).2, fpp := 1
                   bpp := if f.isUncompressed then pcmBytesPerPacket f else f.channels
                   first := first, afterData := a, dataSize := d, frames := n } := by
  obtain ⟨m, hd, hm⟩ := set_self hf.width
  rw [hm]
  refine wf_of hf.width (hf.pcm m).coded ?_ ?_ hd
  · intro hc
    have hc' : f.compression = NONE := hc
    refine ⟨rfl, ?_⟩
    show (if f.isUncompressed then pcmBytesPerPacket f else f.channels) = _
    rw [if_pos (by simp [AFmt.isUncompressed, hc'])]
    rfl
  · intro hc
    have hc' : f.compression = ULAW ∨ f.compression = ALAW := hc
    refine ⟨rfl, ?_⟩
    show (if f.isUncompressed then pcmBytesPerPacket f else f.channels) = _
    rw [if_neg (by simp [AFmt.isUncompressed, NONE, ULAW, ALAW] at *; omega)]

theorem ready_of {h : Endian} {f : AFmt} (w : LegalWidth f.sampleFormat f.sampleWidth) (c : Coded h f) : Ready h f := ⟨w, c⟩

theorem set_channels {f : AFmt} (a b : Int) : (setSampleFormat f a b).2.channels = f.channels := by
  unfold setSampleFormat
  repeat' split
  all_goals rfl

theorem nextFormat_ready {h : Endian} {f g : AFmt} {e : Nat} (hc : f.compression = NONE) (hb : f.byteOrder = BIG)
    (hg : nextFormat h f e = some g) :
    Ready h g ∧ (g.compression = NONE ∨ g.compression = ULAW ∨ g.compression = ALAW) ∧ g.channels = f.channels := by
  unfold nextFormat at hg
  split at hg <;> first
    | (cases hg
       refine ⟨⟨by simp [LegalWidth, TWOSCOMP, FLOAT, DOUBLE], ?_⟩, by simp [hc], rfl⟩
       first
       | exact .pcm hc (.inl hb)
       | exact .sixteen (by simp) rfl rfl rfl)
    | cases hg

theorem next_post (h : Endian) : Post (nextRead h) fun t => WellFormed h t ∧ t.f.channels ≠ 0 := by
  unfold nextRead
  refine .bind' fun _ => .bind' fun _ => .bind' fun off => .bind' fun len => .bind' fun enc => .bind' fun rate => ?_
  refine .bind (.field _ _ _) fun n hn => .ite (fun _ => .fail) fun h0 => .bind' fun fl => ?_
  dsimp only
  generalize hf : ({ rate := rate, sampleFormat := 0, sampleWidth := 0, byteOrder := BIG, pcm := ⟨0, 0, 0, 0⟩, channels := wrapS 32 n, compression := NONE } : AFmt) = f
  cases hg : nextFormat h f enc with
  | none => exact .fail
  | some g =>
    obtain ⟨h1, h2, h3⟩ := nextFormat_ready (by rw [← hf]) (by rw [← hf]) hg
    have h4 : f.channels = wrapS 32 n := by rw [← hf]
    have h5 := wrap32_ne h0 hn
    generalize wrapS 32 (n : Int) = c at *
    refine .pure ⟨wf_frames (h1.track h2 _ _ _ _), ?_⟩
    rw [total_f, set_channels, h3, h4]
    exact h5

theorem avr_post (h : Endian) : Post (avrRead h) fun t => WellFormed h t ∧ 1 ≤ t.f.channels := by
  unfold avrRead
  refine .bind' fun _ => .bind' fun m => .ite (fun _ => .fail) fun _ => ?_
  refine .bind' fun _ => .bind' fun mono => .bind' fun res => .bind' fun sign => .bind' fun _ => .bind' fun _ => ?_
  refine .bind' fun rate => .bind' fun size => .bind' fun _ => .bind' fun _ => .bind' fun _ => .bind' fun _ => ?_
  refine .ite (fun _ => .fail) fun _ => .ite (fun _ => .fail) fun hr => .ite (fun _ => .fail) fun _ => ?_
  dsimp only
  refine .bind' fun first => ?_
  have hl : LegalWidth (if sign = 0 then UNSIGNED else TWOSCOMP) (res : Int) := by
    unfold LegalWidth UNSIGNED TWOSCOMP
    have : res = 8 ∨ res = 16 := by omega
    split <;> omega
  obtain ⟨m, hd, hm⟩ := set_legal ({ rate := ((rate % 2 ^ 24 : Nat) : Rat), sampleFormat := if sign = 0 then UNSIGNED else TWOSCOMP, sampleWidth := res, byteOrder := BIG, pcm := ⟨0, 0, 0, 0⟩, channels := if mono = 0 then 1 else 2, compression := NONE } : AFmt) hl
  rw [hm]
  refine .pure ⟨wf_of hl (.pcm rfl (.inl rfl)) (fun _ => ⟨rfl, rfl⟩) (fun h => by rcases h with h | h <;> cases h) hd, ?_⟩
  show 1 ≤ (if mono = 0 then (1 : Int) else 2)
  split <;> omega

theorem ircamFormat_ready {h : Endian} {f g : AFmt} {e : Nat} (hc : f.compression = NONE) (hb : f.byteOrder = BIG ∨ f.byteOrder = LITTLE)
    (hg : ircamFormat h f e = some g) :
    Ready h g ∧ (g.compression = NONE ∨ g.compression = ULAW ∨ g.compression = ALAW) ∧ g.channels = f.channels := by
  unfold ircamFormat at hg
  split at hg <;> first
    | (cases hg
       refine ⟨⟨by simp [LegalWidth, TWOSCOMP, FLOAT, DOUBLE], ?_⟩, by simp [hc], rfl⟩
       first
       | exact .pcm hc hb
       | exact .pcm hc (native_order h)
       | exact .sixteen (by simp) rfl rfl rfl)
    | cases hg

theorem ircam_post (F : Float32) (h : Endian) : Post (ircamRead F h) fun t => WellFormed h t ∧ 1 ≤ t.f.channels := by
  unfold ircamRead
  refine .bind' fun _ => .bind' fun m => ?_
  cases ircamMagics.find? (·.1 == m) with
  | none => exact .fail
  | some x =>
    obtain ⟨_, o⟩ := x
    refine .bind' fun rate => .bind' fun n => .bind' fun pack => .ite (fun _ => .fail) fun h0 => ?_
    dsimp only
    generalize hf : ({ rate := F.dec (BitVec.ofNat 32 rate), sampleFormat := 0, sampleWidth := 0, byteOrder := native o, pcm := ⟨0, 0, 0, 0⟩, channels := n, compression := NONE } : AFmt) = f
    cases hg : ircamFormat h f pack with
    | none => exact .fail
    | some g =>
      obtain ⟨h1, h2, h3⟩ := ircamFormat_ready (by rw [← hf]) (by rw [← hf]; exact native_order o) hg
      refine .bind' fun _ => .pure ⟨wf_frames (h1.track h2 _ _ _ _), ?_⟩
      rw [total_f, set_channels, h3, ← hf]
      show (1 : Int) ≤ n
      omega

theorem legal16 : LegalWidth TWOSCOMP 16 := .inl ⟨.inl rfl, by decide, by decide⟩
theorem legal8 : LegalWidth UNSIGNED 8 := .inl ⟨.inr rfl, by decide, by decide⟩

theorem smp_post (h : Endian) : Post (smpRead h) fun t => WellFormed h t.1 ∧ t.1.f.channels = 1 := by
  unfold smpRead
  refine .bind' fun _ => .bind' fun m => .ite (fun _ => .fail) fun _ => ?_
  refine .bind' fun m => .ite (fun _ => .fail) fun _ => ?_
  refine .bind' fun _ => .bind' fun _ => .bind' fun n => .bind' fun first => ?_
  dsimp only
  refine .bind' fun _ => .bind' fun _ => .bind' fun _ => .bind' fun _ => .bind' fun _ => .bind' fun rate => .bind' fun _ => .bind' fun _ => ?_
  obtain ⟨m, hd, hm⟩ := set_legal ({ rate := rate, sampleFormat := 0, sampleWidth := 0, byteOrder := LITTLE, pcm := ⟨0, 0, 0, 0⟩, channels := 1, compression := NONE } : AFmt) (a := TWOSCOMP) (b := 16) legal16
  rw [hm]
  refine .pure ⟨wf_of (t := { f := _, fpp := 1, bpp := _, first := _, afterData := _, dataSize := _, frames := _ }) legal16 (.pcm rfl (.inr rfl)) (fun _ => ⟨rfl, rfl⟩) (fun h => by rcases h with h | h <;> cases h) hd, rfl⟩

/-! ### VOC -/

theorem vocSample_ready {h : Endian} {rate : Rat} {n : Int} {e : Nat} {g : AFmt} (hg : vocSample h rate n e = some g) :
    Ready h g ∧ (g.compression = NONE ∨ g.compression = ULAW ∨ g.compression = ALAW) ∧ g.channels = n ∧
      g.pcm = defaultMapping g.sampleFormat g.sampleWidth := by
  unfold vocSample at hg
  split at hg
  · obtain ⟨m, hd, hm⟩ := set_legal ({ rate := rate, sampleFormat := 0, sampleWidth := 0, byteOrder := LITTLE, pcm := ⟨0, 0, 0, 0⟩, channels := n, compression := NONE } : AFmt) legal8
    dsimp only at hg
    rw [hm] at hg
    cases hg
    exact ⟨⟨legal8, .pcm rfl (.inr rfl)⟩, .inl rfl, rfl, hd⟩
  · obtain ⟨m, hd, hm⟩ := set_legal ({ rate := rate, sampleFormat := 0, sampleWidth := 0, byteOrder := LITTLE, pcm := ⟨0, 0, 0, 0⟩, channels := n, compression := NONE } : AFmt) legal16
    dsimp only at hg
    rw [hm] at hg
    cases hg
    exact ⟨⟨legal16, .pcm rfl (.inr rfl)⟩, .inl rfl, rfl, hd⟩
  · obtain ⟨m, hd, hm⟩ := set_legal ({ rate := rate, sampleFormat := 0, sampleWidth := 0, byteOrder := native h, pcm := ⟨0, 0, 0, 0⟩, channels := n, compression := ALAW } : AFmt) legal16
    dsimp only at hg
    rw [hm] at hg
    cases hg
    exact ⟨⟨legal16, .sixteen (.inr (.inl rfl)) rfl rfl rfl⟩, .inr (.inr rfl), rfl, hd⟩
  · obtain ⟨m, hd, hm⟩ := set_legal ({ rate := rate, sampleFormat := 0, sampleWidth := 0, byteOrder := native h, pcm := ⟨0, 0, 0, 0⟩, channels := n, compression := ULAW } : AFmt) legal16
    dsimp only at hg
    rw [hm] at hg
    cases hg
    exact ⟨⟨legal16, .sixteen (.inl rfl) rfl rfl rfl⟩, .inr (.inl rfl), rfl, hd⟩
  · cases hg

/-- What the walk through the blocks of a VOC file keeps. -/
def VocInv (h : Endian) (s : VocState) : Prop :=
  (∀ t, s.track = some t → WellFormed h t ∧ 1 ≤ t.f.channels) ∧ (∀ e, s.ext = some e → 1 ≤ e.1)

theorem ready_track {h : Endian} {f : AFmt} (hf : Ready h f) (hn : f.compression = NONE ∨ f.compression = ULAW ∨ f.compression = ALAW)
    (hmap : f.pcm = defaultMapping f.sampleFormat f.sampleWidth) (first a d n : Int) :
    WellFormed h { f := f, fpp := 1, bpp := if f.isUncompressed then pcmBytesPerPacket f else f.channels
                   first := first, afterData := a, dataSize := d, frames := n } := by
  have := hf.track hn first a d n
  obtain ⟨m, hd, hm⟩ := set_self hf.width
  rw [hm] at this
  exact ⟨hf.width, hf.coded, this.pcm, this.g711, hmap⟩

theorem voc_round_post (h : Endian) (s : VocState) (hs : VocInv h s) :
    Post (vocRound h s) (Post.Next (VocInv h) fun t : Option Trk => ∀ t', t = some t' → WellFormed h t' ∧ 1 ≤ t'.f.channels) := by
  unfold vocRound
  refine .bind' fun fl => .ite (fun _ => ?_) fun _ => .pure hs.1
  refine .bind' fun hd => ?_
  cases hd with
  | none => exact .pure hs.1
  | some hd =>
    dsimp only
    refine .ite (fun _ => ?_) fun _ => .ite (fun _ => ?_) fun _ => .ite (fun _ => ?_) fun _ => ?_
    · refine .ite (fun _ => .fail) fun _ => .bind' fun dv => .bind' fun codec => .ite (fun _ => .fail) fun _ => ?_
      have fin : ∀ (n : Int) (rate : Rat) (first pos : Nat), 1 ≤ n → VocInv h { s with position := pos, track := some (Trk.computeTotalFileFrames
          { f := (setSampleFormat ({ rate := rate, sampleFormat := 0, sampleWidth := 0, byteOrder := LITTLE, pcm := ⟨0, 0, 0, 0⟩, channels := n, compression := NONE } : AFmt) UNSIGNED 8).2, fpp := 1
            bpp := pcmBytesPerPacket (setSampleFormat ({ rate := rate, sampleFormat := 0, sampleWidth := 0, byteOrder := LITTLE, pcm := ⟨0, 0, 0, 0⟩, channels := n, compression := NONE } : AFmt) UNSIGNED 8).2
            first := first, afterData := 0, dataSize := (fl : Int) - 1 - first, frames := 0 }) } := by
        intro n rate first pos he
        refine ⟨?_, hs.2⟩
        intro t ht
        obtain ⟨m, hd, hm⟩ := set_legal ({ rate := rate, sampleFormat := 0, sampleWidth := 0, byteOrder := LITTLE, pcm := ⟨0, 0, 0, 0⟩, channels := n, compression := NONE } : AFmt) legal8
        rw [hm] at ht
        injection ht with ht
        subst ht
        refine ⟨wf_frames (wf_of (t := { f := _, fpp := 1, bpp := _, first := _, afterData := _, dataSize := _, frames := _ }) legal8 (.pcm rfl (.inr rfl)) (fun _ => ⟨rfl, rfl⟩) (fun h => by rcases h with h | h <;> cases h) hd), ?_⟩
        rw [total_f]
        exact he
      split
      · rename_i e hx
        exact .bindPure (.bind' fun first => .bind' fun _ => .pure (fin _ _ _ _ (hs.2 _ hx)))
      · exact .bindPure (.bind' fun first => .bind' fun _ => .pure (fin _ _ _ _ (Int.le_refl 1)))
      · exact .bind (P := fun _ => False) .undefined fun _ h => h.elim
    · refine .ite (fun _ => .fail) fun _ => .bind' fun dv => .bind' fun _ => .bind' fun st => ?_
      refine .bind' fun _ => .pure ⟨hs.1, ?_⟩
      intro e he
      injection he with he
      subst he
      show 1 ≤ (if st ≠ 0 then (2 : Int) else 1)
      split <;> omega
    · refine .ite (fun _ => .fail) fun _ => .bind' fun rate => .bind' fun _ => .bind' fun n => .bind' fun fmt => ?_
      refine .bind' fun _ => .ite (fun _ => .fail) fun h0 => .bind' fun first => ?_
      cases hg : vocSample h rate n fmt with
      | none => exact .fail
      | some g =>
        obtain ⟨h1, h2, h3, h4⟩ := vocSample_ready hg
        refine .bind' fun _ => .pure ⟨?_, hs.2⟩
        intro t ht
        injection ht with ht
        subst ht
        refine ⟨wf_frames (ready_track h1 h2 h4 _ _ _ _), ?_⟩
        rw [total_f]
        show 1 ≤ g.channels
        omega
    · exact .bind' fun _ => .pure hs

theorem voc_post (h : Endian) (fuel : Nat) : Post (vocRead h fuel) fun t => WellFormed h t ∧ 1 ≤ t.f.channels := by
  unfold vocRead
  refine .bind' fun _ => .bind' fun _ => .bind' fun _ => .bind' fun _ => .bind' fun p => ?_
  refine .bind (P := fun t : Option Trk => ∀ t', t = some t' → WellFormed h t' ∧ 1 ≤ t'.f.channels)
    (.loop (VocInv h) (voc_round_post h) fuel (s := ⟨p, none, none⟩) ⟨fun t ht => (by cases ht), fun e he => (by cases he)⟩) fun t ht => ?_
  cases t with
  | none => exact .undefined
  | some t => exact .pure (ht t rfl)

/-! ### WAVE -/

theorem wavePCM_ready {h : Endian} {f g : AFmt} {bits valid : Int} (hc : f.compression = NONE) (hb : f.byteOrder = LITTLE)
    (hv : 1 ≤ bits → bits ≤ 32 → 1 ≤ valid ∧ valid ≤ 32) (h0 : 0 ≤ bits) (hg : wavePCM f bits valid = some g) :
    Ready h g ∧ g.compression = NONE ∧ g.channels = f.channels := by
  unfold wavePCM at hg
  split at hg
  · cases hg
  · cases hg
    refine ⟨⟨?_, .pcm hc (.inr hb)⟩, hc, rfl⟩
    have := hv (by omega) (by omega)
    unfold LegalWidth UNSIGNED TWOSCOMP
    dsimp only
    split <;> omega

theorem waveFloat_ready {h : Endian} {f : AFmt} (bits : Int) (hc : f.compression = NONE) (hb : f.byteOrder = LITTLE) :
    Ready h (waveFloat f bits) ∧ (waveFloat f bits).compression = NONE ∧ (waveFloat f bits).channels = f.channels := by
  unfold waveFloat
  split
  · exact ⟨⟨.inr (.inr ⟨rfl, rfl⟩), .pcm hc (.inr hb)⟩, hc, rfl⟩
  · exact ⟨⟨.inr (.inl ⟨rfl, rfl⟩), .pcm hc (.inr hb)⟩, hc, rfl⟩

/-- The result of the switch in `parseFormat`. -/
def SwitchOK (h : Endian) (f : AFmt) (r : AFmt × Int × Int) : Prop :=
  Ready h r.1 ∧ r.1.channels = f.channels ∧ (r.1.compression = NONE → r.2.1 = 1) ∧
    (r.1.compression = ULAW ∨ r.1.compression = ALAW → r.2.1 = 1 ∧ r.2.2 = f.channels)

theorem switch_pcm {h : Endian} {f g : AFmt} (hg : Ready h g ∧ g.compression = NONE ∧ g.channels = f.channels) (b : Int) :
    SwitchOK h f (g, 1, b) := by
  refine ⟨hg.1, hg.2.2, fun _ => rfl, fun hc => ?_⟩
  have := hg.2.1
  simp only [NONE, ULAW, ALAW] at *
  omega

theorem switch_g711 {h : Endian} {f : AFmt} {c : Int} (hc : c = ULAW ∨ c = ALAW) : SwitchOK h f (waveG711 h f c, 1, f.channels) := by
  refine ⟨⟨legal16, .sixteen ?_ rfl rfl rfl⟩, rfl, fun _ => rfl, fun _ => ⟨rfl, rfl⟩⟩
  rcases hc with hc | hc
  · exact .inl hc
  · exact .inr (.inl hc)

theorem switch_adpcm {h : Endian} {f : AFmt} {c : Int} (hc : c = IMA ∨ c = MSADPCM) (a b : Int) :
    SwitchOK h f ({ f with sampleWidth := 16, sampleFormat := TWOSCOMP, compression := c, byteOrder := native h }, a, b) := by
  refine ⟨⟨legal16, .sixteen (.inr (.inr hc)) rfl rfl rfl⟩, rfl, fun hn => ?_, fun hn => ?_⟩
  · have hn' : c = NONE := hn
    simp only [NONE, IMA, MSADPCM] at *
    omega
  · have hn' : c = ULAW ∨ c = ALAW := hn
    simp only [ULAW, ALAW, IMA, MSADPCM] at *
    omega

theorem wave_switch {h : Endian} {f : AFmt} (ba : Option Nat) (tg : Nat) (hc : f.compression = NONE) (hb : f.byteOrder = LITTLE) :
    Post (waveSwitch h f ba tg) (SwitchOK h f) := by
  unfold waveSwitch
  refine .ite (fun _ => ?_) fun _ => .ite (fun _ => .pure (switch_g711 (.inl rfl))) fun _ =>
    .ite (fun _ => .pure (switch_g711 (.inr rfl))) fun _ => .ite (fun _ => ?_) fun _ => .ite (fun _ => ?_) fun _ =>
    .ite (fun _ => ?_) fun _ => .ite (fun _ => ?_) fun _ => .fail
  · refine .bind' fun bits => ?_
    cases hg : wavePCM f bits bits with
    | none => exact .fail
    | some g => exact .pure (switch_pcm (wavePCM_ready hc hb (by omega) (by omega) hg) _)
  · exact .bind' fun bits => .pure (switch_pcm (waveFloat_ready _ hc hb) _)
  · refine .bind' fun _ => .bind' fun _ => .bind' fun spb => .bind' fun nc => .ite (fun _ => .undefined) fun _ => .bind' fun _ => ?_
    cases ba with
    | none => exact .undefined
    | some b => exact .pure (switch_adpcm (.inr rfl) _ _)
  · refine .bind' fun _ => .bind' fun _ => .bind' fun spb => ?_
    cases ba with
    | none => exact .undefined
    | some b => exact .pure (switch_adpcm (.inl rfl) _ _)
  · refine .bind' fun bits => .bind' fun _ => .bind' fun rs => .bind' fun _ => .bind' fun guid => ?_
    refine .ite (fun _ => .undefined) fun _ => .ite (fun _ => ?_) fun _ => .ite (fun _ => .pure (switch_pcm (waveFloat_ready _ hc hb) _)) fun _ =>
      .ite (fun _ => .pure (switch_g711 (.inr rfl))) fun _ => .ite (fun _ => .pure (switch_g711 (.inl rfl))) fun _ => .fail
    dsimp only
    generalize hv : (if rs ≤ bits ∧ (rs + 7) / 8 = (bits + 7) / 8 then rs else bits) = v
    cases hg : wavePCM f bits v with
    | none => exact .fail
    | some g =>
      refine .pure (switch_pcm (wavePCM_ready hc hb ?_ (by omega) hg) _)
      intro h1 h2
      split at hv <;> omega

/-- What the walk through the chunks of a WAVE file keeps. -/
def WaveInv (h : Endian) (s : WaveRead) : Prop := s.hasFormat → WellFormed h s.t ∧ 1 ≤ s.t.f.channels

theorem wave_format (h : Endian) (s : WaveRead) : Post (waveParseFormat h s) (WaveInv h) := by
  unfold waveParseFormat
  refine .bind' fun tg => .bind' fun n => .bind' fun rate => .bind' fun _ => .bind' fun ba => .ite (fun _ => .fail) fun h0 => ?_
  cases tg with
  | none => exact .undefined
  | some tg =>
  cases rate with
  | none => exact .undefined
  | some rate =>
    dsimp only
    refine .bind (wave_switch ba tg rfl rfl) fun r hr => ?_
    obtain ⟨g, fpp, bpp⟩ := r
    obtain ⟨h1, h2, h3, h4⟩ := hr
    obtain ⟨m, hd, hm⟩ := set_self h1.width
    dsimp only at h1 h2 h3 h4 hm ⊢
    rw [hm]
    refine .pure fun _ => ⟨wf_of h1.width (h1.pcm m).coded (fun hc => ⟨h3 hc, ?_⟩) (fun hc => ⟨(h4 hc).1, ?_⟩) hd, ?_⟩
    · have hc' : g.compression = NONE := hc
      show (if g.isUncompressed then pcmBytesPerPacket g else bpp) = _
      rw [if_pos (by simp [AFmt.isUncompressed, hc'])]
      rfl
    · have hc' : g.compression = ULAW ∨ g.compression = ALAW := hc
      show (if g.isUncompressed then pcmBytesPerPacket g else bpp) = g.channels
      rw [if_neg (by simp [AFmt.isUncompressed, NONE, ULAW, ALAW] at *; omega), (h4 hc).2, h2]
    · show 1 ≤ g.channels
      rw [h2]
      show (1 : Int) ≤ n
      omega

theorem WaveInv.same {h : Endian} {s s' : WaveRead} (hs : WaveInv h s) (hf : s'.hasFormat = s.hasFormat)
    (ht : s'.t.f = s.t.f) (h1 : s'.t.fpp = s.t.fpp) (h2 : s'.t.bpp = s.t.bpp) : WaveInv h s' := by
  intro h'
  obtain ⟨w, c⟩ := hs (hf ▸ h')
  refine ⟨⟨ht ▸ w.width, ht ▸ w.coded, ?_, ?_, ht ▸ w.mapping⟩, ht ▸ c⟩
  · rw [ht, h1, h2]; exact w.pcm
  · rw [ht, h1, h2]; exact w.g711

theorem wave_chunk (h : Endian) (fuel : Nat) (id : List Byte) (size : Nat) (s : WaveRead) (hs : WaveInv h s) :
    Post (waveChunk h fuel id size s) (WaveInv h) := by
  unfold waveChunk
  refine .ite (fun _ => wave_format h s) fun _ => .ite (fun _ => .ite (fun _ => .fail) fun _ => ?_) fun _ => .ite (fun _ => .bind' fun _ => .pure hs) fun _ =>
    .ite (fun _ => ?_) fun _ => .ite (fun _ => ?_) fun _ => .ite (fun _ => ?_) fun _ => .ite (fun _ => .bind' fun _ => .pure hs) fun _ =>
    .ite (fun _ => ?_) fun _ => .pure hs
  · unfold waveParseData
    exact .bind' fun _ => .pure (hs.same rfl rfl rfl rfl)
  · unfold waveParseFact
    exact .bind' fun _ => .pure (hs.same rfl rfl rfl rfl)
  · unfold waveParseCues
    exact .bind' fun _ => .bind' fun _ => .pure (hs.same rfl rfl rfl rfl)
  · unfold waveParseList
    refine .bind' fun _ => .bind' fun _ => .ite (fun _ => .bind' fun _ => .pure (hs.same rfl rfl rfl rfl)) fun _ =>
      .ite (fun _ => .bind' fun _ => .pure (hs.same rfl rfl rfl rfl)) fun _ => .bind' fun _ => .pure hs
  · unfold wavePlayList
    exact .bind' fun _ => .bind' fun _ => .pure hs

theorem wave_post (h : Endian) (fuel : Nat) : Post (waveRead h fuel) fun s => WellFormed h s.t ∧ 1 ≤ s.t.f.channels := by
  unfold waveRead
  refine .bind' fun _ => .bind' fun _ => .bind' fun size => .bind' fun _ => ?_
  refine .bind (P := WaveInv h) (.loop (WaveInv h) ?_ fuel fun hf => by cases hf) fun s hs => ?_
  · intro s hs
    unfold waveRound
    refine .ite (fun _ => .bind' fun id => .bind' fun cs => .bind (wave_chunk h fuel id cs s hs) fun s hs => ?_) fun _ => .pure hs
    exact .bind' fun _ => .pure (hs.same rfl rfl rfl rfl)
  · refine .ite (fun _ => .fail) fun hf => ?_
    have hw := hs (by simp at hf; exact hf.1)
    refine .ite (fun _ => .ite (fun _ => .pure ⟨wf_frames hw.1, ?_⟩) fun _ => .fail) fun _ => .pure hw
    rw [total_f]
    exact hw.2

/-! ### AIFF, IFF -/

theorem form_round {σ : Type} {I : σ → Prop} {chunk : List Byte → Nat → σ → Rd σ} (h : Endian) (size : Nat)
    (hc : ∀ id n s, I s → Post (chunk id n s) I) (s : Nat × σ) (hs : I s.2) :
    Post (formRound chunk h size s) (Post.Next (fun s => I s.2) I) := by
  unfold formRound
  exact .ite (fun _ => .bind' fun id => .bind' fun n => .bind (hc id n s.2 hs) fun x hx => .bind' fun _ => .pure hx) fun _ => .pure hs

def AiffInv (h : Endian) (s : AiffRead) : Prop := s.hasCOMM → WellFormed h s.t ∧ 1 ≤ s.t.f.channels

theorem AiffInv.same {h : Endian} {s s' : AiffRead} (hs : AiffInv h s) (hf : s'.hasCOMM = s.hasCOMM)
    (ht : s'.t.f = s.t.f) (h1 : s'.t.fpp = s.t.fpp) (h2 : s'.t.bpp = s.t.bpp) : AiffInv h s' := by
  intro h'
  obtain ⟨w, c⟩ := hs (hf ▸ h')
  refine ⟨⟨ht ▸ w.width, ht ▸ w.coded, ?_, ?_, ht ▸ w.mapping⟩, ht ▸ c⟩
  · rw [ht, h1, h2]; exact w.pcm
  · rw [ht, h1, h2]; exact w.g711

/-- The format found from a compression id: all but the width of integer samples is known. -/
theorem aiffFormat_coded {h : Endian} {f g : AFmt} {n fpp bpp n' : Int} {id : List Byte} (hc : f.compression = NONE) (hb : f.byteOrder = BIG)
    (hs : f.sampleFormat = TWOSCOMP) (hg : aiffFormat h f n id = some (g, fpp, bpp, n')) :
    (g.sampleFormat = FLOAT → g.sampleWidth = 32) ∧ (g.sampleFormat = DOUBLE → g.sampleWidth = 64) ∧ Coded h g ∧
    g.channels = f.channels ∧ (g.compression = NONE → fpp = 1) ∧ (g.compression = ULAW ∨ g.compression = ALAW → fpp = 1 ∧ bpp = g.channels) := by
  unfold aiffFormat at hg
  have pcm : ∀ g' : AFmt, g'.compression = NONE → (g'.compression = ULAW ∨ g'.compression = ALAW → (1 : Int) = 1 ∧ (0 : Int) = g'.channels) := by
    intro g' h1 h2
    simp only [NONE, ULAW, ALAW] at *
    omega
  have nf : ∀ w : Int, f.sampleFormat = FLOAT → w = 32 := by
    intro w h1
    rw [hs] at h1
    cases h1
  have nd : ∀ w : Int, f.sampleFormat = DOUBLE → w = 64 := by
    intro w h1
    rw [hs] at h1
    cases h1
  split at hg
  · cases hg
    exact ⟨nf _, nd _, .pcm hc (.inl hb), rfl, fun _ => rfl, pcm f hc⟩
  split at hg
  · cases hg
    exact ⟨nf _, nd _, .pcm hc (.inl hb), rfl, fun _ => rfl, pcm { f with sampleWidth := 24 } hc⟩
  split at hg
  · cases hg
    exact ⟨nf _, nd _, .pcm hc (.inl hb), rfl, fun _ => rfl, pcm { f with sampleWidth := 32 } hc⟩
  split at hg
  · cases hg
    exact ⟨nf _, nd _, .sixteen (.inl rfl) hs rfl rfl, rfl, fun _ => rfl, fun _ => ⟨rfl, rfl⟩⟩
  split at hg
  · cases hg
    exact ⟨nf _, nd _, .sixteen (.inr (.inl rfl)) hs rfl rfl, rfl, fun _ => rfl, fun _ => ⟨rfl, rfl⟩⟩
  split at hg
  · cases hg
    exact ⟨fun _ => rfl, (by simp [FLOAT, DOUBLE]), .pcm hc (.inl hb), rfl, fun _ => rfl, pcm { f with sampleFormat := FLOAT, sampleWidth := 32 } hc⟩
  split at hg
  · cases hg
    exact ⟨(by simp [FLOAT, DOUBLE]), fun _ => rfl, .pcm hc (.inl hb), rfl, fun _ => rfl, pcm { f with sampleFormat := DOUBLE, sampleWidth := 64 } hc⟩
  split at hg
  · cases hg
    exact ⟨nf _, nd _, .pcm hc (.inr rfl), rfl, fun _ => rfl, pcm { f with byteOrder := LITTLE } hc⟩
  split at hg
  · cases hg
    refine ⟨nf _, nd _, .sixteen (.inr (.inr (.inl rfl))) hs rfl rfl, rfl, fun h => ?_, fun h => ?_⟩
    · cases h
    · rcases h with h | h <;> cases h
  · cases hg

theorem aiff_comm (rnd : Rat → Convert.Dbl) (h : Endian) (c : Bool) (s : AiffRead) : Post (aiffParseCOMM rnd h c s) (AiffInv h) := by
  unfold aiffParseCOMM
  refine .bind' fun n => .ite (fun _ => .fail) fun h0 => .bind' fun fr => .bind' fun w => .bind' fun rate => .ite (fun _ => .undefined) fun _ => .bind' fun id => ?_
  dsimp only
  generalize hf : ({ rate := dblValue (Extended.decode rnd (Extended.byteAt rate)), sampleFormat := TWOSCOMP, sampleWidth := w, byteOrder := BIG, pcm := ⟨0, 0, 0, 0⟩, channels := n, compression := NONE } : AFmt) = f
  cases hg : aiffFormat h f fr id with
  | none => exact .fail
  | some r =>
    obtain ⟨g, fpp, bpp, fr'⟩ := r
    obtain ⟨w1, w2, hc, hn, h1, h2⟩ := aiffFormat_coded (by rw [← hf]) (by rw [← hf]) (by rw [← hf]) hg
    dsimp only
    refine .ite (fun _ => .fail) fun hok => ?_
    cases hset : setSampleFormat g g.sampleFormat g.sampleWidth with
    | mk ok g' =>
    rw [hset] at hok
    have hok' : ok = true := by simpa using hok
    subst hok'
    have hl := set_ok hset w1 w2
    obtain ⟨m, hd, hm⟩ := set_self hl
    rw [hset] at hm
    injection hm with _ hm
    subst hm
    have hr : Ready h g := ⟨hl, hc⟩
    refine .pure fun _ => ⟨wf_of hl (hr.pcm m).coded (fun hc => ⟨h1 hc, ?_⟩) (fun hc => ⟨(h2 hc).1, ?_⟩) hd, ?_⟩
    · have hc' : g.compression = NONE := hc
      show (if g.isUncompressed then pcmBytesPerPacket g else bpp) = _
      rw [if_pos (by simp [AFmt.isUncompressed, hc'])]
      rfl
    · have hc' : g.compression = ULAW ∨ g.compression = ALAW := hc
      show (if g.isUncompressed then pcmBytesPerPacket g else bpp) = g.channels
      rw [if_neg (by simp [AFmt.isUncompressed, NONE, ULAW, ALAW] at *; omega), (h2 hc).2]
    · show 1 ≤ g.channels
      rw [hn, ← hf]
      show (1 : Int) ≤ n
      omega

theorem aiff_chunk (rnd : Rat → Convert.Dbl) (h : Endian) (c : Bool) (id : List Byte) (n : Nat) (s : AiffRead) (hs : AiffInv h s) :
    Post (aiffChunk rnd h c id n s) (AiffInv h) := by
  unfold aiffChunk
  refine .ite (fun _ => aiff_comm rnd h c s) fun _ => .ite (fun _ => .bind' fun _ => .pure hs) fun _ => .ite (fun _ => ?_) fun _ =>
    .ite (fun _ => ?_) fun _ => .ite (fun _ => ?_) fun _ => ?_
  · unfold aiffParseINST
    iterate 13 refine .bind' fun _ => ?_
    exact .pure (hs.same rfl rfl rfl rfl)
  · unfold aiffParseMARK
    exact .bind' fun _ => .bind' fun _ => .pure (hs.same rfl rfl rfl rfl)
  · unfold aiffParseAESD
    exact .bind' fun _ => .pure (hs.same rfl rfl rfl rfl)
  · cases aiffMiscType id with
    | some type => exact .bind' fun _ => .pure (hs.same rfl rfl rfl rfl)
    | none =>
      refine .ite (fun _ => .ite (fun _ => .fail) fun _ => ?_) fun _ => .pure hs
      unfold aiffParseSSND
      exact .bind' fun _ => .bind' fun _ => .bind' fun _ => .pure (hs.same rfl rfl rfl rfl)

theorem aiff_post (rnd : Rat → Convert.Dbl) (h : Endian) (fuel : Nat) :
    Post (aiffRead rnd h fuel) fun s => WellFormed h s.t ∧ 1 ≤ s.t.f.channels := by
  unfold aiffRead
  refine .bind' fun _ => .bind' fun _ => .bind' fun size => .bind' fun ft => .ite (fun _ => .fail) fun _ => ?_
  refine .bind (P := AiffInv h) (.loop (fun s => AiffInv h s.2) (form_round h size (aiff_chunk rnd h _)) fuel fun hf => by cases hf) fun s hs => ?_
  refine .ite (fun _ => .undefined) fun hf => .pure (hs (by simpa using hf))

def IffInv (h : Endian) (s : IffRead) : Prop := s.hasVHDR → WellFormed h s.t ∧ s.t.f.channels = 1

theorem iff_chunk (h : Endian) (id : List Byte) (n : Nat) (s : IffRead) (hs : IffInv h s) : Post (iffChunk h id n s) (IffInv h) := by
  unfold iffChunk
  refine .ite (fun _ => ?_) fun _ => .ite (fun _ => ?_) fun _ => ?_
  · unfold iffParseVHDR
    refine .bind' fun _ => .bind' fun _ => .bind' fun _ => .bind' fun rate => .bind' fun _ => .bind' fun _ => .bind' fun _ => ?_
    dsimp only
    have l8 : LegalWidth TWOSCOMP 8 := .inl ⟨.inl rfl, by decide, by decide⟩
    obtain ⟨m, hd, hm⟩ := set_legal ({ rate := rate, sampleFormat := TWOSCOMP, sampleWidth := 8, byteOrder := BIG, pcm := ⟨0, 0, 0, 0⟩, channels := 1, compression := NONE } : AFmt) l8
    rw [hm]
    exact .pure fun _ => ⟨wf_of (t := { f := _, fpp := 1, bpp := _, first := _, afterData := _, dataSize := _, frames := _ }) l8 (.pcm rfl (.inl rfl)) (fun _ => ⟨rfl, rfl⟩) (fun h => by rcases h with h | h <;> cases h) hd, rfl⟩
  · unfold iffParseBODY
    exact .bind' fun _ => .pure fun hf => ⟨⟨(hs hf).1.width, (hs hf).1.coded, (hs hf).1.pcm, (hs hf).1.g711, (hs hf).1.mapping⟩, (hs hf).2⟩
  · cases iffMiscType id with
    | some type => exact .bind' fun _ => .pure hs
    | none => exact .pure hs

theorem iff_post (h : Endian) (fuel : Nat) : Post (iffRead h fuel) fun s => WellFormed h s.t ∧ s.t.f.channels = 1 := by
  unfold iffRead
  refine .bind' fun _ => .bind' fun _ => .bind' fun size => .bind' fun ft => .ite (fun _ => .fail) fun _ => ?_
  refine .bind (P := IffInv h) (.loop (fun s => IffInv h s.2) (form_round h size (iff_chunk h)) fuel fun hf => by cases hf) fun s hs => ?_
  exact .ite (fun _ => .undefined) fun hf => .pure (hs (by simpa using hf))

/-! ### CAF -/

def CafInv (h : Endian) (s : CafRead) : Prop := s.hasDesc → WellFormed h s.t ∧ s.t.f.channels ≠ 0

theorem u32_post (h : Endian) : Post (Rd.u32 h) fun x => x < 2 ^ 32 := by
  unfold Rd.u32
  refine .bind (.field? _ _ _) fun a ha => ?_
  cases a with
  | none => exact .fail
  | some x => exact .pure (ha x rfl)

theorem cafFormat_inv {h : Endian} {id : List Byte} {flags fpp bits : Nat} {f : AFmt} {s s' : CafRead} (hn : f.channels ≠ 0)
    (hw : f.sampleWidth = wrapS 32 bits) (hs : cafFormat h id flags fpp bits f s = some s') : CafInv h s' := by
  intro _
  unfold cafFormat at hs
  dsimp only at hs
  split at hs
  · split at hs
    · cases hs
    · rename_i hb
      generalize hfmt : (if flags % 2 = 1 then (if bits = 32 then FLOAT else DOUBLE) else TWOSCOMP : Int) = fmt at hs
      generalize hord : (if flags / 2 % 2 = 1 then LITTLE else BIG : Int) = ord at hs
      have ho : ord = BIG ∨ ord = LITTLE := by
        rw [← hord]; split
        · exact .inr rfl
        · exact .inl rfl
      have w32 : wrapS 32 ((32 : Nat) : Int) = 32 := by decide +kernel
      have w64 : wrapS 32 ((64 : Nat) : Int) = 64 := by decide +kernel
      have h1 : fmt = FLOAT → f.sampleWidth = 32 := by
        intro e
        rw [← hfmt] at e
        split at e
        · split at e
          · rename_i hb; rw [hw, hb, w32]
          · cases e
        · cases e
      have h2 : fmt = DOUBLE → f.sampleWidth = 64 := by
        intro e
        rw [← hfmt] at e
        split at e
        · split at e
          · cases e
          · rename_i hp hb'
            have : bits = 64 := by omega
            rw [hw, this, w64]
        · cases e
      cases hset : setSampleFormat { f with compression := NONE, sampleFormat := fmt, byteOrder := ord } fmt f.sampleWidth with
      | mk ok g =>
        rw [hset] at hs
        cases ok with
        | false => cases hs
        | true =>
          injection hs with hs
          have hl := set_ok hset h1 h2
          obtain ⟨m, hd, hm⟩ := set_legal { f with compression := NONE, sampleFormat := fmt, byteOrder := ord } hl
          rw [hset] at hm
          injection hm with _ hm
          subst hs
          subst hm
          exact ⟨wf_of (t := { f := _, fpp := 1, bpp := _, first := _, afterData := _, dataSize := _, frames := _ }) hl (.pcm rfl ho) (fun _ => ⟨rfl, rfl⟩) (fun h => by rcases h with h | h <;> cases h) hd, hn⟩
  split at hs
  · injection hs with hs
    subst hs
    obtain ⟨m, hd, hm⟩ := set_legal { f with compression := ULAW, byteOrder := native h } legal16
    rw [hm]
    exact ⟨wf_of (t := { f := _, fpp := 1, bpp := _, first := _, afterData := _, dataSize := _, frames := _ }) legal16 (.sixteen (.inl rfl) rfl rfl rfl) (fun h => by cases h) (fun h => ⟨rfl, rfl⟩) hd, hn⟩
  split at hs
  · injection hs with hs
    subst hs
    obtain ⟨m, hd, hm⟩ := set_legal { f with compression := ALAW, byteOrder := native h } legal16
    rw [hm]
    exact ⟨wf_of (t := { f := _, fpp := 1, bpp := _, first := _, afterData := _, dataSize := _, frames := _ }) legal16 (.sixteen (.inr (.inl rfl)) rfl rfl rfl) (fun h => by cases h) (fun h => ⟨rfl, rfl⟩) hd, hn⟩
  split at hs
  · injection hs with hs
    subst hs
    obtain ⟨m, hd, hm⟩ := set_legal { f with compression := IMA, byteOrder := native h } legal16
    rw [hm]
    exact ⟨wf_of (t := { f := _, fpp := 64, bpp := _, first := _, afterData := _, dataSize := _, frames := _ }) legal16 (.sixteen (.inr (.inr (.inl rfl))) rfl rfl rfl) (fun h => by cases h) (fun h => by rcases h with h | h <;> cases h) hd, hn⟩
  split at hs
  · have key : ∀ w : Int, (w = 16 ∨ w = 20 ∨ w = 24 ∨ w = 32) → some { s with hasDesc := true, t := { s.t with
        f := (setSampleFormat { f with compression := ALAC, byteOrder := native h, sampleWidth := w } TWOSCOMP w).2,
        fpp := fpp, bpp := 0 } } = some s' → WellFormed h s'.t ∧ s'.t.f.channels ≠ 0 := by
      intro w hw hs
      injection hs with hs
      subst hs
      have hl : LegalWidth TWOSCOMP w := .inl ⟨.inl rfl, by omega, by omega⟩
      obtain ⟨m, hd, hm⟩ := set_legal { f with compression := ALAC, byteOrder := native h, sampleWidth := w } hl
      rw [hm]
      exact ⟨wf_of (t := { f := _, fpp := fpp, bpp := _, first := _, afterData := _, dataSize := _, frames := _ }) hl (.alac rfl rfl hw rfl) (fun h => by cases h) (fun h => by rcases h with h | h <;> cases h) hd, hn⟩
    by_cases f1 : flags = 1
    · rw [if_pos f1] at hs; exact key 16 (by omega) hs
    rw [if_neg f1] at hs
    by_cases f2 : flags = 2
    · rw [if_pos f2] at hs; exact key 20 (by omega) hs
    rw [if_neg f2] at hs
    by_cases f3 : flags = 3
    · rw [if_pos f3] at hs; exact key 24 (by omega) hs
    rw [if_neg f3] at hs
    by_cases f4 : flags = 4
    · rw [if_pos f4] at hs; exact key 32 (by omega) hs
    rw [if_neg f4] at hs
    cases hs
  · cases hs

theorem caf_desc (F : Float64) (h : Endian) (s : CafRead) : Post (cafParseDesc F h s) (CafInv h) := by
  unfold cafParseDesc
  refine .bind' fun rate => ?_
  cases rate with
  | none => exact .fail
  | some rate =>
    refine .bind' fun id => .bind' fun flags => .bind' fun _ => .bind' fun fpp => .bind (u32_post h) fun n hn => .bind' fun bits => .ite (fun _ => .fail) fun h0 => ?_
    dsimp only
    have h5 := wrap32_ne h0 hn
    generalize hf : ({ rate := F.dec (BitVec.ofNat 64 rate), sampleFormat := 0, sampleWidth := wrapS 32 bits, byteOrder := 0, pcm := ⟨0, 0, 0, 0⟩, channels := wrapS 32 n, compression := 0 } : AFmt) = f
    have h4 : f.channels = wrapS 32 n := by rw [← hf]
    have h6 : f.sampleWidth = wrapS 32 bits := by rw [← hf]
    cases hg : cafFormat h id flags fpp bits f s with
    | none => exact .fail
    | some s' => exact .pure (cafFormat_inv (h4 ▸ h5) h6 hg)

theorem caf_chunk_post (F : Float64) (h : Endian) (id : List Byte) (n : Int) (s : CafRead) (hs : CafInv h s) :
    Post (cafChunk F h id n s) (CafInv h) := by
  unfold cafChunk
  refine .ite (fun _ => caf_desc F h s) fun _ => .ite (fun _ => ?_) fun _ => .ite (fun _ => ?_) fun _ => .ite (fun _ => ?_) fun _ => .pure hs
  · unfold cafParseData
    refine .bind' fun _ => .bind' fun _ => .ite (fun _ => .undefined) fun _ => .pure fun hf => ⟨?_, ?_⟩
    · have hw := (hs hf).1
      exact wf_frames ⟨hw.width, hw.coded, hw.pcm, hw.g711, hw.mapping⟩
    · rw [total_f]
      exact (hs hf).2
  · unfold cafParseTable
    refine .ite (fun _ => .fail) fun _ => .bind' fun _ => .bind' fun _ => .bind' fun _ => .bind' fun _ => .ite (fun _ => .pure hs) fun _ => ?_
    refine .bind' fun _ => .ite (fun _ => .fail) fun _ => .pure fun hf => ?_
    have hw := (hs hf).1
    exact ⟨⟨hw.width, hw.coded, hw.pcm, hw.g711, hw.mapping⟩, (hs hf).2⟩
  · unfold cafParseCookie
    exact .ite (fun _ => .undefined) fun _ => .bind' fun _ => .ite (fun _ => .fail) fun _ => .pure hs

theorem caf_post (F : Float64) (h : Endian) (fuel : Nat) :
    Post (cafRead F h fuel) fun s => WellFormed h s.t ∧ s.t.f.channels ≠ 0 := by
  unfold cafRead
  refine .bind' fun _ => .bind' fun n => ?_
  refine .bind (P := CafInv h) (.loop (fun s : Int × CafRead => CafInv h s.2) ?_ fuel fun hf => by cases hf) fun s hs => ?_
  · intro s hs
    unfold cafRound
    refine .ite (fun _ => .bind' fun id => .bind' fun l => ?_) fun _ => .pure hs
    refine .bind (caf_chunk_post F h id _ s.2 hs) fun x hx => ?_
    exact .ite (fun _ => .undefined) fun _ => .ite (fun _ => .pure hx) fun _ => .bind' fun _ => .pure hx
  · exact .ite (fun _ => .undefined) fun hf => .pure (hs (by simpa using hf))

/-! ### NIST -/

/-- What is known of the format while the header of a NIST file is searched; `o`: the byte order has been looked for. -/
def NistInv (nb n : Int) (o : Bool) (f : AFmt) : Prop :=
  f.sampleFormat = TWOSCOMP ∧ f.channels = n ∧
  (f.compression = NONE ∧ nb ≠ 1 ∧ (f.sampleWidth = nb * 8 ∨ 1 ≤ f.sampleWidth ∧ (f.sampleWidth + 7).tdiv 8 = nb) ∧
      (o = true → f.byteOrder = BIG ∨ f.byteOrder = LITTLE ∨ nb ≤ 1) ∨
    (f.compression = ULAW ∨ f.compression = ALAW) ∧ f.sampleWidth = 16)

theorem nist_post (h : Endian) : Post (nistRead h) fun t =>
    (LegalWidth t.f.sampleFormat t.f.sampleWidth ∧ t.f.pcm = defaultMapping t.f.sampleFormat t.f.sampleWidth) ∧ 1 ≤ t.f.channels ∧ t.fpp = 1 ∧
    (t.f.compression = NONE ∧ (t.f.byteOrder = BIG ∨ t.f.byteOrder = LITTLE) ∧ t.bpp = pcmBytesPerPacket t.f ∨
     (t.f.compression = ULAW ∨ t.f.compression = ALAW) ∧ t.f.sampleFormat = TWOSCOMP ∧ t.f.sampleWidth = 16) := by
  unfold nistRead
  refine .bind' fun _ => .bind' fun header => .ite (fun _ => .fail) fun _ => .ite (fun _ => .fail) fun _ => ?_
  dsimp only
  refine .bind' fun r => ?_
  cases r with
  | none => exact .fail
  | some v =>
  refine .bind' fun n => .ite (fun _ => .fail) fun hn => .bind' fun r => ?_
  cases r with
  | none => exact .fail
  | some w =>
  refine .bind' fun nb => .ite (fun _ => .undefined) fun _ => ?_
  generalize hf : ({ rate := 0, sampleFormat := TWOSCOMP, sampleWidth := if nb = 1 then 16 else nb * 8, byteOrder := 0, pcm := ⟨0, 0, 0, 0⟩, channels := n, compression := if nb = 1 then ULAW else NONE } : AFmt) = f
  generalize hbpp : (if nb = 1 then n else pcmBytesPerPacket f) = bpp
  have hf0 : NistInv nb n false f := by
    rw [← hf]
    refine ⟨rfl, rfl, ?_⟩
    by_cases h1 : nb = 1
    · rw [if_pos h1, if_pos h1]
      exact .inr ⟨.inl rfl, rfl⟩
    · rw [if_neg h1, if_neg h1]
      exact .inl ⟨rfl, h1, .inl rfl, fun h => by cases h⟩
  refine .bind' fun coding => ?_
  refine .bind (P := fun r : Option AFmt => ∀ g, r = some g → NistInv nb n false g) ?_ fun r hr => ?_
  · cases coding with
    | none => exact .pure fun g hg => by cases hg; exact hf0
    | some _ =>
      refine .bind' fun s => .ite (fun _ => .pure fun g hg => by cases hg; exact hf0) fun _ =>
        .ite (fun _ => .pure fun g hg => by cases hg; exact ⟨rfl, rfl, .inr ⟨.inl rfl, rfl⟩⟩) fun _ =>
        .ite (fun _ => .pure fun g hg => by cases hg; exact ⟨rfl, rfl, .inr ⟨.inr rfl, rfl⟩⟩) fun _ => .pure fun g hg => by cases hg
  cases r with
  | none => exact .fail
  | some f1 =>
  have h1 := hr f1 rfl
  refine .bind' fun order => ?_
  refine .bind (P := fun r : Option AFmt => ∀ g, r = some g → NistInv nb n true g) ?_ fun r hr => ?_
  · have upd : ∀ o : Int, o = BIG ∨ o = LITTLE → NistInv nb n true { f1 with byteOrder := o } := by
      intro o ho
      refine ⟨h1.1, h1.2.1, ?_⟩
      rcases h1.2.2 with ⟨a, b, c, _⟩ | h2
      · exact .inl ⟨a, b, c, fun _ => ho.elim .inl fun h => .inr (.inl h)⟩
      · exact .inr h2
    cases order with
    | none =>
      refine .pure fun g hg => ?_
      split at hg
      · cases hg
      · rename_i hno
        cases hg
        refine ⟨h1.1, h1.2.1, ?_⟩
        rcases h1.2.2 with ⟨a, b, c, _⟩ | h2
        · refine .inl ⟨a, b, c, fun _ => .inr (.inr ?_)⟩
          have : ¬ f1.sampleWidth > 8 := fun h => hno ⟨a, h⟩
          rcases c with c | ⟨c1, c2⟩
          · omega
          · rw [Int.tdiv_eq_ediv_of_nonneg (by omega)] at c2
            omega
        · exact .inr h2
    | some _ =>
      refine .bind' fun k => .ite (fun _ => .bind' fun s => .pure fun g hg => ?_) fun _ => .pure fun g hg => ?_
      · cases hg
        refine upd _ ?_
        split
        · exact .inr rfl
        · exact .inl rfl
      · cases hg
        exact upd _ (native_order h)
  cases r with
  | none => exact .fail
  | some f2 =>
  have h2 := hr f2 rfl
  refine .bind' fun bits => ?_
  refine .bind (P := fun r : Option AFmt => ∀ g, r = some g → NistInv nb n true g) ?_ fun r hr => ?_
  · cases bits with
    | none => exact .pure fun g hg => by cases hg; exact h2
    | some _ =>
      refine .bind' fun k => .ite (fun _ => .pure fun g hg => by cases hg) fun hk => .ite (fun hc => .pure fun g hg => ?_) fun _ => .pure fun g hg => by cases hg; exact h2
      cases hg
      refine ⟨h2.1, h2.2.1, ?_⟩
      rcases h2.2.2 with ⟨a, b, c, d⟩ | h3
      · exact .inl ⟨a, b, .inr ⟨by show 1 ≤ k; omega, hc.2⟩, d⟩
      · have := hc.1
        have h4 := h3.1
        simp only [NONE, ULAW, ALAW] at *
        omega
  cases r with
  | none => exact .fail
  | some f3 =>
  have h3 := hr f3 rfl
  refine .bind' fun r => ?_
  cases r with
  | none => exact .fail
  | some v2 =>
  refine .bind' fun rate => .ite (fun _ => .fail) fun _ => .bind' fun r => ?_
  cases r with
  | none => exact .fail
  | some v3 =>
  refine .bind' fun count => .ite (fun _ => .fail) fun hok => .bind' fun fl => .pure ?_
  cases hset : setSampleFormat { f3 with rate := (rate : Rat) } f3.sampleFormat f3.sampleWidth with
  | mk ok g =>
  rw [hset] at hok
  have hok' : ok = true := by simpa using hok
  subst hok'
  have hs3 : f3.sampleFormat = 401 := h3.1
  have hl := set_ok hset (fun h => by rw [hs3] at h; cases h) (fun h => by rw [hs3] at h; cases h)
  obtain ⟨m, hd, hm⟩ := set_legal { f3 with rate := (rate : Rat) } hl
  rw [hset] at hm
  injection hm with _ hm
  subst hm
  have hw : 1 ≤ f3.sampleWidth ∧ f3.sampleWidth ≤ 32 := by
    rcases hl with hl | hl | hl
    · exact hl.2
    · rw [hs3] at hl; cases hl.1
    · rw [hs3] at hl; cases hl.1
  refine ⟨⟨hl, hd⟩, ?_, rfl, ?_⟩
  · show 1 ≤ f3.channels
    rw [h3.2.1]
    omega
  · rcases h3.2.2 with ⟨a, b, c, d⟩ | h4
    · have hnb : 2 ≤ nb ∧ (f3.sampleWidth + 7).tdiv 8 = nb := by
        rw [Int.tdiv_eq_ediv_of_nonneg (by omega)] at c ⊢
        omega
      refine .inl ⟨a, ?_, ?_⟩
      · rcases d rfl with d | d | d
        · exact .inl d
        · exact .inr d
        · omega
      · show bpp = (f3.sampleWidth + 7).tdiv 8 * f3.channels
        rw [← hbpp, if_neg b, hnb.2, h3.2.1, ← hf]
        unfold pcmBytesPerPacket
        dsimp only
        rw [if_neg b, Int.tdiv_eq_ediv_of_nonneg (by omega)]
        congr 1
        omega
    · exact .inr ⟨h4.1, h3.1, h4.2⟩

end AF.Files
