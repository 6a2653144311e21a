import Verif.Proof.Setup
/-!
# What formats a track has once its setup was completed
-/
namespace AF.Setup
open AF

theorem copy_format {s : Setup} {tr : TrackSetup} {f g : AFmt} {fmt : FileFormat} {n : Nat} {b : Bool} {s1 s2 : Setup}
    (h : (s1, some (filesetupCopy (setF s tr g) fmt n b)) = (s2, some (completed s tr f))) : g = f := by
  rw [copy_eq (s := setF s tr g) (tr := { tr with f := g }) rfl] at h
  simp only [Prod.mk.injEq, Option.some.injEq, completed, Setup.mk.injEq, List.cons.injEq, TrackSetup.mk.injEq] at h
  exact h.2.2.2.2.2.1.1.2.1

theorem copy_format_self {s : Setup} {tr : TrackSetup} {f : AFmt} {fmt : FileFormat} {n : Nat} {b : Bool} {s1 s2 : Setup}
    (ht : s.tracks = [tr])
    (h : (s1, some (filesetupCopy s fmt n b)) = (s2, some (completed s tr f))) : tr.f = f := by
  rw [← setF_self ht] at h
  exact copy_format h

theorem set_sampleFormat {f : AFmt} {w : Int} {a : Int} (ha : a = 401 ∨ a = 402) (h : 1 ≤ w ∧ w ≤ 32) :
    (setSampleFormat f a w).2.sampleFormat = a ∧ (setSampleFormat f a w).2.sampleWidth = w ∧
    (setSampleFormat f a w).2.byteOrder = f.byteOrder ∧ (setSampleFormat f a w).2.compression = f.compression ∧
    (setSampleFormat f a w).2.channels = f.channels ∧ (setSampleFormat f a w).2.rate = f.rate := by
  unfold setSampleFormat
  simp only [UNSIGNED, TWOSCOMP, FLOAT, DOUBLE]
  rw [if_pos (by omega), if_neg (by omega)]
  rcases ha with rfl | rfl <;> simp

/-! ## What a format is when its calls were not made -/

/-- Defaults hold until the call that changes them is made. -/
structure Flags (tr : TrackSetup) : Prop where
  sample : tr.sampleFormatSet = false → tr.f.sampleFormat = 401 ∧ tr.f.sampleWidth = 16
  width : tr.sampleWidthSet = tr.sampleFormatSet
  channels : tr.channelCountSet = false → tr.f.channels = 2
  compression : tr.compressionSet = false → tr.f.compression = 0
  order : ∀ h, tr.byteOrderSet = false → tr.f.byteOrder = native h ∨ tr.f.byteOrder = native (if h = .big then .little else .big)

theorem Flags.of_same {x y : TrackSetup} (hx : Flags x) (h1 : y.sampleFormatSet = x.sampleFormatSet)
    (h2 : y.sampleWidthSet = x.sampleWidthSet) (h3 : y.channelCountSet = x.channelCountSet)
    (h4 : y.compressionSet = x.compressionSet) (h5 : y.byteOrderSet = x.byteOrderSet)
    (h6 : y.f.sampleFormat = x.f.sampleFormat) (h7 : y.f.sampleWidth = x.f.sampleWidth)
    (h8 : y.f.channels = x.f.channels) (h9 : y.f.compression = x.f.compression) (h10 : y.f.byteOrder = x.f.byteOrder) :
    Flags y :=
  ⟨by rw [h1, h6, h7]; exact hx.sample, by rw [h1, h2]; exact hx.width, by rw [h3, h8]; exact hx.channels,
   by rw [h4, h9]; exact hx.compression, by rw [h5, h10]; exact hx.order⟩

def FlagsS (s : Setup) : Prop := ∀ tr ∈ s.tracks, Flags tr

theorem flags_onTrack {s : Setup} (hs : FlagsS s) (t : Int) (g : TrackSetup → TrackSetup)
    (hg : ∀ x, Flags x → Flags (g x)) : FlagsS (s.onTrack t g) := by
  unfold FlagsS Setup.onTrack at *
  dsimp only
  revert hs
  generalize s.tracks = l
  intro hs
  induction l with
  | nil => simpa [Meta.updFirst] using hs
  | cons a l ih =>
    have hl : ∀ tr ∈ l, Flags tr := fun tr h => hs tr (List.mem_cons_of_mem _ h)
    unfold Meta.updFirst
    split
    · intro tr htr
      rcases List.mem_cons.1 htr with rfl | h
      · exact hg _ (hs a (List.mem_cons_self ..))
      · exact hl _ h
    · intro tr htr
      rcases List.mem_cons.1 htr with rfl | h
      · exact hs _ (List.mem_cons_self ..)
      · exact ih hl _ h

theorem newSetup_flags (h : Endian) : FlagsS (newSetup h) := by
  intro tr htr
  have : tr = newTrack h 0 := by simpa [newSetup] using htr
  subst this
  refine ⟨fun _ => ⟨rfl, rfl⟩, rfl, fun _ => rfl, fun _ => rfl, ?_⟩
  intro h' _
  show native h = _ ∨ native h = _
  cases h <;> cases h' <;> simp

theorem set_rest (f : AFmt) (a b : Int) : (setSampleFormat f a b).2.channels = f.channels ∧
    (setSampleFormat f a b).2.compression = f.compression ∧ (setSampleFormat f a b).2.byteOrder = f.byteOrder ∧
    (setSampleFormat f a b).2.rate = f.rate := by
  unfold setSampleFormat
  dsimp only
  repeat' split
  all_goals exact ⟨rfl, rfl, rfl, rfl⟩

theorem step_flags {s : Setup} (hs : FlagsS s) (op : Op) : FlagsS (step s op) := by
  cases op with
  | fileFormat f =>
    simp only [step, initFileFormat]
    repeat' split
    all_goals exact hs
  | channels t n =>
    refine flags_onTrack hs t _ fun x hx => ?_
    dsimp only
    split
    · exact hx
    · exact ⟨hx.sample, hx.width, fun h => (Bool.noConfusion h), hx.compression, hx.order⟩
  | sampleFormat t f w =>
    refine flags_onTrack hs t _ fun x hx => ?_
    obtain ⟨h1, h2, h3, h4⟩ := set_rest x.f f w
    exact ⟨fun h => (Bool.noConfusion h), rfl, by dsimp only; rw [h1]; exact hx.channels,
      by dsimp only; rw [h2]; exact hx.compression, by dsimp only; rw [h3]; exact hx.order⟩
  | byteOrder t o =>
    refine flags_onTrack hs t _ fun x hx => ?_
    dsimp only
    split
    · exact hx
    · exact ⟨hx.sample, hx.width, hx.channels, hx.compression, fun _ h => (Bool.noConfusion h)⟩
  | rate t r =>
    refine flags_onTrack hs t _ fun x hx => ?_
    dsimp only
    split
    · exact hx
    · exact hx.of_same rfl rfl rfl rfl rfl rfl rfl rfl rfl rfl
  | dataOffset t o =>
    refine flags_onTrack hs t _ fun x hx => ?_
    split
    · exact hx
    · exact hx.of_same rfl rfl rfl rfl rfl rfl rfl rfl rfl rfl
  | frameCount t o =>
    refine flags_onTrack hs t _ fun x hx => ?_
    split
    · exact hx
    · exact hx.of_same rfl rfl rfl rfl rfl rfl rfl rfl rfl rfl
  | compression t c =>
    refine flags_onTrack hs t _ fun x hx => ?_
    dsimp only
    split
    · exact hx
    · exact ⟨hx.sample, hx.width, hx.channels, fun h => (Bool.noConfusion h), hx.order⟩
  | pcmMapping t p => exact flags_onTrack hs t _ fun x hx => hx.of_same rfl rfl rfl rfl rfl rfl rfl rfl rfl rfl
  | aes t on => exact flags_onTrack hs t _ fun x hx => hx.of_same rfl rfl rfl rfl rfl rfl rfl rfl rfl rfl
  | markIDs t ids => exact flags_onTrack hs t _ fun x hx => hx.of_same rfl rfl rfl rfl rfl rfl rfl rfl rfl rfl
  | markName t m name => exact flags_onTrack hs t _ fun x hx => hx.of_same rfl rfl rfl rfl rfl rfl rfl rfl rfl rfl
  | markComment t m c => exact flags_onTrack hs t _ fun x hx => hx.of_same rfl rfl rfl rfl rfl rfl rfl rfl rfl rfl
  | instIDs ids => simp only [step, initInstIDs]; split <;> exact hs
  | loopIDs i ids => simp only [step, initLoopIDs]; split <;> exact hs
  | miscIDs ids => exact hs
  | miscType m t => exact hs
  | miscSize m t => exact hs

theorem run_flags {ops : List Op} : ∀ {s : Setup}, FlagsS s → FlagsS (run s ops) := by
  induction ops with
  | nil => intro s hs; exact hs
  | cons op ops ih => intro s hs; exact ih (step_flags hs op)

/-! ## The formats -/

/-- NeXT/Sun -/
theorem next_accepted {h : Endian} {s s' : Setup} {tr : TrackSetup} {f : AFmt} (ht : s.tracks = [tr])
    (hid : tr.id = DEFAULT_TRACK) (hl : Legal tr.f) (hfmt : s.fileFormat = .next)
    (hc : complete h s = (s', some (completed s tr f))) :
    f.sampleFormat ≠ 402 ∧ (f.sampleFormat = 401 → f.sampleWidth ∈ [8, 16, 24, 32]) ∧ f.compression ∈ [0, 502, 503] ∧
    (f.compression = 0 → f.byteOrder = 501) ∧ f.channels = tr.f.channels ∧ f.rate = tr.f.rate ∧
    f.compression = tr.f.compression := by
  have hw : ∀ f, s.withFormat f = setF s tr f := withFormat_one ht hid
  have hw2 : ∀ f g, (setF s tr f).withFormat g = setF s tr g :=
    fun f g => withFormat_one (s := setF s tr f) (tr := { tr with f := f }) rfl hid g
  unfold complete at hc
  rw [hfmt] at hc
  dsimp only at hc
  unfold completeNeXT at hc
  rw [theTrack_one ht hid] at hc
  dsimp only at hc
  rw [hw, ] at hc
  simp only [hw2, ite_setF] at hc
  generalize hg : (if tr.f.isUnsigned = true then (setSampleFormat tr.f TWOSCOMP tr.f.sampleWidth).2 else tr.f) = g at hc
  have hg' : g.sampleFormat ≠ 402 ∧ g.channels = tr.f.channels ∧ g.rate = tr.f.rate ∧
      g.compression = tr.f.compression := by
    subst hg
    by_cases hu : tr.f.isUnsigned = true
    · rw [if_pos hu]
      have := set_sampleFormat (f := tr.f) (w := tr.f.sampleWidth) (a := TWOSCOMP) (Or.inl rfl) (by
        have := hl.sample
        simp [AFmt.isUnsigned] at hu
        simp only [UNSIGNED] at hu
        omega)
      obtain ⟨h1, h2, h3, h4, h5, h6⟩ := this
      exact ⟨by rw [h1]; decide, h5, h6, h4⟩
    · rw [if_neg hu]
      exact ⟨by simp [AFmt.isUnsigned] at hu; exact hu, rfl, rfl, rfl⟩
  split at hc
  · simp at hc
  rename_i c1
  split at hc
  · simp at hc
  rename_i c2
  split at hc
  · simp at hc
  by_cases hz : g.isUncompressed = true
  · simp only [hz, if_true] at hc
    split at hc
    · simp at hc
    have := copy_format hc
    subst this
    simp only [AFmt.isSigned, AFmt.isUncompressed, TWOSCOMP, NONE, ULAW, ALAW, BIG, decide_eq_true_eq] at *
    refine ⟨hg'.1, ?_, by simp [hz], by simp, hg'.2.1, hg'.2.2.1, hg'.2.2.2⟩
    intro h; simp; omega
  · simp only [hz] at hc
    simp only [Bool.false_eq_true, if_false] at hc
    split at hc
    · simp at hc
    have := copy_format hc
    subst this
    simp only [AFmt.isSigned, AFmt.isUncompressed, TWOSCOMP, NONE, ULAW, ALAW, BIG, decide_eq_true_eq] at *
    refine ⟨hg'.1, ?_, ?_, fun h => absurd h hz, hg'.2.1, hg'.2.2.1, hg'.2.2.2⟩
    · intro h; simp; omega
    · simp; omega

/-- AVR -/
theorem avr_accepted {h : Endian} {s s' : Setup} {tr : TrackSetup} {f : AFmt} (ht : s.tracks = [tr])
    (hid : tr.id = DEFAULT_TRACK) (hfmt : s.fileFormat = .avr)
    (hc : complete h s = (s', some (completed s tr f))) :
    f.sampleFormat ∈ [401, 402] ∧ f.sampleWidth ∈ [8, 16] ∧ f.compression = 0 ∧ f.byteOrder = 501 ∧
    f.channels = tr.f.channels ∧ f.rate = tr.f.rate := by
  have hw : ∀ f, s.withFormat f = setF s tr f := withFormat_one ht hid
  unfold complete at hc
  rw [hfmt] at hc
  dsimp only at hc
  unfold completeAVR at hc
  rw [theTrack_one ht hid] at hc
  dsimp only at hc
  rw [hw] at hc
  split at hc
  · simp at hc
  split at hc
  · simp at hc
  split at hc
  · simp at hc
  split at hc
  · simp at hc
  split at hc
  · simp at hc
  have := copy_format hc
  subst this
  simp only [TWOSCOMP, NONE, UNSIGNED, BIG] at *
  simp
  omega

/-- IRCAM -/
theorem ircam_accepted {h : Endian} {s s' : Setup} {tr : TrackSetup} {f : AFmt} (ht : s.tracks = [tr])
    (hid : tr.id = DEFAULT_TRACK) (hF : Flags tr) (hfmt : s.fileFormat = .ircam)
    (hc : complete h s = (s', some (completed s tr f))) : f = tr.f ∧ f.sampleFormat ≠ 402 ∧
      (f.sampleFormat = 401 → f.sampleWidth ∈ [8, 16, 24, 32]) ∧ f.channels ∈ [1, 2, 4] ∧
      f.compression ∈ [0, 502, 503] := by
  unfold complete at hc
  rw [hfmt] at hc
  dsimp only at hc
  unfold completeIRCAM at hc
  rw [theTrack_one ht hid] at hc
  dsimp only at hc
  split at hc
  · simp at hc
  split at hc
  · simp at hc
  split at hc
  · simp at hc
  split at hc
  · simp at hc
  split at hc
  · simp at hc
  split at hc
  · simp at hc
  have := copy_format_self ht hc
  subst this
  have h1 := hF.sample
  have h2 := hF.channels
  have h3 := hF.compression
  simp only [AFmt.isSigned, AFmt.isUnsigned, UNSIGNED, TWOSCOMP, NONE, ULAW, ALAW, decide_eq_true_eq] at *
  have e : ∀ b : Bool, b = false ∨ b = true := by intro b; cases b <;> simp
  refine ⟨trivial, ?_, ?_, ?_, ?_⟩
  · rcases e tr.sampleFormatSet with hs | hs
    · have := h1 hs; omega
    · grind
  · intro h
    simp
    rcases e tr.sampleFormatSet with hs | hs
    · have := h1 hs; omega
    · grind
  · simp
    rcases e tr.channelCountSet with hs | hs
    · have := h2 hs; omega
    · grind
  · simp
    rcases e tr.compressionSet with hs | hs
    · have := h3 hs; omega
    · grind

/-- VOC -/
theorem voc_accepted {h : Endian} {s s' : Setup} {tr : TrackSetup} {f : AFmt} (ht : s.tracks = [tr])
    (hid : tr.id = DEFAULT_TRACK) (hF : Flags tr) (hfmt : s.fileFormat = .voc)
    (hc : complete h s = (s', some (completed s tr f))) :
      (f.sampleFormat = 401 ∧ f.sampleWidth = 16 ∨ f.sampleFormat = 402 ∧ f.sampleWidth = 8) ∧
      f.compression ∈ [0, 502, 503] ∧ (f.compression = 0 → f.byteOrder = 502) := by
  have hw : ∀ f, s.withFormat f = setF s tr f := withFormat_one ht hid
  have hw2 : ∀ f g, (setF s tr f).withFormat g = setF s tr g :=
    fun f g => withFormat_one (s := setF s tr f) (tr := { tr with f := f }) rfl hid g
  unfold complete at hc
  rw [hfmt] at hc
  dsimp only at hc
  unfold completeVOC at hc
  rw [theTrack_one ht hid] at hc
  dsimp only at hc
  rw [hw] at hc
  simp only [hw2, ite_setF] at hc
  generalize hg : (if tr.sampleFormatSet = true then tr.f else (setSampleFormat tr.f TWOSCOMP tr.f.sampleWidth).2) = g at hc
  split at hc
  · simp at hc
  rename_i c1
  split at hc
  · simp at hc
  rename_i c2
  have hg' : g.sampleFormat = 401 ∧ g.sampleWidth = 16 ∨ g.sampleFormat = 402 ∧ g.sampleWidth = 8 := by
    subst hg
    simp only [AFmt.isSigned, AFmt.isUnsigned, AFmt.isInteger, UNSIGNED, TWOSCOMP, decide_eq_true_eq] at c1 c2 ⊢
    rcases (by cases tr.sampleFormatSet <;> simp : tr.sampleFormatSet = false ∨ tr.sampleFormatSet = true) with hs | hs
    · have := hF.sample hs
      have := set_sampleFormat (f := tr.f) (w := tr.f.sampleWidth) (a := 401) (Or.inl rfl) (by omega)
      simp only [hs, Bool.false_eq_true, if_false]
      omega
    · simp only [hs, if_true]
      simp only [hs, true_and, Bool.not_eq_true', decide_eq_false_iff_not] at c1 c2
      omega
  split at hc
  · simp at hc
  rename_i c3
  by_cases hz : g.isUncompressed = true
  · simp only [hz, if_true] at hc
    split at hc
    · simp at hc
    split at hc
    · simp at hc
    have := copy_format hc
    subst this
    simp only [AFmt.isUncompressed, NONE, decide_eq_true_eq] at hz
    refine ⟨hg', by simp [hz], by simp [LITTLE]⟩
  · simp only [hz] at hc
    simp only [Bool.false_eq_true, if_false] at hc
    split at hc
    · simp at hc
    rename_i c4
    split at hc
    · simp at hc
    have := copy_format hc
    subst this
    simp only [AFmt.isUncompressed, NONE, decide_eq_true_eq, ULAW, ALAW] at hz c4
    exact ⟨hg', by simp; omega, fun h => absurd h hz⟩

/-- WAVE -/
theorem wave_accepted {h : Endian} {s s' : Setup} {tr : TrackSetup} {f : AFmt} (ht : s.tracks = [tr])
    (hid : tr.id = DEFAULT_TRACK) (hF : Flags tr) (hl : Legal tr.f) (hfmt : s.fileFormat = .wave)
    (hc : complete h s = (s', some (completed s tr f))) :
      f.compression ∈ [0, 502, 503, 519, 523] ∧
      (f.compression = 0 → f.byteOrder = 502 ∧ ((f.sampleFormat = 401 ∧ 8 < f.sampleWidth ∧ f.sampleWidth ≤ 32) ∨
        (f.sampleFormat = 402 ∧ 1 ≤ f.sampleWidth ∧ f.sampleWidth ≤ 8) ∨ (f.sampleFormat = 403 ∧ f.sampleWidth = 32) ∨
        (f.sampleFormat = 404 ∧ f.sampleWidth = 64))) ∧
      (s.miscellaneousSet = true → ∀ m ∈ s.miscellaneous, m.type ∈ [201, 202, 203, 211, 212, 210]) := by
  have hw : ∀ f, s.withFormat f = setF s tr f := withFormat_one ht hid
  have hw2 : ∀ f g, (setF s tr f).withFormat g = setF s tr g :=
    fun f g => withFormat_one (s := setF s tr f) (tr := { tr with f := f }) rfl hid g
  unfold complete at hc
  rw [hfmt] at hc
  dsimp only at hc
  unfold completeWAVE at hc
  rw [theTrack_one ht hid] at hc
  dsimp only at hc
  generalize hq : (if (!tr.f.isUncompressed) = true then _ else _ : Option AFmt) = q at hc
  cases q with
  | none => simp at hc
  | some g =>
    dsimp only at hc
    rw [hw] at hc
    simp only [hw2, ite_setF] at hc
    generalize hG : (if g.isUncompressed = true then _ else g : AFmt) = G at hc
    split at hc
    · simp at hc
    rename_i c1
    split at hc
    · simp at hc
    split at hc
    · simp at hc
    split at hc
    · simp at hc
    split at hc
    · simp at hc
    rename_i c5
    have := copy_format hc
    subst this
    have hgc : g.compression = tr.f.compression ∧ (tr.f.compression = 0 →
        ((g.sampleFormat = 401 ∧ 8 < g.sampleWidth ∧ g.sampleWidth ≤ 32) ∨
        (g.sampleFormat = 402 ∧ 1 ≤ g.sampleWidth ∧ g.sampleWidth ≤ 8) ∨ (g.sampleFormat = 403 ∧ g.sampleWidth = 32) ∨
        (g.sampleFormat = 404 ∧ g.sampleWidth = 64))) := by
      have hls := hl.sample
      have hfs := hF.sample
      have hfw := hF.width
      have r := set_rest tr.f
      have e1 := fun a w (ha : a = 401 ∨ a = 402) (hw : 1 ≤ w ∧ w ≤ 32) => set_sampleFormat (f := tr.f) (w := w) (a := a) ha hw
      simp only [AFmt.isUncompressed, NONE, UNSIGNED, TWOSCOMP, FLOAT, DOUBLE] at hq
      have d1 : (setSampleFormat tr.f 403 32).2.sampleFormat = 403 ∧ (setSampleFormat tr.f 403 32).2.sampleWidth = 32 := by
        simp [setSampleFormat, UNSIGNED, TWOSCOMP, FLOAT, DOUBLE]
      have d2 : (setSampleFormat tr.f 404 64).2.sampleFormat = 404 ∧ (setSampleFormat tr.f 404 64).2.sampleWidth = 64 := by
        simp [setSampleFormat, UNSIGNED, TWOSCOMP, FLOAT, DOUBLE]
      rcases (by cases tr.sampleFormatSet <;> simp : tr.sampleFormatSet = false ∨ tr.sampleFormatSet = true) with hs | hs
      · have := hfs hs
        rw [hs] at hfw hq
        rw [hfw] at hq
        by_cases hz : tr.f.compression = 0
        · simp only [hz, decide_true, Bool.not_true, Bool.false_eq_true, if_false, Bool.not_false, if_true] at hq
          cases hq
          exact ⟨hz.symm, fun _ => Or.inl ⟨rfl, by dsimp only; decide, by dsimp only; decide⟩⟩
        · simp only [hz, decide_false, Bool.not_false, if_true] at hq
          cases hq
          exact ⟨(r _ _).2.1, fun h => absurd h hz⟩
      · rw [hs] at hfw hq
        rw [hfw] at hq
        by_cases hz : tr.f.compression = 0
        · simp only [hz, decide_true, Bool.not_true, Bool.false_eq_true, if_false, if_true, true_and] at hq
          refine ⟨?_, fun _ => ?_⟩
          · repeat' split at hq
            all_goals first | (cases hq; first | rfl | exact (r _ _).2.1) | cases hq
          · have e2 := e1 401 tr.f.sampleWidth (Or.inl rfl)
            have e3 := e1 402 tr.f.sampleWidth (Or.inr rfl)
            repeat' split at hq
            all_goals first | (cases hq; grind) | cases hq
        · simp only [hz, decide_false, Bool.not_false, if_true, Bool.not_true, Bool.false_eq_true, if_false] at hq
          cases hq
          exact ⟨(r _ _).2.1, fun h => absurd h hz⟩
    obtain ⟨k1, k2⟩ := hgc
    simp only [AFmt.isUncompressed, NONE, LITTLE, ULAW, ALAW, IMA, MSADPCM, decide_eq_true_eq] at *
    have hGc : G.compression = g.compression := by subst hG; split <;> rfl
    refine ⟨?_, ?_, ?_⟩
    · rw [hGc]; simp; omega
    · intro hz
      have hz' : g.compression = 0 := by rw [← hGc]; exact hz
      rw [if_pos hz'] at hG
      subst hG
      exact ⟨rfl, k2 (by rw [← k1]; exact hz')⟩
    · intro hms m hm
      simp only [List.any_eq_true, not_and, not_exists, Bool.not_eq_true', List.contains_eq_mem, decide_eq_false_iff_not,
        Decidable.not_not] at c5
      exact c5 hms m hm

theorem ite_none {c : Prop} [Decidable c] {x s' : Setup} {y : Setup} {b : Setup × Option Setup}
    (h : (if c then (x, none) else b) = (s', some y)) : ¬ c ∧ b = (s', some y) := by
  by_cases hc : c
  · rw [if_pos hc] at h; simp at h
  · rw [if_neg hc] at h; exact ⟨hc, h⟩

/-- AIFF and AIFF-C -/
theorem aiff_accepted {h : Endian} {s s' : Setup} {tr : TrackSetup} {f : AFmt} (ht : s.tracks = [tr])
    (hid : tr.id = DEFAULT_TRACK) (hF : Flags tr) (hl : Legal tr.f) (hfmt : s.fileFormat = .aiff ∨ s.fileFormat = .aiffc)
    (hc : complete h s = (s', some (completed s tr f))) :
      f.compression ∈ [0, 502, 503, 519] ∧
      (f.compression = 0 → f.byteOrder = 501 ∧ ((f.sampleFormat = 401 ∧ 1 ≤ f.sampleWidth ∧ f.sampleWidth ≤ 32) ∨
        (f.sampleFormat = 403 ∧ f.sampleWidth = 32) ∨ (f.sampleFormat = 404 ∧ f.sampleWidth = 64))) ∧
      (s.fileFormat = .aiff → f.compression = 0 ∧ f.sampleFormat = 401) ∧
      (s.miscellaneousSet = true → ∀ m ∈ s.miscellaneous, m.type ∈ [201, 202, 203, 204, 205, 206]) := by
  have hw : ∀ f, s.withFormat f = setF s tr f := withFormat_one ht hid
  have hw2 : ∀ f g, (setF s tr f).withFormat g = setF s tr g :=
    fun f g => withFormat_one (s := setF s tr f) (tr := { tr with f := f }) rfl hid g
  have hc' : completeAIFF s = (s', some (completed s tr f)) := by
    unfold complete at hc
    rcases hfmt with e | e <;> rw [e] at hc <;> exact hc
  clear hc
  unfold completeAIFF at hc'
  rw [theTrack_one ht hid] at hc'
  dsimp only at hc'
  generalize hg : (if tr.sampleFormatSet = true then tr.f else _ : AFmt) = g at hc'
  rw [hw] at hc'
  simp only [hw2, ite_setF] at hc'
  obtain ⟨c1, hc'⟩ := ite_none hc'
  obtain ⟨c2, hc'⟩ := ite_none hc'
  obtain ⟨c3, hc'⟩ := ite_none hc'
  obtain ⟨c4, hc'⟩ := ite_none hc'
  obtain ⟨c5, hc'⟩ := ite_none hc'
  replace hc' := (ite_none hc').2
  generalize hG : (if g.isUncompressed = true then _ else g : AFmt) = G at hc'
  replace hc' := (ite_none hc').2
  replace hc' := (ite_none hc').2
  obtain ⟨c6, hc'⟩ := ite_none hc'
  have := copy_format hc'
  subst this
  have hgf : (g.sampleFormat = 401 ∧ 1 ≤ g.sampleWidth ∧ g.sampleWidth ≤ 32 ∨
      g.sampleFormat = 403 ∧ g.sampleWidth = 32 ∨ g.sampleFormat = 404 ∧ g.sampleWidth = 64) ∧
      (s.fileFormat = .aiff → g.sampleFormat = 401) := by
    have hls := hl.sample
    have hfs := hF.sample
    simp only [UNSIGNED, TWOSCOMP] at c1 c2
    rcases (by cases tr.sampleFormatSet <;> simp : tr.sampleFormatSet = false ∨ tr.sampleFormatSet = true) with hs | hs
    · have h1 := hfs hs
      rw [hs, if_neg (by decide)] at hg
      have := set_sampleFormat (f := tr.f) (w := tr.f.sampleWidth) (a := TWOSCOMP) (Or.inl rfl) (by omega)
      rw [hg] at this
      exact ⟨Or.inl ⟨this.1, by omega⟩, fun _ => this.1⟩
    · rw [hs, if_pos rfl] at hg
      subst hg
      simp only [hs, true_and] at c1 c2
      refine ⟨by omega, fun hf => ?_⟩
      simp only [hf, true_and, Decidable.not_not] at c2
      exact c2
  have hGc : G.compression = g.compression := by subst hG; split <;> rfl
  have hGs : G.sampleFormat = g.sampleFormat := by subst hG; split <;> rfl
  simp only [AFmt.isUncompressed, NONE, BIG, ULAW, ALAW, IMA, decide_eq_true_eq] at *
  refine ⟨?_, ?_, ?_, ?_⟩
  · rw [hGc]; simp; omega
  · intro hz
    have hz' : g.compression = 0 := by rw [← hGc]; exact hz
    rw [if_pos hz'] at hG
    subst hG
    exact ⟨rfl, hgf.1⟩
  · intro hf
    rw [hGc, hGs]
    exact ⟨by simpa [hf] using c4, hgf.2 hf⟩
  · intro hms m hm
    simp only [List.any_eq_true, not_and, not_exists, Bool.not_eq_true', List.contains_eq_mem, decide_eq_false_iff_not,
      Decidable.not_not] at c6
    exact c6 hms m hm

/-! ## Names of markers -/

/-- Names are cut to 255 bytes when they are set. -/
def NamesS (s : Setup) : Prop := ∀ tr ∈ s.tracks, ∀ m ∈ tr.markers, m.name.length ≤ 255

theorem updFirst_cases {α : Type} {p : α → Bool} {f : α → α} {l : List α} {a : α} (h : a ∈ Meta.updFirst p f l) :
    a ∈ l ∨ ∃ b ∈ l, a = f b := by
  induction l with
  | nil => cases h
  | cons x l ih =>
    unfold Meta.updFirst at h
    split at h
    · rcases List.mem_cons.1 h with rfl | h
      · exact Or.inr ⟨x, by simp, rfl⟩
      · exact Or.inl (List.mem_cons_of_mem _ h)
    · rcases List.mem_cons.1 h with rfl | h
      · exact Or.inl (by simp)
      · rcases ih h with h | ⟨b, hb, e⟩
        · exact Or.inl (List.mem_cons_of_mem _ h)
        · exact Or.inr ⟨b, List.mem_cons_of_mem _ hb, e⟩

theorem names_onTrack {s : Setup} (hs : NamesS s) (t : Int) (g : TrackSetup → TrackSetup)
    (hg : ∀ x, (∀ m ∈ x.markers, m.name.length ≤ 255) → ∀ m ∈ (g x).markers, m.name.length ≤ 255) : NamesS (s.onTrack t g) := by
  intro tr htr
  unfold Setup.onTrack at htr
  rcases updFirst_cases htr with h | ⟨y, hy, rfl⟩
  · exact hs tr h
  · exact hg y (hs y hy)

theorem step_names {s : Setup} (hs : NamesS s) (op : Op) : NamesS (step s op) := by
  cases op with
  | fileFormat f =>
    simp only [step, initFileFormat]
    repeat' split
    all_goals exact hs
  | markIDs t ids =>
    refine names_onTrack hs t _ fun x hx m hm => ?_
    obtain ⟨a, -, rfl⟩ := List.mem_map.1 hm
    exact Nat.zero_le _
  | markName t m name =>
    refine names_onTrack hs t _ fun x hx m hm => ?_
    rcases updFirst_cases hm with h | ⟨y, hy, rfl⟩
    · exact hx m h
    · dsimp only; rw [List.length_take]; omega
  | markComment t m c =>
    refine names_onTrack hs t _ fun x hx m hm => ?_
    rcases updFirst_cases hm with h | ⟨y, hy, rfl⟩
    · exact hx m h
    · exact hx y hy
  | instIDs ids => simp only [step, initInstIDs]; split <;> exact hs
  | loopIDs i ids => simp only [step, initLoopIDs]; split <;> exact hs
  | miscIDs ids => exact hs
  | miscType m t => exact hs
  | miscSize m t => exact hs
  | pcmMapping t p => exact names_onTrack hs t _ fun x hx => hx
  | aes t on => exact names_onTrack hs t _ fun x hx => hx
  | channels t n | sampleFormat t f w | byteOrder t o | rate t r | dataOffset t o | frameCount t o | compression t c =>
    refine names_onTrack hs t _ fun x hx => ?_
    try dsimp only
    repeat' split
    all_goals exact hx

theorem run_names {ops : List Op} : ∀ {s : Setup}, NamesS s → NamesS (run s ops) := by
  induction ops with
  | nil => intro s hs; exact hs
  | cons op ops ih => intro s hs; exact ih (step_names hs op)

theorem newSetup_names (h : Endian) : NamesS (newSetup h) := by
  intro tr htr
  have : tr = newTrack h 0 := by simpa [newSetup] using htr
  subst this
  intro m hm
  obtain ⟨a, -, rfl⟩ := List.mem_map.1 hm
  exact Nat.zero_le _

/-- CAF -/
theorem caf_accepted {h : Endian} {s s' : Setup} {tr : TrackSetup} {f : AFmt} (ht : s.tracks = [tr])
    (hid : tr.id = DEFAULT_TRACK) (hF : Flags tr) (hfmt : s.fileFormat = .caf)
    (hc : complete h s = (s', some (completed s tr f))) :
    f.sampleFormat ≠ 402 ∧ f.compression ∈ [0, 502, 503, 519, 540] ∧ f.channels = tr.f.channels ∧ f.rate = tr.f.rate ∧
      f.compression = tr.f.compression ∧ f.sampleFormat = tr.f.sampleFormat ∧ f.sampleWidth = tr.f.sampleWidth ∧
      (f.byteOrder = tr.f.byteOrder ∨ f.byteOrder = native h) := by
  have hw : ∀ f, s.withFormat f = setF s tr f := withFormat_one ht hid
  have hw2 : ∀ f g, (setF s tr f).withFormat g = setF s tr g :=
    fun f g => withFormat_one (s := setF s tr f) (tr := { tr with f := f }) rfl hid g
  unfold complete at hc
  rw [hfmt] at hc
  dsimp only at hc
  unfold completeCAF at hc
  rw [theTrack_one ht hid] at hc
  dsimp only at hc
  obtain ⟨c0, hc⟩ := ite_none hc
  rw [hw] at hc
  simp only [hw2, ite_setF] at hc
  generalize hg : (if tr.sampleFormatSet = true then tr.f else (setSampleFormat tr.f TWOSCOMP tr.f.sampleWidth).2) = g at hc
  obtain ⟨c1, hc⟩ := ite_none hc
  generalize hG : (if (!tr.byteOrderSet) = true then { g with byteOrder := native h } else g) = G at hc
  obtain ⟨c2, hc⟩ := ite_none hc
  obtain ⟨c3, hc⟩ := ite_none hc
  have := copy_format hc
  subst this
  have hg' : g.sampleFormat ≠ 402 ∧ g.channels = tr.f.channels ∧ g.rate = tr.f.rate ∧ g.compression = tr.f.compression ∧
      g.sampleFormat = tr.f.sampleFormat ∧ g.sampleWidth = tr.f.sampleWidth ∧ g.byteOrder = tr.f.byteOrder := by
    subst hg
    simp only [AFmt.isUnsigned, UNSIGNED, TWOSCOMP, decide_eq_true_eq] at c0 ⊢
    rcases (by cases tr.sampleFormatSet <;> simp : tr.sampleFormatSet = false ∨ tr.sampleFormatSet = true) with hs | hs
    · obtain ⟨a1, a2⟩ := hF.sample hs
      rw [hs, if_neg (by simp), a1, a2]
      obtain ⟨h1, h2, h3, h4, h5, h6⟩ := set_sampleFormat (f := tr.f) (w := 16) (a := 401) (Or.inl rfl) (by omega)
      exact ⟨by rw [h1]; decide, h5, h6, h4, h1, h2, h3⟩
    · rw [hs] at c0
      rw [hs, if_pos rfl]
      exact ⟨fun e => c0 ⟨rfl, e⟩, rfl, rfl, rfl, rfl, rfl, rfl⟩
  have hG' : G.sampleFormat = g.sampleFormat ∧ G.channels = g.channels ∧ G.rate = g.rate ∧ G.compression = g.compression ∧
      G.sampleWidth = g.sampleWidth ∧ (G.byteOrder = g.byteOrder ∨ G.byteOrder = native h) := by
    subst hG
    split
    · exact ⟨rfl, rfl, rfl, rfl, rfl, Or.inr rfl⟩
    · exact ⟨rfl, rfl, rfl, rfl, rfl, Or.inl rfl⟩
  obtain ⟨g1, g2, g3, g4, g5, g6, g7⟩ := hg'
  obtain ⟨k1, k2, k3, k4, k5, k6⟩ := hG'
  simp only [NONE, ULAW, ALAW, IMA, ALAC] at c2
  refine ⟨by rw [k1]; exact g1, by simp; omega, by rw [k2, g2], by rw [k3, g3], by rw [k4, g4], by rw [k1, g5], by rw [k5, g6], ?_⟩
  rw [← g7]; exact k6

end AF.Setup
