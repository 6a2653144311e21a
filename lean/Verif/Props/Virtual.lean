import Verif.Model.Virtual
import Verif.Spec.Virtual
import Verif.Props.Setup
import Verif.Props.FloatInt
/-! # C53: the virtual format after opening a file for writing -/
namespace AF.Setup
open AF.Meta (updFirst)

/-! ## What setup calls keep -/

/-- Sample width and channel count are `g`'s. -/
def SameWC (g f : AFmt) : Prop := f.sampleWidth = g.sampleWidth ∧ f.channels = g.channels

/-- A track whose sample format was never set has 16-bit signed samples; the two flags go together. -/
structure SampleFlags (tr : TrackSetup) : Prop where
  both : tr.sampleWidthSet = tr.sampleFormatSet
  unset : tr.sampleFormatSet = false → tr.f.sampleFormat = TWOSCOMP ∧ tr.f.sampleWidth = 16
  legal : Legal tr.f

theorem sampleFlags_onTrack {s : Setup} (hs : ∀ tr ∈ s.tracks, SampleFlags tr) (t : Int) (g : TrackSetup → TrackSetup)
    (hg : ∀ x, SampleFlags x → SampleFlags (g x)) : ∀ tr ∈ (s.onTrack t g).tracks, SampleFlags tr := by
  unfold Setup.onTrack
  dsimp only
  revert hs
  generalize s.tracks = l
  intro hs
  induction l with
  | nil => simpa [updFirst] using hs
  | cons a l ih =>
    have hl : ∀ tr ∈ l, SampleFlags tr := fun tr h => hs tr (List.mem_cons_of_mem _ h)
    unfold updFirst
    split
    · intro tr htr
      rcases List.mem_cons.1 htr with rfl | h
      · exact hg _ (hs a (List.mem_cons_self ..))
      · exact hl _ h
    · intro tr htr
      rcases List.mem_cons.1 htr with rfl | h
      · exact hs _ (List.mem_cons_self ..)
      · exact ih hl _ h

theorem newSetup_sampleFlags (h : Endian) : ∀ tr ∈ (newSetup h).tracks, SampleFlags tr := by
  intro tr htr
  have hl := newSetup_legal h tr htr
  have : tr = newTrack h 0 := by simpa [newSetup] using htr
  subst this
  exact ⟨rfl, fun _ => ⟨by cases h <;> rfl, by cases h <;> rfl⟩, hl⟩

theorem step_sampleFlags {s : Setup} (hs : ∀ tr ∈ s.tracks, SampleFlags tr) (op : Op) : ∀ tr ∈ (step s op).tracks, SampleFlags tr := by
  cases op with
  | fileFormat f =>
    simp only [step, initFileFormat]
    repeat' split
    all_goals exact hs
  | channels t n =>
    refine sampleFlags_onTrack hs t _ fun x hx => ?_
    dsimp only
    split
    · exact hx
    · exact ⟨hx.both, hx.unset, hx.legal.sample, by dsimp only; omega, hx.legal.rate, hx.legal.order, hx.legal.compression⟩
  | sampleFormat t f w =>
    refine sampleFlags_onTrack hs t _ fun x hx => ?_
    exact ⟨rfl, fun h => Bool.noConfusion h, hx.legal.set _ _⟩
  | byteOrder t o =>
    refine sampleFlags_onTrack hs t _ fun x hx => ?_
    dsimp only
    split
    · exact hx
    · rename_i h
      exact ⟨hx.both, hx.unset, hx.legal.sample, hx.legal.channels, hx.legal.rate,
        by simp only [BIG, LITTLE] at h; dsimp only; omega, hx.legal.compression⟩
  | rate t r =>
    refine sampleFlags_onTrack hs t _ fun x hx => ?_
    dsimp only
    split
    · exact hx
    · rename_i h
      exact ⟨hx.both, hx.unset, hx.legal.sample, hx.legal.channels, Rat.not_le.1 h, hx.legal.order, hx.legal.compression⟩
  | dataOffset t o =>
    refine sampleFlags_onTrack hs t _ fun x hx => ?_
    split <;> exact ⟨hx.both, hx.unset, hx.legal⟩
  | frameCount t o =>
    refine sampleFlags_onTrack hs t _ fun x hx => ?_
    split <;> exact ⟨hx.both, hx.unset, hx.legal⟩
  | compression t c =>
    refine sampleFlags_onTrack hs t _ fun x hx => ?_
    dsimp only
    split
    · exact ⟨hx.both, hx.unset, hx.legal⟩
    · rename_i q h
      exact ⟨hx.both, hx.unset, hx.legal.sample, hx.legal.channels, hx.legal.rate, hx.legal.order, compressionUnit_mem h⟩
  | pcmMapping t p =>
    exact sampleFlags_onTrack hs t _ fun x hx => ⟨hx.both, hx.unset, hx.legal.sample, hx.legal.channels, hx.legal.rate,
      hx.legal.order, hx.legal.compression⟩
  | aes t on => exact sampleFlags_onTrack hs t _ fun x hx => ⟨hx.both, hx.unset, hx.legal⟩
  | markIDs t ids => exact sampleFlags_onTrack hs t _ fun x hx => ⟨hx.both, hx.unset, hx.legal⟩
  | markName t m name => exact sampleFlags_onTrack hs t _ fun x hx => ⟨hx.both, hx.unset, hx.legal⟩
  | markComment t m c => exact sampleFlags_onTrack hs t _ fun x hx => ⟨hx.both, hx.unset, hx.legal⟩
  | instIDs ids => simp only [step, initInstIDs]; split <;> exact hs
  | loopIDs i ids => simp only [step, initLoopIDs]; split <;> exact hs
  | miscIDs ids => exact hs
  | miscType m t => exact hs
  | miscSize m t => exact hs

theorem run_sampleFlags {ops : List Op} : ∀ {s : Setup}, (∀ tr ∈ s.tracks, SampleFlags tr) → ∀ tr ∈ (run s ops).tracks, SampleFlags tr := by
  induction ops with
  | nil => intro s hs; exact hs
  | cons op ops ih => intro s hs; exact ih (step_sampleFlags hs op)

/-! ## What completing a setup keeps -/

theorem SameWC.ite {g f f' : AFmt} {c : Prop} [Decidable c] (h1 : SameWC g f) (h2 : SameWC g f') :
    SameWC g (if c then f else f') := by
  split
  · exact h1
  · exact h2

theorem SameWC.order {g f : AFmt} {o : Int} (h : SameWC g f) : SameWC g { f with byteOrder := o } := h

theorem SameWC.set {g f : AFmt} (h : SameWC g f) (a : Int) (ha : a = TWOSCOMP ∨ a = UNSIGNED) :
    SameWC g (setSampleFormat f a g.sampleWidth).2 := by
  unfold setSampleFormat
  rw [if_pos (by rcases ha with h | h <;> simp [h])]
  repeat' split
  all_goals exact ⟨by first | exact h.1 | rfl, h.2⟩

theorem SameWC.set_same {g : AFmt} (hl : Legal g) : SameWC g (setSampleFormat g g.sampleFormat g.sampleWidth).2 := by
  have := hl.sample
  unfold setSampleFormat
  simp only [TWOSCOMP, UNSIGNED, FLOAT, DOUBLE]
  repeat' split
  all_goals first | exact ⟨rfl, rfl⟩ | exact ⟨by dsimp only; omega, rfl⟩

/-- Completing a setup for a format other than IFF changes neither the sample width nor the channel count. -/
theorem complete_keeps (h : Endian) {s : Setup} {tr : TrackSetup} (hi : Inv s) (ht : s.tracks = [tr]) (hfl : SampleFlags tr)
    (hne : s.fileFormat ≠ .iff) : AllS (SameWC tr.f) (complete h s).1 := by
  obtain ⟨tr', ht', hid⟩ := hi.track
  rw [ht] at ht'
  obtain rfl : tr = tr' := by simpa using ht'
  have hw : ∀ f, s.withFormat f = setF s tr f := withFormat_one ht hid
  have hw2 : ∀ f g, (setF s tr f).withFormat g = setF s tr g :=
    fun f g => withFormat_one (s := setF s tr f) (tr := { tr with f := f }) rfl hid g
  have htt := theTrack_one ht hid
  have hlf : SameWC tr.f tr.f := ⟨rfl, rfl⟩
  have hl : AllS (SameWC tr.f) s := by intro x hx; rw [ht] at hx; obtain rfl := List.mem_singleton.1 hx; exact hlf
  unfold complete
  split
  all_goals try exact hl
  all_goals try contradiction
  all_goals
    first
      | unfold completeRaw
      | unfold completeAIFF
      | unfold completeNeXT
      | unfold completeWAVE
      | unfold completeIRCAM
      | unfold completeAVR
      | unfold completeSMP
      | unfold completeVOC
      | unfold completeNIST
      | unfold completeCAF
    rw [htt]
    simp only [hw, hw2, ite_setF]
    repeat'
      first
        | exact hl
        | exact hlf
        | assumption
        | apply AllS.ite
        | apply AllS.setF
        | (refine SameWC.set ?_ _ (Or.inl rfl))
        | apply SameWC.ite
        | (refine SameWC.order (o := native h) ?_)
        | (refine SameWC.order (o := BIG) ?_)
        | (refine SameWC.order (o := LITTLE) ?_)
  refine AllS.matchOpt hl (fun f hf => ?_) fun f hf => ?_
  · have hs := hfl.legal.sample
    have hu := hfl.unset
    have hb := hfl.both
    simp only [FLOAT, DOUBLE] at hf
    repeat' split at hf
    all_goals simp only [Option.some.injEq, reduceCtorEq] at hf
    all_goals first | subst hf | skip
    all_goals first
      | exact hlf
      | exact SameWC.set_same hfl.legal
      | exact SameWC.set hlf _ (Or.inl rfl)
      | exact SameWC.set hlf _ (Or.inr rfl)
      | exact ⟨rfl, rfl⟩
      | (have e : tr.sampleFormatSet = false := by simpa using ‹(!tr.sampleFormatSet) = true›
         have := SameWC.set hlf TWOSCOMP (Or.inl rfl)
         rwa [(hu e).2] at this)
      | (exfalso; omega)
      | (exfalso; simp_all; done)
      | (have e : tr.sampleFormatSet = false := by simp_all
         exact ⟨(hu e).2.symm, rfl⟩)
  · repeat'
      first
        | exact hl
        | assumption
        | apply AllS.ite
        | apply AllS.setF
        | apply SameWC.ite
        | (refine SameWC.order (o := LITTLE) ?_)

/-! ## C53 -/

/-- The virtual format, in terms of the setup's and the file's. -/
theorem openWrite_virtual {h : Endian} {s s' : Setup} {o : Opened} (hi : Inv s) (ho : openWrite h s = (s', some o)) :
    ∃ tr f, s.tracks = [tr] ∧ o.f = [f] ∧ s' = setF s tr f ∧
      o.v = [{ tr.f with sampleWidth := f.sampleWidth, channels := f.channels, compression := NONE, byteOrder := native h }] := by
  obtain ⟨tr, f, ht, hid, hs', hh, hf, hc⟩ := openWrite_some hi ho
  refine ⟨tr, f, ht, hf, hs', ?_⟩
  unfold openWrite at ho
  rw [hc, ht] at ho
  simp only [Option.map_some, Prod.mk.injEq, Option.some.injEq, List.head?_cons] at ho
  obtain ⟨-, rfl⟩ := ho
  simp [completed]

/-- **C53**: for every history of setup calls and every format but IFF, a program that writes without having called an
`afSetVirtual…` function gives its samples exactly in the format its setup describes, in its own byte order. -/
theorem C53_virtual_is_setup (h : Endian) (ops : List Op) (s' : Setup) (o : Opened)
    (hne : (run (newSetup h) ops).fileFormat ≠ .iff) (ho : openWrite h (run (newSetup h) ops) = (s', some o)) :
    ∃ tr, (run (newSetup h) ops).tracks = [tr] ∧ o.v = [inMemory h tr.f] := by
  have hi : Inv (run (newSetup h) ops) := foldl_inv (newSetup_inv h)
  obtain ⟨tr, f, ht, hf, hs', hv⟩ := openWrite_virtual hi ho
  have hfl := run_sampleFlags (ops := ops) (newSetup_sampleFlags h) tr (by rw [ht]; simp)
  have hk := complete_keeps h hi ht hfl hne
  obtain ⟨_, _, -, -, -, -, -, hc⟩ := openWrite_some hi ho
  rw [hc] at hk
  have hk := hk { tr with f := f } (by rw [hs']; simp [setF])
  refine ⟨tr, ht, ?_⟩
  rw [hv, hk.1, hk.2]
  rfl

/-- The format of an IFF file. -/
theorem iff_format {h : Endian} {s s' : Setup} {o : Opened} {tr : TrackSetup} (hi : Inv s) (hff : s.fileFormat = .iff)
    (ho : openWrite h s = (s', some o)) (ht : s.tracks = [tr]) :
    o.f = [(setSampleFormat { tr.f with byteOrder := BIG, channels := 1 } TWOSCOMP 8).2] ∧ tr.f.compression = NONE := by
  obtain ⟨tr', f, ht', hid, hs', -, hf, hc⟩ := openWrite_some hi ho
  obtain rfl : tr = tr' := by rw [ht] at ht'; simpa using ht'
  have hw : ∀ f, s.withFormat f = setF _ tr f := withFormat_one ht hid
  have htt := theTrack_one ht hid
  simp only [complete, hff, completeIFF, htt, hw] at hc
  repeat' split at hc
  all_goals simp only [Prod.mk.injEq, reduceCtorEq, and_false] at hc
  obtain ⟨hc, -⟩ := hc
  rw [hs'] at hc
  have := congrArg Setup.tracks hc
  simp only [setF, List.cons.injEq, and_true] at this
  have := congrArg TrackSetup.f this
  dsimp only at this
  rw [hf, ← this]
  exact ⟨rfl, Decidable.not_not.1 ‹_›⟩

/-- **C53**, IFF: the virtual format has one channel and a width of 8 bits whatever the setup says, and the rest of the
setup's format. -/
theorem C53_virtual_iff (h : Endian) (ops : List Op) (s' : Setup) (o : Opened) (tr : TrackSetup)
    (hff : (run (newSetup h) ops).fileFormat = .iff) (ho : openWrite h (run (newSetup h) ops) = (s', some o))
    (ht : (run (newSetup h) ops).tracks = [tr]) :
    o.v = [inMemory h { tr.f with sampleWidth := 8, channels := 1 }] := by
  have hi : Inv (run (newSetup h) ops) := foldl_inv (newSetup_inv h)
  obtain ⟨tr', f, ht', hf, hs', hv⟩ := openWrite_virtual hi ho
  obtain rfl : tr = tr' := by rw [ht] at ht'; simpa using ht'
  have e := (iff_format hi hff ho ht).1
  rw [hf] at e
  obtain rfl := List.singleton_inj.1 e
  rw [hv]
  rfl

open AF.Convert AF.Virtual in
/-- **C53** is false for IFF: a program that sets only the file format (so that its setup says signed 16-bit samples of
the usual mapping) gets a virtual format of 8-bit samples with the mapping of 16-bit ones. Every sample it can then
write reaches the file as 0. -/
theorem C53_iff_silence (h : Endian) (ops : List Op) (s' : Setup) (o : Opened) (tr : TrackSetup)
    (hff : (run (newSetup h) ops).fileFormat = .iff) (ho : openWrite h (run (newSetup h) ops) = (s', some o))
    (ht : (run (newSetup h) ops).tracks = [tr]) (hs : tr.f.sampleFormat = TWOSCOMP) (hp : tr.f.pcm = defaultSigned 2) :
    ∃ v f c, o.v = [v] ∧ o.f = [f] ∧ arrange h false (chainFormat v) (chainFormat f) = some c ∧
      c.mods = [.clip .int8 v.pcm, .intToFloat .int8 .float, .floatToInt .float .int8 v.pcm f.pcm] ∧
      ∀ (rnd : Rat → Dbl) (x : Int), -128 ≤ x → x ≤ 127 → rnd ((1 / 256 : Rat) * x) = .fin ((1 / 256 : Rat) * x) →
        floatToInt rnd .int8 v.pcm f.pcm x = some 0 := by
  have hi : Inv (run (newSetup h) ops) := foldl_inv (newSetup_inv h)
  have hv := C53_virtual_iff h ops s' o tr hff ho ht
  obtain ⟨hf, hc⟩ := iff_format hi hff ho ht
  have ev : chainFormat (inMemory h { tr.f with sampleWidth := 8, channels := 1 }) =
      ⟨.twos, 8, 1, h, false, true, defaultSigned 2⟩ := by
    cases h <;> simp [chainFormat, inMemory, hs, hp, TWOSCOMP, UNSIGNED, FLOAT, DOUBLE, native, BIG, LITTLE, NONE]
  have hp1 : (setSampleFormat { tr.f with byteOrder := BIG, channels := 1 } TWOSCOMP 8).2.pcm = defaultSigned 1 := by
    simp [setSampleFormat, TWOSCOMP, sampleSizeUncompressed, UNSIGNED, FLOAT, DOUBLE]
  have ef : chainFormat (setSampleFormat { tr.f with byteOrder := BIG, channels := 1 } TWOSCOMP 8).2 =
      ⟨.twos, 8, 1, .big, false, true, defaultSigned 1⟩ := by
    have : (setSampleFormat { tr.f with byteOrder := BIG, channels := 1 } TWOSCOMP 8).2.compression = NONE := hc
    unfold chainFormat
    rw [hp1, this]
    simp [setSampleFormat, TWOSCOMP, UNSIGNED, FLOAT, DOUBLE, BIG]
  have hpv : (inMemory h { tr.f with sampleWidth := 8, channels := 1 }).pcm = defaultSigned 2 := hp
  have ha : ∃ c, arrange h false ⟨.twos, 8, 1, h, false, true, defaultSigned 2⟩ ⟨.twos, 8, 1, .big, false, true, defaultSigned 1⟩ =
      some c ∧ c.mods = [.clip .int8 (defaultSigned 2), .intToFloat .int8 .float,
        .floatToInt .float .int8 (defaultSigned 2) (defaultSigned 1)] := by
    cases h
    · exact ⟨_, rfl, by decide +kernel⟩
    · exact ⟨_, rfl, by decide +kernel⟩
  obtain ⟨c, ha, hm⟩ := ha
  refine ⟨_, _, c, hv, hf, ?_, ?_, ?_⟩
  · rw [ev, ef]; exact ha
  · rw [hpv, hp1]; exact hm
  · intro rnd x h1 h2 hr
    rw [hpv, hp1]
    have e1 : (defaultSigned 1).slope / (defaultSigned 2).slope = 1 / 256 := by decide +kernel
    have e2 : (defaultSigned 1).intercept - 1 / 256 * (defaultSigned 2).intercept = 0 := by decide +kernel
    have e3 : (defaultSigned 1).minClip = -128 := by decide +kernel
    have e4 : (defaultSigned 1).maxClip = 127 := by decide +kernel
    have h1' : (-128 : Rat) ≤ x := by simpa using Rat.intCast_le_intCast.2 h1
    have h2' : (x : Rat) ≤ 127 := by simpa using Rat.intCast_le_intCast.2 h2
    unfold floatToInt
    rw [e1, e2, e3, e4]
    have a0 : (1 / 256 : Rat) * x + 0 = 1 / 256 * x := Rat.add_zero _
    unfold floatToIntSample
    simp only [Dbl.mul, hr, Dbl.add, a0, Dbl.min, Dbl.max, Dbl.lt]
    have g1 : ¬ (127 : Rat) < 1 / 256 * x := by grind
    have g2 : ¬ (1 / 256 * x : Rat) < -128 := by grind
    simp only [g1, decide_false, Bool.false_eq_true, if_false, g2, Dbl.toInt]
    have ht : truncRat (1 / 256 * (x : Rat)) = 0 := by
      unfold truncRat
      split
      · have : (-(1 / 256 * (x : Rat))).floor = 0 := by
          apply Int.le_antisymm
          · have := Rat.floor_lt_iff.2 (show (-(1 / 256 * (x : Rat))) < ((1 : Int) : Rat) by grind)
            omega
          · exact Rat.le_floor_iff.2 (by grind)
        simp [this]
      · apply Int.le_antisymm
        · have := Rat.floor_lt_iff.2 (show ((1 / 256 * (x : Rat))) < ((1 : Int) : Rat) by grind)
          omega
        · exact Rat.le_floor_iff.2 (by grind)
    rw [ht]
    decide

/-- A program that only says "IFF", and one that says one channel and 8 bits. -/
example : (openWrite .little (run (newSetup .little) [.fileFormat 10])).2.map (·.v) =
    some [⟨44100, TWOSCOMP, 8, LITTLE, AF.Convert.defaultSigned 2, 1, NONE⟩] := by decide +kernel
example : (openWrite .little (run (newSetup .little) [.fileFormat 10, .channels 1001 1, .sampleFormat 1001 401 8])).2.map (·.v) =
    some [⟨44100, TWOSCOMP, 8, LITTLE, AF.Convert.defaultSigned 1, 1, NONE⟩] := by decide +kernel
/-- A WAVE file of signed 8-bit samples: the file's samples are unsigned, the program's are signed. -/
example : (openWrite .big (run (newSetup .big) [.fileFormat 4, .sampleFormat 1001 401 8])).2.map (fun o => (o.f, o.v)) =
    some ([⟨44100, UNSIGNED, 8, LITTLE, AF.Convert.defaultUnsigned 1, 2, NONE⟩],
      [⟨44100, TWOSCOMP, 8, BIG, AF.Convert.defaultSigned 1, 2, NONE⟩]) := by decide +kernel

end AF.Setup
