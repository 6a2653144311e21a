import Verif.Proof.CreateOpen
/-! Completing a setup a second time. -/
namespace AF.Create
open AF AF.Setup AF.Spec.Create

variable {s : Setup} {tr : TrackSetup} {h : Endian} {r : Request}

/-- The default mapping of an integer format. -/
def intPcm (a w : Int) : Convert.PCM :=
  let f : AFmt := { rate := 0, sampleFormat := a, sampleWidth := w, byteOrder := 0, pcm := ⟨0, 0, 0, 0⟩, channels := 0, compression := 0 }
  if a = 401 then Convert.defaultSigned (sampleSizeUncompressed f false).toNat else Convert.defaultUnsigned (sampleSizeUncompressed f false).toNat

theorem set_int (f : AFmt) {a w : Int} (ha : a = 401 ∨ a = 402) (hw : 1 ≤ w ∧ w ≤ 32) :
    (setSampleFormat f a w).2 = { f with sampleFormat := a, sampleWidth := w, pcm := intPcm a w } := by
  unfold setSampleFormat intPcm
  simp only [TWOSCOMP, UNSIGNED, FLOAT, DOUBLE]
  rw [if_pos (Or.symm ha), if_neg (by omega)]
  split <;> simp [sampleSizeUncompressed]

/-- Completing again changes nothing. -/
def Again (F : Setup → Setup × Option Setup) (q : Setup × Option Setup) : Prop := F q.1 = q

theorem Again.refuse {F : Setup → Setup × Option Setup} {c : Prop} [Decidable c] {x : Setup} {b : Setup × Option Setup}
    (h1 : c → F x = (x, none)) (h2 : ¬ c → Again F b) : Again F (if c then (x, none) else b) := by
  by_cases hc : c
  · rw [if_pos hc]; exact h1 hc
  · rw [if_neg hc]; exact h2 hc

theorem setF_insts (f : AFmt) : (setF s tr f).instruments = s.instruments := rfl
theorem setF_instSet (f : AFmt) : (setF s tr f).instrumentSet = s.instrumentSet := rfl
theorem setF_misc (f : AFmt) : (setF s tr f).miscellaneous = s.miscellaneous := rfl
theorem setF_miscSet (f : AFmt) : (setF s tr f).miscellaneousSet = s.miscellaneousSet := rfl
theorem setF_format (f : AFmt) : (setF s tr f).fileFormat = s.fileFormat := rfl

/-- What is known about the one track. -/
structure OneTrack (s : Setup) (tr : TrackSetup) : Prop where
  hw : ∀ f, s.withFormat f = setF s tr f
  hw2 : ∀ f g, (setF s tr f).withFormat g = setF s tr g
  h1 : theTrack s = some tr
  h2 : ∀ f, theTrack (setF s tr f) = some { tr with f := f }
  h3 : ∀ f g, noMetadata (setF s tr f) { tr with f := g } = noMetadata s tr
  h4 : ∀ f, noMetadata (setF s tr f) tr = noMetadata s tr
  h5 : setF s tr tr.f = s

theorem oneTrack (ht : s.tracks = [tr]) (hid : tr.id = 1001) : OneTrack s tr where
  hw := withFormat_one ht hid
  hw2 := fun f g => withFormat_one (s := setF s tr f) (tr := { tr with f := f }) rfl hid g
  h1 := theTrack_one ht hid
  h2 := fun f => theTrack_one (s := setF s tr f) rfl hid
  h3 := fun _ _ => rfl
  h4 := fun _ => rfl
  h5 := setF_self ht

theorem next_again (o : OneTrack s tr) (k : Known h tr) : completeNeXT (completeNeXT s).1 = completeNeXT s := by
  show Again (completeNeXT) (completeNeXT s)
  have k1 := k.fmt
  have k3 := k.legal
  have k5 := k.width
  have key : ∀ f, completeNeXT (setF s tr f) = completeNeXT (setF s tr f) := fun _ => rfl
  conv at key => intro f; lhs; unfold completeNeXT
  simp only [o.hw, o.hw2, o.h2, o.h3, o.h4, ite_setF] at key
  conv => arg 2; unfold completeNeXT
  rw [o.h1]
  dsimp only
  simp only [o.hw, o.hw2, ite_setF, o.h3, o.h4]
  generalize noMetadata s tr = M at *
  simp only [NONE, ULAW, ALAW, IMA, MSADPCM, ALAC, BIG, LITTLE, TWOSCOMP, UNSIGNED, FLOAT, DOUBLE, AFmt.isSigned, AFmt.isUnsigned, AFmt.isInteger, AFmt.isUncompressed,
    AFmt.orderMatters, decide_eq_true_eq, Bool.decide_or, Bool.not_eq_true', Bool.or_eq_true, Bool.or_eq_false_iff, decide_eq_false_iff_not] at key ⊢
  have key0 := key tr.f
  rw [o.h5] at key0
  have hs := trivial
  by_cases hu : tr.f.sampleFormat = 402
  · have hset : ∀ g : AFmt, (setSampleFormat g 401 tr.f.sampleWidth).2 =
        { g with sampleFormat := 401, sampleWidth := tr.f.sampleWidth, pcm := intPcm 401 tr.f.sampleWidth } :=
      fun g => set_int g (Or.inl rfl) (by omega)
    rw [if_pos hu, hset]
    refine Again.refuse (fun c => ?_) fun c1 => Again.refuse (fun c => ?_) fun c2 => Again.refuse (fun c => ?_) fun c3 => Again.refuse (fun c => ?_) fun c4 => ?_
    all_goals
      show completeNeXT _ = _
      first
      | (rw [← key]; clear key key0 hs k; (try dsimp only); (try simp only [hset]); (try clear hset); grind)
      | (rw [← key0]; clear key key0 hs k; (try clear hset); grind)
  · rw [if_neg hu]
    refine Again.refuse (fun c => ?_) fun c1 => Again.refuse (fun c => ?_) fun c2 => Again.refuse (fun c => ?_) fun c3 => Again.refuse (fun c => ?_) fun c4 => ?_
    all_goals
      show completeNeXT _ = _
      first
      | (rw [← key]; clear key key0 hs k; (try dsimp only); (try simp only [hset]); (try clear hset); grind)
      | (rw [← key0]; clear key key0 hs k; (try clear hset); grind)

theorem avr_again (o : OneTrack s tr) (k : Known h tr) : completeAVR (completeAVR s).1 = completeAVR s := by
  show Again (completeAVR) (completeAVR s)
  have k1 := k.fmt
  have k3 := k.legal
  have k5 := k.width
  have key : ∀ f, completeAVR (setF s tr f) = completeAVR (setF s tr f) := fun _ => rfl
  conv at key => intro f; lhs; unfold completeAVR
  simp only [o.hw, o.hw2, o.h2, o.h3, o.h4, ite_setF] at key
  conv => arg 2; unfold completeAVR
  rw [o.h1]
  dsimp only
  simp only [o.hw, o.hw2, ite_setF, o.h3, o.h4]
  generalize noMetadata s tr = M at *
  simp only [NONE, ULAW, ALAW, IMA, MSADPCM, ALAC, BIG, LITTLE, TWOSCOMP, UNSIGNED, FLOAT, DOUBLE, AFmt.isSigned, AFmt.isUnsigned, AFmt.isInteger, AFmt.isUncompressed,
    AFmt.orderMatters, decide_eq_true_eq, Bool.decide_or, Bool.not_eq_true', Bool.or_eq_true, Bool.or_eq_false_iff, decide_eq_false_iff_not] at key ⊢
  have key0 := key tr.f
  rw [o.h5] at key0
  have hs := trivial
  · refine Again.refuse (fun c => ?_) fun c1 => Again.refuse (fun c => ?_) fun c2 => Again.refuse (fun c => ?_) fun c3 => Again.refuse (fun c => ?_) fun c4 => Again.refuse (fun c => ?_) fun c5 => ?_
    all_goals
      show completeAVR _ = _
      first
      | (rw [← key]; clear key key0 hs k; (try dsimp only); (try simp only [hset]); (try clear hset); grind)
      | (rw [← key0]; clear key key0 hs k; (try clear hset); grind)

theorem smp_again (o : OneTrack s tr) (k : Known h tr) : completeSMP (completeSMP s).1 = completeSMP s := by
  show Again (completeSMP) (completeSMP s)
  have k1 := k.fmt
  have k3 := k.legal
  have k5 := k.width
  have key : ∀ f, completeSMP (setF s tr f) = completeSMP (setF s tr f) := fun _ => rfl
  conv at key => intro f; lhs; unfold completeSMP
  simp only [o.hw, o.hw2, o.h2, o.h3, o.h4, ite_setF] at key
  conv => arg 2; unfold completeSMP
  rw [o.h1]
  dsimp only
  simp only [o.hw, o.hw2, ite_setF, o.h3, o.h4]
  generalize noMetadata s tr = M at *
  simp only [NONE, ULAW, ALAW, IMA, MSADPCM, ALAC, BIG, LITTLE, TWOSCOMP, UNSIGNED, FLOAT, DOUBLE, AFmt.isSigned, AFmt.isUnsigned, AFmt.isInteger, AFmt.isUncompressed,
    AFmt.orderMatters, decide_eq_true_eq, Bool.decide_or, Bool.not_eq_true', Bool.or_eq_true, Bool.or_eq_false_iff, decide_eq_false_iff_not] at key ⊢
  have key0 := key tr.f
  rw [o.h5] at key0
  have hs := trivial
  by_cases hq : tr.sampleFormatSet = true
  · simp only [hq, if_true, true_and] at key key0 ⊢
    refine Again.refuse (fun c => ?_) fun c1 => Again.refuse (fun c => ?_) fun c2 => Again.refuse (fun c => ?_) fun c3 => ?_
    all_goals
      show completeSMP _ = _
      first
      | (rw [← key]; clear key key0 hs k; (try dsimp only); (try simp only [hset]); (try clear hset); grind)
      | (rw [← key0]; clear key key0 hs k; (try clear hset); grind)
  · have e := k1 (by simpa using hq)
    have hset : ∀ g : AFmt, (setSampleFormat g 401 tr.f.sampleWidth).2 =
        { g with sampleFormat := 401, sampleWidth := tr.f.sampleWidth, pcm := intPcm 401 tr.f.sampleWidth } :=
      fun g => set_int g (Or.inl rfl) (by omega)
    simp only [hq, Bool.false_eq_true, false_and, if_false] at key key0 ⊢
    rw [hset]
    dsimp only
    refine Again.refuse (fun c => ?_) fun c1 => Again.refuse (fun c => ?_) fun c2 => ?_
    all_goals
      show completeSMP _ = _
      first
      | (rw [← key]; clear key key0 hs k; (try dsimp only); (try simp only [hset]); (try clear hset); grind)
      | (rw [← key0]; clear key key0 hs k; (try clear hset); grind)

theorem voc_again (o : OneTrack s tr) (k : Known h tr) : completeVOC (completeVOC s).1 = completeVOC s := by
  show Again (completeVOC) (completeVOC s)
  have k1 := k.fmt
  have k3 := k.legal
  have k5 := k.width
  have key : ∀ f, completeVOC (setF s tr f) = completeVOC (setF s tr f) := fun _ => rfl
  conv at key => intro f; lhs; unfold completeVOC
  simp only [o.hw, o.hw2, o.h2, o.h3, o.h4, ite_setF] at key
  conv => arg 2; unfold completeVOC
  rw [o.h1]
  dsimp only
  simp only [o.hw, o.hw2, ite_setF, o.h3, o.h4]
  generalize noMetadata s tr = M at *
  simp only [NONE, ULAW, ALAW, IMA, MSADPCM, ALAC, BIG, LITTLE, TWOSCOMP, UNSIGNED, FLOAT, DOUBLE, AFmt.isSigned, AFmt.isUnsigned, AFmt.isInteger, AFmt.isUncompressed,
    AFmt.orderMatters, decide_eq_true_eq, Bool.decide_or, Bool.not_eq_true', Bool.or_eq_true, Bool.or_eq_false_iff, decide_eq_false_iff_not] at key ⊢
  have key0 := key tr.f
  rw [o.h5] at key0
  have hs := trivial
  by_cases hq : tr.sampleFormatSet = true
  · simp only [hq, if_true, true_and] at key key0 ⊢
    refine Again.refuse (fun c => ?_) fun c1 => Again.refuse (fun c => ?_) fun c2 => Again.refuse (fun c => ?_) fun c3 => Again.refuse (fun c => ?_) fun c4 => Again.refuse (fun c => ?_) fun c5 => ?_
    all_goals
      show completeVOC _ = _
      first
      | (rw [← key]; clear key key0 hs k; (try dsimp only); (try simp only [hset]); (try clear hset); grind)
      | (rw [← key0]; clear key key0 hs k; (try clear hset); grind)
  · have e := k1 (by simpa using hq)
    have hset : ∀ g : AFmt, (setSampleFormat g 401 tr.f.sampleWidth).2 =
        { g with sampleFormat := 401, sampleWidth := tr.f.sampleWidth, pcm := intPcm 401 tr.f.sampleWidth } :=
      fun g => set_int g (Or.inl rfl) (by omega)
    simp only [hq, Bool.false_eq_true, false_and, if_false] at key key0 ⊢
    rw [hset]
    dsimp only
    by_cases hz : tr.f.compression = 0
    all_goals simp only [hz, if_true, if_false, true_and, false_and, Bool.true_eq_false]
    all_goals
      first
      | (refine Again.refuse (fun c => ?_) fun c1 => Again.refuse (fun c => ?_) fun c2 => Again.refuse (fun c => ?_) fun c3 => ?_)
      | (refine Again.refuse (fun c => ?_) fun c1 => Again.refuse (fun c => ?_) fun c2 => ?_)
      | (refine Again.refuse (fun c => ?_) fun c1 => ?_)
      | (refine ?_)
    all_goals
      show completeVOC _ = _
      rw [← key]; clear key key0 hs k; (try dsimp only); (try simp only [hset]); (try clear hset)
      grind


theorem caf_again (o : OneTrack s tr) (k : Known h tr) : completeCAF h (completeCAF h s).1 = completeCAF h s := by
  show Again (completeCAF h) (completeCAF h s)
  have k1 := k.fmt
  have k3 := k.legal
  have k5 := k.width
  have key : ∀ f, completeCAF h (setF s tr f) = completeCAF h (setF s tr f) := fun _ => rfl
  conv at key => intro f; lhs; unfold completeCAF
  simp only [o.hw, o.hw2, o.h2, o.h3, o.h4, ite_setF] at key
  conv => arg 2; unfold completeCAF
  rw [o.h1]
  dsimp only
  simp only [o.hw, o.hw2, ite_setF, o.h3, o.h4]
  generalize noMetadata s tr = M at *
  simp only [NONE, ULAW, ALAW, IMA, MSADPCM, ALAC, BIG, LITTLE, TWOSCOMP, UNSIGNED, FLOAT, DOUBLE, AFmt.isSigned, AFmt.isUnsigned, AFmt.isInteger, AFmt.isUncompressed,
    AFmt.orderMatters, decide_eq_true_eq, Bool.decide_or, Bool.not_eq_true', Bool.or_eq_true, Bool.or_eq_false_iff, decide_eq_false_iff_not] at key ⊢
  have key0 := key tr.f
  rw [o.h5] at key0
  generalize native h = nh at *
  have hs := trivial
  by_cases hq : tr.sampleFormatSet = true
  · simp only [hq, if_true, true_and] at key key0 ⊢
    refine Again.refuse (fun c => ?_) fun c1 => Again.refuse (fun c => ?_) fun c2 => Again.refuse (fun c => ?_) fun c3 => Again.refuse (fun c => ?_) fun c4 => ?_
    all_goals
      show completeCAF h _ = _
      first
      | (rw [← key]; clear key key0 hs k; (try dsimp only); (try simp only [hset]); (try clear hset); grind)
      | (rw [← key0]; clear key key0 hs k; (try clear hset); grind)
  · have e := k1 (by simpa using hq)
    have hset : ∀ g : AFmt, (setSampleFormat g 401 tr.f.sampleWidth).2 =
        { g with sampleFormat := 401, sampleWidth := tr.f.sampleWidth, pcm := intPcm 401 tr.f.sampleWidth } :=
      fun g => set_int g (Or.inl rfl) (by omega)
    simp only [hq, Bool.false_eq_true, false_and, if_false] at key key0 ⊢
    rw [hset]
    dsimp only
    by_cases hz : tr.byteOrderSet = false
    all_goals simp only [hz, if_true, if_false, true_and, false_and, Bool.true_eq_false]
    all_goals
      first
      | (refine Again.refuse (fun c => ?_) fun c1 => Again.refuse (fun c => ?_) fun c2 => Again.refuse (fun c => ?_) fun c3 => ?_)
      | (refine Again.refuse (fun c => ?_) fun c1 => Again.refuse (fun c => ?_) fun c2 => ?_)
      | (refine Again.refuse (fun c => ?_) fun c1 => ?_)
      | (refine ?_)
    all_goals
      show completeCAF h _ = _
      rw [← key]; clear key key0 hs k; (try dsimp only); (try simp only [hset]); (try clear hset)
      grind


theorem iff_again (o : OneTrack s tr) (k : Known h tr) : completeIFF (completeIFF s).1 = completeIFF s := by
  show Again (completeIFF) (completeIFF s)
  have k1 := k.fmt
  have k3 := k.legal
  have k5 := k.width
  have key : ∀ f, completeIFF (setF s tr f) = completeIFF (setF s tr f) := fun _ => rfl
  conv at key => intro f; lhs; unfold completeIFF
  simp only [o.hw, o.hw2, o.h2, o.h3, o.h4, ite_setF] at key
  conv => arg 2; unfold completeIFF
  rw [o.h1]
  dsimp only
  simp only [o.hw, o.hw2, ite_setF, o.h3, o.h4]
  generalize noMetadata s tr = M at *
  simp only [NONE, ULAW, ALAW, IMA, MSADPCM, ALAC, BIG, LITTLE, TWOSCOMP, UNSIGNED, FLOAT, DOUBLE, AFmt.isSigned, AFmt.isUnsigned, AFmt.isInteger, AFmt.isUncompressed,
    AFmt.orderMatters, decide_eq_true_eq, Bool.decide_or, Bool.not_eq_true', Bool.or_eq_true, Bool.or_eq_false_iff, decide_eq_false_iff_not] at key ⊢
  have key0 := key tr.f
  rw [o.h5] at key0
  have hs := trivial
  have hset : ∀ g : AFmt, (setSampleFormat g 401 8).2 = { g with sampleFormat := 401, sampleWidth := 8, pcm := intPcm 401 8 } :=
    fun g => set_int g (Or.inl rfl) (by omega)
  simp only [hset] at key key0 ⊢
  · refine Again.refuse (fun c => ?_) fun c1 => Again.refuse (fun c => ?_) fun c2 => Again.refuse (fun c => ?_) fun c3 => Again.refuse (fun c => ?_) fun c4 => Again.refuse (fun c => ?_) fun c5 => Again.refuse (fun c => ?_) fun c6 => Again.refuse (fun c => ?_) fun c7 => ?_
    all_goals
      show completeIFF _ = _
      first
      | (rw [← key]; clear key key0 hs k; (try dsimp only); (try simp only [hset]); (try clear hset); grind)
      | (rw [← key0]; clear key key0 hs k; (try clear hset); grind)

theorem aiff_again (o : OneTrack s tr) (k : Known h tr) : completeAIFF (completeAIFF s).1 = completeAIFF s := by
  show Again (completeAIFF) (completeAIFF s)
  have k1 := k.fmt
  have k3 := k.legal
  have k5 := k.width
  have key : ∀ f, completeAIFF (setF s tr f) = completeAIFF (setF s tr f) := fun _ => rfl
  conv at key => intro f; lhs; unfold completeAIFF
  simp only [o.hw, o.hw2, o.h2, o.h3, o.h4, ite_setF, setF_insts, setF_instSet, setF_miscSet, setF_misc, setF_format] at key
  conv => arg 2; unfold completeAIFF
  rw [o.h1]
  dsimp only
  simp only [o.hw, o.hw2, ite_setF, o.h3, o.h4, setF_insts, setF_instSet, setF_miscSet, setF_misc, setF_format]
  generalize noMetadata s tr = M at *
  simp only [NONE, ULAW, ALAW, IMA, MSADPCM, ALAC, BIG, LITTLE, TWOSCOMP, UNSIGNED, FLOAT, DOUBLE, AFmt.isSigned, AFmt.isUnsigned, AFmt.isInteger, AFmt.isUncompressed,
    AFmt.orderMatters, decide_eq_true_eq, Bool.decide_or, Bool.not_eq_true', Bool.or_eq_true, Bool.or_eq_false_iff, decide_eq_false_iff_not] at key ⊢
  have key0 := key tr.f
  rw [o.h5] at key0
  skip
  have hs := trivial
  by_cases hq : tr.sampleFormatSet = true
  · simp only [hq, if_true, true_and] at key key0 ⊢
    refine Again.refuse (fun c => ?_) fun c1 => Again.refuse (fun c => ?_) fun c2 => Again.refuse (fun c => ?_) fun c3 => Again.refuse (fun c => ?_) fun c4 => Again.refuse (fun c => ?_) fun c5 => Again.refuse (fun c => ?_) fun c6 => Again.refuse (fun c => ?_) fun c7 => Again.refuse (fun c => ?_) fun c8 => Again.refuse (fun c => ?_) fun c9 => ?_
    all_goals
      show completeAIFF _ = _
      first
      | (rw [← key]; clear key key0 hs k; (try dsimp only); (try simp only [hset]); (try clear hset); grind)
      | (rw [← key0]; clear key key0 hs k; (try clear hset); grind)
  · have e := k1 (by simpa using hq)
    have hset : ∀ g : AFmt, (setSampleFormat g 401 tr.f.sampleWidth).2 =
        { g with sampleFormat := 401, sampleWidth := tr.f.sampleWidth, pcm := intPcm 401 tr.f.sampleWidth } :=
      fun g => set_int g (Or.inl rfl) (by omega)
    simp only [hq, Bool.false_eq_true, false_and, if_false] at key key0 ⊢
    rw [hset]
    dsimp only
    by_cases hz : tr.f.compression = 0
    all_goals simp only [hz, if_true, if_false, true_and, false_and, Bool.true_eq_false]
    all_goals
      first
      | (refine Again.refuse (fun c => ?_) fun c1 => Again.refuse (fun c => ?_) fun c2 => Again.refuse (fun c => ?_) fun c3 => Again.refuse (fun c => ?_) fun c4 => Again.refuse (fun c => ?_) fun c5 => Again.refuse (fun c => ?_) fun c6 => Again.refuse (fun c => ?_) fun c7 => ?_)
      | (refine Again.refuse (fun c => ?_) fun c1 => Again.refuse (fun c => ?_) fun c2 => Again.refuse (fun c => ?_) fun c3 => Again.refuse (fun c => ?_) fun c4 => Again.refuse (fun c => ?_) fun c5 => Again.refuse (fun c => ?_) fun c6 => ?_)
      | (refine Again.refuse (fun c => ?_) fun c1 => Again.refuse (fun c => ?_) fun c2 => Again.refuse (fun c => ?_) fun c3 => Again.refuse (fun c => ?_) fun c4 => Again.refuse (fun c => ?_) fun c5 => ?_)
      | (refine Again.refuse (fun c => ?_) fun c1 => Again.refuse (fun c => ?_) fun c2 => Again.refuse (fun c => ?_) fun c3 => Again.refuse (fun c => ?_) fun c4 => ?_)
      | (refine Again.refuse (fun c => ?_) fun c1 => Again.refuse (fun c => ?_) fun c2 => Again.refuse (fun c => ?_) fun c3 => ?_)
      | (refine Again.refuse (fun c => ?_) fun c1 => Again.refuse (fun c => ?_) fun c2 => ?_)
      | (refine Again.refuse (fun c => ?_) fun c1 => ?_)
      | (refine ?_)
    all_goals
      show completeAIFF _ = _
      rw [← key]; clear key key0 hs k; (try dsimp only); (try simp only [hset]); (try clear hset)
      grind


theorem flac_again (o : OneTrack s tr) (k : Known h tr) : FLAC.completeFLAC h (FLAC.completeFLAC h s).1 = FLAC.completeFLAC h s := by
  show Again (FLAC.completeFLAC h) (FLAC.completeFLAC h s)
  have k1 := k.fmt
  have k3 := k.legal
  have k5 := k.width
  have key : ∀ f, FLAC.completeFLAC h (setF s tr f) = FLAC.completeFLAC h (setF s tr f) := fun _ => rfl
  conv at key => intro f; lhs; unfold FLAC.completeFLAC
  simp only [o.hw, o.hw2, o.h2, o.h3, o.h4, ite_setF] at key
  conv => arg 2; unfold FLAC.completeFLAC
  rw [o.h1]
  dsimp only
  simp only [o.hw, o.hw2, ite_setF, o.h3, o.h4]
  generalize noMetadata s tr = M at *
  simp only [NONE, ULAW, ALAW, IMA, MSADPCM, ALAC, BIG, LITTLE, TWOSCOMP, UNSIGNED, FLOAT, DOUBLE, AFmt.isSigned, AFmt.isUnsigned, AFmt.isInteger, AFmt.isUncompressed,
    AFmt.orderMatters, decide_eq_true_eq, Bool.decide_or, Bool.not_eq_true', Bool.or_eq_true, Bool.or_eq_false_iff, decide_eq_false_iff_not] at key ⊢
  have key0 := key tr.f
  rw [o.h5] at key0
  have hs := trivial
  by_cases c1 : tr.sampleFormatSet = true ∧ tr.f.sampleFormat ≠ 401
  · rw [if_pos c1]
    skip
    all_goals
      show FLAC.completeFLAC h _ = _
      first
      | (rw [← key]; clear key key0 hs k; (try dsimp only); (try simp only [hset]); (try clear hset); grind)
      | (rw [← key0]; clear key key0 hs k; (try clear hset); grind)
  by_cases c2 : tr.sampleWidthSet = true ∧ tr.f.sampleWidth ≠ 16 ∧ tr.f.sampleWidth ≠ 24
  · rw [if_neg c1, if_pos c2]
    skip
    all_goals
      show FLAC.completeFLAC h _ = _
      first
      | (rw [← key]; clear key key0 hs k; (try dsimp only); (try simp only [hset]); (try clear hset); grind)
      | (rw [← key0]; clear key key0 hs k; (try clear hset); grind)
  · rw [if_neg c1, if_neg c2]
    have hset : ∀ g : AFmt, (setSampleFormat g 401 tr.f.sampleWidth).2 =
        { g with sampleFormat := 401, sampleWidth := tr.f.sampleWidth, pcm := intPcm 401 tr.f.sampleWidth } :=
      fun g => set_int g (Or.inl rfl) (by grind)
    rw [hset]
    dsimp only
    refine Again.refuse (fun c => ?_) fun c1 => Again.refuse (fun c => ?_) fun c2 => ?_
    all_goals
      show FLAC.completeFLAC h _ = _
      first
      | (rw [← key]; clear key key0 hs k; (try dsimp only); (try simp only [hset]); (try clear hset); grind)
      | (rw [← key0]; clear key key0 hs k; (try clear hset); grind)

theorem waveFormat_def (tr : TrackSetup) : waveFormat tr =
    if ¬ tr.f.compression = 0 then
      if tr.sampleFormatSet = false then some (setSampleFormat tr.f 401 16).2
      else some (setSampleFormat tr.f tr.f.sampleFormat tr.f.sampleWidth).2
    else if tr.sampleFormatSet = true then
      if tr.f.sampleFormat = 403 then
        if tr.sampleWidthSet = true ∧ tr.f.sampleWidth ≠ 32 then some (setSampleFormat tr.f 403 32).2 else some tr.f
      else if tr.f.sampleFormat = 404 then
        if tr.sampleWidthSet = true ∧ tr.f.sampleWidth ≠ 64 then some (setSampleFormat tr.f 404 64).2 else some tr.f
      else if tr.f.sampleFormat = 402 then
        if tr.sampleWidthSet = true then
          if tr.f.sampleWidth < 1 ∨ tr.f.sampleWidth > 32 then none
          else if tr.f.sampleWidth > 8 then some (setSampleFormat tr.f 401 tr.f.sampleWidth).2 else some tr.f
        else some (setSampleFormat tr.f 402 8).2
      else if tr.f.sampleFormat = 401 then
        if tr.sampleWidthSet = true then
          if tr.f.sampleWidth < 1 ∨ tr.f.sampleWidth > 32 then none
          else if tr.f.sampleWidth ≤ 8 then some (setSampleFormat tr.f 402 tr.f.sampleWidth).2 else some tr.f
        else some (setSampleFormat tr.f 401 16).2
      else some tr.f
    else if tr.sampleWidthSet = false then some { tr.f with sampleWidth := 16, sampleFormat := 401 }
    else if tr.f.sampleWidth < 1 ∨ tr.f.sampleWidth > 32 then none
    else if tr.f.sampleWidth > 8 then some { tr.f with sampleFormat := 401 } else some { tr.f with sampleFormat := 402 } := by
  unfold waveFormat
  simp only [AFmt.isUncompressed, NONE, FLOAT, DOUBLE, UNSIGNED, TWOSCOMP, Bool.not_eq_true', decide_eq_false_iff_not]

/-- The format of a WAVE file is its own format, with either byte order. -/
theorem waveFormat_again (k : Known h tr) : ∃ f, waveFormat tr = some f ∧ f.compression = tr.f.compression ∧ f.byteOrder = tr.f.byteOrder ∧
    f.sampleWidth = tr.f.sampleWidth ∧ ∀ b, waveFormat { tr with f := { f with byteOrder := b } } = some { f with byteOrder := b } := by
  have k1 := k.fmt
  have k2 := k.width
  have k3 := k.legal
  have b1 : ∀ g : AFmt, 1 ≤ g.sampleWidth → g.sampleWidth ≤ 32 → (setSampleFormat g 401 g.sampleWidth).2 = { g with sampleFormat := 401, pcm := intPcm 401 g.sampleWidth } :=
    fun g x y => set_int g (Or.inl rfl) ⟨x, y⟩
  have b2 : ∀ g : AFmt, 1 ≤ g.sampleWidth → g.sampleWidth ≤ 32 → (setSampleFormat g 402 g.sampleWidth).2 = { g with sampleFormat := 402, pcm := intPcm 402 g.sampleWidth } :=
    fun g x y => set_int g (Or.inr rfl) ⟨x, y⟩
  have b3 : ∀ g : AFmt, (setSampleFormat g 401 16).2 = { g with sampleFormat := 401, sampleWidth := 16, pcm := intPcm 401 16 } :=
    fun g => set_int g (Or.inl rfl) (by omega)
  have b4 : ∀ g : AFmt, (setSampleFormat g 403 32).2 = { g with sampleFormat := 403, sampleWidth := 32, pcm := ⟨1, 0, 0, 0⟩ } := fun g => rfl
  have b5 : ∀ g : AFmt, (setSampleFormat g 404 64).2 = { g with sampleFormat := 404, sampleWidth := 64, pcm := ⟨1, 0, 0, 0⟩ } := fun g => rfl
  by_cases hc : tr.f.compression = 0
  · by_cases hq : tr.sampleFormatSet = true
    · by_cases hi : tr.f.sampleFormat = 401 ∨ tr.f.sampleFormat = 402
      · by_cases hw : tr.f.sampleWidth ≤ 8
        · by_cases hx : tr.f.sampleFormat = 402
          · refine ⟨tr.f, ?_, rfl, rfl, rfl, fun b => ?_⟩
            · rw [waveFormat_def]; grind
            · rw [waveFormat_def]; dsimp only; grind
          · refine ⟨{ tr.f with sampleFormat := 402, pcm := intPcm 402 tr.f.sampleWidth }, ?_, rfl, rfl, rfl, fun b => ?_⟩
            · rw [waveFormat_def]; grind
            · rw [waveFormat_def]; dsimp only; grind
        · by_cases hx : tr.f.sampleFormat = 401
          · refine ⟨tr.f, ?_, rfl, rfl, rfl, fun b => ?_⟩
            · rw [waveFormat_def]; grind
            · rw [waveFormat_def]; dsimp only; grind
          · refine ⟨{ tr.f with sampleFormat := 401, pcm := intPcm 401 tr.f.sampleWidth }, ?_, rfl, rfl, rfl, fun b => ?_⟩
            · rw [waveFormat_def]; grind
            · rw [waveFormat_def]; dsimp only; grind
      · refine ⟨tr.f, ?_, rfl, rfl, rfl, fun b => ?_⟩
        · rw [waveFormat_def]; grind
        · rw [waveFormat_def]; dsimp only; grind
    · obtain ⟨e1, e2⟩ := k1 (by simpa using hq)
      refine ⟨{ tr.f with sampleWidth := 16, sampleFormat := 401 }, ?_, rfl, rfl, e2.symm, fun b => ?_⟩
      · rw [waveFormat_def]; grind
      · rw [waveFormat_def]; dsimp only; grind
  · by_cases hq : tr.sampleFormatSet = true
    · rcases k3 with ⟨e1 | e1, e2⟩ | ⟨e1, e2⟩ | ⟨e1, e2⟩
      · refine ⟨{ tr.f with pcm := intPcm 401 tr.f.sampleWidth }, ?_, rfl, rfl, rfl, fun b => ?_⟩
        · rw [waveFormat_def]; grind
        · rw [waveFormat_def]; dsimp only; rw [if_pos hc, if_neg (by simp [hq]), e1, set_int _ (Or.inl rfl) e2]
      · refine ⟨{ tr.f with pcm := intPcm 402 tr.f.sampleWidth }, ?_, rfl, rfl, rfl, fun b => ?_⟩
        · rw [waveFormat_def]; grind
        · rw [waveFormat_def]; dsimp only; rw [if_pos hc, if_neg (by simp [hq]), e1, set_int _ (Or.inr rfl) e2]
      · refine ⟨{ tr.f with pcm := ⟨1, 0, 0, 0⟩ }, ?_, rfl, rfl, rfl, fun b => ?_⟩
        · rw [waveFormat_def]; grind
        · rw [waveFormat_def]; dsimp only; rw [if_pos hc, if_neg (by simp [hq]), e1, e2]; rfl
      · refine ⟨{ tr.f with pcm := ⟨1, 0, 0, 0⟩ }, ?_, rfl, rfl, rfl, fun b => ?_⟩
        · rw [waveFormat_def]; grind
        · rw [waveFormat_def]; dsimp only; rw [if_pos hc, if_neg (by simp [hq]), e1, e2]; rfl
    · obtain ⟨e1, e2⟩ := k1 (by simpa using hq)
      refine ⟨{ tr.f with sampleWidth := 16, sampleFormat := 401, pcm := intPcm 401 16 }, ?_, rfl, rfl, e2.symm, fun b => ?_⟩
      · rw [waveFormat_def]; grind
      · rw [waveFormat_def]; dsimp only; grind

theorem completeWAVE_eq (s : Setup) : completeWAVE s = match theTrack s with
    | none => (s, none)
    | some tr => match waveFormat tr with
      | none => (s, none)
      | some f =>
        if f.compression ≠ NONE ∧ f.compression ≠ ULAW ∧ f.compression ≠ ALAW ∧ f.compression ≠ IMA ∧ f.compression ≠ MSADPCM then (s.withFormat f, none)
        else if f.isUncompressed ∧ tr.byteOrderSet ∧ f.byteOrder ≠ LITTLE ∧ f.orderMatters then (s.withFormat f, none)
        else
          let s := if f.isUncompressed then (s.withFormat f).withFormat { f with byteOrder := LITTLE } else s.withFormat f
          if tr.aesDataSet then (s, none)
          else if s.instrumentSet ∧ s.instruments.length > 1 then (s, none)
          else if s.miscellaneousSet ∧ s.miscellaneous.any (fun m => !([201, 202, 203, 211, 212, 210].contains m.type)) then (s, none)
          else (s, some (filesetupCopy s .wave 0 false)) := by
  unfold completeWAVE waveFormat
  rfl

theorem wave_again (o : OneTrack s tr) (k : Known h tr) : completeWAVE (completeWAVE s).1 = completeWAVE s := by
  obtain ⟨f, hf, e1, e2, e3, hb⟩ := waveFormat_again k
  show Again completeWAVE (completeWAVE s)
  have hb1 := hb f.byteOrder
  have hb2 := hb 502
  have key1 := completeWAVE_eq (setF s tr f)
  have key2 := completeWAVE_eq (setF s tr { f with byteOrder := 502 })
  rw [o.h2] at key1 key2
  change waveFormat { tr with f := f } = some f at hb1
  dsimp only at key1 key2
  rw [hb1] at key1
  rw [hb2] at key2
  rw [completeWAVE_eq s, o.h1]
  dsimp only
  rw [hf]
  dsimp only at key1 key2 ⊢
  simp only [o.hw, o.hw2, ite_setF, setF_insts, setF_instSet, setF_miscSet, setF_misc] at key1 key2 ⊢
  simp only [NONE, ULAW, ALAW, IMA, MSADPCM, ALAC, BIG, LITTLE, TWOSCOMP, UNSIGNED, FLOAT, DOUBLE, AFmt.isSigned, AFmt.isUnsigned, AFmt.isInteger, AFmt.isUncompressed,
    AFmt.orderMatters, decide_eq_true_eq, Bool.decide_or, Bool.not_eq_true', Bool.or_eq_true, Bool.or_eq_false_iff, decide_eq_false_iff_not] at key1 key2 ⊢
  by_cases hz : f.compression = 0
  all_goals
    simp only [hz, if_true, if_false, true_and, false_and, ne_eq, not_true_eq_false, not_false_eq_true] at key1 key2 ⊢
    clear hb hb1 hb2 hf k
    refine Again.refuse (fun c => ?_) fun c1 => ?_
    · (rw [key1]; clear key1 key2; grind)
    refine Again.refuse (fun c => ?_) fun c3 => ?_
    · first
      | (rw [key2]; clear key1 key2; grind)
      | (rw [key1]; clear key1 key2; grind)
    refine Again.refuse (fun c => ?_) fun c4 => ?_
    · first
      | (rw [key2]; clear key1 key2; grind)
      | (rw [key1]; clear key1 key2; grind)
    refine Again.refuse (fun c => ?_) fun c5 => ?_
    · first
      | (rw [key2]; clear key1 key2; grind)
      | (rw [key1]; clear key1 key2; grind)
    · show completeWAVE _ = _
      first
      | (rw [key2]; clear key1 key2; grind)
      | (rw [key1]; clear key1 key2; grind)

end AF.Create
