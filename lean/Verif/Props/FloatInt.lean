import Verif.Proof.FloatInt
import Verif.Proof.Convert
/-! # C10 and C11: floating-point samples to integers, channel mixing -/
namespace AF.Convert
open Dbl

/-! ## C10

`m` and `b` are the factor and offset between the two PCM mappings (`m = slope_out / slope_in`,
`b = intercept_out − m · intercept_in`), `lo` and `hi` the clip values of the output mapping; they are integers, and fit
the output type, as in all default mappings. `rnd` is any rounding that keeps order. -/

/-- Exact arithmetic, and rounding to integers, are possible roundings: the hypotheses can be met. -/
example : Rounding Dbl.fin := ⟨by simp, by intro p q h; simpa [lt, Rat.not_lt] using h⟩
example : Rounding (fun q => Dbl.fin q.floor) :=
  ⟨by simp, by intro p q h; simpa [lt, Rat.not_lt] using Rat.intCast_le_intCast.2 (Rat.floor_monotone h)⟩

/-- **C10** (saturation). Every number, however large, and both infinities become a sample between the clip values. -/
theorem C10_saturates (rnd : Rat → Dbl) (hr : Rounding rnd) (o : FC) (m b : Rat) (hm : m ≠ 0) (lo hi : Int) (hle : lo ≤ hi)
    (hlo : -2 ^ (8 * o.storage - 1) ≤ lo) (hhi : hi < 2 ^ (8 * o.storage - 1)) (x : Dbl) (hx : x ≠ .nan) :
    ∃ k, floatToIntSample rnd o m b lo hi x = some k ∧ lo ≤ k ∧ k ≤ hi := by
  have hle' : (lo : Rat) ≤ (hi : Rat) := Rat.intCast_le_intCast.2 hle
  refine ⟨_, floatToIntSample_eq hr o m b hm lo hi hle hlo hhi x hx, ?_⟩
  obtain ⟨h1, h2⟩ := clipVal_range lo hi hle' (add rnd (mul rnd (fin m) x) (fin b))
  exact truncRat_bounds _ lo hi h1 h2

/-- **C10** (beyond the clip values). The samples beyond are set to the clip values themselves. -/
theorem C10_clips (rnd : Rat → Dbl) (hr : Rounding rnd) (o : FC) (m b : Rat) (hm : m ≠ 0) (lo hi : Int) (hle : lo ≤ hi)
    (hlo : -2 ^ (8 * o.storage - 1) ≤ lo) (hhi : hi < 2 ^ (8 * o.storage - 1)) (x : Rat)
    (he : rnd (m * x) = .fin (m * x)) (he' : rnd (m * x + b) = .fin (m * x + b)) :
    ((hi : Rat) ≤ m * x + b → floatToIntSample rnd o m b lo hi (.fin x) = some hi) ∧
    (m * x + b ≤ (lo : Rat) → floatToIntSample rnd o m b lo hi (.fin x) = some lo) := by
  have hle' : (lo : Rat) ≤ (hi : Rat) := Rat.intCast_le_intCast.2 hle
  have e := floatToIntSample_eq hr o m b hm lo hi hle hlo hhi (.fin x) (by simp)
  simp only [mul, he, add, he', clipVal] at e
  have ti : ∀ z : Int, truncRat (z : Rat) = z := by
    intro z
    have := truncRat_bounds (z : Rat) z z (by grind) (by grind)
    omega
  constructor
  · intro h
    rw [e]
    by_cases h1 : (hi : Rat) < m * x + b
    · simp [h1, ti]
    · have : m * x + b = (hi : Rat) := by grind
      rw [this]; simp [Rat.not_lt.2 hle', ti]
  · intro h
    rw [e]
    have h1 : ¬ (hi : Rat) < m * x + b := by grind
    by_cases h2 : m * x + b < (lo : Rat)
    · simp [h1, h2, ti]
    · have : m * x + b = (lo : Rat) := by grind
      rw [this]; simp [Rat.not_lt.2 hle', ti]

/-- **C10** (accuracy). A number whose image lies between the clip values is off by less than one unit (the
computation of the image being exact, as it is for the default mappings, where `m` is a power of two and `b` = 0). -/
theorem C10_accuracy (rnd : Rat → Dbl) (hr : Rounding rnd) (o : FC) (m b : Rat) (hm : m ≠ 0) (lo hi : Int) (hle : lo ≤ hi)
    (hlo : -2 ^ (8 * o.storage - 1) ≤ lo) (hhi : hi < 2 ^ (8 * o.storage - 1)) (x : Rat)
    (he : rnd (m * x) = .fin (m * x)) (he' : rnd (m * x + b) = .fin (m * x + b))
    (h1 : (lo : Rat) ≤ m * x + b) (h2 : m * x + b ≤ (hi : Rat)) :
    ∃ k : Int, floatToIntSample rnd o m b lo hi (.fin x) = some k ∧
      (k : Rat) - (m * x + b) < 1 ∧ (m * x + b) - (k : Rat) < 1 := by
  refine ⟨_, floatToIntSample_eq hr o m b hm lo hi hle hlo hhi (.fin x) (by simp), ?_⟩
  simp only [mul, he, add, he', clipVal, Rat.not_lt.2 h1, Rat.not_lt.2 h2, if_false]
  exact truncRat_err _

/-- **C10** (monotone). A larger number never becomes a smaller sample. -/
theorem C10_monotone (rnd : Rat → Dbl) (hr : Rounding rnd) (o : FC) (m b : Rat) (hm : 0 < m) (lo hi : Int) (hle : lo ≤ hi)
    (hlo : -2 ^ (8 * o.storage - 1) ≤ lo) (hhi : hi < 2 ^ (8 * o.storage - 1)) (x y : Dbl) (hx : x ≠ .nan) (hy : y ≠ .nan)
    (hxy : lt y x = false) :
    ∃ k l, floatToIntSample rnd o m b lo hi x = some k ∧ floatToIntSample rnd o m b lo hi y = some l ∧ k ≤ l := by
  have hm0 : m ≠ 0 := by grind
  have hle' : (lo : Rat) ≤ (hi : Rat) := Rat.intCast_le_intCast.2 hle
  refine ⟨_, _, floatToIntSample_eq hr o m b hm0 lo hi hle hlo hhi x hx,
    floatToIntSample_eq hr o m b hm0 lo hi hle hlo hhi y hy, truncRat_mono ?_⟩
  exact clipVal_mono _ _ hle' (lin_notNan hr m b hm0 x hx) (lin_notNan hr m b hm0 y hy)
    (add_mono hr _ _ (mul_notNan hr m hm0 x hx) (mul_notNan hr m hm0 y hy) (mul_mono hr m hm x y hx hy hxy) b)

example : floatToIntSample .fin .int16 32768 0 (-32768) 32767 (.fin (1/3)) = some 10922 := by decide +kernel
example : floatToIntSample .fin .int16 32768 0 (-32768) 32767 (.fin 1) = some 32767 := by decide +kernel
example : floatToIntSample .fin .int32 (2 ^ 31) 0 (-2 ^ 31) (2 ^ 31 - 1) (.inf true) = some (-2 ^ 31) := by decide +kernel

/-- **C10 is false for NaN**: the comparisons of the clipping let it through, and converting it is undefined. -/
theorem C10_negation_nan (rnd : Rat → Dbl) (o : FC) (m b lo hi : Rat) : floatToIntSample rnd o m b lo hi .nan = none := by
  simp [floatToIntSample, mul, add, Dbl.min, Dbl.max, lt, toInt]

/-- **C10 is false for mappings without clipping.** Equal clip values mean "do not clip" everywhere else in the chain
(ModuleState.cpp:366, 419); here they make every sample the same. -/
theorem C10_negation_unclipped_mapping :
    floatToIntSample .fin .int16 32768 0 0 0 (.fin (1/2)) = some 0 ∧
    floatToIntSample .fin .int16 32768 0 0 0 (.fin (-1/4)) = some 0 := by
  constructor <;> decide +kernel

/-! ### Integer samples with user-set clip values (`afSetTrackPCMMapping`, `afSetVirtualPCMMapping`) -/

/-- **C10** (integers). The clipping module leaves the samples between the clip values alone and sets the others to the
nearer clip value. -/
theorem C10_integer_clip (h : Endian) (fm : Module → List Byte → List Byte) (B : Nat) (hB : 1 ≤ B ∧ B ≤ 4) (p : PCM) (lo hi : Int)
    (hlo : p.minClip = lo) (hhi : p.maxClip = hi) (hle : lo ≤ hi) (xs : List Int) (hxs : ∀ x ∈ xs, Spec.SampleRange B false x) :
    (Module.clip (fcOf B) p).run h fm (Spec.userBytes h B xs) =
      Spec.userBytes h B (xs.map fun x => if x < lo then lo else if hi < x then hi else x) := by
  have ti : ∀ z : Int, truncRat (z : Rat) = z := by
    intro z; unfold truncRat; split
    · rw [← Rat.intCast_neg, Rat.floor_intCast]; omega
    · rw [Rat.floor_intCast]
  have hint := fcOf_int B hB
  simp only [Module.run, hint, if_true, Spec.userBytes]
  rw [storage_user B hB, mapSamples_flatMap _ (by rw [← storage_user B hB]; exact fc_pos B hB) _ _ _
    (fun x _ => toBytes_length h _ x), List.flatMap_map]
  refine flatMap_congr' fun x hx => ?_
  have hr := hxs x hx
  simp only [Spec.SampleRange] at hr
  have hsv : sval h (toBytes h (Spec.userSize B) x) = x := by
    rw [sval_toBytes]
    have hB' : B = 1 ∨ B = 2 ∨ B = 3 ∨ B = 4 := by omega
    rcases hB' with rfl | rfl | rfl | rfl <;> exact wrapS_of_range (by decide)
      (by simp [Spec.userSize] at hr ⊢; omega) (by simp [Spec.userSize] at hr ⊢; omega)
  unfold clipSample
  rw [hsv, hlo, hhi, ti, ti, storage_user B hB]
  congr 1
  split
  · omega
  · split <;> omega

/-- **C10** (integers, in the chain). Reading signed native-order samples of a track whose mapping has the clip values `lo < hi`
(not the type's own) and otherwise the default scale delivers the samples clipped to them. -/
theorem C10_integer_clip_chain (h : Endian) (fm : Module → List Byte → List Byte) (isReading : Bool) (f : Fmt) (B : Nat)
    (hf : IntFmt f B false) (hB : B ≠ 3) (hn : f.byteOrder = h) (lo hi : Int) (hle : lo < hi)
    (hnt : ¬ (lo = -2 ^ (8 * B - 1) ∧ hi = 2 ^ (8 * B - 1) - 1)) (xs : List Int) (hxs : ∀ x ∈ xs, Spec.SampleRange B false x) :
    ∃ c, arrange h isReading { f with pcm := ⟨(defaultSigned B).slope, (defaultSigned B).intercept, lo, hi⟩ } f = some c ∧
      runAll h fm c.mods (Spec.userBytes h B xs) =
        Spec.userBytes h B (xs.map fun x => if x < lo then lo else if hi < x then hi else x) := by
  subst hn
  have hr := hf.range
  obtain ⟨p, hp⟩ : ∃ p : PCM, p = ⟨(defaultSigned B).slope, (defaultSigned B).intercept, lo, hi⟩ := ⟨_, rfl⟩
  rw [← hp]
  have hcode := hf.code
  have hbp : f.bytesPerSample false = B := bps_false hf.fmt hf.bytes
  have hun : f.isUnsigned = false := by simp [Fmt.isUnsigned, hf.fmt]
  have hcode' : ({ f with pcm := p } : Fmt).code = some (fcOf B) := by
    rw [← hcode]; rfl
  refine ⟨_, by simp only [arrange, hcode, hcode']; rfl, ?_⟩
  have hq : p.minClip < p.maxClip := by rw [hp]; exact Rat.intCast_lt_intCast.2 hle
  have hBc : B = 1 ∨ B = 2 ∨ B = 4 := by omega
  have htriv : isTrivialIntClip p (fcOf B) = false := by
    simp only [hp, isTrivialIntClip, intMapping_fcOf B hr, decide_eq_false_iff_not]
    rintro ⟨e1, e2⟩
    apply hnt
    constructor
    · apply Rat.intCast_inj.1; rw [e1]; rcases hBc with rfl | rfl | rfl <;> decide +kernel
    · apply Rat.intCast_inj.1; rw [e2]; rcases hBc with rfl | rfl | rfl <;> decide +kernel
  have htriv' : isTrivialIntClip (defaultSigned B) (fcOf B) = true := by
    simp [isTrivialIntClip, intMapping_fcOf B hr]
  have e : toSigned isReading { f with pcm := p } (fcOf B)
      (toNative f.byteOrder isReading { f with pcm := p }
        ⟨[], { f with pcm := p }⟩) =
      ⟨[], { f with pcm := p }⟩ := by
    have hbp' : ({ f with pcm := p } : Fmt).bytesPerSample false = B := hbp
    have hun' : ({ f with pcm := p } : Fmt).isUnsigned = false := hun
    simp [toSigned, toNative, Chain.addIf, hbp', hB, hun']
  rw [e, outPCM_default hf]
  have htr : transforming p (defaultSigned B) (fcOf B) (fcOf B) = false := by
    simp [transforming, hp]
  have hint := fcOf_int B hr
  simp only [middle, htr, htriv, htriv', hint, hq, Chain.addIf, Chain.add]
  simp [toOutput, hun, hbp, hB, Chain.addIf, hint]
  have := C10_integer_clip f.byteOrder fm B hr p lo hi (by rw [hp]) (by rw [hp]) (by omega) xs hxs
  simpa [runAll] using this

example : (Module.clip .int16 ⟨32768, 0, -100, 200⟩).run .little (fun _ b => b) (Spec.userBytes .little 2 [-101, 5, 32767]) =
    Spec.userBytes .little 2 [-100, 5, 200] := by
  have := C10_integer_clip .little (fun _ b => b) 2 (by decide) ⟨32768, 0, -100, 200⟩ (-100) 200 (by decide +kernel)
    (by decide +kernel) (by decide) [-101, 5, 32767] (by simp [Spec.SampleRange])
  exact this

/-! ## C11 -/

/-- A sample fits the C type it is stored in. -/
def Fits (c : FC) (x : Int) : Prop := -2 ^ (8 * c.storage - 1) ≤ x ∧ x < 2 ^ (8 * c.storage - 1)

theorem storeInt_int (c : FC) (x : Int) (hx : Fits c x) : storeInt c (x : Rat) = some x := by
  have := truncRat_bounds (x : Rat) x x (by grind) (by grind)
  have e : truncRat (x : Rat) = x := by omega
  simp only [storeInt, toInt, e]
  exact if_pos hx

theorem fits_zero (c : FC) : Fits c 0 := by cases c <;> simp [Fits, FC.storage]

theorem range4 : List.range 4 = [0, 1, 2, 3] := rfl

/-- **C11** (mono to stereo): both channels get the sample. -/
theorem C11_mono_to_stereo (c : FC) (xs : List Int) (hxs : ∀ x ∈ xs, Fits c x) :
    mixInts c (defaultWeight 1 2) 2 (xs.map fun x => [x]) = xs.map fun x => [some x, some x] := by
  unfold mixInts
  rw [List.map_map]
  apply List.map_congr_left
  intro x hx
  have := storeInt_int c x (hxs x hx)
  simp [mixFrame, defaultWeight, List.range, List.range.loop, Rat.mul_one, Rat.add_zero, this]

/-- **C11** (mono or stereo to four channels): the front channels get the sample(s), the others are silent. -/
theorem C11_to_four (c : FC) (ls : List (Int × Int)) (hls : ∀ p ∈ ls, Fits c p.1 ∧ Fits c p.2) :
    mixInts c (defaultWeight 1 4) 4 (ls.map fun p => [p.1]) = (ls.map fun p => [some p.1, some p.1, some 0, some 0]) ∧
    mixInts c (defaultWeight 2 4) 4 (ls.map fun p => [p.1, p.2]) = (ls.map fun p => [some p.1, some p.2, some 0, some 0]) := by
  have h0 : storeInt c 0 = some 0 := storeInt_int c 0 (fits_zero c)
  unfold mixInts
  rw [List.map_map, List.map_map]
  constructor <;> apply List.map_congr_left <;> intro p hp <;>
    simp [mixFrame, defaultWeight, range4, Rat.mul_one, Rat.add_zero, Rat.zero_add, Rat.mul_zero, h0,
      storeInt_int c _ (hls p hp).1, storeInt_int c _ (hls p hp).2]

theorem tdiv_two (s : Int) : (0 ≤ s → s.tdiv 2 = s / 2) ∧ (s < 0 → s.tdiv 2 = -((-s) / 2)) := by
  refine ⟨fun h => Int.tdiv_eq_ediv_of_nonneg h, fun h => ?_⟩
  have : s = -(-s) := by omega
  rw [this, Int.neg_tdiv, Int.tdiv_eq_ediv_of_nonneg (by omega)]
  omega

theorem truncRat_half (s : Int) : truncRat ((s : Rat) / 2) = s.tdiv 2 := by
  unfold truncRat
  split
  · next hq =>
    have h0 : s < 0 := by
      rw [← Rat.intCast_lt_intCast]; simp; grind
    have h1 : (-((s : Rat) / 2)).floor = (-s) / 2 := by
      have a : (-s) / 2 ≤ (-((s : Rat) / 2)).floor := by
        rw [Rat.le_floor_iff]
        have h : ((2 * ((-s) / 2) : Int) : Rat) ≤ ((-s : Int) : Rat) := Rat.intCast_le_intCast.2 (by omega)
        rw [Rat.intCast_mul, Rat.intCast_neg] at h
        have : ((2 : Int) : Rat) = 2 := rfl
        grind
      have b : (-((s : Rat) / 2)).floor < (-s) / 2 + 1 := by
        rw [Rat.floor_lt_iff]
        have h : ((-s : Int) : Rat) < ((2 * ((-s) / 2 + 1) : Int) : Rat) := Rat.intCast_lt_intCast.2 (by omega)
        rw [Rat.intCast_mul, Rat.intCast_neg] at h
        have : ((2 : Int) : Rat) = 2 := rfl
        grind
      omega
    rw [h1, (tdiv_two s).2 h0]
  · next hq =>
    have h0 : 0 ≤ s := by
      rw [← Rat.intCast_le_intCast]; simp; grind
    have h1 : ((s : Rat) / 2).floor = s / 2 := by
      have a : s / 2 ≤ ((s : Rat) / 2).floor := by
        rw [Rat.le_floor_iff]
        have h : ((2 * (s / 2) : Int) : Rat) ≤ (s : Rat) := Rat.intCast_le_intCast.2 (by omega)
        rw [Rat.intCast_mul] at h
        have : ((2 : Int) : Rat) = 2 := rfl
        grind
      have b : ((s : Rat) / 2).floor < s / 2 + 1 := by
        rw [Rat.floor_lt_iff]
        have h : (s : Rat) < ((2 * (s / 2 + 1) : Int) : Rat) := Rat.intCast_lt_intCast.2 (by omega)
        rw [Rat.intCast_mul] at h
        have : ((2 : Int) : Rat) = 2 := rfl
        grind
      omega
    rw [h1, (tdiv_two s).1 h0]

/-- **C11** (stereo to mono): the mean of the two samples, rounded towards zero; it always fits. -/
theorem C11_stereo_to_mono (c : FC) (ls : List (Int × Int)) (hls : ∀ p ∈ ls, Fits c p.1 ∧ Fits c p.2) :
    mixInts c (defaultWeight 2 1) 1 (ls.map fun p => [p.1, p.2]) = ls.map fun p => [some ((p.1 + p.2).tdiv 2)] := by
  unfold mixInts
  rw [List.map_map]
  apply List.map_congr_left
  intro p hp
  have e : truncRat (((p.1 : Rat) * (1/2)) + (p.2 : Rat) * (1/2)) = (p.1 + p.2).tdiv 2 := by
    have hs : ((p.1 : Rat) * (1/2)) + (p.2 : Rat) * (1/2) = ((p.1 + p.2 : Int) : Rat) / 2 := by
      rw [Rat.intCast_add]; grind
    rw [hs]
    exact truncRat_half _
  have hf : Fits c ((p.1 + p.2).tdiv 2) := by
    obtain ⟨⟨a1, a2⟩, b1, b2⟩ := hls p hp
    have ht := tdiv_two (p.1 + p.2)
    by_cases h0 : 0 ≤ p.1 + p.2
    · have := ht.1 h0
      constructor <;> omega
    · have := ht.2 (by omega)
      constructor <;> omega
  have : storeInt c (((p.1 : Rat) * (1/2)) + (p.2 : Rat) * (1/2)) = some ((p.1 + p.2).tdiv 2) := by
    simp only [storeInt, toInt, e]; exact if_pos hf
  simp [mixFrame, defaultWeight, List.range, List.range.loop, Rat.add_zero, this]

/-- Channel pairs with an entry in the library's table. -/
def tabled (inC outC : Nat) : Bool :=
  (inC, outC) ∈ [(1, 2), (1, 4), (2, 1), (2, 4), (4, 1), (4, 2)]

theorem sum_identity (j : Nat) : ∀ (fr : List Rat) (k : Nat),
    ((fr.zipIdx k).map fun (x, i) => x * (if i = j then (1 : Rat) else 0)).sum
      = if k ≤ j then fr.getD (j - k) 0 else 0
  | [], k => by simp
  | x :: l, k => by
    rw [List.zipIdx_cons, List.map_cons, List.sum_cons, sum_identity j l (k + 1)]
    by_cases h1 : k = j
    · subst h1; simp [Rat.mul_one, Rat.add_zero, show ¬ k + 1 ≤ k by omega]
    · by_cases h2 : k ≤ j
      · have : j - k = (j - (k + 1)) + 1 := by omega
        simp [h1, h2, show k + 1 ≤ j by omega, Rat.mul_zero, Rat.zero_add, this]
      · simp [h1, h2, show ¬ k + 1 ≤ j by omega, Rat.mul_zero, Rat.zero_add]

/-- **C11** (all other pairs of channel counts): common channels are copied, surplus input channels dropped, surplus
output channels silent. -/
theorem C11_other_counts (c : FC) (inC outC : Nat) (ht : tabled inC outC = false) (frames : List (List Int))
    (hfr : ∀ fr ∈ frames, ∀ x ∈ fr, Fits c x) :
    mixInts c (defaultWeight inC outC) outC frames
      = frames.map fun fr => (List.range outC).map fun j => some (fr.getD j 0) := by
  have hw : defaultWeight inC outC = fun j i => if i = j then 1 else 0 := by
    funext j i
    simp only [tabled, List.mem_cons, Prod.mk.injEq, List.not_mem_nil, or_false, decide_eq_false_iff_not, not_or] at ht
    simp only [defaultWeight, ht, if_false]
  unfold mixInts
  apply List.map_congr_left
  intro fr hm
  unfold mixFrame
  rw [List.map_map]
  apply List.map_congr_left
  intro j _
  simp only [Function.comp, hw]
  rw [sum_identity j _ 0]
  simp only [Nat.zero_le, if_true, Nat.sub_zero]
  have : (List.map (fun x : Int => (x : Rat)) fr).getD j 0 = ((fr.getD j 0 : Int) : Rat) := by
    simp only [List.getD_eq_getElem?_getD, List.getElem?_map]
    cases fr[j]? <;> simp
  rw [this]
  apply storeInt_int
  by_cases hj : j < fr.length
  · rw [List.getD_eq_getElem?_getD, List.getElem?_eq_getElem hj]
    exact hfr fr hm _ (List.getElem_mem hj)
  · rw [List.getD_eq_getElem?_getD, List.getElem?_eq_none (by omega)]
    exact fits_zero c

example : mixInts .int16 (defaultWeight 3 5) 5 [[1, -2, 3], [4, 5, 6]]
    = [[some 1, some (-2), some 3, some 0, some 0], [some 4, some 5, some 6, some 0, some 0]] := by
  rw [C11_other_counts .int16 3 5 rfl]
  · rfl
  · simp [Fits, FC.storage]
example : mixInts .int8 (defaultWeight 2 1) 1 [[127, 126], [-128, -127]] = [[some 126], [some (-127)]] :=
  C11_stereo_to_mono .int8 [(127, 126), (-128, -127)] (by simp [Fits, FC.storage])

/-- **C11** (frame by frame). Output frame `k` is a function of input frame `k` alone, for any matrix. -/
theorem C11_framewise (c : FC) (w : Nat → Nat → Rat) (outC : Nat) (frames frames' : List (List Int)) (k : Nat)
    (hk : frames[k]? = frames'[k]?) : (mixInts c w outC frames)[k]? = (mixInts c w outC frames')[k]? := by
  simp only [mixInts, List.getElem?_map, hk]

/-- **C11** (the user's matrix). Whether reading or writing, the weight between virtual channel `v` and file channel
`f` is entry `v · (file channels) + f` of the matrix given to `afSetChannelMatrix`. -/
theorem C11_user_matrix (matrix : List Rat) (vC fC v f : Nat) :
    weight true fC vC (some matrix) v f = matrix.getD (v * fC + f) 0 ∧
    weight false vC fC (some matrix) f v = matrix.getD (v * fC + f) 0 := ⟨rfl, rfl⟩

theorem not_mem_addIf {c : Chain} {b : Bool} {m x : Module} (h : x ∉ c.mods) (hm : b = true → x ≠ m) :
    x ∉ (c.addIf b m).mods := by
  unfold Chain.addIf
  split
  · next hb => simp [Chain.add, h, hm hb]
  · exact h

/-- **C11** (equal counts). Between formats with the same number of channels nothing is mixed. -/
theorem C11_equal_counts (h : Endian) (isReading : Bool) (i o : Fmt) (hch : i.channels = o.channels) (c : Chain)
    (hc : arrange h isReading i o = some c) : ∀ fc a b p q, Module.channelMatrix fc a b p q ∉ c.mods := by
  intro fc a b p q
  unfold arrange at hc
  split at hc
  · next infc outfc _ _ =>
    simp only [Option.some.injEq] at hc
    subst hc
    unfold toOutput
    refine not_mem_addIf (not_mem_addIf (not_mem_addIf ?_ (by simp)) (by simp)) (by simp)
    unfold middle
    extract_lets c1 tr fc' c2 c3
    have k3 : Module.channelMatrix fc a b p q ∉ c3.mods := by
      refine not_mem_addIf (not_mem_addIf (not_mem_addIf ?_ (by simp)) (by simp)) (by simp)
      unfold toSigned toNative
      exact not_mem_addIf (not_mem_addIf (not_mem_addIf (by simp) (by simp)) (by simp)) (by simp)
    clear_value c3
    generalize hp : (if fc'.isInteger = true ∧ outfc.isInteger = true then
        (c3.addIf (decide (fc' ≠ outfc)) (.convertInt fc' outfc), false)
      else if fc'.isInteger = true then (c3.add (.intToFloat fc' outfc), false)
      else if outfc.isInteger = true then (c3.add (.floatToInt fc' outfc _ _), true)
      else (c3.addIf (decide (fc' ≠ outfc)) (.convertFloat fc' outfc), false)) = r
    have k4 : Module.channelMatrix fc a b p q ∉ r.1.mods := by
      subst hp
      split
      · exact not_mem_addIf k3 (by simp)
      · split
        · simp [Chain.add, k3]
        · split
          · simp [Chain.add, k3]
          · exact not_mem_addIf k3 (by simp)
    obtain ⟨c4, done⟩ := r
    exact not_mem_addIf (not_mem_addIf (not_mem_addIf k4 (by simp)) (by simp [hch])) (by simp)
  · cases hc

/-- **C11** (four channels to one or two), for frames whose mix fits the sample type: half the sum of all four channels rounded
towards zero; front plus rear on each side. Missing: frames whose mix does not fit, see the negation. -/
theorem C11_from_four (c : FC) (ls : List (Int × Int × Int × Int))
    (h1 : ∀ p ∈ ls, Fits c ((p.1 + p.2.1 + p.2.2.1 + p.2.2.2).tdiv 2))
    (h2 : ∀ p ∈ ls, Fits c (p.1 + p.2.2.1) ∧ Fits c (p.2.1 + p.2.2.2)) :
    mixInts c (defaultWeight 4 1) 1 (ls.map fun p => [p.1, p.2.1, p.2.2.1, p.2.2.2])
      = (ls.map fun p => [some ((p.1 + p.2.1 + p.2.2.1 + p.2.2.2).tdiv 2)]) ∧
    mixInts c (defaultWeight 4 2) 2 (ls.map fun p => [p.1, p.2.1, p.2.2.1, p.2.2.2])
      = (ls.map fun p => [some (p.1 + p.2.2.1), some (p.2.1 + p.2.2.2)]) := by
  unfold mixInts
  rw [List.map_map, List.map_map]
  constructor <;> apply List.map_congr_left <;> rintro ⟨w, x, y, z⟩ hp
  · have e : storeInt c ((w : Rat) * (1/2) + ((x : Rat) * (1/2) + ((y : Rat) * (1/2) + (z : Rat) * (1/2))))
        = some ((w + x + y + z).tdiv 2) := by
      have hs : (w : Rat) * (1/2) + ((x : Rat) * (1/2) + ((y : Rat) * (1/2) + (z : Rat) * (1/2)))
          = ((w + x + y + z : Int) : Rat) / 2 := by
        rw [Rat.intCast_add, Rat.intCast_add, Rat.intCast_add]; grind
      simp only [storeInt, toInt, hs, truncRat_half]
      exact if_pos (h1 _ hp)
    simp [mixFrame, defaultWeight, List.range, List.range.loop, Rat.add_zero, e]
  · have e1 := storeInt_int c _ (h2 _ hp).1
    have e2 := storeInt_int c _ (h2 _ hp).2
    simp only [Rat.intCast_add] at e1 e2
    simp [mixFrame, defaultWeight, List.range, List.range.loop, Rat.mul_one, Rat.add_zero, Rat.zero_add, Rat.mul_zero, e1, e2]

example : mixInts .int16 (defaultWeight 4 1) 1 [[100, -3, 20, 30000]] = [[some 15058]] ∧
    mixInts .int16 (defaultWeight 4 2) 2 [[100, -3, 20, 30000]] = [[some 120, some 29997]] :=
  C11_from_four .int16 [(100, -3, 20, 30000)] (by simp [Fits, FC.storage]) (by simp [Fits, FC.storage])

/-- **C11 (range) is false for four channels.** The default matrices to one or two channels add samples with total
weight 2; the sum is stored in the sample type before any clipping, so full-scale input is undefined behaviour. -/
theorem C11_negation_four_channels :
    mixInts .int16 (defaultWeight 4 1) 1 [[32767, 32767, 32767, 32767]] = [[none]] ∧
    mixInts .int16 (defaultWeight 4 2) 2 [[32767, 0, 32767, 0]] = [[none, some 0]] := by
  constructor <;> decide +kernel

end AF.Convert
