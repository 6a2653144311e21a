import Verif.Proof.MSADPCM
/-!
# C22, C23: MS ADPCM

Vocabulary in Verif/Spec/MSADPCM.lean.
-/
namespace AF.MSADPCM
open AF.IMA (column)

def demoSt : St := ⟨100, 3000, 2900⟩
theorem demoSt_valid : demoSt.Valid := by constructor <;> decide

theorem defaultCoefs_moderate : ∀ co ∈ defaultCoefs, Moderate co := by
  intro co h
  simp only [defaultCoefs, List.mem_cons, List.not_mem_nil, or_false] at h
  rcases h with rfl | rfl | rfl | rfl | rfl | rfl | rfl <;> decide

/-! ## C23 -/

/-- **C23**, sequences. For every sequence of 16-bit samples, every moderate coefficient pair and every valid state: no integer
overflow occurs, the decoder fed the encoder's codes produces the encoder's own running values and ends in its state; the values
are 16-bit, and the quantiser step stays between 16 and 65535. -/
theorem C23_decoder_tracks_encoder (co : Coef) (hc : Moderate co) (s : St) (hs : s.Valid) (xs : List Int)
    (hx : ∀ x ∈ xs, -32768 ≤ x ∧ x ≤ 32767) :
    decodeCodes co s (encoderCodes co s xs) = .ok (encoderValues co s xs, encoderState co s xs) ∧
    (encoderCodes co s xs).length = xs.length ∧ (∀ c ∈ encoderCodes co s xs, c < 16) ∧
    (encoderValues co s xs).length = xs.length ∧ (∀ v ∈ encoderValues co s xs, -32768 ≤ v ∧ v ≤ 32767) ∧
    16 ≤ (encoderState co s xs).delta ∧ (encoderState co s xs).delta ≤ 65535 := by
  obtain ⟨h1, h2, h3, h4, h5, h6⟩ := run_ok co hc xs s hs hx
  exact ⟨h1, h4, h3, h5, h6, h2.delta_lo, h2.delta_hi⟩

example : decodeCodes (460, -208) demoSt (encoderCodes (460, -208) demoSt [3100, -32768, 32767]) =
    .ok (encoderValues (460, -208) demoSt [3100, -32768, 32767], encoderState (460, -208) demoSt [3100, -32768, 32767]) :=
  (C23_decoder_tracks_encoder _ (by decide) _ demoSt_valid _ (by simp)).1

/-- **C23**, accuracy: an encoded sample is within half a quantiser step of the input, unless the code is at its limit
(7 or −8). -/
theorem C23_error_bound (co : Coef) (hc : Moderate co) (s : St) (hs : s.Valid) (x : Int) (hx : -32768 ≤ x ∧ x ≤ 32767) :
    ∃ code s', encodeSample s x co = .ok (code, s') ∧
      (2 * ((x - s'.sample1).natAbs : Int) ≤ s.delta ∨ signedCode code = 7 ∨ signedCode code = -8) := by
  obtain ⟨code, s', h, _, _, _, _, hb⟩ := lockstep s hs co hc x hx
  refine ⟨code, s', h, ?_⟩
  rcases hb with h | h | h
  · exact .inl h
  · subst h; exact .inr (.inl (by decide))
  · subst h; exact .inr (.inr (by decide))

example : ∃ code s', encodeSample demoSt 3100 (460, -208) = .ok (code, s') ∧
    (2 * ((3100 - s'.sample1).natAbs : Int) ≤ 100 ∨ signedCode code = 7 ∨ signedCode code = -8) :=
  C23_error_bound _ (by decide) _ demoSt_valid _ (by decide)

/-- **C23, one channel**, all blocks of `2n + 2 ≥ 6` frames and all tables of at most 256 moderate coefficient pairs. The block has
`7 + n` bytes and decodes to the first two samples exactly, followed by the encoder's own reconstruction of the others, from some
valid start state. -/
theorem C23_mono_block (coefs : List Coef) (hm : ∀ co ∈ coefs, Moderate co) (hne : coefs ≠ []) (h256 : coefs.length ≤ 256)
    (n : Nat) (hn : 2 ≤ n) (x0 x1 : Int) (xs : List Int) (hl : xs.length = 2 * n)
    (hx : ∀ x ∈ x0 :: x1 :: xs, -32768 ≤ x ∧ x ≤ 32767) :
    ∃ bytes co delta, encodeBlock coefs 1 (2 * n + 2) ((x0 :: x1 :: xs).map ([·])) = .ok bytes ∧ bytes.length = 7 + n ∧
      co ∈ coefs ∧ St.Valid ⟨delta, x1, x0⟩ ∧
      decodeBlock coefs 1 (2 * n + 2) bytes = .ok ((x0 :: x1 :: encoderValues co ⟨delta, x1, x0⟩ xs).map ([·])) := by
  have hcol : column 0 ((x0 :: x1 :: xs).map ([·])) = x0 :: x1 :: xs := by
    unfold column
    rw [List.filterMap_map]
    have : ((fun f : List Int => f[0]?) ∘ fun x => [x]) = some := rfl
    rw [this, List.filterMap_some]
  obtain ⟨k, d, hk, hkl, d1, d2⟩ := choosePredictor_ok coefs hm hne (x0 :: x1 :: xs) hx (by simp; omega)
  have hv : St.Valid ⟨d, x1, x0⟩ :=
    ⟨d1, by simp only; omega, (hx x1 (by simp)).1, (hx x1 (by simp)).2, (hx x0 (by simp)).1, (hx x0 (by simp)).2⟩
  have hmem : coefs[k] ∈ coefs := List.getElem_mem hkl
  obtain ⟨bs, e1, l1, e2⟩ := mono_ok coefs[k] (hm _ hmem) n ⟨d, x1, x0⟩ xs hv
    (fun x h => hx x (List.mem_cons_of_mem _ (List.mem_cons_of_mem _ h))) hl
  have e2 := e2 []
  rw [List.append_nil] at e2
  have hN : (2 * n + 2 - 2 + 1) / 2 = n := by omega
  have hvl : (encoderValues coefs[k] ⟨d, x1, x0⟩ xs).length = 2 * n := by
    rw [(run_ok _ (hm _ hmem) xs _ hv (fun x h => hx x (List.mem_cons_of_mem _ (List.mem_cons_of_mem _ h)))).2.2.2.2.1, hl]
  refine ⟨[BitVec.ofNat 8 k] ++ le16 d ++ le16 x1 ++ le16 x0 ++ bs, coefs[k], d, ?_, ?_, hmem, hv, ?_⟩
  · simp only [List.map_cons, encodeBlock] at *
    rw [hcol]
    simp only [hk, List.getElem?_eq_getElem hkl, hN, e1, bind, Except.bind, pure, Except.pure]
  · simp [le16, l1]; omega
  · have hkb : (BitVec.ofNat 8 k).toNat = k := by rw [BitVec.toNat_ofNat]; omega
    simp only [le16, List.cons_append, List.nil_append, decodeBlock, coefAt, hkb, List.getElem?_eq_getElem hkl, hN,
      le16_u d (by omega), le16_s x1 (hx x1 (by simp)), le16_s x0 (hx x0 (by simp)), e2, bind, Except.bind,
      List.length_map, hvl]
    rw [if_neg (by omega)]
    rfl

/-- **C23, two channels**, all blocks of `n + 2 ≥ 5` frames: `14 + n` bytes; each channel comes back as its first two samples
followed by the reconstruction of its own encoder. -/
theorem C23_stereo_block (coefs : List Coef) (hm : ∀ co ∈ coefs, Moderate co) (hne : coefs ≠ []) (h256 : coefs.length ≤ 256)
    (n : Nat) (hn : 3 ≤ n) (x0 x1 y0 y1 : Int) (xs ys : List Int) (hl : xs.length = n) (hl' : ys.length = n)
    (hx : ∀ x ∈ x0 :: x1 :: xs, -32768 ≤ x ∧ x ≤ 32767) (hy : ∀ y ∈ y0 :: y1 :: ys, -32768 ≤ y ∧ y ≤ 32767) :
    ∃ bytes co delta co' delta', encodeBlock coefs 2 (n + 2) (zip2 (x0 :: x1 :: xs) (y0 :: y1 :: ys)) = .ok bytes ∧
      bytes.length = 14 + n ∧ co ∈ coefs ∧ co' ∈ coefs ∧ St.Valid ⟨delta, x1, x0⟩ ∧ St.Valid ⟨delta', y1, y0⟩ ∧
      decodeBlock coefs 2 (n + 2) bytes = .ok (zip2 (x0 :: x1 :: encoderValues co ⟨delta, x1, x0⟩ xs)
        (y0 :: y1 :: encoderValues co' ⟨delta', y1, y0⟩ ys)) := by
  have hcols : ∀ (us vs : List Int), us.length = vs.length → column 0 (zip2 us vs) = us ∧ column 1 (zip2 us vs) = vs := by
    intro us
    induction us with
    | nil => intro vs h; cases vs <;> simp at h; exact ⟨rfl, rfl⟩
    | cons u us ih =>
      intro vs h
      cases vs with
      | nil => simp at h
      | cons v vs =>
        have := ih vs (by simpa using h)
        simp only [zip2, column, List.zipWith_cons_cons, List.filterMap_cons] at this ⊢
        simp [this.1, this.2]
  have hc := hcols (x0 :: x1 :: xs) (y0 :: y1 :: ys) (by simp [hl, hl'])
  obtain ⟨k, d, hk, hkl, d1, d2⟩ := choosePredictor_ok coefs hm hne (x0 :: x1 :: xs) hx (by simp; omega)
  obtain ⟨k', d', hk', hkl', d1', d2'⟩ := choosePredictor_ok coefs hm hne (y0 :: y1 :: ys) hy (by simp; omega)
  have hv : St.Valid ⟨d, x1, x0⟩ :=
    ⟨d1, by simp only; omega, (hx x1 (by simp)).1, (hx x1 (by simp)).2, (hx x0 (by simp)).1, (hx x0 (by simp)).2⟩
  have hv' : St.Valid ⟨d', y1, y0⟩ :=
    ⟨d1', by simp only; omega, (hy y1 (by simp)).1, (hy y1 (by simp)).2, (hy y0 (by simp)).1, (hy y0 (by simp)).2⟩
  have hmem : coefs[k] ∈ coefs := List.getElem_mem hkl
  have hmem' : coefs[k'] ∈ coefs := List.getElem_mem hkl'
  have hxs : ∀ x ∈ xs, In16 x := fun x h => hx x (List.mem_cons_of_mem _ (List.mem_cons_of_mem _ h))
  have hys : ∀ x ∈ ys, In16 x := fun x h => hy x (List.mem_cons_of_mem _ (List.mem_cons_of_mem _ h))
  obtain ⟨bs, e1, l1, e2⟩ := stereo_ok coefs[k] coefs[k'] (hm _ hmem) (hm _ hmem') n ⟨d, x1, x0⟩ ⟨d', y1, y0⟩ xs ys hv hv' hxs hys hl hl'
  have e2 := e2 []
  rw [List.append_nil] at e2
  have hvl : (zip2 (encoderValues coefs[k] ⟨d, x1, x0⟩ xs) (encoderValues coefs[k'] ⟨d', y1, y0⟩ ys)).length = n := by
    simp only [zip2, List.length_zipWith, (run_ok _ (hm _ hmem) xs _ hv hxs).2.2.2.2.1, (run_ok _ (hm _ hmem') ys _ hv' hys).2.2.2.2.1]
    omega
  refine ⟨[BitVec.ofNat 8 k, BitVec.ofNat 8 k'] ++ (le16 d ++ le16 d') ++ (le16 x1 ++ le16 y1) ++ (le16 x0 ++ le16 y0) ++ bs,
    coefs[k], d, coefs[k'], d', ?_, ?_, hmem, hmem', hv, hv', ?_⟩
  · have hz : zip2 (x0 :: x1 :: xs) (y0 :: y1 :: ys) = [x0, y0] :: [x1, y1] :: zip2 xs ys := rfl
    rw [hz] at hc ⊢
    simp only [encodeBlock, hc.1, hc.2, hk, hk', List.getElem?_eq_getElem hkl, List.getElem?_eq_getElem hkl',
      show n + 2 - 2 = n by omega, e1, bind, Except.bind, pure, Except.pure]
  · simp [le16, l1]; omega
  · have hkb : (BitVec.ofNat 8 k).toNat = k := by rw [BitVec.toNat_ofNat]; omega
    have hkb' : (BitVec.ofNat 8 k').toNat = k' := by rw [BitVec.toNat_ofNat]; omega
    simp only [le16, List.cons_append, List.nil_append, decodeBlock, coefAt, hkb, hkb', List.getElem?_eq_getElem hkl,
      List.getElem?_eq_getElem hkl', show n + 2 - 2 = n by omega,
      le16_u d (by omega), le16_u d' (by omega), le16_s x1 (hx x1 (by simp)), le16_s x0 (hx x0 (by simp)),
      le16_s y1 (hy y1 (by simp)), le16_s y0 (hy y0 (by simp)), e2, bind, Except.bind, hvl]
    rw [if_neg (by omega)]
    rfl

/-- **C23** for the files the library writes (WAVE.cpp:1574-1590: the seven standard pairs, 500 frames in 256 bytes per channel). -/
theorem C23_default_sizes (x0 x1 : Int) (xs : List Int) (hl : xs.length = 498)
    (hx : ∀ x ∈ x0 :: x1 :: xs, -32768 ≤ x ∧ x ≤ 32767) (y0 y1 : Int) (ys : List Int) (hl' : ys.length = 498)
    (hy : ∀ y ∈ y0 :: y1 :: ys, -32768 ≤ y ∧ y ≤ 32767) :
    (∃ bytes frames, encodeBlock defaultCoefs 1 500 ((x0 :: x1 :: xs).map ([·])) = .ok bytes ∧ bytes.length = 256 ∧
      decodeBlock defaultCoefs 1 500 bytes = .ok frames ∧ frames.length = 500) ∧
    (∃ bytes frames, encodeBlock defaultCoefs 2 500 (zip2 (x0 :: x1 :: xs) (y0 :: y1 :: ys)) = .ok bytes ∧ bytes.length = 512 ∧
      decodeBlock defaultCoefs 2 500 bytes = .ok frames ∧ frames.length = 500) := by
  have hxs : ∀ x ∈ xs, In16 x := fun x h => hx x (List.mem_cons_of_mem _ (List.mem_cons_of_mem _ h))
  have hys : ∀ x ∈ ys, In16 x := fun x h => hy x (List.mem_cons_of_mem _ (List.mem_cons_of_mem _ h))
  constructor
  · obtain ⟨b, co, d, h1, h2, h3, h4, h5⟩ := C23_mono_block defaultCoefs defaultCoefs_moderate (by decide) (by decide) 249 (by decide) x0 x1 xs hl hx
    refine ⟨b, _, h1, h2, h5, ?_⟩
    rw [List.length_map, List.length_cons, List.length_cons,
      (run_ok _ (defaultCoefs_moderate _ h3) xs _ h4 hxs).2.2.2.2.1, hl]
  · obtain ⟨b, co, d, co', d', h1, h2, h3, h3', h4, h4', h5⟩ := C23_stereo_block defaultCoefs defaultCoefs_moderate (by decide) (by decide)
      498 (by decide) x0 x1 y0 y1 xs ys hl hl' hx hy
    refine ⟨b, _, h1, h2, h5, ?_⟩
    simp only [zip2, List.length_zipWith, List.length_cons, (run_ok _ (defaultCoefs_moderate _ h3) xs _ h4 hxs).2.2.2.2.1,
      (run_ok _ (defaultCoefs_moderate _ h3') ys _ h4' hys).2.2.2.2.1, hl, hl']
    decide

example : ∃ bytes, encodeBlock defaultCoefs 1 6 [[1], [2], [30], [-400], [32767], [-32768]] = .ok bytes ∧ bytes.length = 9 := by
  obtain ⟨b, _, _, h, l, _⟩ := C23_mono_block defaultCoefs defaultCoefs_moderate (by decide) (by decide) 2 (by decide) 1 2
    [30, -400, 32767, -32768] rfl (by simp)
  exact ⟨b, h, l⟩

/-! ## C22 for MS ADPCM -/

/-- **C22 is false for MS ADPCM** (a): a predictor index beyond the coefficients of the file selects memory that was never
written. -/
theorem C22_negation_msadpcm_predictor :
    decodeBlock defaultCoefs 1 6 [7, 16, 0, 0, 0, 0, 0, 0, 0] = .error .uninitialised := by decide +kernel

/-- **C22 is false for MS ADPCM** (b): the step grows without limit, so a block with large codes overflows `int`. -/
theorem C22_negation_msadpcm_overflow :
    decodeBlock defaultCoefs 1 12 [0, 0xff, 0xff, 0, 0, 0, 0, 0x88, 0x88, 0x88, 0x88, 0x88] = .error .signedOverflow := by
  decide +kernel

/-- **C22 is false for MS ADPCM** (c): with more than two channels, which opening the file reports but accepts, the decoder leaves
its arrays; with a block shorter than its header it reads past the end. -/
theorem C22_negation_msadpcm_channels (coefs : List Coef) (fpp : Nat) (bytes : List Byte) :
    decodeBlock coefs 3 fpp bytes = .error .bufferOverflow ∧ decodeBlock coefs 1 fpp [] = .error .bufferOverflow := ⟨rfl, rfl⟩

/-- **C22, positive part for MS ADPCM**: a one-channel block the decoder accepts yields 16-bit samples whatever its bytes are. -/
theorem decodeSample_range (s : St) (code : Nat) (co : Coef) (x : Int) (s' : St) (h : decodeSample s code co = .ok (x, s')) :
    -32768 ≤ x ∧ x ≤ 32767 := by
  unfold decodeSample at h
  simp only [bind, Except.bind, pure, Except.pure] at h
  repeat' split at h
  all_goals cases h
  exact ⟨IMA.clamp_lo _ _ _ (by decide), IMA.clamp_hi _ _ _ (by decide)⟩

/-- A computation that stays within its arrays and uses only what was written; what can go wrong is that a product or a sum
leaves the range of `int`. -/
def WithinArrays {α : Type} (r : Except Abort α) : Prop := (∃ a, r = .ok a) ∨ r = .error .signedOverflow

theorem int32_cases (x : Int) : int32 x = .ok x ∨ int32 x = .error .signedOverflow := by
  unfold int32; split
  · exact .inl rfl
  · exact .inr rfl

theorem decodeSample_within (s : St) (code : Nat) (co : Coef) (hc : code < 16) : WithinArrays (decodeSample s code co) := by
  unfold decodeSample predict adapt
  have ht : ∃ a, IMA.tableAt adaptationTable (code : Int) = .ok a := by
    unfold IMA.tableAt
    rw [if_neg (by omega), Int.toNat_natCast, List.getElem?_eq_getElem (h := by show code < 16; exact hc)]
    exact ⟨_, rfl⟩
  obtain ⟨a, ha⟩ := ht
  simp only [bind, Except.bind, pure, Except.pure, ha]
  rcases int32_cases (s.sample1 * co.1 + s.sample2 * co.2) with h | h <;> rw [h] <;> dsimp only
  · rcases int32_cases (signedCode code * s.delta) with h | h <;> rw [h] <;> dsimp only
    · rcases int32_cases (sar (s.sample1 * co.1 + s.sample2 * co.2) 8 + signedCode code * s.delta) with h | h <;> rw [h] <;> dsimp only
      · rcases int32_cases (s.delta * a) with h | h <;> rw [h] <;> dsimp only
        · exact .inl ⟨_, rfl⟩
        · exact .inr rfl
      · exact .inr rfl
    · exact .inr rfl
  · exact .inr rfl

theorem nibble_lt (b : Byte) : b.toNat >>> 4 < 16 ∧ b.toNat &&& 0xf < 16 := by
  have h := b.isLt
  constructor
  · rw [Nat.shiftRight_eq_div_pow]; omega
  · have : b.toNat &&& 15 ≤ 15 := Nat.and_le_right
    omega

theorem decodeMono_within (co : Coef) (n : Nat) : ∀ (s : St) (bs : List Byte), n ≤ bs.length →
    WithinArrays (decodeMono co n s bs) ∧ ∀ fs, decodeMono co n s bs = .ok fs → fs.length = 2 * n ∧
      ∀ f ∈ fs, ∃ x, f = [x] ∧ -32768 ≤ x ∧ x ≤ 32767 := by
  induction n with
  | zero =>
    intro s bs _
    refine ⟨.inl ⟨[], rfl⟩, fun fs h => ?_⟩
    have : fs = [] := by cases h; rfl
    subst this
    exact ⟨rfl, by simp⟩
  | succ n ih =>
    intro s bs hb
    match bs, hb with
    | b :: bs, hb =>
      have hb' : n ≤ bs.length := by simpa using hb
      unfold decodeMono
      simp only [bind, Except.bind, pure, Except.pure]
      rcases decodeSample_within s (b.toNat >>> 4) co (nibble_lt b).1 with ⟨⟨x, s1⟩, h1⟩ | h1 <;> rw [h1] <;> dsimp only
      · rcases decodeSample_within s1 (b.toNat &&& 0xf) co (nibble_lt b).2 with ⟨⟨y, s2⟩, h2⟩ | h2 <;> rw [h2] <;> dsimp only
        · obtain ⟨i1, i2⟩ := ih s2 bs hb'
          rcases i1 with ⟨fs, h3⟩ | h3 <;> rw [h3] <;> dsimp only
          · refine ⟨.inl ⟨_, rfl⟩, fun fs' h => ?_⟩
            cases h
            obtain ⟨j1, j2⟩ := i2 fs h3
            refine ⟨by simp only [List.length_cons, j1]; omega, fun f hf => ?_⟩
            rcases List.mem_cons.1 hf with rfl | hf
            · exact ⟨x, rfl, decodeSample_range _ _ _ _ _ h1⟩
            rcases List.mem_cons.1 hf with rfl | hf
            · exact ⟨y, rfl, decodeSample_range _ _ _ _ _ h2⟩
            · exact j2 f hf
          · exact ⟨.inr rfl, fun _ h => by cases h⟩
        · exact ⟨.inr rfl, fun _ h => by cases h⟩
      · exact ⟨.inr rfl, fun _ h => by cases h⟩

theorem decodeStereo_within (co0 co1 : Coef) (n : Nat) : ∀ (s0 s1 : St) (bs : List Byte), n ≤ bs.length →
    WithinArrays (decodeStereo co0 co1 n s0 s1 bs) ∧ ∀ fs, decodeStereo co0 co1 n s0 s1 bs = .ok fs → fs.length = n ∧
      ∀ f ∈ fs, ∃ x y, f = [x, y] ∧ -32768 ≤ x ∧ x ≤ 32767 ∧ -32768 ≤ y ∧ y ≤ 32767 := by
  induction n with
  | zero =>
    intro s0 s1 bs _
    refine ⟨.inl ⟨[], rfl⟩, fun fs h => ?_⟩
    have : fs = [] := by cases h; rfl
    subst this
    exact ⟨rfl, by simp⟩
  | succ n ih =>
    intro s0 s1 bs hb
    match bs, hb with
    | b :: bs, hb =>
      have hb' : n ≤ bs.length := by simpa using hb
      unfold decodeStereo
      simp only [bind, Except.bind, pure, Except.pure]
      rcases decodeSample_within s0 (b.toNat >>> 4) co0 (nibble_lt b).1 with ⟨⟨x, t0⟩, h1⟩ | h1 <;> rw [h1] <;> dsimp only
      · rcases decodeSample_within s1 (b.toNat &&& 0xf) co1 (nibble_lt b).2 with ⟨⟨y, t1⟩, h2⟩ | h2 <;> rw [h2] <;> dsimp only
        · obtain ⟨i1, i2⟩ := ih t0 t1 bs hb'
          rcases i1 with ⟨fs, h3⟩ | h3 <;> rw [h3] <;> dsimp only
          · refine ⟨.inl ⟨_, rfl⟩, fun fs' h => ?_⟩
            cases h
            obtain ⟨j1, j2⟩ := i2 fs h3
            refine ⟨by simp only [List.length_cons, j1], fun f hf => ?_⟩
            rcases List.mem_cons.1 hf with rfl | hf
            · have a := decodeSample_range _ _ _ _ _ h1
              have b := decodeSample_range _ _ _ _ _ h2
              exact ⟨x, y, rfl, a.1, a.2, b.1, b.2⟩
            · exact j2 f hf
          · exact ⟨.inr rfl, fun _ h => by cases h⟩
        · exact ⟨.inr rfl, fun _ h => by cases h⟩
      · exact ⟨.inr rfl, fun _ h => by cases h⟩

theorem wrap16_range (x : Int) : -32768 ≤ wrapS 16 x ∧ wrapS 16 x ≤ 32767 := by
  unfold wrapS
  have h1 := Int.le_bmod (x := x) (m := 2 ^ 16) (by decide)
  have h2 := Int.bmod_lt (x := x) (m := 2 ^ 16) (by decide)
  omega

theorem coefAt_cases (coefs : List Coef) (b : Byte) :
    (b.toNat < coefs.length ∧ ∃ co, coefAt coefs b = .ok co) ∨ (coefs.length ≤ b.toNat ∧ coefAt coefs b = .error .uninitialised) := by
  unfold coefAt
  by_cases h : b.toNat < coefs.length
  · rw [List.getElem?_eq_getElem h]; exact .inl ⟨h, _, rfl⟩
  · rw [List.getElem?_eq_none (by omega)]; exact .inr ⟨by omega, rfl⟩

theorem split7 (l : List Byte) (h : 7 ≤ l.length) : ∃ a b c d e f g t, l = a :: b :: c :: d :: e :: f :: g :: t := by
  rcases l with _ | ⟨a, _ | ⟨b, _ | ⟨c, _ | ⟨d, _ | ⟨e, _ | ⟨f, _ | ⟨g, t⟩⟩⟩⟩⟩⟩⟩
  all_goals first
    | exact ⟨a, b, c, d, e, f, g, t, rfl⟩
    | simp at h

/-- **C22, MS ADPCM, one channel**, exactly: a block that is long enough for an even number of frames is decoded within the
codec's arrays if and only if its predictor index is one of the coefficient pairs of the file. The library does not check this
(the check is an assertion, which is compiled out). -/
theorem C22_ms_mono_safe_iff (coefs : List Coef) (n : Nat) (bytes : List Byte) (hl : 7 + n ≤ bytes.length) :
    WithinArrays (decodeBlock coefs 1 (2 * n + 2) bytes) ↔ ∀ b, bytes[0]? = some b → b.toNat < coefs.length := by
  obtain ⟨i, d0, d1, p0, p1, q0, q1, bs, rfl⟩ := split7 bytes (by omega)
  · have hl' : n ≤ bs.length := by simp only [List.length_cons] at hl; omega
    have hr : (2 * n + 2 - 2 + 1) / 2 = n := by omega
    show WithinArrays (decodeBlock coefs 1 (2 * n + 2) (i :: d0 :: d1 :: p0 :: p1 :: q0 :: q1 :: bs)) ↔
      ∀ b, some i = some b → b.toNat < coefs.length
    unfold decodeBlock
    simp only [bind, Except.bind, pure, Except.pure, hr]
    rcases coefAt_cases coefs i with ⟨h1, co, h2⟩ | ⟨h1, h2⟩ <;> rw [h2] <;> dsimp only
    · refine ⟨fun _ b e => by cases e; exact h1, fun _ => ?_⟩
      obtain ⟨k1, k2⟩ := decodeMono_within co n ⟨u16 d0 d1, wrapS 16 (u16 p0 p1), wrapS 16 (u16 q0 q1)⟩ bs hl'
      rcases k1 with ⟨fs, e⟩ | e <;> rw [e] <;> dsimp only
      · have := (k2 fs e).1
        rw [if_neg (by omega)]
        exact .inl ⟨_, rfl⟩
      · exact .inr rfl
    · constructor
      · rintro (⟨a, h⟩ | h) <;> cases h
      · intro h
        have := h i rfl
        omega

/-- **C22, MS ADPCM, two channels**, exactly. -/
theorem C22_ms_stereo_safe_iff (coefs : List Coef) (n : Nat) (bytes : List Byte) (hl : 14 + n ≤ bytes.length) :
    WithinArrays (decodeBlock coefs 2 (n + 2) bytes) ↔
      ∀ k, k < 2 → ∀ b, bytes[k]? = some b → b.toNat < coefs.length := by
  obtain ⟨i, j, d0, d1, e0, e1, p0, bs', rfl⟩ := split7 bytes (by omega)
  obtain ⟨p1, r0, r1, q0, q1, t0, t1, bs, rfl⟩ := split7 bs' (by simp only [List.length_cons] at hl; omega)
  · have hl' : n ≤ bs.length := by simp only [List.length_cons] at hl; omega
    have key : (∀ k, k < 2 → ∀ b, (i :: j :: d0 :: d1 :: e0 :: e1 :: p0 :: p1 :: r0 :: r1 :: q0 :: q1 :: t0 :: t1 :: bs)[k]? = some b →
        b.toNat < coefs.length) ↔ i.toNat < coefs.length ∧ j.toNat < coefs.length := by
      constructor
      · intro h; exact ⟨h 0 (by decide) i rfl, h 1 (by decide) j rfl⟩
      · intro h k hk b e
        match k, hk with
        | 0, _ => cases e; exact h.1
        | 1, _ => cases e; exact h.2
    rw [key]
    unfold decodeBlock
    simp only [bind, Except.bind, pure, Except.pure, Nat.add_sub_cancel]
    rcases coefAt_cases coefs i with ⟨h1, co, h2⟩ | ⟨h1, h2⟩ <;> rw [h2] <;> dsimp only
    · rcases coefAt_cases coefs j with ⟨g1, co', g2⟩ | ⟨g1, g2⟩ <;> rw [g2] <;> dsimp only
      · refine ⟨fun _ => ⟨h1, g1⟩, fun _ => ?_⟩
        obtain ⟨k1, k2⟩ := decodeStereo_within co co' n ⟨u16 d0 d1, wrapS 16 (u16 p0 p1), wrapS 16 (u16 q0 q1)⟩
          ⟨u16 e0 e1, wrapS 16 (u16 r0 r1), wrapS 16 (u16 t0 t1)⟩ bs hl'
        rcases k1 with ⟨fs, e⟩ | e <;> rw [e] <;> dsimp only
        · have := (k2 fs e).1
          rw [if_neg (by omega)]
          exact .inl ⟨_, rfl⟩
        · exact .inr rfl
      · constructor
        · rintro (⟨a, h⟩ | h) <;> cases h
        · intro h; omega
    · constructor
      · rintro (⟨a, h⟩ | h) <;> cases h
      · intro h; omega

/-- A block with random codes, and predictor 6 of the seven standard ones, is decoded; with predictor 7 it is not. -/
example : WithinArrays (decodeBlock defaultCoefs 1 6 [6, 16, 0, 1, 2, 3, 4, 0x9f, 0x32]) :=
  (C22_ms_mono_safe_iff defaultCoefs 2 _ (by decide)).2 (by intro b e; cases e; decide)
example : ¬ WithinArrays (decodeBlock defaultCoefs 2 4 [6, 7, 0, 0, 0, 0, 0, 0, 0, 0, 0, 0, 0, 0, 1, 2]) := fun h =>
  absurd ((C22_ms_stereo_safe_iff defaultCoefs 2 _ (by decide)).1 h 1 (by decide) 7 rfl) (by decide)

/-- **C22 is false for MS ADPCM** (d): an odd number of frames per block, which is read from the file, makes the one-channel decoder write one
frame more than the block has room for. -/
theorem C22_negation_msadpcm_odd_frames (coefs : List Coef) (n : Nat) (bytes : List Byte) (fs : List (List Int)) :
    decodeBlock coefs 1 (2 * n + 3) bytes ≠ .ok fs := by
  intro h
  match bytes, h with
  | i :: d0 :: d1 :: p0 :: p1 :: q0 :: q1 :: bs, h =>
    have hr : (2 * n + 3 - 2 + 1) / 2 = n + 1 := by omega
    unfold decodeBlock at h
    simp only [bind, Except.bind, pure, Except.pure, hr] at h
    rcases coefAt_cases coefs i with ⟨h1, co, h2⟩ | ⟨h1, h2⟩ <;> rw [h2] at h <;> dsimp only at h
    · by_cases hb : n + 1 ≤ bs.length
      · obtain ⟨k1, k2⟩ := decodeMono_within co (n + 1) ⟨u16 d0 d1, wrapS 16 (u16 p0 p1), wrapS 16 (u16 q0 q1)⟩ bs hb
        rcases k1 with ⟨fs, e⟩ | e <;> rw [e] at h <;> dsimp only at h
        · have := (k2 fs e).1
          rw [if_pos (by omega)] at h
          cases h
        · cases h
      · have short : ∀ (m : Nat) (s : St) (bs : List Byte), bs.length < m → ∀ r, decodeMono co m s bs ≠ .ok r := by
          intro m
          induction m with
          | zero => intro s bs hb; omega
          | succ m ih =>
            intro s bs hb r hr
            match bs, hb with
            | [], _ => cases hr
            | b :: bs, hb =>
              unfold decodeMono at hr
              simp only [bind, Except.bind, pure, Except.pure] at hr
              rcases decodeSample_within s (b.toNat >>> 4) co (nibble_lt b).1 with ⟨⟨x, s1⟩, h1⟩ | h1 <;> rw [h1] at hr <;> dsimp only at hr
              · rcases decodeSample_within s1 (b.toNat &&& 0xf) co (nibble_lt b).2 with ⟨⟨y, s2⟩, h2⟩ | h2 <;> rw [h2] at hr <;> dsimp only at hr
                · cases e : decodeMono co m s2 bs with
                  | error a => rw [e] at hr; cases hr
                  | ok a => exact ih s2 bs (by simpa using hb) a e
                · cases hr
              · cases hr
        cases e : decodeMono co (n + 1) ⟨u16 d0 d1, wrapS 16 (u16 p0 p1), wrapS 16 (u16 q0 q1)⟩ bs with
        | error a => rw [e] at h; cases h
        | ok a => exact short _ _ _ (by omega) a e
    · cases h
  | [], h | [_], h | [_, _], h | [_, _, _], h | [_, _, _, _], h | [_, _, _, _, _], h | [_, _, _, _, _, _], h => cases h

end AF.MSADPCM
