import Verif.Proof.IMA
/-!
# C19–C22: IMA ADPCM

Vocabulary in Verif/Spec/IMA.lean: `St.Valid`, `encoderCodes`, `encoderValues` (the encoder's own running reconstruction),
`encoderState`, `decodeCodes`, `stepOf`; `column c frames` is the sample sequence of channel `c`.
-/
namespace AF.IMA

/-- A state the codec reaches: value 1000, step 130. -/
def demoSt : St := ⟨1000, 30⟩
theorem demoSt_valid : demoSt.Valid := by constructor <;> decide
theorem initial_valid (ch : Nat) : ∀ s ∈ initial ch, s.Valid := by
  intro s hs
  rw [List.eq_of_mem_replicate hs]
  constructor <;> decide

/-! ## C19 -/

/-- **C19.** For every sample sequence and every codec state: the decoder, started in the encoder's state and fed the
encoder's codes, produces exactly the encoder's own running values and ends in the encoder's state; there is one code (0–15)
and one value per sample, the values are 16-bit, and the final state is again valid (step index 0–88). -/
theorem C19_decoder_tracks_encoder (s : St) (hs : s.Valid) (xs : List Int) :
    decodeCodes s (encoderCodes s xs) = .ok (encoderValues s xs, encoderState s xs) ∧
    (encoderCodes s xs).length = xs.length ∧ (∀ c ∈ encoderCodes s xs, c < 16) ∧
    (encoderValues s xs).length = xs.length ∧ (∀ v ∈ encoderValues s xs, -32768 ≤ v ∧ v ≤ 32767) ∧
    (encoderState s xs).Valid := by
  obtain ⟨h1, h2, h3, h4, h5, h6⟩ := run_ok xs s hs
  exact ⟨h1, h4, h3, h5, h6, h2⟩

example : decodeCodes demoSt (encoderCodes demoSt [1200, -32768, 32767]) =
    .ok (encoderValues demoSt [1200, -32768, 32767], encoderState demoSt [1200, -32768, 32767]) :=
  (C19_decoder_tracks_encoder _ demoSt_valid _).1

/-! ## C20 -/

/-- **C20.** One encoded sample. If the input differs from the running value by less than two steps, the new value is within
an eighth of a step (plus rounding of the step fractions) of the input. If it differs by more (the quantiser is overloaded),
the distance to the input shrinks by almost `15/8` steps and the step index moves up by 8. -/
theorem C20_error_bound (s : St) (hs : s.Valid) (x : Int) (hx : -32768 ≤ x ∧ x ≤ 32767) :
    ∃ code s', encodeSample s x = .ok (code, s') ∧
      (((x - s.prev).natAbs : Int) < 2 * stepOf s → 8 * ((x - s'.prev).natAbs : Int) ≤ stepOf s + 9) ∧
      (2 * stepOf s ≤ ((x - s.prev).natAbs : Int) →
        8 * ((x - s'.prev).natAbs : Int) ≤ 8 * ((x - s.prev).natAbs : Int) - 15 * stepOf s + 17 ∧
        s'.index = min 88 (s.index + 8)) := by
  obtain ⟨code, s', h, _⟩ := lockstep s hs x
  obtain ⟨h1, h2⟩ := quantise s hs x hx code s' h
  exact ⟨code, s', h, h1, h2⟩

example : ∃ code s', encodeSample demoSt 1200 = .ok (code, s') ∧ 8 * ((1200 - s'.prev).natAbs : Int) ≤ 139 := by
  obtain ⟨c, s', h, h1, _⟩ := C20_error_bound demoSt demoSt_valid 1200 (by decide)
  exact ⟨c, s', h, h1 (by decide)⟩

/-- **C20**, consequence: after every sample the running value is either within the step bound of the input or strictly closer to
it than before. -/
theorem C20_never_diverges (s : St) (hs : s.Valid) (x : Int) (hx : -32768 ≤ x ∧ x ≤ 32767) :
    ∃ code s', encodeSample s x = .ok (code, s') ∧
      (8 * ((x - s'.prev).natAbs : Int) ≤ stepOf s + 9 ∨ (x - s'.prev).natAbs < (x - s.prev).natAbs) := by
  obtain ⟨code, s', h, h1, h2⟩ := C20_error_bound s hs x hx
  refine ⟨code, s', h, ?_⟩
  have h7 := (tableAt_step s.index hs.index_lo hs.index_hi).2.1
  change 7 ≤ stepOf s at h7
  by_cases hb : ((x - s.prev).natAbs : Int) < 2 * stepOf s
  · exact .inl (h1 hb)
  · exact .inr (by have := (h2 (by omega)).1; omega)

/-! ## C21 -/

/-- **C21, WAVE layout**, all channel counts and block lengths `8k + 1`. From every valid state the encoder makes a block of
`(4 + 4k) · channels` bytes, and the decoder makes of it `8k + 1` frames: in every channel the value the encoder had at the
start of the block, followed by its reconstructions of the first `8k` samples of the block. (Hence a delay of one frame.) -/
theorem C21_wave_block (k : Nat) (sts : List St) (input : List (List Int)) (hv : ∀ s ∈ sts, s.Valid)
    (hl : input.length = 8 * k + 1) (hf : ∀ f ∈ input, f.length = sts.length) :
    ∃ bytes sts' frames, encodeBlockWAVE (8 * k + 1) sts input = .ok (bytes, sts') ∧
      bytes.length = (4 + 4 * k) * sts.length ∧
      decodeBlockWAVE sts.length (8 * k + 1) bytes = .ok frames ∧
      frames.length = 8 * k + 1 ∧ (∀ f ∈ frames, f.length = sts.length) ∧
      (∀ s ∈ sts', s.Valid) ∧ sts'.length = sts.length ∧
      ∀ i (hi : i < sts.length),
        column i frames = sts[i].prev :: encoderValues sts[i] ((column i input).take (8 * k)) ∧
        sts'[i]? = some (encoderState sts[i] ((column i input).take (8 * k))) := by
  obtain ⟨bytes, sts', frames, h1, h2, h3, h4, h5, rfl, h7⟩ := wave_block_ok k sts input hv (by omega) hf
  refine ⟨bytes, _, frames, h1, h2, h3, h4, h5, ?_, by simp, ?_⟩
  · intro s hs
    obtain ⟨i, hi, rfl⟩ := List.mem_mapIdx.1 hs
    exact (run_ok _ _ (hv _ (List.getElem_mem _))).2.1
  · intro i hi
    exact ⟨h7 i hi, by simp [hi]⟩

/-- The block sizes the library writes (WAVE.cpp:1553-1562: 505 frames in 256 bytes per channel) fit the layout. -/
theorem C21_wave_sizes (sts : List St) (input : List (List Int)) (hv : ∀ s ∈ sts, s.Valid)
    (hl : input.length = 505) (hf : ∀ f ∈ input, f.length = sts.length) :
    ∃ bytes sts' frames, encodeBlockWAVE 505 sts input = .ok (bytes, sts') ∧ bytes.length = 256 * sts.length ∧
      decodeBlockWAVE sts.length 505 bytes = .ok frames ∧ frames.length = 505 := by
  obtain ⟨bytes, sts', frames, h1, h2, h3, h4, _⟩ := C21_wave_block 63 sts input hv hl hf
  exact ⟨bytes, sts', frames, h1, h2, h3, h4⟩

example : ∃ bytes sts' frames, encodeBlockWAVE 9 [demoSt, demoSt] (List.replicate 9 [5, -70]) = .ok (bytes, sts') ∧
    bytes.length = 16 ∧ decodeBlockWAVE 2 9 bytes = .ok frames ∧ frames.length = 9 := by
  obtain ⟨b, s, f, h1, h2, h3, h4, _⟩ := C21_wave_block 1 [demoSt, demoSt] (List.replicate 9 [5, -70])
    (by intro s hs; simp at hs; subst hs; exact demoSt_valid) (by simp)
    (by intro f hf; rw [List.eq_of_mem_replicate hf]; rfl)
  exact ⟨b, s, f, h1, h2, h3, h4⟩

/-- **C21, QuickTime layout** (AIFF-C), all channel counts and even block lengths `2k`: `(2 + k) · channels` bytes, decoded to
`2k` frames which are the encoder's reconstructions of the samples of the block (after it has rounded its running value down
to a multiple of 128, as the header stores only 9 bits of it). -/
theorem C21_qt_block (k : Nat) (sts : List St) (input : List (List Int)) (hv : ∀ s ∈ sts, s.Valid)
    (hl : input.length = 2 * k) (hf : ∀ f ∈ input, f.length = sts.length) :
    ∃ bytes sts' frames, encodeBlockQT (2 * k) sts input = .ok (bytes, sts') ∧
      bytes.length = (2 + k) * sts.length ∧
      decodeBlockQT sts.length (2 * k) bytes = .ok frames ∧
      frames.length = 2 * k ∧ (∀ f ∈ frames, f.length = sts.length) ∧
      (∀ s ∈ sts', s.Valid) ∧ sts'.length = sts.length ∧
      ∀ i (hi : i < sts.length), ∃ start : St, start.Valid ∧ start.index = sts[i].index ∧
        start.prev % 128 = 0 ∧ start.prev ≤ sts[i].prev ∧ sts[i].prev < start.prev + 128 ∧
        column i frames = encoderValues start (column i input) ∧
        sts'[i]? = some (encoderState start (column i input)) := by
  obtain ⟨bytes, sts', frames, h1, h2, h3, h4, h5, rfl, h7⟩ := qt_block_ok k sts input hv (by omega) hf
  have hcl : ∀ i, i < sts.length → (column i input).take (2 * k) = column i input := by
    intro i hi
    apply List.take_of_length_le
    rw [column_length _ _ (fun f h => by rw [hf f h]; omega)]
    omega
  refine ⟨bytes, _, frames, h1, h2, h3, h4, h5, ?_, by simp, ?_⟩
  · intro s hs
    obtain ⟨i, hi, rfl⟩ := List.mem_mapIdx.1 hs
    exact (run_ok _ _ (qtRound_valid _ (hv _ (List.getElem_mem _)))).2.1
  · intro i hi
    refine ⟨qtRound sts[i], qtRound_valid _ (hv _ (List.getElem_mem _)), rfl, ?_, ?_, ?_, ?_, ?_⟩
    · simp only [qtRound]; omega
    · simp only [qtRound]; omega
    · simp only [qtRound]; omega
    · rw [h7 i hi, hcl i hi]
    · simp [hi, hcl i hi]

/-- The block sizes the library writes (AIFF.cpp:1167-1176, CAF.cpp:684-693: 64 frames in 34 bytes per channel) fit the layout. -/
theorem C21_qt_sizes (sts : List St) (input : List (List Int)) (hv : ∀ s ∈ sts, s.Valid)
    (hl : input.length = 64) (hf : ∀ f ∈ input, f.length = sts.length) :
    ∃ bytes sts' frames, encodeBlockQT 64 sts input = .ok (bytes, sts') ∧ bytes.length = 34 * sts.length ∧
      decodeBlockQT sts.length 64 bytes = .ok frames ∧ frames.length = 64 := by
  obtain ⟨bytes, sts', frames, h1, h2, h3, h4, _⟩ := C21_qt_block 32 sts input hv hl hf
  exact ⟨bytes, sts', frames, h1, h2, h3, h4⟩

example : ∃ bytes sts' frames, encodeBlockQT 4 [demoSt] [[5], [6], [7], [-70]] = .ok (bytes, sts') ∧
    bytes.length = 4 ∧ decodeBlockQT 1 4 bytes = .ok frames ∧ frames.length = 4 := by
  obtain ⟨b, s, f, h1, h2, h3, h4, _⟩ := C21_qt_block 2 [demoSt] [[5], [6], [7], [-70]]
    (by intro s hs; simp at hs; subst hs; exact demoSt_valid) (by simp) (by simp)
  exact ⟨b, s, f, h1, h2, h3, h4⟩

/-- **The last frame of a WAVE block is never encoded**: whatever it is, the block, and the state carried to the next one, are
the same. So of every 505 frames written one is lost (the others come back one frame late). -/
theorem C21_negation_wave_drops_last_frame (k : Nat) (sts : List St) (input : List (List Int)) (f f' : List Int)
    (hl : input.length = 8 * k) :
    encodeBlockWAVE (8 * k + 1) sts (input ++ [f]) = encodeBlockWAVE (8 * k + 1) sts (input ++ [f']) := by
  have key : ∀ (k : Nat) (sts : List St) (input : List (List Int)), input.length = 8 * k →
      encodeGroups k sts (input ++ [f]) = encodeGroups k sts (input ++ [f']) := by
    intro k
    induction k with
    | zero => intro sts input _; rfl
    | succ k ih =>
      intro sts input hl
      simp only [encodeGroups]
      have t : ∀ g : List Int, (input ++ [g]).take 8 = input.take 8 ∧ (input ++ [g]).drop 8 = input.drop 8 ++ [g] := by
        intro g
        rw [List.take_append_of_le_length (by omega), List.drop_append_of_le_length (by omega)]
        exact ⟨rfl, rfl⟩
      rw [(t f).1, (t f').1, (t f).2, (t f').2]
      cases encodeGroup (input.take 8) 0 sts with
      | error e => rfl
      | ok r =>
        simp only [bind, Except.bind]
        rw [ih _ _ (by simp; omega)]
  simp only [encodeBlockWAVE, show (8 * k + 1 - 1 + 7) / 8 = k by omega, key k sts input hl]

/-- **The first frame read from a WAVE IMA file is silence**, whatever was written. -/
theorem C21_negation_wave_first_frame (k ch : Nat) (input : List (List Int)) (hl : input.length = 8 * k + 1)
    (hf : ∀ f ∈ input, f.length = ch) :
    ∃ bytes sts' frames, encodeBlockWAVE (8 * k + 1) (initial ch) input = .ok (bytes, sts') ∧
      decodeBlockWAVE ch (8 * k + 1) bytes = .ok frames ∧
      ∀ i, i < ch → (column i frames).head? = some 0 := by
  have hlen : (initial ch).length = ch := by simp [initial]
  obtain ⟨b, s, f, h1, _, h3, _, _, _, _, h8⟩ := C21_wave_block k (initial ch) input (initial_valid ch) hl
    (by rw [hlen]; exact hf)
  rw [hlen] at h3
  refine ⟨b, s, f, h1, h3, ?_⟩
  intro i hi
  rw [(h8 i (by rw [hlen]; exact hi)).1]
  simp [initial]

/-! ## C22 -/

/-- **C22, WAVE layout**, exactly: a block that is long enough is decoded without leaving the codec's tables if and only if
the step index in every channel header is at most 88. The library does not check this. -/
theorem C22_wave_safe_iff (k ch : Nat) (bytes : List Byte) (hl : (4 + 4 * (k + 1)) * ch ≤ bytes.length) :
    (∃ frames, decodeBlockWAVE ch (8 * (k + 1) + 1) bytes = .ok frames) ↔
      ∀ c, c < ch → ∀ b, bytes[4 * c + 2]? = some b → b.toNat ≤ 88 := by
  constructor
  · intro ⟨frames, h⟩ c hc b e
    refine Decidable.byContradiction fun hn => ?_
    rw [wave_bad k ch bytes hl ⟨c, hc, b, e, by omega⟩] at h
    cases h
  · intro h
    obtain ⟨f, e, _⟩ := wave_any (k + 1) ch bytes hl h
    exact ⟨f, e⟩

/-- **C22**: and then the result is `8k + 1` frames of 16-bit samples. -/
theorem C22_wave_result (k ch : Nat) (bytes : List Byte) (hl : (4 + 4 * k) * ch ≤ bytes.length)
    (hb : ∀ c, c < ch → ∀ b, bytes[4 * c + 2]? = some b → b.toNat ≤ 88) :
    ∃ frames, decodeBlockWAVE ch (8 * k + 1) bytes = .ok frames ∧ frames.length = 8 * k + 1 ∧
      (∀ f ∈ frames, f.length = ch) ∧ ∀ f ∈ frames, ∀ x ∈ f, -32768 ≤ x ∧ x ≤ 32767 :=
  wave_any k ch bytes hl hb

/-- **C22, QuickTime layout**, exactly. -/
theorem C22_qt_safe_iff (k ch : Nat) (bytes : List Byte) (hl : (2 + (k + 1)) * ch ≤ bytes.length) :
    (∃ frames, decodeBlockQT ch (2 * (k + 1)) bytes = .ok frames) ↔
      ∀ c, c < ch → ∀ b, bytes[(2 + (k + 1)) * c + 1]? = some b → b.toNat % 128 ≤ 88 := by
  constructor
  · intro ⟨frames, h⟩ c hc b e
    refine Decidable.byContradiction fun hn => ?_
    rw [decodeBlockQT, qt_bad k ch bytes hl ⟨c, hc, b, e, by omega⟩] at h
    cases h
  · intro h
    obtain ⟨cols, e, _⟩ := qt_any (k + 1) ch bytes hl h
    refine ⟨interleave (2 * (k + 1)) cols, ?_⟩
    simp only [decodeBlockQT, e, bind, Except.bind]
    rw [if_neg (by omega)]
    rfl

/-- **C22, WAVE layout**, every block geometry: decoding only ever succeeds when `samplesPerBlock` is one more than a multiple of
eight, and then gives exactly that many frames. For every other number the decoder leaves its buffers. -/
theorem C22_wave_geometry (ch fpp : Nat) (bytes : List Byte) (frames : List (List Int))
    (h : decodeBlockWAVE ch fpp bytes = .ok frames) : fpp % 8 = 1 ∧ frames.length = fpp := by
  simp only [decodeBlockWAVE, bind, Except.bind] at h
  split at h
  · cases h
  rename_i a ea
  split at h
  · cases h
  rename_i out eo
  have hl := waveGroups_length _ _ _ _ eo
  split at h
  · cases h
  rename_i hf
  simp only [pure, Except.pure, Except.ok.injEq] at h
  subst h
  simp only [List.length_cons]
  omega

/-- **C22, QuickTime layout**, every block geometry: decoding only succeeds for an even number of frames per block. -/
theorem C22_qt_geometry (ch fpp : Nat) (bytes : List Byte) (frames : List (List Int))
    (h : decodeBlockQT ch fpp bytes = .ok frames) : fpp % 2 = 0 ∧ frames.length = fpp := by
  simp only [decodeBlockQT, bind, Except.bind] at h
  split at h
  · cases h
  split at h
  · cases h
  rename_i hf
  simp only [pure, Except.pure, Except.ok.injEq] at h
  subst h
  simp [interleave]
  omega

example : ∃ frames, decodeBlockWAVE 1 9 [0x34, 0x12, 88, 0, 0xff, 0x7f, 0, 1] = .ok frames :=
  (C22_wave_safe_iff 0 1 [0x34, 0x12, 88, 0, 0xff, 0x7f, 0, 1] (by decide)).2 (by
    intro c hc b e
    obtain rfl : c = 0 := by omega
    simp at e
    subst e
    decide)

/-- **C22 is false**: a block of the right size whose header says step index 89 makes the decoder read past the step table, in
both layouts. -/
theorem C22_negation_step_index :
    decodeBlockWAVE 1 9 [0, 0, 89, 0, 0, 0, 0, 0] = .error .bufferOverflow ∧
    decodeBlockQT 1 2 [0, 89, 0] = .error .bufferOverflow := by decide +kernel

/-- **C22 is false** (b): WAVE.cpp:326-331 reports a `samplesPerBlock` that does not fit `blockAlign` but carries on; the
decoder then reads past the end of the block (here: 9 frames announced in 4 bytes). -/
theorem C22_negation_block_too_short : decodeBlockWAVE 1 9 [0, 0, 0, 0] = .error .bufferOverflow := by decide +kernel

/-- **C22 is false** (c): and with `samplesPerBlock` not one more than a multiple of eight it stores past the end of the decoded
block (here: 2 frames announced, 9 stored). -/
theorem C22_negation_samples_per_block : decodeBlockWAVE 1 2 [0, 0, 0, 0, 0, 0, 0, 0] = .error .bufferOverflow := by
  decide +kernel

end AF.IMA
