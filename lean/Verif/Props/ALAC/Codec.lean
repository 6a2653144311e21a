import Verif.Proof.ALAC.Codec
/-!
# ALAC

C44 (mixing), C45 (prediction), C46 (entropy coding), C55 (whole packets), C56 (size of a packet), C57 (damaged packets).
-/
namespace AF.ALAC

/-! ## C44 -/

/-- C44: for every pair of `w`-bit samples and all parameters that keep the mixing within 32 bits, the decoder gets the
pair back. -/
theorem C44_mixing_lossless {w mixBits : Nat} {mixRes l r : Int} (hw : 1 ≤ w) (h : w + mixBits ≤ 30)
    (hm : -(2 ^ mixBits : Nat) ≤ mixRes ∧ mixRes ≤ (2 ^ mixBits : Nat)) (hl : IsInt w l) (hr : IsInt w r) :
    unmix mixBits mixRes (mix mixBits mixRes l r).1 (mix mixBits mixRes l r).2 = (l, r) :=
  unmix_mix_all hw h hm hl hr

/-- C44 for the samples as they stand in memory, at each depth and for the mixing parameters of the encoder: taking the
lower bytes off, mixing, unmixing and putting the bytes back gives the samples, and what is mixed takes no more than
`depth - 8 * shiftBytes + 1` bits. -/
theorem C44_samples {d mixRes : Nat} (hd : Depth d) (hm : mixRes ≤ 4) {l r : Int} (hl : InRange d l) (hr : InRange d r) :
    let s := 8 * shiftBytes d
    let uv := mixPair d mixRes (l, r)
    let lr := unmix 2 mixRes uv.1 uv.2
    IsInt (d - s + 1) uv.1 ∧ IsInt (d - s + 1) uv.2 ∧
      store d s lr.1 (shiftedOff s (fetch d l)) = kept d l ∧ store d s lr.2 (shiftedOff s (fetch d r)) = kept d r := by
  have h := mixPair_ok hd hm (x := (l, r)) hl hr
  dsimp only at h ⊢
  refine ⟨h.1, h.2.1, ?_, ?_⟩
  · rw [h.2.2]; exact store_back hd hl
  · rw [h.2.2]; exact store_back hd hr

example : IsInt 16 (-32768) ∧ IsInt 16 32767 ∧ mix 2 3 (-32768) 32767 = (-16385, -65535) ∧
    unmix 2 3 (-16385) (-65535) = (-32768, 32767) := by
  refine ⟨by unfold IsInt; omega, by unfold IsInt; omega, by decide, by decide⟩

/-- The bound on the parameters is needed: 32-bit samples mixed without taking bytes off would not come back (the encoder
always takes two bytes off). -/
theorem C44_wide_lost : ∃ l r : Int, IsInt 32 l ∧ IsInt 32 r ∧
    unmix 2 1 (mix 2 1 l r).1 (mix 2 1 l r).2 ≠ (l, r) :=
  ⟨2 ^ 31 - 1, -2 ^ 31, by unfold IsInt; omega, by unfold IsInt; omega, by decide⟩

/-- 20-bit samples: the library hands the codec three bytes per sample; it takes the upper 20 bits. A sample that uses the
lower four bits is not kept. -/
theorem C44_twenty_bits {mixRes : Nat} (hm : mixRes ≤ 4) {l r : Int} (hl : InRange 20 l) (hr : InRange 20 r) (h : l % 16 ≠ 0) :
    store 20 0 (unmix 2 mixRes (mixPair 20 mixRes (l, r)).1 (mixPair 20 mixRes (l, r)).2).1 0 ≠ l := by
  have h20 : Depth 20 := Or.inr (Or.inl rfl)
  have e := (mixPair_ok h20 hm (x := (l, r)) hl hr).2.2
  have hs : 8 * shiftBytes 20 = 0 := rfl
  rw [e, hs]
  have hb := store_raw h20 hl
  rw [show sar (fetch 20 (l, r).1) 0 = fetch 20 l from by simp [sar], hb]
  unfold kept
  rw [if_pos rfl]
  omega

example : InRange 20 (-5) ∧ (-5 : Int) % 16 ≠ 0 := by unfold InRange; decide

/-! ## C45 -/

/-- C45: the predictor, for every number of coefficients (0 and 31 are the special modes), every coefficients, every width
and every shift: the decoder gets the samples back, and both sides end up with the same coefficients. -/
theorem C45_prediction_lossless {num w denShift : Nat} (h1 : 1 ≤ w) (h2 : w ≤ 32) (coefs : List Int) {xs : List Int}
    (hx : ∀ x ∈ xs, IsInt w x) :
    unpcBlock num w denShift coefs (pcBlock num w denShift coefs xs).1 = (xs, (pcBlock num w denShift coefs xs).2) :=
  pc_roundtrip h1 h2 coefs xs fun x h => wrapS_small h1 (hx x h).1 (hx x h).2

/-- C45: the residuals are integers of the width of the samples, as many as there are samples. -/
theorem C45_residuals {num w denShift : Nat} (h1 : 1 ≤ w) (h2 : w ≤ 32) (coefs : List Int) {xs : List Int}
    (hx : ∀ x ∈ xs, IsInt w x) :
    (pcBlock num w denShift coefs xs).1.length = xs.length ∧ ∀ d ∈ (pcBlock num w denShift coefs xs).1, IsInt w d :=
  ⟨pc_length .., fun d hd => pc_range h1 h2 coefs xs (fun x h => wrapS_small h1 (hx x h).1 (hx x h).2) d hd⟩

/-- The predictor adapts: here the coefficients change, and the residuals are not the samples. -/
example : pcBlock 4 16 9 [300, -200, 50, 0] [100, 200, 400, 800, 1600, 3200, -5000, 7] ≠
    ([100, 200, 400, 800, 1600, 3200, -5000, 7], [300, -200, 50, 0]) ∧
    (pcBlock 4 16 9 [300, -200, 50, 0] [100, 200, 400, 800, 1600, 3200, -5000, 7]).2 ≠ [300, -200, 50, 0] := by
  decide +kernel

/-! ## C46 -/

/-- C46: the entropy coder, for residuals of up to 25 bits (the codec uses at most 21): whatever is in the memory and at
whatever bit it starts, the coder succeeds, leaves the bits before its start alone, and the decoder, given any memory with
the same bits from the start to the end of what was written, gets the residuals back and stops at the end. -/
theorem C46_entropy_lossless {P : Params} (hP : P.OK) {w : Nat} (h1 : 1 ≤ w) (h2 : w ≤ 25) {xs : List Int}
    (hn : xs.length < 2 ^ 32) (hx : ∀ x ∈ xs, IsInt w x) (m : Mem) (start : Nat) :
    ∃ m' stop, dynComp P xs w m start = .ok (m', stop) ∧ start ≤ stop ∧ SameBits m m' 0 start ∧
      ∀ mem byteSize, SameBits m' mem start stop → stop ≤ 8 * byteSize →
        dynDecomp P xs.length w byteSize mem start = .ok (xs, stop) := by
  obtain ⟨bs, -, wr, rd⟩ := comp_roundtrip hP h1 h2 xs hn hx
  obtain ⟨m', e, p⟩ := wr m start
  refine ⟨m', start + bs.length, e, by omega, fun q _ hq => (p.2 q hq).symm, ?_⟩
  intro mem byteSize hs hb
  refine rd mem start byteSize ?_ hb
  intro i hi
  rw [← hs (start + i) (by omega) (by omega)]
  exact p.1 i hi

example : encParams.OK ∧ IsInt 17 (-65536) ∧ IsInt 17 65535 := by
  refine ⟨encParams_ok, by unfold IsInt; omega, by unfold IsInt; omega⟩

/-- What happens to one residual. -/
def oneResidual (w : Nat) (x : Int) (start : Nat) : Bool :=
  match dynComp encParams [x] w (fun _ => 0) start with
  | .ok (m', stop) => decide (dynDecomp encParams 1 w 100 m' start = .ok ([x], stop))
  | .error _ => false

/-- C46 fails for widths of 26 to 31 bits: the function that writes a number in full clears bits before its place. (The
codec does not use these widths.) -/
theorem C46_wide_lost : ∀ w, 26 ≤ w → w ≤ 31 → ∃ x start, IsInt w x ∧ oneResidual w x start = false := by
  intro w h1 h2
  have : w = 26 ∨ w = 27 ∨ w = 28 ∨ w = 29 ∨ w = 30 ∨ w = 31 := by omega
  rcases this with rfl | rfl | rfl | rfl | rfl | rfl
  · exact ⟨2 ^ 25 - 1, 6, by unfold IsInt; omega, by decide +kernel⟩
  · exact ⟨2 ^ 26 - 1, 6, by unfold IsInt; omega, by decide +kernel⟩
  · exact ⟨2 ^ 27 - 1, 6, by unfold IsInt; omega, by decide +kernel⟩
  · exact ⟨2 ^ 28 - 1, 6, by unfold IsInt; omega, by decide +kernel⟩
  · exact ⟨2 ^ 29 - 1, 6, by unfold IsInt; omega, by decide +kernel⟩
  · exact ⟨2 ^ 30 - 1, 6, by unfold IsInt; omega, by decide +kernel⟩

/-- The same experiment with 25 bits succeeds. -/
example : oneResidual 25 (2 ^ 24 - 1) 6 = true := by decide +kernel

/-! ## C55 and C56 -/

/-- C55: a packet of `n` frames of 1 to 8 channels of 16-, 20-, 24- or 32-bit samples, full (`n = frameSize`) or not:
whatever the encoder's search decides and whatever is in its output buffer, encoding succeeds, and decoding the bytes of
the packet, wherever they stand, delivers the number of frames and every sample, and leaves the rest of the buffer alone. -/
theorem C55_packet_lossless {d frameSize channels n : Nat} (hd : Depth d) (h1 : 1 ≤ channels) (h8 : channels ≤ 8)
    {choice : Nat → Choice} (hc : ∀ i, (choice i).OK) {samples : Nat → Int}
    (hs : ∀ k, k < n * channels → InRange d (samples k)) (hn : n ≤ frameSize) (h24 : n < 2 ^ 24) (h9 : 9 ≤ frameSize)
    (m : Mem) :
    ∃ m' size, encode d frameSize channels n choice samples m = .ok (m', size) ∧
      ∀ (file : Mem) (out : Nat → Int), (∀ i, i < size → file i = m' i) →
        decode (configOf frameSize d) size file channels frameSize out =
          .ok ⟨fun k => if k / channels < n then kept d (samples k) else out k, n, false⟩ := by
  obtain ⟨m', size, e, -, -, r⟩ := packet_ok hd h1 h8 hc hs h24 hn h9 m
  refine ⟨m', size, e, fun file out hf => r file out fun p _ hp => ?_⟩
  unfold bitAt
  rw [hf (p / 8) (by omega)]

/-- C56: a packet fits the buffer the library provides for it (modules/ALAC.cpp:268-272), for packets of 16 frames and
more; the library's have 4096. -/
theorem C56_packet_fits {d frameSize channels n : Nat} (hd : Depth d) (h1 : 1 ≤ channels) (h8 : channels ≤ 8)
    {choice : Nat → Choice} (hc : ∀ i, (choice i).OK) {samples : Nat → Int}
    (hs : ∀ k, k < n * channels → InRange d (samples k)) (hn : n ≤ frameSize) (h24 : n < 2 ^ 24) (h16 : 16 ≤ frameSize)
    (m : Mem) :
    ∃ m' size, encode d frameSize channels n choice samples m = .ok (m', size) ∧
      size ≤ frameSize * channels * ((10 + d) / 8) + 1 := by
  obtain ⟨m', size, e, -, l, -⟩ := packet_ok hd h1 h8 hc hs h24 hn (by omega) m
  refine ⟨m', size, e, ?_⟩
  have key : ∀ a b : Nat, n * d + 55 ≤ a * 8 → frameSize * ((10 + d) / 8) = b → a ≤ b →
      size ≤ frameSize * channels * ((10 + d) / 8) + 1 := by
    intro a b h1' h2 h3
    have e1 : frameSize * channels * ((10 + d) / 8) = channels * b := by
      rw [Nat.mul_right_comm, h2, Nat.mul_comm]
    rw [e1]
    have : channels * (n * d + 55) ≤ channels * (b * 8) := Nat.mul_le_mul_left _ (by omega)
    rw [← Nat.mul_assoc] at this
    omega
  have hnd : n * d ≤ frameSize * d := Nat.mul_le_mul_right _ hn
  refine key (frameSize * ((10 + d) / 8)) _ ?_ rfl (Nat.le_refl _)
  rcases hd with rfl | rfl | rfl | rfl <;> omega

/-- A search result that meets the hypotheses. -/
def demoChoice : Choice := ⟨false, 2, 4, 8, [160, -190, 48, -2], [120, -100, 20, 0, 0, 0, 0, 7]⟩

theorem demoChoice_ok : demoChoice.OK :=
  ⟨by decide, by decide, by decide, by decide, by decide, by decide, by decide⟩

/-- Stereo samples that meet the hypotheses. -/
def demoSamples : Nat → Int := fun k => if k < 80 then (k : Int) - 40 else 0

theorem demoSamples_ok : ∀ k, k < 40 * 2 → InRange 16 (demoSamples k) := by
  intro k hk
  unfold InRange demoSamples
  rw [if_pos rfl, if_pos (by omega)]
  omega

/-- The demo packet is compressed: 71 bytes instead of 167 (160 of samples and 7 of headers). -/
example : ∃ m' size, encode 16 4096 2 40 (fun _ => demoChoice) demoSamples (fun _ => 0xff) = .ok (m', size) ∧ size = 71 := by
  have h : (match encode 16 4096 2 40 (fun _ => demoChoice) demoSamples (fun _ => 0xff) with
    | .ok (_, size) => size | .error _ => 0) = 71 := by decide +kernel
  split at h
  · rename_i m' size e
    exact ⟨m', size, e, h⟩
  · omega

/-! ## C57 -/

/-- C57 fails: a packet can announce more frames than a packet may have, and the decoder writes that many samples to
buffers made for `frameLength` frames. Whatever the configuration in the file and the number of frames announced beyond it,
there is a packet of seven bytes that does it. -/
theorem C57_damaged_packet {cfg : Config} {n requested channels : Nat} (hn : cfg.frameLength < n) (h32 : n < 2 ^ 32)
    (hch : 1 ≤ channels) (out : Nat → Int) :
    ∃ packet : Mem, decode cfg 7 packet channels requested out = .error .undefined := by
  obtain ⟨m, -, p⟩ := putAll_put ([((SCE : Int), 3), (((0 : Nat) : Int), 4)] ++ headerFields cfg.frameLength n 0 1)
    (by
      intro f hf
      rcases List.mem_append.1 hf with hf | hf
      · simp at hf; rcases hf with rfl | rfl <;> simp
      · exact headerFields_le _ _ _ _ f hf) (fun _ => 0) 0
  have hh := p.1
  rw [fieldBits_append, Holds.append, tagBits] at hh
  have htag := tag_read (by decide) hh.1
  refine ⟨m, ?_⟩
  unfold decode
  rw [if_neg (by omega)]
  show decodeLoop cfg 7 m channels requested (56 + 1) 0 0 requested out requested = _
  unfold decodeLoop
  rw [if_neg (by omega)]
  simp only [htag]
  rw [if_pos (Or.inl True.intro)]
  have hd := decHeader_ok (pos := 3) (requested := requested) h32 (by omega) (by omega) (by omega) hh.2
  unfold decodeMono
  simp only [bind, Except.bind, Nat.zero_add, hd]
  rw [if_pos (Or.inl hn)]
  rfl

example : (configOf 4096 16).frameLength < 5000 := by decide

end AF.ALAC
