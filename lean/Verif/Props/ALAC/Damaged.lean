import Verif.Proof.ALAC.Damaged
/-!
# ALAC: what a damaged packet can do

C57: `Props/ALAC/Codec.lean` has a packet that makes the decoder write past its buffers. Here is the other half: only a packet
with one of the headers listed in `Spec/ALACPacket.lean` can do that.
-/
namespace AF.ALAC
open AF.ALAC.Packet

/-- The elements the decoder comes to, with the number of frames in force there. -/
inductive Reached (cfg : Config) (size : Nat) (m : Mem) (limit : Nat) : Nat → Nat → Prop
  | start : Reached cfg size m limit 0 limit
  | data {p n p'} : Reached cfg size m limit p n → typeOf m p = 4 → dataStreamElement size m (p + 3) = .ok p' →
      Reached cfg size m limit p' n
  | fill {p n p'} : Reached cfg size m limit p n → typeOf m p = 6 → fillElement size m (p + 3) = .ok p' →
      Reached cfg size m limit p' n
  | mono {p n n' xs p'} : Reached cfg size m limit p n → typeOf m p = 0 ∨ typeOf m p = 3 →
      decodeMono cfg size m (p + 3) n limit = .ok (n', xs, p') → Reached cfg size m limit p' n'
  | pair {p n n' xs p'} : Reached cfg size m limit p n → typeOf m p = 1 →
      decodeStereo cfg size m (p + 3) n limit = .ok (n', xs, p') → Reached cfg size m limit p' n'

theorem advance_add {p n : Nat} (h : n < 2 ^ 31) : advance p n = p + n := by
  unfold advance; omega

theorem fillElement_any (size : Nat) (m : Mem) (p : Nat) :
    fillElement size m p = .error .param ∨ ∃ p', fillElement size m p = .ok p' ∧ p ≤ p' := by
  unfold fillElement
  rw [small_fieldAt (by omega), small_fieldAt (by omega)]
  have h1 := fieldAt_lt m p 4
  have h2 := fieldAt_lt m (p + 4) 8
  dsimp only
  rw [advance_add (by omega), advance_add (by omega)]
  generalize hq : (if fieldAt m p 4 = 15 then _ else _) = q
  have : p ≤ q := by split at hq <;> omega
  by_cases h : size < q / 8
  · left; rw [if_pos h]; rfl
  · right; rw [if_neg h]; exact ⟨q, rfl, this⟩

theorem dataElement_any (size : Nat) (m : Mem) (p : Nat) :
    dataStreamElement size m p = .error .param ∨ ∃ p', dataStreamElement size m p = .ok p' ∧ p ≤ p' := by
  unfold dataStreamElement
  rw [small_fieldAt (by omega), small_fieldAt (by omega)]
  have h1 := fieldAt_lt m (p + 5) 8
  have h2 := fieldAt_lt m (p + 13) 8
  dsimp only
  rw [advance_add (by split <;> omega)]
  generalize hc : (if fieldAt m (p + 5) 8 = 255 then p + 21 else p + 13) = c
  have hc' : p ≤ c := by split at hc <;> omega
  generalize hd : (if (bbReadOne m (p + 4)).toNat = 0 then c else byteAlign c) = d
  have hd' : c ≤ d := by
    unfold byteAlign at hd
    split at hd
    · omega
    · split at hd <;> omega
  generalize hq : d + _ = q
  have : p ≤ q := by omega
  by_cases h : size < q / 8
  · left; rw [if_pos h]; rfl
  · right; rw [if_neg h]; exact ⟨q, rfl, this⟩

theorem putChannel_outside {channels c limit : Nat} {xs : List Int} {out : Nat → Int} (hc : 1 ≤ channels) (hx : xs.length ≤ limit)
    {k : Nat} (hk : limit * channels ≤ k) : putChannel channels c xs out k = out k := by
  unfold putChannel
  have := (Nat.le_div_iff_mul_le (by omega)).2 hk
  rw [if_neg (by omega)]

theorem zeroFill_outside {cfg : Config} {channels ci n limit : Nat} {out : Nat → Int} (hc : 1 ≤ channels) (hx : n ≤ limit)
    {k : Nat} (hk : limit * channels ≤ k) : zeroFill cfg channels ci n out k = out k := by
  unfold zeroFill
  have := (Nat.le_div_iff_mul_le (by omega)).2 hk
  rw [if_neg (by omega)]

/-- A call of the decoder that ended well, as far as memory goes. -/
def Within (limit channels : Nat) (out : Nat → Int) (r : Except Stop Decoded) : Prop :=
  ∃ d, r = .ok d ∧ d.frames ≤ limit ∧ ∀ k, limit * channels ≤ k → d.out k = out k

theorem decodeLoop_any {cfg : Config} (hc : cfg.OK) {size channels limit : Nat} (hl : limit ≤ cfg.frameLength) (hch : 1 ≤ channels) {m : Mem}
    (hd : ∀ p n, Reached cfg size m limit p n → p < 8 * size → typeOf m p = 0 ∨ typeOf m p = 1 ∨ typeOf m p = 3 →
      ¬ Damaged limit cfg.frameLength cfg.bitDepth m p) :
    ∀ r pos ci n (out : Nat → Int) frames, Reached cfg size m limit pos n → 8 * size < r + pos → n ≤ limit → frames ≤ limit →
      1 ≤ r → Within limit channels out (decodeLoop cfg size m channels limit r pos ci n out frames) := by
  intro r
  induction r with
  | zero => intros; omega
  | succ r ih =>
    intro pos ci n out frames hr hf hn hfr _
    unfold decodeLoop
    by_cases he : size ≤ pos / 8
    · rw [if_pos he]; exact ⟨_, rfl, hfr, fun _ _ => rfl⟩
    rw [if_neg he, small_fieldAt (by omega)]
    dsimp only
    have hpos : pos < 8 * size := by omega
    have next : ∀ p' ci' n' (out' : Nat → Int) frames', Reached cfg size m limit p' n' → pos + 3 ≤ p' → n' ≤ limit → frames' ≤ limit →
        (∀ k, limit * channels ≤ k → out' k = out k) →
        Within limit channels out (decodeLoop cfg size m channels limit r p' ci' n' out' frames') := by
      intro p' ci' n' out' frames' h1 h2 h3 h4 h5
      by_cases hr0 : r = 0
      · omega
      obtain ⟨d, e, hf, ho⟩ := ih p' ci' n' out' frames' h1 (by omega) h3 h4 (by omega)
      exact ⟨d, e, hf, fun k hk => (ho k hk).trans (h5 k hk)⟩
    by_cases h0 : fieldAt m pos 3 = SCE ∨ fieldAt m pos 3 = LFE
    · rw [if_pos h0]
      have ht : typeOf m pos = 0 ∨ typeOf m pos = 3 := h0
      rcases decodeMono_any hc hl hn (p := pos) (m := m) (by omega) (hd _ _ hr hpos (by omega)) size with e | ⟨n', xs, p', e, hn', hx, hp'⟩
      · rw [e]; exact ⟨_, rfl, hfr, fun _ _ => rfl⟩
      · rw [e]
        dsimp only
        split
        · exact ⟨_, rfl, hn', fun k hk => putChannel_outside hch (by omega) hk⟩
        · exact next _ _ _ _ _ (.mono hr ht e) hp' hn' hn' fun k hk => putChannel_outside hch (by omega) hk
    rw [if_neg h0]
    by_cases h1 : fieldAt m pos 3 = CPE
    · rw [if_pos h1]
      have ht : typeOf m pos = 1 := h1
      by_cases hci : channels < ci + 2
      · rw [if_pos hci]; exact ⟨_, rfl, hfr, fun k hk => zeroFill_outside hch hn hk⟩
      rw [if_neg hci]
      rcases decodeStereo_any hc hl hn (p := pos) (m := m) ht (hd _ _ hr hpos (by omega)) size with e | ⟨n', xs, p', e, hn', hx, hp'⟩
      · rw [e]; exact ⟨_, rfl, hfr, fun _ _ => rfl⟩
      · rw [e]
        dsimp only
        have hput : ∀ k, limit * channels ≤ k →
            putChannel channels (ci + 1) (xs.map Prod.snd) (putChannel channels ci (xs.map Prod.fst) out) k = out k := fun k hk =>
          (putChannel_outside hch (by rw [List.length_map]; omega) hk).trans (putChannel_outside hch (by rw [List.length_map]; omega) hk)
        split
        · exact ⟨_, rfl, hn', hput⟩
        · exact next _ _ _ _ _ (.pair hr ht e) hp' hn' hn' hput
    rw [if_neg h1]
    by_cases h2 : fieldAt m pos 3 = DSE ∨ fieldAt m pos 3 = FIL
    · rw [if_pos h2]
      have : (if fieldAt m pos 3 = DSE then dataStreamElement size m (pos + 3) else fillElement size m (pos + 3)) = .error .param ∨
          ∃ p', (if fieldAt m pos 3 = DSE then dataStreamElement size m (pos + 3) else fillElement size m (pos + 3)) = .ok p' ∧
            pos + 3 ≤ p' ∧ Reached cfg size m limit p' n := by
        by_cases h3 : fieldAt m pos 3 = DSE
        · rw [if_pos h3]
          rcases dataElement_any size m (pos + 3) with e | ⟨p', e, hp⟩
          · exact .inl e
          · exact .inr ⟨p', e, hp, .data hr h3 e⟩
        · rw [if_neg h3]
          rcases fillElement_any size m (pos + 3) with e | ⟨p', e, hp⟩
          · exact .inl e
          · exact .inr ⟨p', e, hp, .fill hr (h2.resolve_left h3) e⟩
      rcases this with e | ⟨p', e, hp, hr'⟩
      · rw [e]; exact ⟨_, rfl, hfr, fun k hk => zeroFill_outside hch hn hk⟩
      · rw [e]; exact next _ _ _ _ _ hr' hp hn hfr fun _ _ => rfl
    rw [if_neg h2]
    split
    · exact ⟨_, rfl, hfr, fun _ _ => rfl⟩
    · exact ⟨_, rfl, hfr, fun k hk => zeroFill_outside hch hn hk⟩

/-- C57, the other half: for every configuration an encoder could have written and every packet, of whatever bytes, either one of
the elements the decoder comes to has a header that no encoder writes (`Spec/ALACPacket.lean`), or the call comes to an end and
writes only to the `limit` frames of the output buffer. (Bits are also read from behind the packet: see below.) -/
theorem C57_within_buffers {cfg : Config} (hc : cfg.OK) {size channels limit : Nat} (hl : limit ≤ cfg.frameLength) (hch : 1 ≤ channels)
    (m : Mem) (out : Nat → Int) :
    (∃ p n, Reached cfg size m limit p n ∧ p < 8 * size ∧ (typeOf m p = 0 ∨ typeOf m p = 1 ∨ typeOf m p = 3) ∧
      Damaged limit cfg.frameLength cfg.bitDepth m p) ∨
    ∃ d, decode cfg size m channels limit out = .ok d ∧ d.frames ≤ limit ∧ ∀ k, limit * channels ≤ k → d.out k = out k := by
  by_cases h : ∃ p n, Reached cfg size m limit p n ∧ p < 8 * size ∧ (typeOf m p = 0 ∨ typeOf m p = 1 ∨ typeOf m p = 3) ∧
      Damaged limit cfg.frameLength cfg.bitDepth m p
  · exact .inl h
  · right
    unfold decode
    rw [if_neg (by omega)]
    exact decodeLoop_any hc hl hch (fun p n hr hp ht hd => h ⟨p, n, hr, hp, ht, hd⟩) _ _ _ _ _ _ .start (by omega) (by omega)
      (by omega) (by omega)

/-- A packet of four bytes: one channel, without a count of its own, not compressed, with room for no sample at all. -/
def shortPacket (behind : Nat) : Mem := fun i => if i = 0 then 0 else if i = 2 then 2 else if i < 4 then 0 else BitVec.ofNat 8 behind

def smallConfig : Config := ⟨4096, 16, 40, 10, 14⟩

/-- It has no header that an encoder would not write … -/
example : smallConfig.OK ∧ typeOf (shortPacket 7) 0 = 0 ∧ ¬ Damaged 2 4096 16 (shortPacket 7) 0 := by
  refine ⟨⟨Or.inl rfl, by decide, by decide, by decide, by decide⟩, by decide, ?_⟩
  have ht : typeOf (shortPacket 7) 0 = 0 := by decide
  have hp : plain (shortPacket 7) 0 = true := by decide
  intro h
  cases h with
  | count h _ => revert h; decide
  | shift _ h => revert h; decide
  | mono _ h _ => rw [hp] at h; cases h
  | width h _ _ _ => rw [ht] at h; cases h
  | mix h _ _ => rw [ht] at h; cases h
  | first h _ _ => rw [ht] at h; cases h
  | second h _ _ => rw [ht] at h; cases h

/-- C57: … and yet what the decoder gives depends on bytes that are not in the packet. -/
theorem C57_reads_behind_packet :
    ∃ m m' : Mem, (∀ i, i < 4 → m i = m' i) ∧
      ∃ d d', decode smallConfig 4 m 1 2 (fun _ => 0) = .ok d ∧ decode smallConfig 4 m' 1 2 (fun _ => 0) = .ok d' ∧
        d.failed = false ∧ d'.failed = false ∧ d.out 1 ≠ d'.out 1 := by
  refine ⟨shortPacket 7, shortPacket 8, ?_, ?_⟩
  · intro i hi; unfold shortPacket; simp only [hi, if_true]
  · exact ⟨_, _, rfl, rfl, by decide +kernel, by decide +kernel, by decide +kernel⟩

end AF.ALAC
