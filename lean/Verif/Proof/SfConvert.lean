import Verif.Model.SfConvert
import Verif.Spec.SfConvert
import Verif.Proof.Program
import Verif.Props.Files.Formats
import Verif.Props.Program
/-! Proofs about `sfconvert`: the samples of a packet, the copying loop. -/
namespace AF.SfConvert
open AF AF.Setup AF.Files AF.Convert AF.Virtual AF.Program AF.Spec AF.Spec.Setup AF.Spec.Formats AF.Spec.Files AF.Spec.Program AF.Spec.SfConvert

/-! ## Pieces -/

theorem pieces_nil {α : Type} (n : Nat) : pieces n ([] : List α) = [] := by
  unfold pieces
  rw [List.length_nil, Nat.zero_div]
  rfl

theorem pieces_cons {α : Type} {n : Nat} (hn : 0 < n) (a l : List α) (ha : a.length = n) : pieces n (a ++ l) = a :: pieces n l := by
  unfold pieces
  have e : (a ++ l).length / n = l.length / n + 1 := by
    rw [List.length_append, ha, Nat.add_comm, Nat.add_div_right _ hn]
  rw [e, List.range_succ_eq_map, List.map_cons, List.map_map]
  congr 1
  · rw [Nat.zero_mul, List.drop_zero, ← ha, List.take_left]
  · apply List.map_congr_left
    intro i _
    show ((a ++ l).drop ((i + 1) * n)).take n = _
    rw [Nat.add_mul, Nat.one_mul, Nat.add_comm, ← List.drop_drop, ← ha, List.drop_left]

/-- Bytes that are a whole number of samples are the bytes of their samples. -/
theorem packed_samples (f : AFmt) {B : Nat} (hB : 0 < B) :
    ∀ (k : Nat) (p : List Byte), p.length = k * B → packedBytes (orderOf f) B ((pieces B p).map (sampleOf f)) = p ∧
      (pieces B p).length = k ∧ ∀ q ∈ pieces B p, q.length = B
  | 0, p, h => by
    have : p = [] := List.length_eq_zero_iff.1 (by omega)
    subst this
    rw [pieces_nil]
    exact ⟨rfl, rfl, fun q hq => by cases hq⟩
  | k + 1, p, h => by
    have hl : (p.take B).length = B := by rw [List.length_take, h, Nat.add_mul]; omega
    obtain ⟨h1, h2, h3⟩ := packed_samples f hB k (p.drop B) (by rw [List.length_drop, h, Nat.add_mul]; omega)
    have e : p = p.take B ++ p.drop B := (List.take_append_drop B p).symm
    rw [e, pieces_cons hB _ _ hl]
    refine ⟨?_, by rw [List.length_cons, h2], ?_⟩
    · unfold packedBytes at *
      rw [List.map_cons, List.flatMap_cons, h1]
      congr 1
      conv => rhs; rw [← toBytes_uintOf (orderOf f) (p.take B), hl]
      unfold sampleOf
      split
      · rw [hl, toBytes_wrapS]
      · rfl
    · intro q hq
      rcases List.mem_cons.1 hq with rfl | hq
      · exact hl
      · exact h3 q hq

theorem uintOf_bounds (e : Endian) (bs : List Byte) : 0 ≤ uintOf e bs ∧ uintOf e bs < 2 ^ (8 * bs.length) := by
  have h2 : ∀ n : Nat, (256 : Int) ^ n = 2 ^ (8 * n) := fun n => by rw [Int.pow_mul]; rfl
  rw [← h2]
  unfold uintOf
  cases e with
  | little => exact ofLE_bounds bs
  | big => have := ofLE_bounds bs.reverse; rw [List.length_reverse] at this; exact this

theorem sampleOf_range {f : AFmt} {u : Bool} (hf : f.sampleFormat = if u then UNSIGNED else TWOSCOMP) {B : Nat} (hB : 0 < B)
    {q : List Byte} (hq : q.length = B) : SampleRange B u (sampleOf f q) := by
  unfold SampleRange sampleOf
  subst hq
  cases u with
  | true =>
    rw [if_pos rfl, if_neg (by rw [hf]; decide)]
    exact uintOf_bounds _ _
  | false =>
    rw [if_neg (by decide), if_pos (by rw [hf]; rfl)]
    unfold wrapS
    have hpos : 0 < 2 ^ (8 * q.length) := Nat.two_pow_pos _
    have h1 := Int.le_bmod (x := uintOf (orderOf f) q) hpos
    have h2 := Int.bmod_lt (x := uintOf (orderOf f) q) hpos
    obtain ⟨k, hk⟩ : ∃ k, 8 * q.length = k + 1 := ⟨8 * q.length - 1, by omega⟩
    rw [hk] at h1 h2 ⊢
    rw [Nat.add_sub_cancel]
    have e : ((2 ^ (k + 1) : Nat) : Int) = 2 * 2 ^ k := by rw [Nat.pow_succ]; push_cast; omega
    have e' : (2 : Int) ^ k = ((2 ^ k : Nat) : Int) := by push_cast; rfl
    rw [e] at h1 h2
    generalize (2 : Int) ^ k = z at *
    omega

/-! ## The format that a track has in the program's memory by default -/

/-- The virtual format of a track opened for reading. -/
def own (h : Endian) (f : AFmt) : Fmt := virtualFormat (readVirtual h f)

theorem own_bytes (h : Endian) {f : AFmt} : bytesOf (own h f) = (f.sampleWidth.toNat + 7) / 8 := rfl

theorem native_order_eq (h : Endian) : (if native h = BIG then Endian.big else .little) = h := by cases h <;> rfl

theorem own_sf (h : Endian) {f : AFmt} {s : Int} (hs : f.sampleFormat = s) : (own h f).sampleFormat =
    if s = UNSIGNED then .unsigned else if s = FLOAT then .float else if s = DOUBLE then .double else .twos := by
  subst hs
  rfl

theorem own_usable (h : Endian) {f : AFmt} (hl : LegalWidth f.sampleFormat f.sampleWidth)
    (hm : f.pcm = defaultMapping f.sampleFormat f.sampleWidth) (hch : 1 ≤ f.channels)
    (h16 : f.compression ≠ NONE → f.sampleFormat = TWOSCOMP ∧ f.sampleWidth = 16) : Usable h f (own h f) := by
  refine ⟨rfl, ?_, .inl (native_order_eq h), ?_⟩
  · show ((f.channels.toNat : Nat) : Int) = f.channels
    omega
  · rcases hl with ⟨hs, h1, h2⟩ | ⟨hs, hw⟩ | ⟨hs, hw⟩
    · refine .inl ⟨⟨?_, ?_, ?_⟩, hs⟩
      · rcases hs with hs | hs
        · exact .inl (own_sf h hs)
        · exact .inr (own_sf h hs)
      · show 1 ≤ f.sampleWidth.toNat ∧ f.sampleWidth.toNat ≤ 32
        omega
      · show f.pcm = defaultMapping _ ((f.sampleWidth.toNat : Nat) : Int)
        rw [hm, Int.toNat_of_nonneg (by omega)]
        rcases hs with hs | hs <;> rw [own_sf h hs, hs] <;> rfl
    · have hz : f.compression = NONE := Decidable.byContradiction fun hz => by
        have := (h16 hz).1
        rw [hs] at this
        revert this; decide
      have e : (own h f).sampleFormat = .float := own_sf h hs
      refine .inr ⟨⟨.inl ⟨e, ?_⟩, ?_⟩, hz, .inl ⟨hs, e⟩⟩
      · show f.sampleWidth.toNat = 32
        rw [hw]
        rfl
      · show f.pcm = _
        rw [hm, hs]
        rfl
    · have hz : f.compression = NONE := Decidable.byContradiction fun hz => by
        have := (h16 hz).1
        rw [hs] at this
        revert this; decide
      have e : (own h f).sampleFormat = .double := own_sf h hs
      refine .inr ⟨⟨.inr ⟨e, ?_⟩, ?_⟩, hz, .inr ⟨hs, e⟩⟩
      · show f.sampleWidth.toNat = 64
        rw [hw]
        rfl
      · show f.pcm = _
        rw [hm, hs]
        rfl

/-! ## One packet -/

theorem convertSample_self (B : Nat) (u : Bool) (x : Int) : convertSample B u B u x = x := by
  unfold convertSample rescale signedValue
  rw [if_pos (Nat.le_refl B), Nat.sub_self, Int.pow_zero, Int.mul_one]
  cases u
  · rfl
  · simp only [if_true]; omega

theorem ulaw_again : ∀ c, c < 256 → G711.ulaw2linear (G711.linear2ulaw (G711.ulaw2linear c)) = G711.ulaw2linear c := by decide +kernel
theorem alaw_again : ∀ c, c < 256 → G711.alaw2linear (G711.linear2alaw (G711.alaw2linear c)) = G711.alaw2linear c := by decide +kernel

theorem orderOf_chain (f : AFmt) : (chainFormat f).byteOrder = orderOf f := rfl

/-- A packet: how many samples it has, their range, and what reaches the program. -/
theorem packet_plays (h : Endian) (fm : Module → List Byte → List Byte) {f : AFmt} (hl : LegalWidth f.sampleFormat f.sampleWidth)
    (hm : f.pcm = defaultMapping f.sampleFormat f.sampleWidth) (hch : 1 ≤ f.channels)
    (hc : f.compression = NONE ∨ f.compression = ULAW ∨ f.compression = ALAW)
    (h16 : f.compression ≠ NONE → f.sampleFormat = TWOSCOMP ∧ f.sampleWidth = 16) {p : List Byte} (hp : p.length = packetSize f) :
    Fits f (own h f) (frameSamples f p) ∧ (frameSamples f p).map (heard f (own h f) (own h f)) = frameSamples f p ∧
    ∀ w, Usable h f w → fromFile h fm w (chainFormat f) (decodeFrame h f p) = delivered f (own h f) w (frameSamples f p) := by
  have hw := width_bytes hl
  have ho := own_usable h hl hm hch h16
  have hB : 0 < ((f.sampleWidth + 7) / 8).toNat := by omega
  have hbo : bytesOf (own h f) = ((f.sampleWidth + 7) / 8).toNat := by
    rw [own_bytes]
    rcases hl with hl | hl | hl <;> omega
  rcases track_kind hl hm with ⟨u, hi, hu, hs⟩ | ⟨hf, hs⟩
  · have huo : ((own h f).sampleFormat == .unsigned) = u := by
      rw [hu]
      rcases hs with hs | hs <;> rw [own_sf h hs, hs] <;> rfl
    have hnf : ¬ ((own h f).sampleFormat = .float ∨ (own h f).sampleFormat = .double) := by
      rcases hs with hs | hs <;> rw [own_sf h hs] <;> decide
    have hheard : ∀ w x, heard f (own h f) w x
        = convertSample ((f.sampleWidth + 7) / 8).toNat u (bytesOf w) (w.sampleFormat == .unsigned) (coded f x) := by
      intro w x
      unfold heard
      rw [if_neg hnf]
      dsimp only
      rw [huo, hbo, ← hu, convertSample_self]
    -- it is enough to know the samples that the codec gives
    suffices hk : ((frameSamples f p).length : Int) = f.channels ∧
        (∀ x ∈ frameSamples f p, SampleRange ((f.sampleWidth + 7) / 8).toNat u x) ∧ (∀ x ∈ frameSamples f p, coded f x = x) ∧
        decodeFrame h f p = packedBytes (fileOrder h (chainFormat f)) ((f.sampleWidth + 7) / 8).toNat (frameSamples f p) by
      obtain ⟨k1, k2, k3, k4⟩ := hk
      refine ⟨⟨k1, fun _ => by rw [hbo, huo]; exact k2⟩, ?_, ?_⟩
      · conv => rhs; rw [← List.map_id (frameSamples f p)]
        apply List.map_congr_left
        intro x hx
        rw [hheard, hbo, huo, convertSample_self, k3 x hx]
        rfl
      · intro w hu
        have hwi : Integer w := by
          rcases hu.kind with ⟨a, -⟩ | ⟨-, -, b⟩
          · exact a
          · rcases hs with hs | hs <;> rw [hs] at b <;> revert b <;> simp [FLOAT, DOUBLE, TWOSCOMP, UNSIGNED]
        rw [k4, int_fromFile h fm w f _ u hwi hu hi _ k2]
        unfold delivered
        congr 1
        apply List.map_congr_left
        intro x hx
        rw [hheard, k3 x hx]
    rcases hc with hz | hz
    · have hps : p.length = f.channels.toNat * ((f.sampleWidth + 7) / 8).toNat := by
        rw [hp]
        unfold packetSize
        rw [if_pos hz, chain_bytes hl, Nat.mul_comm]
      obtain ⟨a, b, c⟩ := packed_samples f hB _ p hps
      have efs : frameSamples f p = (pieces ((f.sampleWidth + 7) / 8).toNat p).map (sampleOf f) := by
        unfold frameSamples
        rw [if_neg (by rw [hz]; decide), if_neg (by rw [hz]; decide)]
      rw [efs]
      refine ⟨by rw [List.length_map, b]; omega, ?_, ?_, ?_⟩
      · intro x hx
        obtain ⟨q, hq, rfl⟩ := List.mem_map.1 hx
        exact sampleOf_range hi.kind hB (c q hq)
      · intro x _
        unfold coded
        rw [if_neg (by rw [hz]; decide), if_neg (by rw [hz]; decide)]
      · have e1 : decodeFrame h f p = p := by
          unfold decodeFrame
          rw [if_neg (by rw [hz]; decide), if_neg (by rw [hz]; decide)]
        have e2 : fileOrder h (chainFormat f) = orderOf f := by
          unfold fileOrder
          rw [if_neg (by simp [chainFormat, hz])]
          rfl
        rw [e1, e2, a]
    · obtain ⟨s1, s2⟩ := h16 (by rcases hz with hz | hz <;> rw [hz] <;> decide)
      have hu' : u = false := by rw [hu, s1]; rfl
      have hb2 : ((f.sampleWidth + 7) / 8).toNat = 2 := by rw [s2]; rfl
      have hps : p.length = f.channels.toNat := by
        rw [hp]
        unfold packetSize
        rw [if_neg (by rcases hz with hz | hz <;> rw [hz] <;> decide)]
      have e2 : fileOrder h (chainFormat f) = h := by
        unfold fileOrder
        rw [if_pos (by rcases hz with hz | hz <;> simp [chainFormat, hz, ULAW, ALAW, NONE])]
      rw [hb2, hu', e2]
      have hlt : ∀ b : Byte, b.toNat < 256 := fun b => b.isLt
      have ran : ∀ x : Int, -32768 ≤ x ∧ x < 32768 → SampleRange 2 false x := by
        intro x hx
        show -2 ^ (8 * 2 - 1) ≤ _ ∧ _ < _
        omega
      rcases hz with hz | hz
      · have efs : frameSamples f p = p.map fun b => G711.ulaw2linear b.toNat := by unfold frameSamples; rw [if_pos hz]
        rw [efs]
        refine ⟨by rw [List.length_map, hps]; omega, ?_, ?_, ?_⟩
        · intro x hx
          obtain ⟨q, -, rfl⟩ := List.mem_map.1 hx
          exact ran _ (ulaw_range _ (hlt q))
        · intro x hx
          obtain ⟨q, -, rfl⟩ := List.mem_map.1 hx
          unfold coded
          rw [if_pos hz]
          exact ulaw_again _ (hlt q)
        · unfold decodeFrame packedBytes
          rw [if_pos hz, List.flatMap_map]
      · have hne : ¬ f.compression = ULAW := by rw [hz]; decide
        have efs : frameSamples f p = p.map fun b => G711.alaw2linear b.toNat := by unfold frameSamples; rw [if_neg hne, if_pos hz]
        rw [efs]
        refine ⟨by rw [List.length_map, hps]; omega, ?_, ?_, ?_⟩
        · intro x hx
          obtain ⟨q, -, rfl⟩ := List.mem_map.1 hx
          exact ran _ (alaw_range _ (hlt q))
        · intro x hx
          obtain ⟨q, -, rfl⟩ := List.mem_map.1 hx
          unfold coded
          rw [if_neg hne, if_pos hz]
          exact alaw_again _ (hlt q)
        · unfold decodeFrame packedBytes
          rw [if_neg hne, if_pos hz, List.flatMap_map]
  · have hz : f.compression = NONE := Decidable.byContradiction fun hz => by
      have := (h16 hz).1
      rcases hs with hs | hs <;> rw [hs] at this <;> revert this <;> decide
    have hfo : (own h f).sampleFormat = .float ∨ (own h f).sampleFormat = .double := by
      rcases hs with hs | hs
      · exact .inl (own_sf h hs)
      · exact .inr (own_sf h hs)
    have hheard : ∀ w, heard f (own h f) w = id := by
      intro w
      funext x
      unfold heard
      rw [if_pos hfo]
      rfl
    have hps : p.length = f.channels.toNat * ((f.sampleWidth + 7) / 8).toNat := by
      rw [hp]
      unfold packetSize
      rw [if_pos hz, chain_bytes hl, Nat.mul_comm]
    obtain ⟨a, b, c⟩ := packed_samples f hB _ p hps
    have efs : frameSamples f p = (pieces ((f.sampleWidth + 7) / 8).toNat p).map (sampleOf f) := by
      unfold frameSamples
      rw [if_neg (by rw [hz]; decide), if_neg (by rw [hz]; decide)]
    have e1 : decodeFrame h f p = p := by
      unfold decodeFrame
      rw [if_neg (by rw [hz]; decide), if_neg (by rw [hz]; decide)]
    rw [efs]
    refine ⟨⟨by rw [List.length_map, b]; omega, fun hi => ?_⟩, by rw [hheard, List.map_id], ?_⟩
    · rcases hi.kind with e | e <;> rcases hfo with e' | e' <;> rw [e] at e' <;> cases e'
    · intro w hu
      unfold delivered
      rw [hheard, List.map_id, e1]
      have hk : Floating w ∧ bytesOf w = ((f.sampleWidth + 7) / 8).toNat := by
        rcases hu.kind with ⟨-, b⟩ | ⟨b1, -, b2⟩
        · rcases hs with hs | hs <;> rw [hs] at b <;> revert b <;> simp [FLOAT, DOUBLE, TWOSCOMP, UNSIGNED]
        · refine ⟨b1, ?_⟩
          unfold bytesOf
          rcases b1.kind with ⟨c1, c2⟩ | ⟨c1, c2⟩ <;> rcases b2 with ⟨d1, d2⟩ | ⟨d1, d2⟩
          · rcases hf.kind with ⟨e1, e2⟩ | ⟨e1, e2⟩
            · rw [e2, c2]
            · rw [d1] at e1; exact absurd e1 (by decide)
          · rw [c1] at d2; cases d2
          · rw [c1] at d2; cases d2
          · rcases hf.kind with ⟨e1, e2⟩ | ⟨e1, e2⟩
            · rw [d1] at e1; exact absurd e1 (by decide)
            · rw [e2, c2]
      have := float_fromFile h fm w f _ hk.1 hu hf hk.2 hz ((pieces ((f.sampleWidth + 7) / 8).toNat p).map (sampleOf f))
      rw [orderOf_chain, a] at this
      exact this

/-! ## Whole files -/

/-- The bytes of the frames, one after another. -/
theorem packets_flatten {α : Type} (b : Nat) : ∀ (n p : Nat) (l : List α),
    ((List.range n).map fun i => (l.drop (p + i * b)).take b).flatten = (l.drop p).take (n * b) := by
  intro n
  induction n with
  | zero => intros; simp
  | succ n ih =>
    intro p l
    rw [List.range_succ_eq_map, List.map_cons, List.map_map, List.flatten_cons]
    have e : ((fun i => (l.drop (p + i * b)).take b) ∘ Nat.succ) = fun i => (l.drop ((p + b) + i * b)).take b := by
      funext i
      show (l.drop (p + (i + 1) * b)).take b = _
      rw [Nat.add_mul, Nat.one_mul, Nat.add_comm (i * b), Nat.add_assoc]
    rw [e, ih, Nat.zero_mul, Nat.add_zero, Nat.add_mul, Nat.one_mul, Nat.add_comm (n * b), List.take_add, List.drop_drop]

/-- A complete file that opens plays back its sound. -/
theorem plays_own (h : Endian) (fm : Module → List Byte → List Byte) {file : List Byte} {t : Trk}
    (hl : LegalWidth t.f.sampleFormat t.f.sampleWidth) (hm : t.f.pcm = defaultMapping t.f.sampleFormat t.f.sampleWidth)
    (h16 : t.f.compression ≠ NONE → t.f.sampleFormat = TWOSCOMP ∧ t.f.sampleWidth = 16) (hc : Complete file t) :
    PlaysBack h fm t.f (own h t.f) (sound file t) file t ∧ (∀ fr ∈ sound file t, Fits t.f (own h t.f) fr) ∧
    (∀ fr ∈ sound file t, fr.map (heard t.f (own h t.f) (own h t.f)) = fr) := by
  have hB := width_bytes hl
  have hch := hc.channels
  have hps : packetSize t.f = bytesPerFrame t.f := by
    unfold packetSize bytesPerFrame
    rw [chain_bytes hl]
    split
    · rw [Int.toNat_mul (by omega) (by omega)]
    · rfl
  have hpos : 0 < packetSize t.f := by
    unfold packetSize
    rw [chain_bytes hl]
    split
    · exact Nat.mul_pos (by omega) (by omega)
    · omega
  have hfr := hc.frames
  have h1 := hc.first
  have hin := hc.inFile
  have hin' : t.first.toNat + t.frames.toNat * bytesPerFrame t.f ≤ file.length := by
    have e : ((t.frames.toNat * bytesPerFrame t.f : Nat) : Int) = t.frames * bytesPerFrame t.f := by
      rw [Int.natCast_mul, Int.toNat_of_nonneg hfr]
    omega
  have hlen : ∀ p ∈ (List.range t.frames.toNat).map (fun i => (file.drop (t.first.toNat + i * bytesPerFrame t.f)).take (bytesPerFrame t.f)),
      p.length = packetSize t.f := by
    intro p hp
    obtain ⟨i, hi, rfl⟩ := List.mem_map.1 hp
    have hi := List.mem_range.1 hi
    rw [hps, List.length_take, List.length_drop]
    have : (i + 1) * bytesPerFrame t.f ≤ t.frames.toNat * bytesPerFrame t.f := Nat.mul_le_mul_right _ hi
    rw [Nat.add_mul] at this
    omega
  have hsound : sound file t = ((List.range t.frames.toNat).map
      (fun i => (file.drop (t.first.toNat + i * bytesPerFrame t.f)).take (bytesPerFrame t.f))).map (frameSamples t.f) := by
    rw [List.map_map]
    rfl
  have hall : ∀ fr ∈ sound file t, Fits t.f (own h t.f) fr ∧ fr.map (heard t.f (own h t.f) (own h t.f)) = fr := by
    intro fr hfr
    rw [hsound] at hfr
    obtain ⟨p, hp, rfl⟩ := List.mem_map.1 hfr
    obtain ⟨a, b, -⟩ := packet_plays h fm hl hm hch hc.codec h16 (hlen p hp)
    exact ⟨a, b⟩
  refine ⟨⟨rfl, ?_, hpos, fun w calls hw hcalls => ?_⟩, fun fr hfr => (hall fr hfr).1, fun fr hfr => (hall fr hfr).2⟩
  · rw [hsound, List.length_map, List.length_map, List.length_range]
    omega
  · have hn : (sound file t).length = t.frames.toNat := by rw [hsound, List.length_map, List.length_map, List.length_range]
    rw [hn] at hcalls
    rw [hsound]
    rw [answers_map _ (frameSamples t.f) (delivered t.f (own h t.f)) (fun w p => delivered t.f (own h t.f) w (frameSamples t.f p))
      (Usable h t.f) (fun _ _ _ _ => rfl) calls ⟨0, w⟩ hw fun op ho w' e => (hcalls op ho).2 w' e]
    refine reads_frames (trackReader h fm file t hpos) (decodeFrame h t.f) _ id (Usable h t.f) _ ?_ rfl rfl rfl h1 ?_ hlen ?_ ?_ w calls hw ?_
    · show (if _ then Reading.Kind.pcm else .g711) ≠ _
      split <;> decide
    · show t.frames = _
      rw [List.length_map, List.length_range]
      omega
    · rw [List.flatMap_id, packets_flatten, List.length_take, List.length_drop]
      show (file.drop t.first.toNat).take _ = _
      rw [Nat.min_eq_left (by omega)]
    · intro v p hv hp
      exact (packet_plays h fm hl hm hch hc.codec h16 (hlen p hp)).2.2 v hv
    · rw [List.length_map, List.length_range]
      exact hcalls

/-! ## The copying loop -/

/-- Cuts into pieces of 65536. -/
def chunks {α : Type} (l : List α) : List (List α) :=
  if _h : l.length = 0 then [] else l.take 65536 :: chunks (l.drop 65536)
termination_by l.length
decreasing_by rw [List.length_drop]; omega

theorem chunks_nil {α : Type} {l : List α} (h : l.length = 0) : chunks l = [] := by rw [chunks, dif_pos h]
theorem chunks_cons {α : Type} {l : List α} (h : l.length ≠ 0) : chunks l = l.take 65536 :: chunks (l.drop 65536) := by
  rw [chunks, dif_neg h]

theorem chunks_flatten {α : Type} : ∀ (n : Nat) (l : List α), l.length = n → (chunks l).flatten = l := by
  intro n
  induction n using Nat.strongRecOn with
  | ind n ih =>
    intro l hl
    by_cases h0 : l.length = 0
    · rw [chunks_nil h0]; exact (List.eq_nil_of_length_eq_zero h0).symm
    · rw [chunks_cons h0, List.flatten_cons, ih _ (by rw [List.length_drop]; omega) _ rfl, List.take_append_drop]

/-- The answers to reading in these pieces. -/
theorem answers_chunks {V α γ : Type} (F : List α) (conv : V → α → γ) (v : V) : ∀ (n p : Nat), (F.drop p).length = n →
    answers F conv ⟨p, v⟩ ((chunks (F.drop p)).map fun c => .read c.length) =
      (chunks (F.drop p)).map fun c => ((c.length : Int), c.map (conv v)) := by
  intro n
  induction n using Nat.strongRecOn with
  | ind n ih =>
    intro p hn
    by_cases h0 : (F.drop p).length = 0
    · rw [chunks_nil h0]; rfl
    · rw [chunks_cons h0, List.map_cons, List.map_cons]
      have e : ((F.drop p).take ((((F.drop p).take 65536).length : Nat) : Int).toNat) = (F.drop p).take 65536 := by
        rw [Int.toNat_natCast, List.length_take]
        by_cases hx : 65536 ≤ (F.drop p).length
        · rw [Nat.min_eq_left hx]
        · rw [Nat.min_eq_right (by omega), List.take_length, List.take_of_length_le (by omega)]
      have e2 : answers F conv ⟨p + ((F.drop p).take 65536).length, v⟩ ((chunks ((F.drop p).drop 65536)).map fun c => .read c.length) =
          (chunks ((F.drop p).drop 65536)).map fun c => ((c.length : Int), c.map (conv v)) := by
        have e3 : (F.drop p).drop 65536 = F.drop (p + ((F.drop p).take 65536).length) := by
          rw [List.drop_drop, List.length_take]
          by_cases hx : 65536 ≤ (F.drop p).length
          · rw [Nat.min_eq_left hx]
          · rw [Nat.min_eq_right (by omega), List.drop_of_length_le (by rw [List.length_drop] at hx; omega),
              List.drop_of_length_le (by rw [List.length_drop]; omega)]
        rw [e3]
        exact ih _ (by rw [← e3, List.length_drop]; omega) _ rfl
      rw [answers]
      congr 1
      · unfold answer
        dsimp only
        rw [e, List.length_map]
      · unfold move
        dsimp only
        rw [e]
        exact e2

/-- The loop does what reading in these pieces does. -/
theorem copyLoop_run {α : Type} (c : Reading.Cfg Fmt (List Byte) (List Byte)) : ∀ (n : Nat) (F : List α) (done : Int) (s s' : Reading.St Fmt (List Byte))
    (os : List (Reading.Obs (List Byte))) (acc : List (List (Option (List Byte)))), F.length = n →
    Reading.run c s ((chunks F).map fun k => .read k.length) = .ok (os, s') →
    os.map (·.1) = (chunks F).map (fun k => (k.length : Int)) →
    copyLoop (fun n s => Reading.step c s (.read n)) (fun n fs s => (n, s ++ [fs])) (done + F.length) done s acc = .ok (true, acc ++ os.map (·.2)) := by
  intro n
  induction n using Nat.strongRecOn with
  | ind n ih =>
    intro F done s s' os acc hn hrun hos
    by_cases h0 : F.length = 0
    · rw [chunks_nil h0] at hrun hos
      obtain rfl : os = [] := by simpa using hos
      rw [copyLoop, dif_neg (by omega), List.map_nil, List.append_nil]
    · rw [chunks_cons h0, List.map_cons] at hrun hos
      obtain ⟨⟨k, fs⟩, s1, os1, hst, hrun1, rfl⟩ : ∃ o s1 os1, Reading.step c s (.read (F.take 65536).length) = .ok (o, s1) ∧
          Reading.run c s1 ((chunks (F.drop 65536)).map fun k => .read k.length) = .ok (os1, s') ∧ os = o :: os1 := by
        rw [Reading.run] at hrun
        cases hs : Reading.step c s (.read (F.take 65536).length) with
        | error e => rw [hs] at hrun; cases hrun
        | ok x =>
          obtain ⟨o, s1⟩ := x
          rw [hs] at hrun
          change (do let (os, s) ← Reading.run c s1 _; return (o :: os, s)) = _ at hrun
          cases hr : Reading.run c s1 ((chunks (F.drop 65536)).map fun k => .read k.length) with
          | error e => rw [hr] at hrun; cases hrun
          | ok x =>
            obtain ⟨os1, s2⟩ := x
            rw [hr] at hrun
            cases hrun
            exact ⟨o, s1, os1, rfl, hr, rfl⟩
      rw [List.map_cons] at hos
      obtain ⟨hk, hos1⟩ := List.cons.inj hos
      have hlen : (F.take 65536).length = min 65536 F.length := List.length_take
      have hw : (if done + (F.length : Int) - done > 65536 then 65536 else done + (F.length : Int) - done) = ((F.take 65536).length : Int) := by
        rw [hlen]; split <;> omega
      have hk' : k = ((F.take 65536).length : Int) := hk
      rw [copyLoop, dif_pos (by omega)]
      dsimp only
      rw [hw, hst]
      dsimp only
      rw [dif_neg (by omega), dif_neg (by omega)]
      have := ih (F.drop 65536).length (by rw [List.length_drop]; omega) (F.drop 65536) (done + k) s1 s' os1 (acc ++ [fs]) rfl hrun1 hos1
      rw [show done + k + ((F.drop 65536).length : Int) = done + F.length by rw [List.length_drop]; omega] at this
      rw [this, List.append_assoc]
      rfl

/-- Copying from a file that plays back. -/
theorem copy_plays {h : Endian} {fm : Module → List Byte → List Byte} {f : AFmt} {v : Fmt} {frames : List (List Int)} {file : List Byte}
    {t : Trk} (hp : PlaysBack h fm f v frames file t) {w : Fmt} (hw : Usable h f w) :
    copy (trackReader h fm file t hp.size) w = .ok (true, (chunks frames).map fun c => c.map fun fr => some (delivered f v w fr)) := by
  have hobs := hp.sound w (.count :: (chunks frames).map fun c => .read c.length) hw (by
    intro c hc
    rcases List.mem_cons.1 hc with rfl | hc
    · exact ⟨trivial, fun w e => by cases e⟩
    · obtain ⟨k, -, rfl⟩ := List.mem_map.1 hc
      exact ⟨trivial, fun w e => by cases e⟩)
  rw [answers] at hobs
  have ha := answers_chunks frames (delivered f v) w frames.length 0 (by rw [List.drop_zero])
  rw [List.drop_zero] at ha
  change Reading.observe _ _ _ = .ok ((_ :: answers frames (delivered f v) ⟨0, w⟩ _).map _) at hobs
  rw [ha] at hobs
  generalize trackReader h fm file t hp.size = c at hobs ⊢
  unfold Reading.observe at hobs
  rw [Reading.run] at hobs
  unfold copy
  cases hs : Reading.step c (Reading.init c w) .count with
  | error e => rw [hs] at hobs; cases hobs
  | ok x =>
    obtain ⟨⟨n, fs⟩, s⟩ := x
    rw [hs] at hobs
    change Except.map Prod.fst (do let (os, s) ← Reading.run c s _; return ((n, fs) :: os, s)) = _ at hobs
    cases hr : Reading.run c s ((chunks frames).map fun c => .read c.length) with
    | error e => rw [hr] at hobs; cases hobs
    | ok x =>
      obtain ⟨os, s'⟩ := x
      rw [hr] at hobs
      have hobs := Except.ok.inj hobs
      rw [List.map_cons] at hobs
      obtain ⟨h1, h2⟩ := List.cons.inj hobs
      have hn : n = frames.length := (Prod.mk.inj h1).1
      have h2 : os = _ := h2
      have := copyLoop_run c frames.length frames 0 s s' os [] rfl hr (by rw [h2, List.map_map, List.map_map]; rfl)
      show copyLoop _ _ n 0 s [] = _
      rw [hn]
      rw [Int.zero_add] at this
      rw [this, h2, List.map_map, List.map_map]
      congr 2
      apply List.map_congr_left
      intro k _
      show (k.map _).map some = _
      rw [List.map_map]
      rfl

end AF.SfConvert
