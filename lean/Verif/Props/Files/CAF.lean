import Verif.Proof.Files.CAF
import Verif.Proof.Files.BER
import Verif.Proof.Files.Accept
import Verif.Proof.Files.Simple
import Verif.Props.Files.Simple
import Verif.Props.Files.WAVE
/-!
# C37, C38, C47, C51: Core Audio Format files
-/
namespace AF.Files
open AF AF.Setup AF.Spec.Files

/-! ## C37: description and data -/

/-- What `SameSound` asks for when the reader has found the format `g` for the written format `f`. -/
theorem same_direct {f g : AFmt} {data file : List Byte} {n : Nat} {first size ad bpp : Int} (hl : Legal f)
    (hgr : g.rate = f.rate) (hgc : g.channels = f.channels) (hgm : g.compression = f.compression)
    (hu : f.compression = 0 → g.sampleFormat = f.sampleFormat ∧ g.sampleWidth = f.sampleWidth ∧
      (8 < f.sampleWidth → g.byteOrder = f.byteOrder))
    (hc : f.compression ≠ 0 → g.sampleFormat = 401 ∧ g.sampleWidth = 16)
    (hb : bpp = if f.compression = 0 then pcmBytesPerPacket f else f.channels)
    (hn : data.length = n * bytesPerFrame f) (hsz : data.length < 2 ^ 63)
    (hsize : size = data.length) (hfirst : 0 ≤ first)
    (hh : (file.drop first.toNat).take data.length = data) :
    SameSound f data n file (Trk.computeTotalFileFrames ⟨g, 1, bpp, first, ad, size, 0⟩) := by
  have hch := hl.channels
  have hbp : bpp = (bytesPerFrame f : Int) ∧ 0 < bytesPerFrame f := by
    rw [hb]
    unfold bytesPerFrame
    by_cases hz : f.compression = 0
    · have h8 : 0 < (f.sampleWidth + 7) / 8 := by have := hl.sample; omega
      have h0 : 0 < (f.sampleWidth + 7) / 8 * f.channels := Int.mul_pos h8 (by omega)
      simp only [hz, NONE, if_true, pcmBytesPerPacket]
      rw [Int.tdiv_eq_ediv_of_nonneg (by omega)]
      omega
    · simp only [hz, NONE, if_false]
      omega
  have hfr := frames_exact (t := ⟨g, 1, bpp, first, ad, size, 0⟩) (n := n) (k := bytesPerFrame f)
            hbp.1 hbp.2 rfl (by rw [← hn]; exact hsize) (by rw [← hn]; exact hsz)
  obtain ⟨t1, t2, t3⟩ := computeTotalFileFrames_rest ⟨g, 1, bpp, first, ad, size, 0⟩
  refine ⟨by rw [t1]; exact hgr, by rw [t1]; exact hgc, by rw [t1]; exact hgm, fun hz => by rw [t1]; exact hu hz,
    fun hz => by rw [t1]; exact hc hz, hfr, by rw [t2]; exact hfirst, by rw [t3]; exact hsize, ?_⟩
  unfold audio
  rw [t2, t3, hsize, Int.toNat_natCast]
  exact hh

/-- The file as written. -/
theorem caf_known {F : Float64} {h : Endian} {ops : List Op} {s' : Setup} {o : Opened} {f : AFmt}
    (hfmt : (run (newSetup h) ops).fileFormat = .caf)
    (ho : openWrite h (run (newSetup h) ops) = (s', some o)) (hf : o.f = [f]) (hA : f.compression ≠ ALAC) (evs : List Ev) :
    Legal f ∧ f.sampleFormat ≠ 402 ∧ f.compression ∈ [0, 502, 503, 519] ∧
    session (cafUpdate h) (cafInit F h f) evs =
      cafHead F h (cafTrk f) ++ cafDataHead h ((dataOf evs).length + 4 : Nat) ++ dataOf evs := by
  obtain ⟨tr, ht, hid, hl, hF, hlf, hc⟩ := opened ho hf
  obtain ⟨h1, h2, -⟩ := caf_accepted ht hid hF hfmt hc
  refine ⟨hlf, h1, ?_, caf_file F h hA evs⟩
  simp only [List.mem_cons, List.not_mem_nil, or_false, ALAC] at h2 hA ⊢
  omega

/-- C37: every CAF file with uncompressed or G.711 data reads back as it was written, on any host, if its rate is a
`double` (`F` says how the hosts store `double`s). -/
theorem C37_caf_roundtrip (F : Float64) (h h' : Endian) (ops : List Op) (s' : Setup) (o : Opened) (f : AFmt)
    (hfmt : (run (newSetup h) ops).fileFormat = .caf)
    (ho : openWrite h (run (newSetup h) ops) = (s', some o)) (hf : o.f = [f])
    (hcomp : f.compression ∈ [NONE, ULAW, ALAW])
    (hr : F.dec (F.enc f.rate) = f.rate) (hch : f.channels < 2 ^ 31)
    (evs : List Ev) (hn : (dataOf evs).length = framesOf evs * bytesPerFrame f) (hsz : (dataOf evs).length < 2 ^ 63 - 68)
    (fuel : Nat) (hfuel : 3 ≤ fuel) :
    ∃ s p, cafRead F h' fuel (session (cafUpdate h) (cafInit F h f) evs) 0 = .ok (s, p) ∧
      SameSound f (dataOf evs) (framesOf evs) (session (cafUpdate h) (cafInit F h f) evs) s.t ∧ s.table = none ∧ s.params = .none := by
  simp only [List.mem_cons, List.not_mem_nil, or_false, NONE, ULAW, ALAW] at hcomp
  obtain ⟨hl, h1, -, hfile⟩ := caf_known (F := F) hfmt ho hf (by simp only [ALAC]; omega) evs
  have hch0 := hl.channels
  have hw := hl.sample
  rw [hfile]
  have ht := cafTrk_f f
  have hdrop : ((cafHead F h (cafTrk f) ++ cafDataHead h ((dataOf evs).length + 4 : Nat) ++ dataOf evs).drop 68).take
      (dataOf evs).length = dataOf evs := by
    rw [List.drop_left' (by rw [List.length_append, cafHead_length, cafDataHead_length]), List.take_length]
  by_cases hz : f.compression = 0
  · obtain ⟨k1, k2, k3, g, hg, g1, g2, g3, g4, g5, g6⟩ := cafFormat_pcm h' hl h1 hz (cafTrk f) ht (F.dec (F.enc (cafTrk f).f.rate))
    obtain ⟨p, hp⟩ := caf_read (F := F) (h := h) (h' := h') (t := cafTrk f) (D := dataOf evs) (g := g) (fpp := 1) (bpp := pcmBytesPerPacket f)
      (ps := .none) (by rw [ht]; omega) (by omega) k1 (by rw [k2]; omega) (by rw [k3]; omega)
      (fun s hs => by rw [ht] at hg ⊢; rw [hg s]; rw [← hs]) hfuel
    refine ⟨_, p, hp, ?_, rfl, rfl⟩
    exact same_direct hl (by rw [g1, ht]; exact hr) g2 g3 (fun _ => ⟨g4, g5, fun _ => g6⟩) (fun hh => absurd hz hh)
      (by rw [if_pos hz]) hn (by omega) rfl (by decide) hdrop
  · have hz' : f.compression = 502 ∨ f.compression = 503 := by omega
    obtain ⟨k1, k2, k3, g, hg, g1, g2, g3, g4, g5⟩ := cafFormat_g711 h' hz' (cafTrk f) ht (F.dec (F.enc (cafTrk f).f.rate))
    obtain ⟨p, hp⟩ := caf_read (F := F) (h := h) (h' := h') (t := cafTrk f) (D := dataOf evs) (g := g) (fpp := 1) (bpp := f.channels)
      (ps := .none) (by rw [ht]; omega) (by omega) (by rw [k1]; omega) (by rw [k2]; omega) (by rw [k3]; omega)
      (fun s hs => by rw [ht] at hg ⊢; rw [hg s]; rw [← hs]) hfuel
    refine ⟨_, p, hp, ?_, rfl, rfl⟩
    exact same_direct hl (by rw [g1, ht]; exact hr) g2 g3 (fun hh => absurd hh hz) (fun _ => ⟨g4, g5⟩)
      (by rw [if_neg hz]) hn (by omega) rfl (by decide) hdrop

/-- C37 for IMA ADPCM: rate, channels, compression and data read back; the number of frames is 64 for each block of
34 bytes per channel. -/
theorem C37_caf_ima (F : Float64) (h h' : Endian) (ops : List Op) (s' : Setup) (o : Opened) (f : AFmt)
    (hfmt : (run (newSetup h) ops).fileFormat = .caf)
    (ho : openWrite h (run (newSetup h) ops) = (s', some o)) (hf : o.f = [f]) (hcomp : f.compression = IMA)
    (hr : F.dec (F.enc f.rate) = f.rate) (hch : f.channels < 2 ^ 31)
    (evs : List Ev) (b : Nat) (hn : (dataOf evs).length = b * (34 * f.channels.toNat)) (hsz : 2 * (dataOf evs).length < 2 ^ 63 - 68)
    (fuel : Nat) (hfuel : 3 ≤ fuel) :
    ∃ s p, cafRead F h' fuel (session (cafUpdate h) (cafInit F h f) evs) 0 = .ok (s, p) ∧
      s.t.f.rate = f.rate ∧ s.t.f.channels = f.channels ∧ s.t.f.compression = f.compression ∧ s.t.f.sampleFormat = TWOSCOMP ∧
      s.t.f.sampleWidth = 16 ∧ s.t.fpp = 64 ∧ s.t.bpp = 34 * f.channels ∧ s.t.frames = 64 * b ∧ s.params = .ima ∧
      0 ≤ s.t.first ∧ s.t.dataSize = (dataOf evs).length ∧ audio (session (cafUpdate h) (cafInit F h f) evs) s.t = dataOf evs := by
  simp only [IMA] at hcomp
  obtain ⟨hl, h1, -, hfile⟩ := caf_known (F := F) hfmt ho hf (by simp only [ALAC]; omega) evs
  have hch0 := hl.channels
  rw [hfile]
  have ht := cafTrk_f f
  have hp : (cafTrk f).fpp = 64 := by
    unfold cafTrk cafParams
    rw [if_pos hcomp]
  obtain ⟨k1, k2, k3, g, hg, g1, g2, g3, g4, g5⟩ := cafFormat_ima h' hcomp (cafTrk f) ht hp (F.dec (F.enc (cafTrk f).f.rate))
  obtain ⟨p, hp⟩ := caf_read (F := F) (h := h) (h' := h') (t := cafTrk f) (D := dataOf evs) (g := g) (fpp := 64) (bpp := 34 * f.channels)
    (ps := .ima) (by rw [ht]; omega) (by omega) (by rw [k1]; omega) (by rw [k2]; omega) (by rw [k3]; omega)
    (fun s _ => by rw [ht] at hg ⊢; exact hg s) hfuel
  obtain ⟨t1, t2, t3⟩ := computeTotalFileFrames_rest ⟨g, 64, 34 * f.channels, 68, 0, (dataOf evs).length, 0⟩
  refine ⟨_, p, hp, by rw [t1, g1, ht, hr], by rw [t1]; exact g2, by rw [t1]; exact g3, by rw [t1]; exact g4, by rw [t1]; exact g5, ?_, ?_, ?_, rfl, by rw [t2]; show (0 : Int) ≤ 68; decide, t3, ?_⟩
  · unfold Trk.computeTotalFileFrames; split <;> rfl
  · unfold Trk.computeTotalFileFrames; split <;> rfl
  · unfold Trk.computeTotalFileFrames
    rw [if_pos (by dsimp only; omega)]
    dsimp only
    obtain ⟨c, hc⟩ : ∃ c : Nat, f.channels = c := ⟨f.channels.toNat, by omega⟩
    rw [hc] at hn hch hch0 ⊢
    rw [Int.toNat_natCast] at hn
    rw [hn, wrapU_id (by omega) (by rw [← hn]; omega), wrapU_id (by omega) (by omega), wrapU_id (by omega) (by omega)]
    have hb : ((b * (34 * c) : Nat) : Int) / (34 * (c : Int)) = b := by
      rw [Int.natCast_mul]
      exact Int.mul_ediv_cancel _ (by omega)
    have : b ≤ (dataOf evs).length := by rw [hn]; exact Nat.le_mul_of_pos_right _ (by omega)
    have : b * 34 ≤ (dataOf evs).length := by
      rw [hn, ← Nat.mul_assoc]
      exact Nat.le_mul_of_pos_right _ (by omega)
    rw [hb, wrapS_id (by omega) (by omega)]
    omega
  · unfold audio
    rw [t2, t3, Int.toNat_natCast]
    show ((cafHead F h (cafTrk f) ++ cafDataHead h ((dataOf evs).length + 4 : Nat) ++ dataOf evs).drop 68).take _ = _
    rw [List.drop_left' (by rw [List.length_append, cafHead_length, cafDataHead_length]), List.take_length]

/-! ## C37: packet tables -/

/-- C37: every 32-bit size comes back, and what follows it is where reading goes on. -/
theorem C37_ber_roundtrip (v : BitVec 32) (rest : List Byte) :
    berDecode (berEncode v ++ rest) = (v, (berEncode v).length) := ber_roundtrip v rest

/-- Sizes are stored in one to five bytes, all but the last with the top bit set: the encoding is the number in base 128,
most significant digit first. -/
theorem C37_ber_digits (v : BitVec 32) :
    1 ≤ (berEncode v).length ∧ (berEncode v).length ≤ 5 ∧
    (berEncode v).foldl (fun a b => a * 128 + b.toNat % 128) 0 = v.toNat ∧
    ∀ i (hi : i < (berEncode v).length), (128 ≤ (berEncode v)[i].toNat ↔ i + 1 < (berEncode v).length) := by
  exact ber_digits v

/-- C37: a packet table of non-empty packets comes back as it was written, anywhere in a file. -/
theorem C37_table_roundtrip (h h' : Endian) (t : PacketTable) (s : CafRead) (file rest : List Byte) (p : Nat) (F : Float64)
    (hs : ∀ n ∈ t.sizes, 0 < n ∧ n < 2 ^ 32) (hne : t.sizes ≠ []) (hf : -2 ^ 63 ≤ t.numValidFrames ∧ t.numValidFrames < 2 ^ 63)
    (hp : -2 ^ 31 ≤ t.primingFrames ∧ t.primingFrames < 2 ^ 31) (hr : -2 ^ 31 ≤ t.remainderFrames ∧ t.remainderFrames < 2 ^ 31)
    (hsz : p + (cafTable h t).length < 2 ^ 63) (he : file.drop p = cafTable h t ++ rest) :
    cafRound F h' file.length ((p : Int), s) file p = .ok (.inl (((p + (cafTable h t).length : Nat) : Int),
      { s with table := some t, t := { s.t with frames := t.numValidFrames } }), p + (cafTable h t).length) := by
  have hne' : 0 < t.sizes.length := List.length_pos_iff.2 hne
  generalize hb : (t.sizes.flatMap fun n => berEncode (BitVec.ofNat 32 n)) = bers at *
  have hlb : t.sizes.length ≤ bers.length := by
    rw [← hb]
    generalize t.sizes = ns
    induction ns with
    | nil => exact Nat.zero_le _
    | cons n ns ih =>
      rw [List.flatMap_cons, List.length_append, List.length_cons]
      have := berEncode_pos (BitVec.ofNat 32 n)
      omega
  have hT : cafTable h t = tag "pakt" ++ (fieldBytes h .big .s8 ((24 + bers.length : Nat) : Int) ++
      (fieldBytes h .big .s8 t.sizes.length ++ (fieldBytes h .big .s8 t.numValidFrames ++ (fieldBytes h .big .s4 t.primingFrames ++
      (fieldBytes h .big .s4 t.remainderFrames ++ bers))))) := by
    unfold cafTable
    simp only [hb, List.append_assoc, Int.natCast_add]
    rfl
  have hl : (cafTable h t).length = 12 + (24 + bers.length) := by
    rw [hT]
    simp only [List.length_append, fieldBytes_length]
    show 4 + (8 + (8 + (8 + (4 + (4 + _))))) = _
    omega
  rw [hl] at hsz ⊢
  have he' := he
  rw [hT] at he'
  simp only [List.append_assoc] at he'
  have hlt : p < file.length := by
    have := congrArg List.length he
    simp only [List.length_drop, List.length_append, hl] at this
    omega
  have w := caf_chunk (F := F) (h' := h') (type := tag "pakt") rfl (len := 24 + bers.length) (q := p + 36 + bers.length) (s := s)
    (x := { s with table := some t, t := { s.t with frames := t.numValidFrames } }) he' hlt ?_ (by omega)
  · rw [show p + 12 + (24 + bers.length) = p + (12 + (24 + bers.length)) by omega] at w
    exact w
  have e1 := drop_step he' (n := 4) rfl
  have e2 := drop_step e1 (fieldBytes_length _ _ _ _)
  rw [b8] at e2
  unfold cafChunk
  rw [if_neg (by decide), if_neg (by decide), if_pos rfl]
  unfold cafParseTable
  rw [if_neg (by omega)]
  rw [show p + 12 = p + 4 + 8 from rfl, Rd.bind_ok (s64_ok (by omega) e2)]
  have e3 := drop_step e2 (fieldBytes_length _ _ _ _)
  rw [b8] at e3
  rw [Rd.bind_ok (s64_ok hf e3)]
  have e4 := drop_step e3 (fieldBytes_length _ _ _ _)
  rw [b8] at e4
  rw [Rd.bind_ok (u32_any e4)]
  have e5 := drop_step e4 (fieldBytes_length _ _ _ _)
  rw [b4] at e5
  rw [Rd.bind_ok (u32_any e5), if_neg (by omega)]
  have e6 := drop_step e5 (fieldBytes_length _ _ _ _)
  rw [b4] at e6
  dsimp only
  have en : (((24 + bers.length : Nat) : Int) - 24).toNat = bers.length := by omega
  rw [en, Rd.bind_ok (Rd.read_ok e6 rfl), if_neg (by simp)]
  have q : berSizes bers.length bers = t.sizes := by
    rw [← hb]
    exact berSizes_ok t.sizes hs _ (Nat.le_refl _)
  have w32 : ∀ x : Int, -2 ^ 31 ≤ x ∧ x < 2 ^ 31 → wrapS 32 (((x % 256 ^ FieldSize.s4.bytes).toNat : Nat) : Int) = x := by
    intro x hx
    rw [p4]
    unfold wrapS
    have : (((x % 2 ^ 32).toNat : Nat) : Int) = x % ((2 ^ 32 : Nat) : Int) := by
      rw [Int.toNat_of_nonneg (Int.emod_nonneg _ (by decide))]
      rfl
    rw [this, Int.emod_bmod]
    exact Int.bmod_eq_of_le (by omega) (by omega)
  rw [q, w32 _ hp, w32 _ hr]
  refine congrArg Except.ok (Prod.ext rfl ?_)
  show p + 4 + 8 + 8 + 8 + 4 + 4 + bers.length = _
  omega

/-- C37 is false for tables with an empty packet: reading stops at a size of 0. (Tables the library writes have none:
see C55.) -/
theorem C37_empty_packet (a b : List Nat) (h : ∀ n ∈ a, 0 < n ∧ n < 2 ^ 32) :
    ∀ fuel, ((a ++ 0 :: b).flatMap fun n => berEncode (BitVec.ofNat 32 n)).length ≤ fuel →
      berSizes fuel ((a ++ 0 :: b).flatMap fun n => berEncode (BitVec.ofNat 32 n)) = a := by
  induction a with
  | nil =>
    intro fuel hf
    cases fuel with
    | zero => rfl
    | succ n =>
      rw [List.nil_append, List.flatMap_cons, berSizes, ber_roundtrip, if_neg (by
        intro e
        exact absurd (List.append_eq_nil_iff.1 e).1 (by decide))]
      rfl
  | cons n a ih =>
    intro fuel hf
    rw [List.cons_append, List.flatMap_cons, List.length_append] at hf
    have hp := berEncode_pos (BitVec.ofNat 32 n)
    obtain ⟨fuel, rfl⟩ := Nat.exists_eq_succ_of_ne_zero (by omega : fuel ≠ 0)
    rw [List.cons_append, List.flatMap_cons, berSizes, ber_roundtrip, if_neg (by
      intro e
      have := congrArg List.length (List.append_eq_nil_iff.1 e).1
      rw [List.length_nil] at this
      omega)]
    dsimp only
    have hn := h n (by simp)
    have hz : (BitVec.ofNat 32 n).toNat = n := by rw [BitVec.toNat_ofNat]; omega
    rw [if_neg (by intro e; rw [e] at hz; simp at hz; omega), hz, List.drop_left, ih (fun m hm => h m (by simp [hm])) fuel (by omega)]

/-! ## C47 -/

theorem startOfPacket_step (l : List Nat) (k : Nat) :
    (⟨l, 0, 0, 0⟩ : PacketTable).startOfPacket (k + 1) = do
      let a ← (⟨l, 0, 0, 0⟩ : PacketTable).startOfPacket k
      let b ← l[k]?
      return a + b := by
  unfold PacketTable.startOfPacket
  rw [List.range_succ, List.foldl_append]
  rfl

/-- C47: packet `i` starts where the packets before it end, and the memory of the table is not left. -/
theorem C47_prefix_sums (t : PacketTable) (i : Nat) (h : i ≤ t.sizes.length) :
    t.startOfPacket i = some (t.sizes.take i).sum := by
  obtain ⟨l, a, b, c⟩ := t
  show (⟨l, 0, 0, 0⟩ : PacketTable).startOfPacket i = _
  dsimp only at h ⊢
  induction i with
  | zero => rfl
  | succ k ih =>
    rw [startOfPacket_step, ih (by omega), List.getElem?_eq_getElem (by omega), List.take_add_one, List.getElem?_eq_getElem (by omega), Option.toList_some, List.sum_append]
    show some _ = some _
    rw [List.sum_cons, List.sum_nil, Nat.add_zero]

/-- C47: positions of packets that are not in the table are read from memory that does not belong to it. -/
theorem C47_outside (t : PacketTable) (i : Nat) (h : t.sizes.length < i) : t.startOfPacket i = none := by
  obtain ⟨l, a, b, c⟩ := t
  show (⟨l, 0, 0, 0⟩ : PacketTable).startOfPacket i = _
  dsimp only at h
  induction i with
  | zero => omega
  | succ k ih =>
    rw [startOfPacket_step]
    by_cases hk : l.length < k
    · rw [ih hk]; rfl
    · rw [C47_prefix_sums _ _ (by dsimp only; omega), List.getElem?_eq_none (by omega)]; rfl

/-! ## C38, C51 -/

/-- A file whose first chunk says it has -12 bytes. -/
def cafEndless : List Byte :=
  tag "caff" ++ [0, 1, 0, 0] ++ tag "junk" ++ [0xff, 0xff, 0xff, 0xff, 0xff, 0xff, 0xff, 0xf4]

/-- C38 is false for CAF: opening this file never ends, however long one waits. -/
theorem C38_caf_endless (F : Float64) (h : Endian) (fuel : Nat) : cafRead F h fuel cafEndless 0 = .error .running := by
  unfold cafRead
  rw [Rd.bind_ok (a := ()) (p' := 8) rfl, Rd.bind_ok (a := 20) (p' := 8) rfl]
  refine Rd.bind_error ?_
  refine loop_forever ?_ fuel
  cases h <;> rfl

/-- C51 is false for CAF: a file of which only the first eight bytes exist is opened, with a format that is whatever was
in memory. -/
theorem C51_caf_none (F : Float64) (h : Endian) (fuel : Nat) :
    cafRead F h (fuel + 1) (tag "caff" ++ [0, 1, 0, 0]) 0 = .error .undefined := by
  cases h <;> rfl

/-- C51: so is one whose data comes before its description. -/
theorem C51_caf_data_first (F : Float64) (h : Endian) (fuel : Nat) :
    cafRead F h (fuel + 1) (tag "caff" ++ [0, 1, 0, 0] ++ tag "data" ++ [0, 0, 0, 0, 0, 0, 0, 4, 0, 0, 0, 0]) 0 = .error .undefined := by
  cases h <;> rfl

/-! ## Concrete files -/

def cafExample (comp : Int) : List Op := [.fileFormat 15, .channels 1001 2, .rate 1001 44100, .compression 1001 comp]

/-- Numbers of which the conversion keeps 44100. -/
def demoF64 : Float64 := ⟨fun _ => 0x40e5888000000000, fun _ => 44100⟩

example : ∃ s' o f, openWrite .little (run (newSetup .little) (cafExample 0)) = (s', some o) ∧ o.f = [f] ∧
    (run (newSetup .little) (cafExample 0)).fileFormat = .caf ∧ f.compression ∈ [NONE, ULAW, ALAW] ∧
    demoF64.dec (demoF64.enc f.rate) = f.rate ∧ f.channels < 2 ^ 31 ∧
    (dataOf [.data [1, 2, 3, 4] 1, .sync, .data [4, 5, 6, 7] 1]).length =
      framesOf [.data [1, 2, 3, 4] 1, .sync, .data [4, 5, 6, 7] 1] * bytesPerFrame f := by
  refine ⟨_, _, _, rfl, rfl, ?_⟩
  decide +kernel

example : ∃ s' o f, openWrite .little (run (newSetup .little) (cafExample 519)) = (s', some o) ∧ o.f = [f] ∧
    (run (newSetup .little) (cafExample 519)).fileFormat = .caf ∧ f.compression = IMA ∧
    demoF64.dec (demoF64.enc f.rate) = f.rate ∧ f.channels < 2 ^ 31 ∧
    (dataOf [.data (List.replicate 136 7) 128]).length = 2 * (34 * f.channels.toNat) := by
  refine ⟨_, _, _, rfl, rfl, ?_⟩
  decide +kernel

/-- A table with sizes of one, two and five bytes. -/
example : (∀ n ∈ [5, 300, 4294967295], 0 < n ∧ n < 2 ^ 32) ∧
    berSizes 8 ([5, 300, 4294967295].flatMap fun n => berEncode (BitVec.ofNat 32 n)) = [5, 300, 4294967295] := by
  decide +kernel

end AF.Files
