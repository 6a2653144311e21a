import Verif.Proof.FLACWrite
/-!
# FLAC files (C70, C71)

`Verif.Model.FLAC` says what is assumed of libFLAC.
-/
namespace AF.FLAC
open AF AF.Spec AF.Spec.FLAC

variable {V γ : Type}

/-- **C70.** Reading a FLAC file: whatever the calls — reads of any size, seeks, changes of the virtual format — and however the
encoder divided the audio into blocks, a reader sees a cursor over the frames of the stream, provided the stream has as many frames
as its header says and, if a failed seek puts the decoder into its error state, the library is never made to seek to the very
end. -/
theorem C70_cursor (c : Cfg V γ) (h : Good c) (v : V) (ops : List (Call V)) (hops : ∀ op ∈ ops, InRange (content c).length op)
    (hq : c.brittle = true → LeavesEnd (content c) ⟨0, v⟩ ops) :
    observe c v ops = .ok ((answers (content c) c.conv ⟨0, v⟩ ops).map fun a => (a.1, a.2.map some)) := by
  obtain ⟨s, e⟩ := run_ok h ops (init v) ⟨0, v⟩ (init_rel v) hops hq
  unfold observe
  rw [e]
  rfl

/-- **C70.** What a reader sees does not depend on how the encoder divided the audio into blocks. -/
theorem C70_blocks (c c' : Cfg V γ) (h : Good c) (h' : Good c') (same : rowsOf c.blocks = rowsOf c'.blocks)
    (hf : c.host = c'.host ∧ c.width = c'.width ∧ c.conv = c'.conv) (v : V) (ops : List (Call V))
    (hops : ∀ op ∈ ops, InRange (content c).length op) (hq : LeavesEnd (content c) ⟨0, v⟩ ops) :
    observe c v ops = observe c' v ops := by
  have e : content c = content c' := by unfold content; rw [same, hf.1, hf.2.1]
  rw [C70_cursor c h v ops hops (fun _ => hq), C70_cursor c' h' v ops (e ▸ hops) (fun _ => e ▸ hq), e, hf.2.2]

/-- **C70.** Which FLAC streams can be opened: at most 8 channels of 16 or 24 bits. -/
theorem C70_opens (host : Endian) (brittle : Bool) (conv : V → List Byte → γ) (i : Info) (bs : List Block) :
    (openRead host brittle conv i bs).isSome = true ↔ i.channels ≤ 8 ∧ (i.width = 16 ∨ i.width = 24) := by
  unfold openRead formatOk
  by_cases h : i.channels ≤ 8 ∧ (i.width = 16 ∨ i.width = 24)
  · rw [if_pos (by simpa using h)]; simp [h]
  · rw [if_neg (by simpa using h)]; simp [h]

theorem run_cons {c : Cfg V γ} {s s1 s2 : St V} {op : Call V} {ops : List (Call V)} {o : Int × List (Option γ)}
    {os : List (Int × List (Option γ))} (h : step c s op = .ok (o, s1)) (k : run c s1 ops = .ok (os, s2)) :
    run c s (op :: ops) = .ok (o :: os, s2) := by
  unfold run
  simp only [h, k, bind, Except.bind, pure, Except.pure]

theorem ensure_clean {c : Cfg V γ} {s : St V} (h : s.dirty = false) : ensure c s = .ok s := by
  unfold ensure
  rw [if_neg (by simp [h])]

theorem observe_of {c : Cfg V γ} {v : V} {ops : List (Call V)} {os : List (Int × List (Option γ))} {s : St V}
    (h : run c (init v) ops = .ok (os, s)) : observe c v ops = .ok os := by
  unfold observe; rw [h]; rfl

theorem setup_init (c : Cfg V γ) (hb : ∀ b ∈ c.blocks, GoodBlock c.channels b) (s : St V) (hs : s.broken = false)
    (hn : s.nextv = 0) (h0 : s.buffered = 0 ∧ s.offset = 0 ∧ s.next = 0) :
    ∃ s', setup c s = .ok s' ∧ s'.v = s.v ∧ s'.nextv = 0 ∧ s'.dirty = false ∧ s'.totalv = c.total ∧
      ((s'.broken = false ∧ Holds c (rowsOf c.blocks) s' 0 ∧ (rowsOf c.blocks ≠ [] → 0 < s'.buffered - s'.offset)) ∨
        (rowsOf c.blocks = [] ∧ s'.broken = true ∧ s'.buffered = s'.offset)) := by
  unfold setup seekTo
  have ht : s.nextv.toNat = 0 := by rw [hn]; rfl
  rw [ht, if_neg (by simp [hs])]
  by_cases he : rowsOf c.blocks = []
  · rw [locate_none _ _ _ (by rw [he]; simp)]
    refine ⟨_, rfl, rfl, hn, rfl, rfl, ?_⟩
    cases hbr : c.brittle with
    | true => exact Or.inr ⟨he, rfl, h0.1.trans h0.2.1.symm⟩
    | false =>
      refine Or.inl ⟨rfl, ⟨?_, ?_, ?_, ?_⟩, fun x => absurd he x⟩
      · simp [h0]
      · simp [h0]
      · simp [h0, rowsOf]
      · simp [h0]
  · obtain ⟨j, hj, k, e, e2, e3⟩ := locate_some c.blocks 0 0 (List.length_pos_iff.mpr he)
    rw [e]
    simp only [fits_ok hb j k hj, bind, Except.bind]
    refine ⟨_, rfl, rfl, hn, rfl, rfl, Or.inl ⟨hs, ?_, fun _ => ?_⟩⟩
    · have := store_holds hb { s with totalv := c.total, dirty := false } j k hj (by omega)
      rw [← e2] at this
      rw [Nat.zero_add]
      exact this
    · simp only [store, List.length_drop]; omega

/-- **C70, the other case.** When the stream holds fewer frames than its header says — a truncated file — a read of the whole
track still reports every frame the header announced: the frames after the end of the stream are counted but never stored, and no
later call tells. -/
theorem C70_negation_truncated (c : Cfg V γ) (hw : c.width = 16 ∨ c.width = 24) (hb : ∀ b ∈ c.blocks, GoodBlock c.channels b)
    (hlt : (content c).length < c.total) (v : V) :
    observe c v [.read c.total, .tell] = .ok [(c.total, (content c).map (fun f => some (c.conv v f)) ++
      List.replicate (c.total - (content c).length) none), (c.total, [])] := by
  obtain ⟨s1, e1, a1, a2, a3, a4, a5⟩ := setup_init c hb (init v) rfl rfl ⟨rfl, rfl, rfl⟩
  have ed : ensure c (init v) = .ok s1 := e1
  have hnum : (if (c.total : Int) > s1.totalv - s1.nextv then s1.totalv - s1.nextv else (c.total : Int)).toNat = c.total := by
    rw [a4, a2]; split <;> omega
  have hv : s1.v = v := a1
  have hcl := content_length (c := c)
  have key : ∃ s2, readLoop c c.total s1 = .ok ((content c).map (fun f => some (c.conv v f)) ++
      List.replicate (c.total - (content c).length) none, s2) ∧ Same s1 s2 := by
    rcases a5 with ⟨b1, b2, _⟩ | ⟨b1, b2, b3⟩
    · obtain ⟨s2, e2, q2⟩ := readLoop_gen hw hb c.total s1 0 (by omega) b2 b1
      refine ⟨s2, ?_, q2⟩
      rw [e2, List.drop_zero, List.take_of_length_le (by omega), hv, Nat.sub_zero, hcl]
      rfl
    · obtain ⟨s2, e2, q2⟩ := readLoop_stuck (c := c) c.total s1 b2 b3
      refine ⟨s2, ?_, q2⟩
      rw [e2, content_nil.mpr b1]; simp
  obtain ⟨s2, e2, q2⟩ := key
  have hlen : ((content c).map (fun f => some (c.conv v f)) ++ List.replicate (c.total - (content c).length) none).length = c.total := by
    simp; omega
  have hd : s2.dirty = false := q2.dirty.trans a3
  have hn2 : s2.nextv = 0 := q2.nextv.trans a2
  refine observe_of (run_cons (s1 := { s2 with nextv := (c.total : Int) }) ?_ (run_cons (s1 := { s2 with nextv := (c.total : Int) }) ?_ rfl))
  · simp only [step, readFrames, ed, bind, Except.bind, hnum, e2, pure, Except.pure, hlen, hn2, Int.zero_add]
  · simp only [step, seekFrame, ensure_clean (c := c) (s := { s2 with nextv := (c.total : Int) }) hd, bind, Except.bind, pure, Except.pure]
    rfl

/-- **C70, the other case.** When a failed seek leaves the decoder in its error state, a seek to the end of the track — which
`afSeekFrame` accepts — spoils every later one: the next seek reports success, and the frame delivered as frame `k` is frame 0. -/
theorem C70_negation_seek_end (c : Cfg V γ) (h : Good c) (hbr : c.brittle = true) (v : V) (k : Nat) (h0 : 0 < k) (hk : k < c.total) :
    ∃ f, (content c)[0]? = some f ∧
      observe c v [.seek c.total, .seek k, .read 1] = .ok [(c.total, []), (k, []), (1, [some (c.conv v f)])] := by
  obtain ⟨s1, e1, a1, a2, a3, a4, a5⟩ := setup_init c h.blocks (init v) rfl rfl ⟨rfl, rfl, rfl⟩
  have ht := h.total
  have hne : rowsOf c.blocks ≠ [] := by intro hx; rw [hx] at ht; simp at ht; omega
  obtain ⟨b1, b2, b3⟩ : s1.broken = false ∧ Holds c (rowsOf c.blocks) s1 0 ∧ (rowsOf c.blocks ≠ [] → 0 < s1.buffered - s1.offset) := by
    rcases a5 with x | x
    · exact x
    · exact absurd x.1 hne
  have hlt : 0 < (rowsOf c.blocks).length := List.length_pos_iff.mpr hne
  have g := gather_ok h.width h.blocks b2 1 0 (by have := b3 hne; omega)
  have ed : ensure c (init v) = .ok s1 := e1
  refine ⟨frameBytes c.host c.width (rowsOf c.blocks)[0], by simp [content, hlt], ?_⟩
  have e2 : setup c { s1 with nextv := (c.total : Int) } = .ok { s1 with nextv := (c.total : Int), broken := true, totalv := c.total, dirty := false } := by
    unfold setup seekTo
    have : locate c.blocks 0 ((c.total : Int).toNat) = none := locate_none _ _ _ (by rw [ht]; simp)
    simp only [b1, Bool.false_eq_true, if_false, this, hbr]
    rfl
  have e3 : ∀ s : St V, s.broken = true → setup c s = .ok { s with totalv := c.total, dirty := false } := by
    intro s hs
    unfold setup seekTo
    rw [if_pos hs]
    rfl
  have e4 : ∀ s : St V, s.buf = s1.buf → s.buffered = s1.buffered → s.offset = s1.offset →
      pull c 1 s = .ok ([frameBytes c.host c.width (rowsOf c.blocks)[0]], { s with offset := s.offset + 1 }) := by
    intro s x1 x2 x3
    have gg : gather c s s.offset 1 = .ok [frameBytes c.host c.width (rowsOf c.blocks)[0]] := by
      have : gather c s s.offset 1 = gather c s1 s1.offset 1 := by
        unfold gather frameAt
        rw [x1, x3]
        rfl
      rw [this]
      rw [Nat.add_zero] at g
      rw [g, List.drop_eq_getElem_cons (show 0 + 0 < _ from hlt)]
      rfl
    rw [pull]
    have hm : min 1 (s.buffered - s.offset) = 1 := by rw [x2, x3]; have := b3 hne; omega
    simp only [hm, gg, bind, Except.bind, pure, Except.pure, Nat.sub_self, if_true]
  have c1 : ¬ ((c.total : Int) < 0) := by omega
  have c2 : ¬ ((c.total : Int) = s1.nextv) := by rw [a2]; omega
  have c3 : ¬ ((c.total : Int) > s1.totalv) := by rw [a4]; omega
  have s1step : step c (init v) (.seek c.total) = .ok ((c.total, []), { s1 with nextv := (c.total : Int), broken := true, totalv := c.total, dirty := false }) := by
    simp only [step, seekFrame, ed, bind, Except.bind, c1, c2, c3, if_false, e2, pure, Except.pure]
  generalize hs2 : ({ s1 with nextv := (c.total : Int), broken := true, totalv := c.total, dirty := false } : St V) = s2 at s1step
  have d2 : s2.dirty = false := by rw [← hs2]
  have t2 : s2.totalv = c.total := by rw [← hs2]
  have n2 : s2.nextv = c.total := by rw [← hs2]
  have br2 : s2.broken = true := by rw [← hs2]
  have c4 : ¬ ((k : Int) < 0) := by omega
  have c5 : ¬ ((k : Int) = s2.nextv) := by rw [n2]; omega
  have c6 : ¬ ((k : Int) > s2.totalv) := by rw [t2]; omega
  have s2step : step c s2 (.seek k) = .ok ((k, []), { s2 with nextv := (k : Int), totalv := c.total, dirty := false }) := by
    simp only [step, seekFrame, ensure_clean d2, bind, Except.bind, c4, c5, c6, if_false, e3 { s2 with nextv := (k : Int) } br2,
      pure, Except.pure]
  generalize hs3 : ({ s2 with nextv := (k : Int), totalv := c.total, dirty := false } : St V) = s3 at s2step
  have d3 : s3.dirty = false := by rw [← hs3]
  have t3 : s3.totalv = c.total := by rw [← hs3]
  have n3 : s3.nextv = k := by rw [← hs3]
  have v3 : s3.v = v := by rw [← hs3, ← hs2]; exact a1
  have hnum : (if (1 : Int) > s3.totalv - s3.nextv then s3.totalv - s3.nextv else 1).toNat = 1 := by
    rw [t3, n3]; split <;> omega
  have p3 := e4 s3 (by rw [← hs3, ← hs2]) (by rw [← hs3, ← hs2]) (by rw [← hs3, ← hs2])
  have l3 : readLoop c 1 s3 = .ok ([some (c.conv v (frameBytes c.host c.width (rowsOf c.blocks)[0]))], { s3 with offset := s3.offset + 1 }) := by
    rw [readLoop, dif_neg (by omega)]
    have hm : min 1024 1 = 1 := rfl
    simp only [hm, p3, bind, Except.bind, Nat.sub_self]
    rw [readLoop, dif_pos rfl]
    simp [pure, Except.pure, v3]
  refine observe_of (run_cons s1step (run_cons s2step (run_cons (s1 := { s3 with offset := s3.offset + 1, nextv := s3.nextv + 1 }) ?_ rfl)))
  simp only [step, readFrames, ensure_clean d3, bind, Except.bind, hnum, l3, pure, Except.pure]
  rfl

/-- **C70, the other case.** A block with more channels than the header announced is copied beyond the decoder's buffers. -/
theorem C70_negation_more_channels (c : Cfg V γ) (b : Block) (bs : List Block) (hc : c.blocks = b :: bs) (hr : b.rows ≠ [])
    (hch : c.channels < b.channels) (v : V) (n : Int) (ops : List (Call V)) :
    observe c v (.read n :: ops) = .error .bufferOverflow := by
  have e : setup c (init v) = .error .bufferOverflow := by
    unfold setup seekTo
    have hl : locate c.blocks 0 ((0 : Int).toNat) = some (0, b, 0) := by
      rw [hc]; unfold locate
      exact if_pos (List.length_pos_iff.mpr hr)
    have : (init v).nextv = (0 : Int) := rfl
    rw [this, hl]
    simp only [init, Bool.false_eq_true, if_false, bind, Except.bind]
    unfold fits
    rw [if_pos (Or.inl hch)]
  unfold observe run
  simp only [step, readFrames, ensure, init, if_true] at e ⊢
  rw [e]
  rfl

/-- **C70, the other case.** A stream whose header leaves the number of frames open (0, as encoders that cannot seek write it)
reads as empty, whatever it holds. -/
theorem C70_negation_unknown_length (c : Cfg V γ) (hb : ∀ b ∈ c.blocks, GoodBlock c.channels b) (h0 : c.total = 0) (v : V) (n : Int) :
    observe c v [.count, .read n] = .ok [(0, []), (0, [])] := by
  obtain ⟨s1, e1, a1, a2, a3, a4, a5⟩ := setup_init c hb (init v) rfl rfl ⟨rfl, rfl, rfl⟩
  have ed : ensure c (init v) = .ok s1 := e1
  have t1 : s1.totalv = 0 := by rw [a4, h0]; rfl
  have hnum : (if n > s1.totalv - s1.nextv then s1.totalv - s1.nextv else n).toNat = 0 := by
    rw [t1, a2]; split <;> omega
  have l : readLoop c 0 s1 = .ok ([], s1) := by rw [readLoop, dif_pos rfl]; rfl
  refine observe_of (run_cons (s1 := s1) ?_ (run_cons (s1 := { s1 with nextv := s1.nextv + 0 }) ?_ rfl))
  · simp only [step, ed, bind, Except.bind, pure, Except.pure, t1]
  · simp only [step, readFrames, ensure_clean a3, bind, Except.bind, pure, Except.pure, hnum, l]
    rfl

/-! ## Writing -/

/-- **C71.** libFLAC is given exactly the frames written, in order, however the calls divide them; every write reports all its
frames, and the count is right — provided nothing is written after `afSyncFile` and the writes to the file succeed. -/
theorem C71_written (c : WCfg V γ) (hw : c.width = 16 ∨ c.width = 24) (hs : Sized c) (ha : c.accepted = true)
    (ht : ∀ i, c.takes i = true) (v : V) (ops : List (Writing.Op V γ)) (hq : NoWriteAfterSync false ops) :
    ∃ f, session c v ops = .ok f ∧ f.results = ops.map resultOf ∧ f.failed = false ∧
      f.sent.map (frameBytes c.host c.width) = Writing.handed c.conv v ops ∧
      f.frameCount = (Writing.handed c.conv v ops).length ∧
      ∀ r ∈ f.sent, r.length = c.channels ∧ ∀ x ∈ r, SampleRange (c.width / 8) false x := by
  have hsize : ∀ x ∈ Writing.handed c.conv v ops, x.length = c.channels * (c.width / 8) := by
    clear hq
    induction ops generalizing v with
    | nil => simp [Writing.handed]
    | cons op ops ih =>
      cases op with
      | write xs =>
        intro x hx
        simp only [Writing.handed, List.mem_append, List.mem_map] at hx
        rcases hx with ⟨y, _, rfl⟩ | hx
        · exact hs v y
        · exact ih v x hx
      | sync => exact ih v
      | setFormat w => exact ih w
  refine ⟨_, session_ok ha ht v ops hq, rfl, rfl, ?_, rfl, ?_⟩
  · rw [List.map_map]
    conv => rhs; rw [← List.map_id (Writing.handed c.conv v ops)]
    apply List.map_congr_left
    intro x hx
    exact (frameIn_eq c.host hw c.channels x (hsize x hx)).1
  · intro r hr
    obtain ⟨x, hx, rfl⟩ := List.mem_map.mp hr
    have := frameIn_eq c.host hw c.channels x (hsize x hx)
    exact this.2

/-- **C71.** What one program writes to a FLAC file another reads back, frame for frame, for any lossless FLAC library. -/
theorem C71_round_trip (lib : Lib) (hl : Lossless lib) (rate : Nat) (w : WCfg V γ) (hw : w.width = 16 ∨ w.width = 24)
    (hch : w.channels ≤ 8) (hs : Sized w) (ha : w.accepted = true) (hacc : lib.accepts ⟨w.channels, rate, w.width, 0⟩ = true)
    (ht : ∀ i, w.takes i = true) (v : V) (ops : List (Writing.Op V γ)) (hq : NoWriteAfterSync false ops)
    (hn : (Writing.handed w.conv v ops).length < 2 ^ 36)
    {W δ : Type} (brittle : Bool) (conv : W → List Byte → δ) (u : W) (calls : List (Call W))
    (hin : ∀ op ∈ calls, InRange (Writing.handed w.conv v ops).length op)
    (hend : brittle = true → LeavesEnd (Writing.handed w.conv v ops) ⟨0, u⟩ calls) :
    ∃ f i bs c, session w v ops = .ok f ∧ lib.decode (lib.encode ⟨w.channels, rate, w.width, 0⟩ f.sent) = some (i, bs) ∧
      openRead w.host brittle conv i bs = some c ∧
      observe c u calls = .ok ((answers (Writing.handed w.conv v ops) conv ⟨0, u⟩ calls).map fun a => (a.1, a.2.map some)) := by
  obtain ⟨f, e, f1, f2, f3, f4, f5⟩ := C71_written w hw hs ha ht v ops hq
  have flen : f.sent.length = (Writing.handed w.conv v ops).length := by rw [← f3, List.length_map]
  obtain ⟨bs, d, r, g⟩ := hl ⟨w.channels, rate, w.width, 0⟩ f.sent hacc rfl f5 (by omega)
  refine ⟨f, _, bs, ⟨w.host, w.width, w.channels, f.sent.length, bs, brittle, conv⟩, e, d, ?_, ?_⟩
  · unfold openRead formatOk
    rw [if_pos]
    simpa using ⟨hch, hw⟩
  · have hgood : Good ({ host := w.host, width := w.width, channels := w.channels, total := f.sent.length, blocks := bs, brittle := brittle, conv := conv } : Cfg W δ) :=
      ⟨hw, g, by rw [r]⟩
    have hcont : content ({ host := w.host, width := w.width, channels := w.channels, total := f.sent.length, blocks := bs, brittle := brittle, conv := conv } : Cfg W δ)
        = Writing.handed w.conv v ops := by
      unfold content; rw [r]; exact f3
    have := C70_cursor _ hgood u calls (by rw [hcont]; exact hin) (by rw [hcont]; exact hend)
    rw [hcont] at this
    exact this

/-- **C71, the other case.** After `afSyncFile` the encoder is finished: the next frame written is handed to a finished encoder, which
libFLAC forbids (it asserts; built without assertions, older versions crash and newer ones drop the frames). -/
theorem C71_negation_write_after_sync (c : WCfg V γ) (ha : c.accepted = true) (ht : ∀ i, c.takes i = true) (v : V)
    (before after : List (Writing.Op V γ)) (hq : NoWriteAfterSync false before) (xs : List γ) (hx : xs ≠ []) :
    session c v (before ++ .sync :: .write xs :: after) = .error .assertFailed := by
  have key : ∀ (before : List (Writing.Op V γ)) (s : WSt V), s.failed = false → NoWriteAfterSync s.finished before → s.totalf = s.nextf →
      wrun c s (before ++ .sync :: .write xs :: after) = .error .assertFailed := by
    intro before s h1 h2 h3
    have hsplit : ∀ (a b : List (Writing.Op V γ)) (s : WSt V), wrun c s (a ++ b) = (do
        let (r1, s) ← wrun c s a
        let (r2, s) ← wrun c s b
        return (r1 ++ r2, s)) := by
      intro a b
      induction a with
      | nil =>
        intro s
        simp only [List.nil_append, wrun, bind, Except.bind, pure, Except.pure]
        cases wrun c s b <;> rfl
      | cons op a ih =>
        intro s
        simp only [List.cons_append, wrun, bind, Except.bind, pure, Except.pure]
        cases wstep c s op with
        | error x => rfl
        | ok x =>
          simp only [ih, bind, Except.bind, pure, Except.pure]
          cases wrun c x.2 a with
          | error y => rfl
          | ok y =>
            simp only
            cases wrun c y.2 b <;> rfl
    obtain ⟨s1, e1, _⟩ := wrun_ok ha ht before s h1 h2 h3
    rw [hsplit, e1]
    have fin : (syncFile s1).finished = true := rfl
    have hd : (syncFile s1).dirty = false := by
      unfold syncFile wsetup; simp only
      cases hdd : s1.dirty with
      | true => rfl
      | false => simp [hdd]
    have hw : writeLoop c xs (syncFile s1) = .error .assertFailed := by
      rw [writeLoop, dif_neg (by intro h; exact hx (List.length_eq_zero_iff.mp h))]
      unfold push
      simp only [ha, fin, Bool.not_true, Bool.false_eq_true, if_false, if_true, bind, Except.bind, throw, throwThe, MonadExceptOf.throw, pure, Except.pure]
    simp only [wrun, wstep, writeFrames, bind, Except.bind, pure, Except.pure, hd, Bool.false_eq_true, if_false, hw]
  unfold session
  rw [key before (winit v) rfl hq rfl]
  rfl

/-- **C71, the other case.** When libFLAC refuses the parameters — a sample rate it does not know, say — the file opens all the same
and the first frame written goes through a null pointer. -/
theorem C71_negation_refused (c : WCfg V γ) (ha : c.accepted = false) (v : V) (xs : List γ) (hx : xs ≠ []) (ops : List (Writing.Op V γ)) :
    session c v (.write xs :: ops) = .error .bufferOverflow := by
  have hw : ∀ s : WSt V, writeLoop c xs s = .error .bufferOverflow := by
    intro s
    rw [writeLoop, dif_neg (by intro h; exact hx (List.length_eq_zero_iff.mp h))]
    unfold push
    simp only [ha, Bool.not_false, if_true, bind, Except.bind, throw, throwThe, MonadExceptOf.throw]
  unfold session wrun
  simp only [wstep, writeFrames, hw, bind, Except.bind]

/-- **C71, the other case.** When the disk is full no call tells: libFLAC fails, the writes report all their frames, and nothing that
was written is in the file. -/
theorem C71_negation_disk_full (c : WCfg V γ) (ha : c.accepted = true) (ht : c.takes 0 = false) (v : V) (xs : List γ) (hx : xs ≠ []) :
    session c v [.write xs] = .ok ⟨[], true, xs.length, [(xs.length : Int)]⟩ := by
  have key : ∀ (n : Nat) (xs : List γ) (s : WSt V), xs.length ≤ n → xs ≠ [] → s.finished = false → s.sent = [] →
      (s.failed = true ∨ s.tick = 0) →
      ∃ s', writeLoop c xs s = .ok s' ∧ s'.sent = [] ∧ s'.failed = true ∧ s'.totalf = s.nextf + xs.length := by
    intro n
    induction n with
    | zero => intro xs s h1 h2; exact absurd (List.length_eq_zero_iff.mp (by omega)) h2
    | succ n ih =>
      intro xs s h1 h2 h3 h4 h5
      have hpush : push c ((xs.take 1024).map (c.conv s.v)) s = .ok { s with failed := true, tick := s.tick + 1, nextf := s.nextf + (xs.take 1024).length, totalf := s.nextf + (xs.take 1024).length } := by
        unfold push
        have hok : (!s.failed && c.takes s.tick) = false := by
          rcases h5 with h | h <;> simp [h, ht]
        simp only [ha, h3, hok, Bool.not_true, Bool.not_false, Bool.false_eq_true, if_false, bind, Except.bind, pure, Except.pure, List.length_map]
      rw [writeLoop, dif_neg (by intro h; exact h2 (List.length_eq_zero_iff.mp h))]
      simp only [hpush, bind, Except.bind]
      by_cases he : xs.drop 1024 = []
      · rw [he, writeLoop, dif_pos (by rfl)]
        have hl : xs.length ≤ 1024 := by
          have := congrArg List.length he; rw [List.length_drop] at this; simp at this; omega
        refine ⟨_, rfl, h4, rfl, ?_⟩
        simp only [List.length_take]; omega
      · obtain ⟨s', e, f1, f2, f3⟩ := ih (xs.drop 1024) { s with failed := true, tick := s.tick + 1, nextf := s.nextf + (xs.take 1024).length, totalf := s.nextf + (xs.take 1024).length }
          (by have : 0 < xs.length := List.length_pos_iff.mpr h2
              rw [List.length_drop]; omega) he h3 h4 (Or.inl rfl)
        refine ⟨s', e, f1, f2, ?_⟩
        rw [f3]
        simp only [List.length_take, List.length_drop]; omega
  obtain ⟨s', e, f1, f2, f3⟩ := key xs.length xs (wsetup (winit v)) (Nat.le_refl _) hx rfl rfl (Or.inr rfl)
  unfold session wrun wrun
  have hd : (if (winit v : WSt V).dirty then wsetup (winit v) else winit v) = wsetup (winit v) := rfl
  simp only [wstep, writeFrames, hd, e, bind, Except.bind, pure, Except.pure]
  obtain ⟨g1, g2, g3⟩ := syncFile_fields { s' with nextv := s'.nextv + xs.length, totalv := s'.totalv + xs.length }
  rw [g1, g2, g3]
  simp only [f1, f2, f3]
  simp [wsetup, winit]

end AF.FLAC
