import Verif.Proof.AdpcmCodecs
import Verif.Props.Program
import Verif.Props.Files.WAVE
import Verif.Props.Files.AIFF
import Verif.Props.Files.CAF
/-!
# C78: what one program writes in ADPCM, another reads

A program opens a file with IMA or MS ADPCM compression for writing, writes frames in an integer format of its choice, in any number of
calls, and closes it. Another program, possibly on a host of the other byte order, opens the file: it finds the frames of the first
program, as the codec gives them back, and may read them in any integer format, in any portions, seeking as it likes.

The headers are those of `WaveWritten`, `AiffWritten` and the sessions of CAF; that the data and the frame count of these sessions are
what the codec's module made of the program's frames is the hypothesis about `Writing.session`.
-/
namespace AF.Adpcm
open AF AF.Setup AF.Files AF.Convert AF.Virtual AF.Spec AF.Spec.Files AF.Program AF.Spec.Program AF.Spec.Adpcm

variable (F32 : Files.Float32) (F64 : Files.Float64) (rnd : Rat → Dbl) (h h' : Endian) (fm : Module → List Byte → List Byte)

theorem flat_length {bpp : Nat} : ∀ {Bs : List (List Byte)}, (∀ b ∈ Bs, b.length = bpp) → Bs.flatten.length = Bs.length * bpp
  | [], _ => by simp
  | b :: Bs, h => by
    rw [List.flatten_cons, List.length_append, h b List.mem_cons_self, flat_length fun b hb => h b (List.mem_cons_of_mem _ hb), List.length_cons,
      Nat.succ_mul, Nat.add_comm]

/-- From the blocks in the file to what is heard. -/
theorem through {ε : Type} {C : Codec ε} {I : ε → Prop} {fpp bpp ch : Nat} (g : Good C I fpp bpp ch) (hf0 : 0 < fpp) (hb0 : 0 < bpp)
    {f : AFmt} {v : Fmt} {ps : List (List (List Int))} (r : Recorded h f v ps.flatten)
    (hc : f.compression = IMA ∨ f.compression = MSADPCM) (hch : f.channels = ch) {e : ε} (hI : I e)
    {J : List (List Int)} (hJl : J.length = fpp) (hJ : ∀ fr ∈ J, Frame16 ch fr) {update : Option Int} {first : Nat} {D : List Byte} {n : Nat}
    (hses : Writing.session (blockWriter h fm f C fpp bpp hf0 hb0 (J.map (packedBytes h 2)) update first) e v (Writing.writes ps) =
      .ok ⟨D, D.length, n⟩) {fuel : Nat} {u : FileFormat} {file : List Byte} {t : Trk} {p : Nat} (hu : u ≠ .nist)
    (hid : identify file 0 = .ok (some u, 0)) (hrd : readInit F32 F64 rnd h' fuel u file 0 = .ok (t, p))
    (hs : t.f.channels = f.channels ∧ t.f.compression = f.compression ∧ t.f.sampleFormat = TWOSCOMP ∧ t.f.sampleWidth = 16)
    (hfpp : t.fpp = fpp) (hbpp : t.bpp = bpp) (h0 : 0 ≤ t.first) (hsize : t.dataSize = D.length) (haud : audio file t = D)
    (hcount : ∀ b, D.length = b * bpp → n ≤ b * fpp → 0 ≤ t.frames ∧ t.frames ≤ (b * fpp : Nat)) :
    openRead F32 F64 rnd h' fuel file 0 = .ok (t, p) ∧ n = ps.flatten.length ∧ ∃ pad heard, pad.length < fpp ∧
      Transcoded C fpp e (ps.flatten.map (to16 v) ++ pad) heard ∧ heard.length = n + pad.length ∧
      D.length * fpp = heard.length * bpp ∧ Plays h' fm C (heard.take t.frames.toNat) file t := by
  obtain ⟨-, hch12⟩ := recorded_track r hc
  obtain ⟨Bs, pad, heard, w1, w2, w3, w4, w5, w6, w7, w8, w9⟩ := written_blocks g hf0 hb0 h fm r hc hch hI hJl hJ update first
  rw [w1] at hses
  simp only [Except.ok.injEq, Writing.Final.mk.injEq, Int.natCast_inj] at hses
  obtain ⟨rfl, -, rfl⟩ := hses
  have hsum : Bs.flatten.length = Bs.length * bpp := flat_length w5
  obtain ⟨o1, o2⟩ := openRead_block F32 F64 rnd h' fuel hu hid hrd (by rw [hs.2.1]; exact hc) hs.2.2 (by rw [hs.1]; exact hch12)
  refine ⟨o1, rfl, pad, heard, w3, w9, by rw [w7]; exact w2, by rw [w7, hsum, Nat.mul_right_comm], ?_⟩
  refine plays_blocks h' fm C hfpp hbpp hf0 hb0 h0 w5 (w6 h') ?_ (hcount Bs.length hsum (by omega)) w8 (by rw [hs.1]; exact hch) ?_ o2
  · unfold audio at haud
    rw [hsize, Int.toNat_natCast] at haud
    exact haud
  · rw [hs.2.1]
    rcases hc with e | e <;> rw [e] <;> decide

/-! ## C78 -/

/-- C78, IMA ADPCM in WAVE files, with any calls about markers and miscellaneous data in between: all frames are reported. -/
theorem C78_wave_ima (ops : List Op) (o : Opened) (f : AFmt) (v : Fmt) (ps : List (List (List Int))) (evs : List MEv) (file : List Byte) (x : WaveObj)
    (hw : WaveWritten h ops o f evs file x) (hfit : WaveFits o f evs file x) (hc : f.compression = IMA) (r : Recorded h f v ps.flatten)
    (ch : Nat) (hch : f.channels = ch) (hch0 : 0 < 256 * ch) (J : List (List Int)) (hJ : J.length = 505 ∧ ∀ fr ∈ J, Frame16 ch fr)
    (update : Option Int) (first : Nat)
    (hses : Writing.session (blockWriter h fm f (imaWave ch 505) 505 (256 * ch) (by decide) hch0 (J.map (packedBytes h 2)) update first)
      (IMA.initial ch) v (Writing.writes ps) = .ok ⟨dataOfM evs, (dataOfM evs).length, framesOfM evs⟩)
    (fuel : Nat) (hfuel : 8 + x.handle.misc.length + 2 * (marksOf x.handle o.names).length ≤ fuel) :
    ∃ t p, openRead F32 F64 rnd h' fuel file 0 = .ok (t, p) ∧ t.f.rate = (f.rate.floor : Rat) ∧ t.f.channels = f.channels ∧
      ∃ pad heard, pad.length < 505 ∧ Transcoded (imaWave ch 505) 505 (IMA.initial ch) (ps.flatten.map (to16 v) ++ pad) heard ∧
        Plays h' fm (imaWave ch 505) (heard.take ps.flatten.length) file t := by
  obtain ⟨s, p, h1, h2⟩ := C34_wave_roundtrip h h' ops o f evs file x hw hfit (fun hz => absurd (hc.symm.trans hz) (by decide)) fuel hfuel
  obtain ⟨s', p', h1', h3, h4, -⟩ := C34_wave_packets h h' ops o f evs file x hw hfit (.inl hc) fuel hfuel
  obtain ⟨rfl, rfl⟩ : s = s' ∧ p = p' := by
    rw [h1] at h1'
    simpa using h1'
  have hnz : (wholeBytes (wholeRate f)) = wholeRate f := if_neg (by show ¬ f.compression = NONE; rw [hc]; decide)
  rw [hnz] at h2
  rw [if_pos hc] at h4
  have hdec := h2.decoded (by show f.compression ≠ NONE; rw [hc]; decide)
  have hfr := h2.frames
  obtain ⟨k1, k2, pad, heard, k3, k4, k5, k6, k7⟩ := through F32 F64 rnd h h' fm (imaWave_good ch 63) (by decide) hch0 r (.inl hc) hch
    (ima_initial ch) hJ.1 hJ.2 hses (fuel := fuel) (u := .wave) (file := file) (t := s.t) (p := p) (by decide)
    (C39_written_wave h ops o f evs file x hw (fun m hm => (hfit.misc m hm).1) 0) (by
      dsimp only [readInit]
      rw [Rd.bind_ok h1]
      rfl) ⟨h2.channels, h2.compression, hdec⟩ h4 (by rw [h3, hch]; rfl) h2.first h2.size h2.audio (fun b _ hb => by omega)
  refine ⟨s.t, p, k1, h2.rate, h2.channels, pad, heard, k3, k4, ?_⟩
  rw [hfr, Int.toNat_natCast, k2] at k7
  exact k7

/-- C78, MS ADPCM. -/
theorem C78_wave_ms (ops : List Op) (o : Opened) (f : AFmt) (v : Fmt) (ps : List (List (List Int))) (evs : List MEv) (file : List Byte) (x : WaveObj)
    (hw : WaveWritten h ops o f evs file x) (hfit : WaveFits o f evs file x) (hc : f.compression = MSADPCM) (r : Recorded h f v ps.flatten)
    (ch : Nat) (hch : f.channels = ch) (hch0 : 0 < 256 * ch) (J : List (List Int)) (hJ : J.length = 500 ∧ ∀ fr ∈ J, Frame16 ch fr)
    (update : Option Int) (first : Nat)
    (hses : Writing.session (blockWriter h fm f (ms ch 500) 500 (256 * ch) (by decide) hch0 (J.map (packedBytes h 2)) update first)
      () v (Writing.writes ps) = .ok ⟨dataOfM evs, (dataOfM evs).length, framesOfM evs⟩)
    (fuel : Nat) (hfuel : 8 + x.handle.misc.length + 2 * (marksOf x.handle o.names).length ≤ fuel) :
    ∃ t p, openRead F32 F64 rnd h' fuel file 0 = .ok (t, p) ∧ t.f.rate = (f.rate.floor : Rat) ∧ t.f.channels = f.channels ∧
      ∃ pad heard, pad.length < 500 ∧ Transcoded (ms ch 500) 500 () (ps.flatten.map (to16 v) ++ pad) heard ∧
        Plays h' fm (ms ch 500) (heard.take ps.flatten.length) file t := by
  obtain ⟨s, p, h1, h2⟩ := C34_wave_roundtrip h h' ops o f evs file x hw hfit (fun hz => absurd (hc.symm.trans hz) (by decide)) fuel hfuel
  obtain ⟨s', p', h1', h3, h4, -⟩ := C34_wave_packets h h' ops o f evs file x hw hfit (.inr hc) fuel hfuel
  obtain ⟨rfl, rfl⟩ : s = s' ∧ p = p' := by
    rw [h1] at h1'
    simpa using h1'
  have hnz : (wholeBytes (wholeRate f)) = wholeRate f := if_neg (by show ¬ f.compression = NONE; rw [hc]; decide)
  rw [hnz] at h2
  rw [if_neg (by rw [hc]; decide)] at h4
  have hdec := h2.decoded (by show f.compression ≠ NONE; rw [hc]; decide)
  have hfr := h2.frames
  have hg : Good (ms ch 500) (fun _ => True) 500 (256 * ch) ch := by
    rcases (recorded_track r (.inr hc)).2 with e | e
    · obtain rfl : ch = 1 := by omega
      exact ms_good1
    · obtain rfl : ch = 2 := by omega
      exact ms_good2
  obtain ⟨k1, k2, pad, heard, k3, k4, k5, k6, k7⟩ := through F32 F64 rnd h h' fm hg (by decide) hch0 r (.inr hc) hch
    trivial hJ.1 hJ.2 hses (fuel := fuel) (u := .wave) (file := file) (t := s.t) (p := p) (by decide)
    (C39_written_wave h ops o f evs file x hw (fun m hm => (hfit.misc m hm).1) 0) (by
      dsimp only [readInit]
      rw [Rd.bind_ok h1]
      rfl) ⟨h2.channels, h2.compression, hdec⟩ h4 (by rw [h3, hch]; rfl) h2.first h2.size h2.audio (fun b _ hb => by omega)
  refine ⟨s.t, p, k1, h2.rate, h2.channels, pad, heard, k3, k4, ?_⟩
  rw [hfr, Int.toNat_natCast, k2] at k7
  exact k7

/-- C78, IMA ADPCM in AIFF-C files: the frames of the last block are reported only if it is full. -/
theorem C78_aiffc_ima (hrnd : ExactOnDoubles rnd) (ops : List Op) (o : Opened) (f : AFmt) (v : Fmt) (ps : List (List (List Int))) (evs : List MEv)
    (file : List Byte) (x : AiffObj)
    (hw : AiffWritten h true ops o f evs file x) (hfit : AiffFits o f evs file x) (hc : f.compression = IMA) (r : Recorded h f v ps.flatten)
    (ch : Nat) (hch : f.channels = ch) (hch0 : 0 < 34 * ch) (J : List (List Int)) (hJ : J.length = 64 ∧ ∀ fr ∈ J, Frame16 ch fr)
    (update : Option Int) (first : Nat)
    (hses : Writing.session (blockWriter h fm f (imaQT ch 64) 64 (34 * ch) (by decide) hch0 (J.map (packedBytes h 2)) update first)
      (IMA.initial ch) v (Writing.writes ps) = .ok ⟨dataOfM evs, (dataOfM evs).length, framesOfM evs⟩)
    (fuel : Nat) (hfuel : 7 + x.handle.misc.length ≤ fuel) :
    ∃ t p, openRead F32 F64 rnd h' fuel file 0 = .ok (t, p) ∧ t.f.rate = f.rate ∧ t.f.channels = f.channels ∧
      ∃ pad heard, pad.length < 64 ∧ Transcoded (imaQT ch 64) 64 (IMA.initial ch) (ps.flatten.map (to16 v) ++ pad) heard ∧
        Plays h' fm (imaQT ch 64) (heard.take (ps.flatten.length / 64 * 64)) file t := by
  obtain ⟨s, p, h1, h2, h3, h4⟩ := C35_ima_roundtrip rnd hrnd h h' true ops o f evs file x hw hfit hc fuel hfuel
  have hdec := h2.decoded (by show f.compression ≠ NONE; rw [hc]; decide)
  have hfr := h2.frames
  obtain ⟨k1, k2, pad, heard, k3, k4, k5, k6, k7⟩ := through F32 F64 rnd h h' fm (imaQT_good ch 32) (by decide) hch0 r (.inl hc) hch
    (ima_initial ch) hJ.1 hJ.2 hses (fuel := fuel) (u := .aiffc) (file := file) (t := s.t) (p := p) (by decide)
    (C39_written_aiff h true ops o f evs file x hw (fun m hm => (hfit.misc m hm).1) 0) (by
      dsimp only [readInit]
      rw [Rd.bind_ok h1]
      rfl) ⟨h2.channels, h2.compression, hdec⟩ h3 (by rw [h4, hch]; rfl) h2.first h2.size h2.audio (fun b _ hb => by omega)
  refine ⟨s.t, p, k1, h2.rate, h2.channels, pad, heard, k3, k4, ?_⟩
  rw [hfr, Int.toNat_natCast, k2] at k7
  exact k7

/-- C78, IMA ADPCM in CAF files: the last block is reported as full, whatever was written. -/
theorem C78_caf_ima (ops : List Op) (s' : Setup) (o : Opened) (f : AFmt) (v : Fmt) (ps : List (List (List Int))) (evs : List Ev)
    (hfmt : (run (newSetup h) ops).fileFormat = .caf)
    (ho : openWrite h (run (newSetup h) ops) = (s', some o)) (hf : o.f = [f]) (hc : f.compression = IMA)
    (hr : F64.dec (F64.enc f.rate) = f.rate) (r : Recorded h f v ps.flatten)
    (ch : Nat) (hch : f.channels = ch) (hch0 : 0 < 34 * ch) (J : List (List Int)) (hJ : J.length = 64 ∧ ∀ fr ∈ J, Frame16 ch fr)
    (update : Option Int) (first : Nat)
    (hses : Writing.session (blockWriter h fm f (imaQT ch 64) 64 (34 * ch) (by decide) hch0 (J.map (packedBytes h 2)) update first)
      (IMA.initial ch) v (Writing.writes ps) = .ok ⟨dataOf evs, (dataOf evs).length, framesOf evs⟩)
    (hsz : 2 * (dataOf evs).length < 2 ^ 63 - 68) (fuel : Nat) (hfuel : 3 ≤ fuel) :
    ∃ t p, openRead F32 F64 rnd h' fuel (session (cafUpdate h) (cafInit F64 h f) evs) 0 = .ok (t, p) ∧ t.f.rate = f.rate ∧
      t.f.channels = f.channels ∧
      ∃ pad heard, pad.length < 64 ∧ Transcoded (imaQT ch 64) 64 (IMA.initial ch) (ps.flatten.map (to16 v) ++ pad) heard ∧
        Plays h' fm (imaQT ch 64) heard (session (cafUpdate h) (cafInit F64 h f) evs) t := by
  have hch12 := (recorded_track r (.inl hc)).2
  obtain ⟨Bs, pad, heard, w1, w2, w3, w4, w5, w6, w7, w8, w9⟩ := written_blocks (imaQT_good ch 32) (by decide) hch0 h fm r (.inl hc) hch
    (ima_initial ch) hJ.1 hJ.2 update first
  have hses' := hses
  rw [w1] at hses'
  simp only [Except.ok.injEq, Writing.Final.mk.injEq, Int.natCast_inj] at hses'
  have hsum : (dataOf evs).length = Bs.length * (34 * ch) := by
    rw [← hses'.1]
    exact flat_length w5
  clear w1 w2 w3 w4 w5 w6 w7 w8 w9
  obtain ⟨s, p, h1, c1, c2, c3, c4, c5, c6, c7, c8, -, c11, c9, c10⟩ := C37_caf_ima F64 h h' ops s' o f hfmt ho hf hc hr (by omega) evs Bs.length
    (by rw [hsum, hch]; rfl) hsz fuel hfuel
  obtain ⟨k1, k2, pad, heard, k3, k4, k5, k6, k7⟩ := through F32 F64 rnd h h' fm (imaQT_good ch 32) (by decide) hch0 r (.inl hc) hch
    (ima_initial ch) hJ.1 hJ.2 hses (fuel := fuel) (u := .caf) (t := s.t) (p := p) (by decide)
    ((C39_written_simple h f evs 0).2.2.2.2.2.2 F64 (by rw [hc]; decide)) (by
      dsimp only [readInit]
      rw [Rd.bind_ok h1]
      rfl) ⟨c2, c3, c4, c5⟩ c6 (by rw [c7, hch]; rfl) c11 c9 c10 (fun b h1 h2 => by
        rw [hsum] at h1
        have := Nat.eq_of_mul_eq_mul_right hch0 h1
        omega)
  refine ⟨s.t, p, k1, c1, c2, pad, heard, k3, k4, ?_⟩
  have hl : heard.length = 64 * Bs.length := by
    rw [hsum, Nat.mul_right_comm] at k6
    have := Nat.eq_of_mul_eq_mul_right hch0 k6
    omega
  rw [c8, show (64 * (Bs.length : Int)).toNat = heard.length by omega, List.take_length] at k7
  exact k7

/-! ## What is heard -/

theorem transcoded_cases {ε : Type} {C : Codec ε} {fpp : Nat} {e : ε} {xs ys : List (List Int)} (h : Transcoded C fpp e xs ys) :
    xs = [] ∧ ys = [] ∨ ∃ b e' zs yss, fpp ≤ xs.length ∧ C.enc e (xs.take fpp) = .ok (b, e') ∧ C.dec b = .ok zs ∧ zs.length = fpp ∧
      Transcoded C fpp e' (xs.drop fpp) yss ∧ ys = zs ++ yss := by
  cases h with
  | done => exact .inl ⟨rfl, rfl⟩
  | @block _ e' xs zs b xss yss h1 h2 h3 h4 h5 =>
    refine .inr ⟨b, e', zs, yss, by rw [List.length_append]; omega, ?_, h3, h4, ?_, rfl⟩
    · rw [← h1, List.take_left]; exact h2
    · rw [← h1, List.drop_left]; rw [h1]; exact h5

/-- C78: what is heard of the complete blocks does not depend on what follows them (in particular not on what the unused end of the last
block is filled with). -/
theorem C78_complete_blocks {ε : Type} (C : Codec ε) (fpp : Nat) (k : Nat) : ∀ (e : ε) (xs pad pad' ys ys' : List (List Int)), xs.length = k * fpp →
    Transcoded C fpp e (xs ++ pad) ys → Transcoded C fpp e (xs ++ pad') ys' → ys.take (k * fpp) = ys'.take (k * fpp) := by
  induction k with
  | zero => intro e xs pad pad' ys ys' _ _ _; rw [Nat.zero_mul, List.take_zero, List.take_zero]
  | succ k ih =>
    intro e xs pad pad' ys ys' hl h1 h2
    rw [Nat.succ_mul] at hl ⊢
    rcases transcoded_cases h1 with ⟨a, rfl⟩ | ⟨b, e', zs, yss, a1, a2, a3, a4, a5, rfl⟩
    · have : xs.length = 0 := by rw [(List.append_eq_nil_iff.1 a).1]; rfl
      rw [show k * fpp + fpp = 0 by omega, List.take_zero, List.take_zero]
    · rcases transcoded_cases h2 with ⟨a, rfl⟩ | ⟨b', e'', zs', yss', b1, b2, b3, b4, b5, rfl⟩
      · have : xs.length = 0 := by rw [(List.append_eq_nil_iff.1 a).1]; rfl
        rw [show k * fpp + fpp = 0 by omega, List.take_zero, List.take_zero]
      · rw [List.take_append_of_le_length (by omega)] at a2 b2
        rw [a2] at b2
        simp only [Except.ok.injEq, Prod.mk.injEq] at b2
        obtain ⟨rfl, rfl⟩ := b2
        rw [a3] at b3
        simp only [Except.ok.injEq] at b3
        subst b3
        rw [List.drop_append_of_le_length (by omega)] at a5 b5
        have := ih e' (xs.drop fpp) pad pad' yss yss' (by rw [List.length_drop]; omega) a5 b5
        rw [Nat.add_comm, ← a4, List.take_length_add_append, List.take_length_add_append, a4, this]

/-- C78 does not mean that all frames are heard: in IMA WAVE files, what was written as frame 504 of a block of 505 makes no difference. -/
theorem C78_wave_ima_frames_lost (ch : Nat) (k : Nat) : ∀ (sts : List IMA.St) (xs xs' ys : List (List Int)), xs.length = k * 505 → xs'.length = xs.length →
    (∀ i, i % 505 ≠ 504 → xs'[i]? = xs[i]?) → Transcoded (imaWave ch 505) 505 sts xs ys → Transcoded (imaWave ch 505) 505 sts xs' ys := by
  induction k with
  | zero =>
    intro sts xs xs' ys h1 h2 _ ht
    have e1 : xs = [] := List.eq_nil_of_length_eq_zero (by omega)
    have e2 : xs' = [] := List.eq_nil_of_length_eq_zero (by omega)
    rw [e2]; rw [e1] at ht; exact ht
  | succ k ih =>
    intro sts xs xs' ys h1 h2 heq ht
    rcases transcoded_cases ht with ⟨a, rfl⟩ | ⟨b, e', zs, yss, a1, a2, a3, a4, a5, rfl⟩
    · rw [a] at h1; simp at h1
    · rw [← List.take_append_drop 505 xs']
      have hsame : xs'.take 504 = xs.take 504 := by
        refine List.ext_getElem? fun i => ?_
        rw [List.getElem?_take, List.getElem?_take]
        split
        · exact heq i (by omega)
        · rfl
      have hlast : ∀ l : List (List Int), 505 ≤ l.length → ∃ f, l.take 505 = l.take 504 ++ [f] := by
        intro l hl
        exact ⟨l[504], by rw [List.take_succ_eq_append_getElem (by omega)]⟩
      obtain ⟨f, hf⟩ := hlast xs a1
      obtain ⟨f', hf'⟩ := hlast xs' (by omega)
      refine .block (by rw [List.length_take]; omega) (b := b) (e' := e') ?_ a3 a4 ?_
      · have e := IMA.C21_negation_wave_drops_last_frame 63 sts (xs.take 504) f' f (by rw [List.length_take]; omega)
        rw [hf', hsame]
        rw [hf] at a2
        exact e.trans a2
      · refine ih e' (xs.drop 505) (xs'.drop 505) yss (by rw [List.length_drop]; omega) (by rw [List.length_drop, List.length_drop]; omega) ?_ a5
        intro i hi
        rw [List.getElem?_drop, List.getElem?_drop]
        exact heq (505 + i) (by omega)

end AF.Adpcm
