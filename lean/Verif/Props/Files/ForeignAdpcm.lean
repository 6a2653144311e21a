import Verif.Proof.ForeignAdpcm
import Verif.Props.Files.Foreign
import Verif.Props.Files.ForeignForm
import Verif.Props.Files.ForeignCaf
/-!
# C80: ADPCM files of other programs
-/
namespace AF.Foreign
open AF AF.Setup AF.Files AF.Convert AF.Spec AF.Spec.Files AF.Spec.Formats AF.Spec.Setup AF.Spec.Foreign AF.Spec.Program AF.Spec.Adpcm AF.Adpcm

variable (F32 : Files.Float32) (F64 : Files.Float64) (rnd : Rat → Dbl)

theorem compute_blocks {f : AFmt} {fpp bpp L : Nat} {first ad fr : Int} (hf : 0 < fpp ∧ fpp < 2 ^ 16) (hb : 0 < bpp ∧ bpp < 2 ^ 32) (hL : L < 2 ^ 63)
    (h2 : L / bpp * fpp < 2 ^ 63) :
    (Trk.mk f fpp bpp first ad L fr).computeTotalFileFrames = Trk.mk f fpp bpp first ad L (L / bpp * fpp : Nat) := by
  unfold Trk.computeTotalFileFrames
  rw [if_pos (by dsimp only; omega)]
  dsimp only
  rw [wrapU_id (by omega) (by omega), wrapU_id (by omega) (by omega), wrapU_id (by omega) (by omega), ← Int.natCast_ediv, ← Int.natCast_mul]
  generalize L / bpp * fpp = q at *
  rw [wrapS_id (by omega) (by omega)]

/-- What the reader makes of a format with blocks. -/
structure Blocky (h : Endian) (rate : Rat) (ch : Nat) (comp : Int) (f : AFmt) : Prop where
  rate : f.rate = rate
  channels : f.channels = ch
  compression : f.compression = comp
  sampleFormat : f.sampleFormat = TWOSCOMP
  width : f.sampleWidth = 16

theorem blocky_set {h : Endian} {rate : Rat} {ch : Nat} {comp : Int} {f : AFmt} (hf : Blocky h rate ch comp f) :
    Blocky h rate ch comp (setSampleFormat f f.sampleFormat f.sampleWidth).2 := by
  obtain ⟨m, -, hm⟩ := set_self (f := f) (by rw [hf.sampleFormat, hf.width]; unfold LegalWidth; decide)
  rw [hm]
  exact ⟨hf.rate, hf.channels, hf.compression, hf.sampleFormat, hf.width⟩

/-- The format chunk of IMA ADPCM. -/
theorem ima_fmt {h : Endian} {w : Wave} (ok : w.Ok) {bits size k : Nat} {more : List Byte} (hw : w.fmt = imaFmt bits size k more)
    (hk : 8 * k + 1 < 2 ^ 16) (ha : w.blockAlign < 2 ^ 16) {file rest : List Byte} {q : Nat} (s : WaveRead) (he : file.drop q = w.fmtBody ++ rest) :
    ∃ f q', Blocky h w.rate w.channels IMA f ∧ waveParseFormat h s file q = .ok (fmtStateB s f (8 * k + 1) w.blockAlign, q') := by
  have hc := ok.channels
  have hr := ok.rate
  have n2 : ∀ x : Nat, num .little 2 x = fieldBytes .little .little .s2 x := fun x => num_field .little .little .s2 x
  have n4 : ∀ x : Nat, num .little 4 x = fieldBytes .little .little .s4 x := fun x => num_field .little .little .s4 x
  have he' : file.drop q = num .little 2 0x11 ++ (num .little 2 w.channels ++ (num .little 4 w.rate ++ (num .little 4 w.byteRate ++
      (num .little 2 w.blockAlign ++ (num .little 2 bits ++ (num .little 2 size ++ (num .little 2 (8 * k + 1) ++ (more ++ rest)))))))) := by
    rw [he]
    unfold Wave.fmtBody
    rw [hw]
    unfold imaFmt
    simp only [List.append_assoc, le_num]
  have e5 := drop_step (drop_step (drop_step (drop_step (drop_step he' (num_length _ _ _)) (num_length _ _ _)) (num_length _ _ _)) (num_length _ _ _)) (num_length _ _ _)
  obtain ⟨y1, hy1, -⟩ := field_any (h := h) (k := .s2) e5
  have e6 := drop_step e5 (num_length _ _ _)
  obtain ⟨y2, hy2, -⟩ := field_any (h := h) (k := .s2) e6
  have e7 := drop_step e6 (num_length _ _ _)
  have hn := (field_num (h := h) (k := .s2) e7 (show _ < 65536 from hk)).2
  have hsw : waveSwitch h ⟨(w.rate : Rat), 0, 0, LITTLE, ⟨0, 0, 0, 0⟩, (w.channels : Int), NONE⟩ (some w.blockAlign) 0x11 file (q + 14) =
      .ok ((⟨(w.rate : Rat), TWOSCOMP, 16, native h, ⟨0, 0, 0, 0⟩, (w.channels : Int), IMA⟩, ((8 * k + 1 : Nat) : Int), (w.blockAlign : Int)), q + 14 + 2 + 2 + 2) := by
    unfold waveSwitch
    rw [if_neg (by decide), if_neg (by decide), if_neg (by decide), if_neg (by decide), if_neg (by decide), if_pos rfl,
      Rd.bind_ok hy1, Rd.bind_ok hy2, Rd.bind_ok hn]
    rfl
  rw [n2, n2, n2, n4, n4] at he'
  have := parse_prefix (h := .little) (h' := h) (s := s) he' (by omega) (by omega) (by omega) (f := _) (fpp := _) (bpp := _) (q' := _)
    (by rw [show ((w.blockAlign : Int) % 65536).toNat = w.blockAlign by omega, Int.toNat_natCast]; exact hsw)
  rw [this, if_neg (by intro hh; exact absurd (of_decide_eq_true hh) (show ¬ (519 : Int) = 0 by decide))]
  exact ⟨_, _, blocky_set (f := ⟨(w.rate : Rat), TWOSCOMP, 16, native h, ⟨0, 0, 0, 0⟩, (w.channels : Int), IMA⟩) ⟨rfl, rfl, rfl, rfl, rfl⟩, rfl⟩

theorem coef_any (h : Endian) (c : Int × Int) {file rest : List Byte} {p : Nat} (he : file.drop p = pairBytes c ++ rest) :
    waveCoefficient h file p = .ok ((), p + 4) ∧ file.drop (p + 4) = rest := by
  unfold pairBytes at he
  rw [List.append_assoc, le_num, le_num] at he
  have e1 := drop_step he (num_length _ _ _)
  obtain ⟨y1, hy1, -⟩ := field_any (h := h) (k := .s2) he
  obtain ⟨y2, hy2, -⟩ := field_any (h := h) (k := .s2) e1
  unfold waveCoefficient
  rw [Rd.bind_ok hy1, Rd.bind_ok hy2]
  have e2 : file.drop (p + 2 + 2) = rest := drop_step e1 (num_length _ _ _)
  exact ⟨rfl, e2⟩

theorem coefs_any (h : Endian) (cs : List (Int × Int)) : ∀ {file rest : List Byte} {p : Nat}, file.drop p = cs.flatMap pairBytes ++ rest →
    ∃ l q, Rd.times (waveCoefficient h) cs.length file p = .ok (l, q) := by
  induction cs with
  | nil => intro file rest p _; exact ⟨_, _, rfl⟩
  | cons c cs ih =>
    intro file rest p he
    rw [List.flatMap_cons, List.append_assoc] at he
    obtain ⟨h1, h2⟩ := coef_any h c he
    obtain ⟨l, q, h3⟩ := ih h2
    rw [List.length_cons]
    unfold Rd.times
    rw [Rd.bind_ok h1, Rd.bind_ok h3]
    exact ⟨_, _, rfl⟩

/-- The format chunk of Microsoft ADPCM. -/
theorem ms_fmt {h : Endian} {w : Wave} (ok : w.Ok) {bits size n : Nat} {more : List Byte} (hw : w.fmt = msFmt bits size n more)
    (hk : n + 2 < 2 ^ 16) (ha : w.blockAlign < 2 ^ 16) {file rest : List Byte} {q : Nat} (s : WaveRead) (he : file.drop q = w.fmtBody ++ rest) :
    ∃ f q', Blocky h w.rate w.channels MSADPCM f ∧ waveParseFormat h s file q = .ok (fmtStateB s f (n + 2) w.blockAlign, q') := by
  have hc := ok.channels
  have hr := ok.rate
  have n2 : ∀ x : Nat, num .little 2 x = fieldBytes .little .little .s2 x := fun x => num_field .little .little .s2 x
  have n4 : ∀ x : Nat, num .little 4 x = fieldBytes .little .little .s4 x := fun x => num_field .little .little .s4 x
  have he' : file.drop q = num .little 2 2 ++ (num .little 2 w.channels ++ (num .little 4 w.rate ++ (num .little 4 w.byteRate ++
      (num .little 2 w.blockAlign ++ (num .little 2 bits ++ (num .little 2 size ++ (num .little 2 (n + 2) ++ (num .little 2 7 ++
        (msCoefs.flatMap pairBytes ++ (more ++ rest)))))))))) := by
    rw [he]
    unfold Wave.fmtBody
    rw [hw]
    unfold msFmt
    dsimp only
    generalize msCoefs.flatMap pairBytes = table
    simp only [List.append_assoc, le_num]
  have e5 := drop_step (drop_step (drop_step (drop_step (drop_step he' (num_length _ _ _)) (num_length _ _ _)) (num_length _ _ _)) (num_length _ _ _)) (num_length _ _ _)
  obtain ⟨y1, hy1, -⟩ := field_any (h := h) (k := .s2) e5
  have e6 := drop_step e5 (num_length _ _ _)
  obtain ⟨y2, hy2, -⟩ := field_any (h := h) (k := .s2) e6
  have e7 := drop_step e6 (num_length _ _ _)
  have hn := (field_num (h := h) (k := .s2) e7 (show _ < 65536 from hk)).2
  have e8 := drop_step e7 (num_length _ _ _)
  have h7 := (field_num (h := h) (k := .s2) e8 (show _ < 65536 by decide)).2
  have e9 := drop_step e8 (num_length _ _ _)
  obtain ⟨l, q', hcs⟩ := coefs_any h msCoefs e9
  have hsw : waveSwitch h ⟨(w.rate : Rat), 0, 0, LITTLE, ⟨0, 0, 0, 0⟩, (w.channels : Int), NONE⟩ (some w.blockAlign) 2 file (q + 14) =
      .ok ((⟨(w.rate : Rat), TWOSCOMP, 16, native h, ⟨0, 0, 0, 0⟩, (w.channels : Int), MSADPCM⟩, ((n + 2 : Nat) : Int), (w.blockAlign : Int)), q') := by
    unfold waveSwitch
    rw [if_neg (by decide), if_neg (by decide), if_neg (by decide), if_neg (by decide), if_pos rfl,
      Rd.bind_ok hy1, Rd.bind_ok hy2, Rd.bind_ok hn, Rd.bind_ok h7, if_neg (by decide)]
    refine (Rd.bind_ok hcs).trans ?_
    rfl
  rw [n2, n2, n2, n4, n4] at he'
  have := parse_prefix (h := .little) (h' := h) (s := s) he' (by omega) (by omega) (by omega) (f := _) (fpp := _) (bpp := _) (q' := _)
    (by rw [show ((w.blockAlign : Int) % 65536).toNat = w.blockAlign by omega, Int.toNat_natCast]; exact hsw)
  rw [this, if_neg (by intro hh; exact absurd (of_decide_eq_true hh) (show ¬ (523 : Int) = 0 by decide))]
  exact ⟨_, _, blocky_set (f := ⟨(w.rate : Rat), TWOSCOMP, 16, native h, ⟨0, 0, 0, 0⟩, (w.channels : Int), MSADPCM⟩) ⟨rfl, rfl, rfl, rfl, rfl⟩, rfl⟩

/-- From the format chunk to a file that plays. -/
theorem wave_blocks {ε : Type} {w : Wave} (ok : w.Ok) {fuel : Nat} (hfuel : w.file.length < fuel) {comp : Int} {fpp : Nat} (C : Codec ε)
    {frames : List Byte → List (List Int)} (hcomp : comp = IMA ∨ comp = MSADPCM) (hch : w.channels = 1 ∨ w.channels = 2)
    (hf : 0 < fpp ∧ fpp < 2 ^ 16) (hb : 0 < w.blockAlign ∧ w.blockAlign < 2 ^ 16)
    (hfmt : ∀ h (S : WaveRead) (q : Nat) (rest : List Byte), w.file.drop q = w.fmtBody ++ rest →
      ∃ f q', Blocky h w.rate w.channels comp f ∧ waveParseFormat h S w.file q = .ok (fmtStateB S f fpp w.blockAlign, q'))
    (hdec : ∀ b ∈ soundBlocks w.blockAlign w.sound, C.dec b = .ok (frames b) ∧ (frames b).length = fpp ∧ ∀ fr ∈ frames b, Frame16 w.channels fr)
    (hen : w.blockFrames fpp ≤ w.sound.length / w.blockAlign * fpp) :
    OpensBlocks F32 F64 rnd fuel w.file C w.rate w.channels comp (((soundBlocks w.blockAlign w.sound).flatMap frames).take (w.blockFrames fpp)) := by
  intro h fm
  have hsize := ok.size
  obtain ⟨s, p, f, first, ad, fr, hB, h1, h2, h3, h4⟩ := wave_walk h w ok hfuel hf.1 hb.1 (hfmt h)
  have hsl : w.sound.length ≤ w.file.length := by
    have := congrArg List.length h2
    rw [List.length_take, List.length_drop] at this
    omega
  have ht : s.t = Trk.mk f fpp w.blockAlign (first : Nat) ad w.sound.length (w.blockFrames fpp : Nat) := by
    cases hfact : w.fact with
    | none =>
      rw [h4 hfact, compute_blocks hf (by omega) (by omega) (by
        have h1 : w.sound.length / w.blockAlign ≤ w.sound.length := Nat.div_le_self _ _
        have h2 : w.sound.length / w.blockAlign * fpp ≤ w.sound.length * 2 ^ 16 := Nat.mul_le_mul h1 (by omega)
        omega)]
      unfold Wave.blockFrames
      rw [hfact]
    | some nm =>
      obtain ⟨n, more⟩ := nm
      rw [h3 n more hfact]
      unfold Wave.blockFrames
      rw [hfact]
  have hr : readInit F32 F64 rnd h fuel .wave w.file 0 = .ok (s.t, p) := by
    show (waveRead h fuel >>= fun s => pure s.t) w.file 0 = _
    rw [Rd.bind_ok h1]
    rfl
  have hsig : HasSignature w.file .wave := by
    refine At.form (l := le 4 (w.chunks.length + 4)) rfl (le_length _ _) ⟨w.chunks, ?_⟩
    rfl
  rw [ht] at hr
  obtain ⟨ho, hit⟩ := openRead_block F32 F64 rnd h fuel (by decide) (identify_of hsig 0) hr (by rw [hB.compression]; exact hcomp)
    ⟨hB.sampleFormat, hB.width⟩ (by rw [hB.channels]; omega)
  refine ⟨_, _, ho, hB.rate, hB.channels, hB.compression, hB.sampleFormat, hB.width, ?_⟩
  exact plays_sound h fm C (t := Trk.mk f fpp w.blockAlign (first : Nat) ad w.sound.length (w.blockFrames fpp : Nat)) (fpp := fpp) (bpp := w.blockAlign)
    rfl rfl hf.1 hb.1 (Int.natCast_nonneg _) hdec (by rw [Int.toNat_natCast]; exact h2)
    ⟨Int.natCast_nonneg _, Int.ofNat_le.2 hen⟩ hB.channels (by
      show f.compression ≠ NONE
      rw [hB.compression]; rcases hcomp with rfl | rfl <;> decide) hit

/-- C80, IMA ADPCM in WAVE files: whatever the block size and the other chunks, the file opens, and plays the frames of the definition,
as many as the fact chunk says or as the complete blocks have. -/
theorem C80_wave_ima (w : Wave) {bits size k : Nat} {more : List Byte} (hw : w.fmt = imaFmt bits size k more) (ok : w.ImaOk k) {fuel : Nat}
    (hfuel : w.file.length < fuel) :
    OpensBlocks F32 F64 rnd fuel w.file (imaWave w.channels (8 * k + 1)) w.rate w.channels IMA
      ((imaWaveFrames w.channels k w.blockAlign w.sound).take (w.blockFrames (8 * k + 1))) := by
  have hpos : 0 < w.blockAlign := by
    have := ok.align.1
    have : 0 < (4 + 4 * k) * w.channels := Nat.mul_pos (by omega) (by have := ok.channels2; omega)
    omega
  refine wave_blocks F32 F64 rnd ok.toOk hfuel _ (.inl rfl) ok.channels2 ⟨by omega, ok.perBlock⟩ ⟨hpos, ok.align.2⟩
    (fun h S q rest he => ima_fmt ok.toOk hw ok.perBlock ok.align.2 S he) (fun b hb => ?_) ok.enough
  exact imaWave_dec _ _ (by rw [block_size b hb]; exact ok.align.1) (ok.index b hb)

/-- C80, Microsoft ADPCM in WAVE files with the standard table of coefficients. -/
theorem C80_wave_ms (w : Wave) {bits size n : Nat} {more : List Byte} (hw : w.fmt = msFmt bits size n more) (ok : w.MsOk n) {fuel : Nat}
    (hfuel : w.file.length < fuel) :
    OpensBlocks F32 F64 rnd fuel w.file (ms w.channels (n + 2)) w.rate w.channels MSADPCM
      ((msFrames w.channels n w.blockAlign w.sound).take (w.blockFrames (n + 2))) := by
  have hc2 := ok.channels2
  have hpos : 0 < w.blockAlign := by
    have := ok.align.1
    omega
  refine wave_blocks F32 F64 rnd ok.toOk hfuel _ (.inr rfl) (by omega) ⟨by omega, ok.perBlock⟩ ⟨hpos, ok.align.2⟩
    (fun h S q rest he => ms_fmt ok.toOk hw ok.perBlock ok.align.2 S he) (fun b hb => ?_) ok.enough
  exact ms_dec _ _ hc2 (by rw [block_size b hb]; exact ok.align.1) (ok.coefs b hb) (ok.steady b hb)

/-- The common chunk of IMA ADPCM. -/
theorem ima_comm {rnd : Rat → Dbl} (hrnd : ExactOnDoubles rnd) {h : Endian} {x : Aiff} (ok : x.ImaOk) {file rest : List Byte} {q : Nat} (s : AiffRead)
    (he : file.drop q = x.comm.body ++ (x.comm.pad ++ rest)) :
    ∃ t q', aiffParseCOMM rnd h x.aifc s file q = .ok ({ s with hasCOMM := true, t := t }, q') ∧
      (Blocky h x.rate x.channels IMA t.f ∧ t.fpp = (64 : Nat) ∧ t.bpp = ((34 * x.channels : Nat) : Int) ∧ t.frames = ((x.frames * 64 : Nat) : Int)) ∧
      t.dataSize = s.t.dataSize ∧ t.first = s.t.first := by
  have he' : file.drop q = num .big 2 x.channels ++ (num .big 4 x.frames ++ (num .big 2 x.bits ++ ((be 2 x.exponent ++ be 8 x.mantissa) ++
      ((if x.aifc then x.compression ++ be 1 x.name.length ++ x.name else []) ++ (x.more ++ (x.comm.pad ++ rest)))))) := by
    rw [he]
    unfold Aiff.comm
    dsimp only
    simp only [List.append_assoc, be_num]
  have hc := ok.channels
  have hr := ok.rate
  have e1 := drop_step he' (num_length _ _ _)
  have e2 := drop_step e1 (num_length _ _ _)
  have e3 := drop_step e2 (num_length _ _ _)
  have l10 : (be 2 x.exponent ++ be 8 x.mantissa).length = 10 := by rw [List.length_append, be_length, be_length]
  have e4 := drop_step e3 l10
  obtain ⟨q', hq'⟩ := compression_read x ok.toOk e4
  unfold aiffParseCOMM
  rw [Rd.bind_ok (field_num (k := .s2) he' hc.2).2, if_neg (by omega), Rd.bind_ok (field_num (k := .s4) e1 ok.frames).2,
    Rd.bind_ok (field_num (k := .s2) e2 ok.bits).2, Rd.bind_ok (Rd.read_ok e3 l10), if_neg (by omega),
    rate_decode hrnd hr.1 hr.2.1 hr.2.2.1 hr.2.2.2]
  dsimp only [dblValue]
  rw [Rd.bind_ok hq', ok.aifc, if_pos rfl, ok.ima4]
  have hg' : aiffFormat h { rate := (x.mantissa : Rat) * (2 : Rat) ^ ((x.exponent : Int) - 16446), sampleFormat := TWOSCOMP
                            sampleWidth := x.bits, byteOrder := BIG, pcm := ⟨0, 0, 0, 0⟩, channels := x.channels, compression := NONE }
      x.frames (text "ima4") = some (⟨(x.mantissa : Rat) * (2 : Rat) ^ ((x.exponent : Int) - 16446), TWOSCOMP, 16, native h, ⟨0, 0, 0, 0⟩, x.channels, IMA⟩,
        64, 34 * (x.channels : Int), (x.frames : Int) * 64) := by
    unfold aiffFormat
    iterate 8 rw [if_neg (by decide)]
    rw [if_pos (by decide)]
  rw [hg']
  dsimp only
  have hb : Blocky h x.rate x.channels IMA ⟨(x.mantissa : Rat) * (2 : Rat) ^ ((x.exponent : Int) - 16446), TWOSCOMP, 16, native h, ⟨0, 0, 0, 0⟩, x.channels, IMA⟩ :=
    ⟨rfl, rfl, rfl, rfl, rfl⟩
  have hs := blocky_set hb
  dsimp only at hs
  obtain ⟨m, -, hm⟩ := set_self (f := ⟨(x.mantissa : Rat) * (2 : Rat) ^ ((x.exponent : Int) - 16446), TWOSCOMP, 16, native h, ⟨0, 0, 0, 0⟩, x.channels, IMA⟩)
    (by show LegalWidth TWOSCOMP 16; unfold LegalWidth; decide)
  dsimp only at hm
  rw [hm] at hs ⊢
  exact ⟨_, _, rfl, ⟨hs, rfl, by show (34 * (x.channels : Int)) = _; omega, by show (x.frames : Int) * 64 = _; omega⟩, rfl, rfl⟩

/-- C80, IMA ADPCM in AIFF-C files: the common chunk counts blocks. -/
theorem C80_aiffc_ima (hrnd : ExactOnDoubles rnd) (x : Aiff) (ok : x.ImaOk) {fuel : Nat} (hfuel : x.file.length < fuel) :
    OpensBlocks F32 F64 rnd fuel x.file (imaQT x.channels 64) x.rate x.channels IMA ((imaQtFrames x.channels x.sound).take (x.frames * 64)) := by
  intro h fm
  have hch := ok.channels2
  obtain ⟨s, p, h1, ⟨hB, q1, q2, q3⟩, h3, h4, h5⟩ := aiff_walk (rnd := rnd) h x ok.toOk
    (Q := fun t => Blocky h x.rate x.channels IMA t.f ∧ t.fpp = (64 : Nat) ∧ t.bpp = ((34 * x.channels : Nat) : Int) ∧ t.frames = ((x.frames * 64 : Nat) : Int))
    (fun t ds fi hQ => hQ) (fun s q rest he => ima_comm hrnd ok s he) hfuel
  have hr : readInit F32 F64 rnd h fuel .aiffc x.file 0 = .ok (s.t, p) := by
    show (aiffRead rnd h fuel >>= fun s => pure s.t) x.file 0 = _
    rw [Rd.bind_ok h1]
    rfl
  have hsig : HasSignature x.file .aiffc := by
    have hf : x.file = text "FORM" ++ be 4 (x.chunks.length + 4) ++ text (if x.aifc then "AIFC" else "AIFF") ++ x.chunks := rfl
    rw [ok.aifc] at hf
    exact At.form (l := be 4 (x.chunks.length + 4)) rfl (be_length _ _) ⟨x.chunks, hf.symm⟩
  obtain ⟨ho, hit⟩ := openRead_block F32 F64 rnd h fuel (by decide) (identify_of hsig 0) hr (by rw [hB.compression]; exact .inl rfl)
    ⟨hB.sampleFormat, hB.width⟩ (by rw [hB.channels]; omega)
  refine ⟨_, _, ho, hB.rate, hB.channels, hB.compression, hB.sampleFormat, hB.width, ?_⟩
  have hen : x.frames * 64 ≤ x.sound.length / (34 * x.channels) * 64 := Nat.mul_le_mul_right _ ok.enough
  have := plays_sound h fm (imaQT x.channels 64) (t := s.t) (fpp := 64) (bpp := 34 * x.channels) q1 q2 (by omega) (by omega) h4
    (fun b hb => imaQT_dec x.channels (by rw [block_size b hb]; omega) (ok.index b hb)) h5 ⟨by rw [q3]; omega, by rw [q3]; exact Int.ofNat_le.2 hen⟩ hB.channels
    (by rw [hB.compression]; decide) hit
  rw [q3, Int.toNat_natCast] at this
  exact this

/-- The description of IMA ADPCM. -/
theorem ima_desc {F : Files.Float64} {h : Endian} {x : Caf} (ok : x.ImaOk) {file rest : List Byte} {q : Nat} (s : CafRead)
    (he : file.drop q = x.desc.body ++ rest) :
    ∃ s' q', cafChunk F h x.desc.id x.desc.body.length s file q = .ok (s', q') ∧ s'.hasDesc = true ∧
      Blocky h (F.dec x.rate) x.channels IMA s'.t.f ∧ s'.t.fpp = ((64 : Nat) : Int) ∧ s'.t.bpp = ((34 * x.channels : Nat) : Int) := by
  have he' : file.drop q = num .big 8 x.rate.toNat ++ (x.format ++ (num .big 4 x.flags ++ (num .big 4 x.bytesPerPacket ++
      (num .big 4 x.framesPerPacket ++ (num .big 4 x.channels ++ (num .big 4 x.bits ++ rest)))))) := by
    rw [he]
    unfold Caf.desc
    simp only [List.append_assoc, be_num]
  have e1 := drop_step he' (num_length _ _ _)
  have e2 := drop_step e1 ok.format
  have e3 := drop_step e2 (num_length _ _ _)
  have e4 := drop_step e3 (num_length _ _ _)
  have e5 := drop_step e4 (num_length _ _ _)
  have e6 := drop_step e5 (num_length _ _ _)
  obtain ⟨y, hy⟩ := u32_some (h := h) e3
  obtain ⟨z, hz⟩ := u32_some (h := h) e4
  have hc := ok.channels
  have hc2 := ok.channels2
  have hb : Blocky h (F.dec x.rate) x.channels IMA ⟨F.dec x.rate, TWOSCOMP, 16, native h, ⟨0, 0, 0, 0⟩, x.channels, IMA⟩ := ⟨rfl, rfl, rfl, rfl, rfl⟩
  have hs := blocky_set hb
  have hg : cafFormat h x.format x.flags z x.bits ⟨F.dec x.rate, 0, wrapS 32 (x.bits : Int), 0, ⟨0, 0, 0, 0⟩, x.channels, 0⟩ s =
      some { s with hasDesc := true, params := .ima, t := { s.t with
        f := (setSampleFormat ⟨F.dec x.rate, TWOSCOMP, 16, native h, ⟨0, 0, 0, 0⟩, x.channels, IMA⟩ TWOSCOMP 16).2, bpp := 34 * (x.channels : Int), fpp := 64 } } := by
    rw [ok.ima4]
    unfold cafFormat
    rw [if_neg (by decide), if_neg (by decide), if_neg (by decide), if_pos (by decide)]
    rfl
  have hp : cafChunk F h x.desc.id x.desc.body.length s file q = .ok ({ s with hasDesc := true, params := .ima, t := { s.t with
        f := (setSampleFormat ⟨F.dec x.rate, TWOSCOMP, 16, native h, ⟨0, 0, 0, 0⟩, x.channels, IMA⟩ TWOSCOMP 16).2, bpp := 34 * (x.channels : Int), fpp := 64 } },
      q + 8 + 4 + 4 + 4 + 4 + 4 + 4) := by
    show cafParseDesc F h s file q = _
    unfold cafParseDesc
    rw [Rd.bind_ok (field_num (k := .s8) he' x.rate.isLt).1]
    dsimp only
    rw [show FieldSize.s8.bytes = 8 from rfl, Rd.bind_ok (tag4_ok ok.format e1), Rd.bind_ok (u32_num e2 ok.flags), Rd.bind_ok hy, Rd.bind_ok hz,
      Rd.bind_ok (u32_num e5 (by omega)), Rd.bind_ok (u32_num e6 ok.bits), if_neg (by omega), BitVec.ofNat_toNat, BitVec.setWidth_eq,
      wrapS_id (n := 32) (x := x.channels) (by omega) (by omega), hg]
    rfl
  exact ⟨_, _, hp, rfl, hs, rfl, by show (34 * (x.channels : Int)) = _; omega⟩

/-- C80, IMA ADPCM in Core Audio files: the frames of all complete blocks. -/
theorem C80_caf_ima (x : Caf) (ok : x.ImaOk) {fuel : Nat} (hfuel : x.file.length < fuel) :
    OpensBlocks F32 F64 rnd fuel x.file (imaQT x.channels 64) (F64.dec x.rate) x.channels IMA (imaQtFrames x.channels x.sound) := by
  intro h fm
  have hch := ok.channels2
  have hshort := ok.short
  obtain ⟨s, p, f, first, ad, fr, hB, h1, h2, h3⟩ := caf_walk F64 h x ok.toShape (fun s q rest he => ima_desc ok s he) hfuel
  have hq : x.sound.length / (34 * x.channels) * 64 < 2 ^ 63 := by
    have : x.sound.length / (34 * x.channels) ≤ x.sound.length / 34 := Nat.div_le_div_left (by omega) (by omega)
    have h3 : x.sound.length / 34 * 34 ≤ x.sound.length := Nat.div_mul_le_self _ _
    omega
  rw [compute_blocks (by omega) (by omega) (by omega) hq] at h3
  have hr : readInit F32 F64 rnd h fuel .caf x.file 0 = .ok (s.t, p) := by
    show (cafRead F64 h fuel >>= fun s => pure s.t) x.file 0 = _
    rw [Rd.bind_ok h1]
    rfl
  have hsig : HasSignature x.file .caf := by
    unfold Caf.file
    simp only [List.append_assoc]
    exact ⟨rfl, rfl⟩
  rw [h3] at hr
  obtain ⟨ho, hit⟩ := openRead_block F32 F64 rnd h fuel (by decide) (identify_of hsig 0) hr (by rw [hB.compression]; exact .inl rfl)
    ⟨hB.sampleFormat, hB.width⟩ (by rw [hB.channels]; omega)
  refine ⟨_, _, ho, hB.rate, hB.channels, hB.compression, hB.sampleFormat, hB.width, ?_⟩
  have := plays_sound h fm (imaQT x.channels 64) (t := Trk.mk f (64 : Nat) ((34 * x.channels : Nat) : Int) (first : Nat) ad x.sound.length
    (x.sound.length / (34 * x.channels) * 64 : Nat)) (fpp := 64) (bpp := 34 * x.channels) rfl rfl (by omega) (by omega) (Int.natCast_nonneg _)
    (fun b hb => imaQT_dec x.channels (by rw [block_size b hb]; omega) (ok.index b hb)) (by rw [Int.toNat_natCast]; exact h2)
    ⟨Int.natCast_nonneg _, Int.le_refl _⟩ hB.channels (by show f.compression ≠ NONE; rw [hB.compression]; decide) hit
  have hlen : ((soundBlocks (34 * x.channels) x.sound).flatMap fun b => rows x.channels 64 (Spec.Ima.qtChannel 32 b)).length =
      x.sound.length / (34 * x.channels) * 64 := by
    rw [List.length_flatMap, List.map_congr_left (g := fun _ => 64) (fun b _ => by unfold rows; rw [List.length_map, List.length_range]),
      List.map_const', List.sum_replicate_nat, blocks_length]
  rw [show (Trk.mk f (64 : Nat) ((34 * x.channels : Nat) : Int) (first : Nat) ad x.sound.length
    (x.sound.length / (34 * x.channels) * 64 : Nat)).frames.toNat = x.sound.length / (34 * x.channels) * 64 from Int.toNat_natCast _,
    List.take_of_length_le (by rw [hlen]; exact Nat.le_refl _)] at this
  exact this

/-! ## Cases -/

/-- Two blocks of IMA ADPCM, mono, nine frames each, the second full scale; a byte too many; a fact chunk that says 15 frames; other chunks. -/
def exIma : Wave :=
  { fmt := imaFmt 4 2 1 [], channels := 1, rate := 22050, byteRate := 11100, blockAlign := 8, fmtPad := []
    first := [⟨text "JUNK", [1, 2, 3], [0]⟩], second := [], third := [⟨text "PEAK", [7], [9]⟩]
    last := [⟨text "id3 ", [1], [0]⟩], fact := some (15, []), factPad := []
    sound := [0, 1, 20, 0, 0x12, 0x9a, 0x7f, 0x80, 0xff, 0x7f, 88, 0, 0x77, 0x77, 0xff, 0x01, 5], soundPad := [0] }

theorem exIma_ok : exIma.ImaOk 1 := by
  refine ⟨⟨by decide, by decide, (by decide : 0x11 < 2 ^ 16 ∧ 4 < 2 ^ 16), fun c hc => ⟨⟨?_, ?_⟩, ?_⟩, by decide +kernel, fun n more h => by cases h; decide, by decide, by decide +kernel⟩,
    .inl rfl, by decide, by decide, by decide +kernel, by decide +kernel⟩
  all_goals revert c; decide

example : exIma.fmt = imaFmt 4 2 1 [] ∧ exIma.file.length < 1000 := ⟨rfl, by decide +kernel⟩

example : (imaWaveFrames 1 1 8 exIma.sound).take 11 =
    [[256], [287], [303], [278], [265], [202], [338], [357], [340], [32767], [32767]] := by decide +kernel

/-- Two blocks of Microsoft ADPCM, stereo, four frames each; no fact chunk. -/
def exMs : Wave :=
  { fmt := msFmt 4 32 2 [], channels := 2, rate := 11025, byteRate := 11155, blockAlign := 16, fmtPad := []
    first := [], second := [], third := [], last := [], fact := none, factPad := []
    sound := [1, 4, 20, 0, 30, 0, 100, 0, 0x9c, 0xff, 90, 0, 0x90, 0xff, 0x12, 0x7f, 0, 6, 16, 0, 16, 0, 1, 0, 2, 0, 3, 0, 4, 0, 0x83, 0x40], soundPad := [] }

theorem exMs_ok : exMs.MsOk 2 := by
  refine ⟨⟨by decide, by decide, (by decide : 2 < 2 ^ 16 ∧ 4 < 2 ^ 16), fun c hc => (by cases hc), by decide +kernel, fun n more h => (by cases h), by decide, by decide +kernel⟩,
    .inr rfl, by decide, by decide, by decide +kernel, ?_, by decide +kernel⟩
  have hb : soundBlocks exMs.blockAlign exMs.sound = [[1, 4, 20, 0, 30, 0, 100, 0, 0x9c, 0xff, 90, 0, 0x90, 0xff, 0x12, 0x7f],
      [0, 6, 16, 0, 16, 0, 1, 0, 2, 0, 3, 0, 4, 0, 0x83, 0x40]] := by decide +kernel
  intro b hb' c hc
  rw [hb] at hb'
  have hc : c = 0 ∨ c = 1 := by have : c < 2 := hc; omega
  simp only [List.mem_cons, List.not_mem_nil, or_false] at hb'
  rcases hb' with rfl | rfl <;> rcases hc with rfl | rfl <;> decide +kernel

example : exMs.fmt = msFmt 4 32 2 [] ∧ exMs.blockFrames 4 = 8 ∧ (msFrames 2 2 16 exMs.sound).length = 8 := ⟨rfl, by decide +kernel, by decide +kernel⟩

/-- A block of QuickTime's IMA ADPCM, mono, in AIFF-C; the sound has two. -/
def exImaC : Aiff :=
  { aifc := true, channels := 1, frames := 1, bits := 16, exponent := 16398, mantissa := 0xac44 * 2 ^ 48, compression := text "ima4"
    name := text "IMA", more := [], commPad := [], gap := [], blockSize := 0, sound := [0x01, 0x14] ++ List.replicate 32 0x5b ++ [0xff, 0x80] ++ List.replicate 32 7
    soundPad := [], soundFirst := false, before := [⟨text "FVER", [0xa2, 0x80, 0x51, 0x40], []⟩], between := [], after := [] }

theorem exImaC_ok : exImaC.ImaOk := by
  refine ⟨⟨by decide, by decide, by decide, ⟨by decide, by decide, by decide +kernel, ?_⟩, by decide, by decide, by decide +kernel, by decide +kernel, ?_, by decide +kernel⟩,
    rfl, rfl, .inl rfl, ?_, by decide +kernel⟩
  · rw [show exImaC.rate = exAiff.rate from rfl, exAiff_rate]
    exact ⟨44100, 0, by decide, by decide, by decide, by decide +kernel⟩
  · intro c hc
    have hc : c = ⟨text "FVER", [0xa2, 0x80, 0x51, 0x40], []⟩ := by simpa [exImaC] using hc
    rw [hc]
    exact ⟨⟨by decide, by decide⟩, by decide, fun h => absurd h (by decide), fun h => absurd h (by decide)⟩
  · unfold QtIndices
    decide +kernel

/-- A block of stereo in a Core Audio file. -/
def exImaCaf : Caf :=
  { rate := 0x40e5888000000000#64, format := text "ima4", flags := 0, bytesPerPacket := 68, framesPerPacket := 64, channels := 2, bits := 0
    editCount := 0, sound := [0x01, 0x14] ++ List.replicate 32 0x5b ++ [0xff, 0x80] ++ List.replicate 32 7, toEnd := true
    between := [⟨text "chan", List.replicate 12 0⟩], after := [] }

theorem exImaCaf_ok : exImaCaf.ImaOk := by
  refine ⟨⟨by decide, by decide, by decide, by decide, by decide, fun _ => rfl, by decide +kernel⟩, rfl, .inr rfl, ?_, by decide +kernel⟩
  unfold QtIndices
  decide +kernel

example : (imaQtFrames 2 exImaCaf.sound).take 3 = [[213, -117], [274, -115], [217, -90]] := by decide +kernel

end AF.Foreign
