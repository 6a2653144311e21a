import Verif.Proof.Files.AIFFWrite
import Verif.Props.Extended
/-!
# AIFF files: reading the chunks
-/
namespace AF.Files
open AF AF.Setup AF.Spec AF.Spec.Files AF.Meta AF.Convert

/-! ## INST -/

def u8 (x : Int) : Nat := (x % 256 ^ FieldSize.s1.bytes).toNat
def u16 (x : Int) : Nat := (x % 256 ^ FieldSize.s2.bytes).toNat

/-- The instrument that is read back. -/
def instRead (hd : Handle) : Instrument :=
  let p (id : Int) : Int := (getInstParamLong hd DEFAULT_INST id).toInt
  ⟨DEFAULT_INST,
    [⟨1, u16 (getLoopMode hd DEFAULT_INST 1), 0, u16 (getLoopStart hd DEFAULT_INST 1), u16 (getLoopEnd hd DEFAULT_INST 1), DEFAULT_TRACK⟩,
     ⟨2, u16 (getLoopMode hd DEFAULT_INST 2), 0, u16 (getLoopStart hd DEFAULT_INST 2), u16 (getLoopEnd hd DEFAULT_INST 2), DEFAULT_TRACK⟩],
    [BitVec.ofInt 64 (u8 (p 301)), BitVec.ofInt 64 (wrapS 8 (u8 (p 302))), BitVec.ofInt 64 (u8 (p 305)),
     BitVec.ofInt 64 (u8 (p 306)), BitVec.ofInt 64 (u8 (p 303)), BitVec.ofInt 64 (u8 (p 304)),
     BitVec.ofInt 64 (wrapS 16 (u16 (p 307))), 1, 2]⟩

theorem inst_fields (h h' : Endian) (s : AiffRead) (a1 a2 a3 a4 a5 a6 a7 a8 a9 a10 a11 a12 a13 : Int) :
    Reads (aiffParseINST h' s) (fieldBytes h .big .s1 a1 ++ (fieldBytes h .big .s1 a2 ++ (fieldBytes h .big .s1 a3 ++ (fieldBytes h .big .s1 a4 ++ (fieldBytes h .big .s1 a5 ++ (fieldBytes h .big .s1 a6 ++ (fieldBytes h .big .s2 a7 ++ (fieldBytes h .big .s2 a8 ++ (fieldBytes h .big .s2 a9 ++ (fieldBytes h .big .s2 a10 ++ (fieldBytes h .big .s2 a11 ++ (fieldBytes h .big .s2 a12 ++ (fieldBytes h .big .s2 a13 ++ [])))))))))))))
      { s with inst := some ⟨DEFAULT_INST, [⟨1, u16 a8, 0, u16 a9, u16 a10, DEFAULT_TRACK⟩, ⟨2, u16 a11, 0, u16 a12, u16 a13, DEFAULT_TRACK⟩],
        [BitVec.ofInt 64 (u8 a1), BitVec.ofInt 64 (wrapS 8 (u8 a2)), BitVec.ofInt 64 (u8 a5), BitVec.ofInt 64 (u8 a6),
         BitVec.ofInt 64 (u8 a3), BitVec.ofInt 64 (u8 a4), BitVec.ofInt 64 (wrapS 16 (u16 a7)), 1, 2]⟩ } :=
  Reads.field'.bind <| Reads.field'.bind <| Reads.field'.bind <| Reads.field'.bind <| Reads.field'.bind <|
  Reads.field'.bind <| Reads.field'.bind <| Reads.field'.bind <| Reads.field'.bind <| Reads.field'.bind <|
  Reads.field'.bind <| Reads.field'.bind <| Reads.field'.bind <| Reads.pure _

theorem inst_reads (h h' : Endian) (hd : Handle) (s : AiffRead) {file : List Byte} {p : Nat} {rest : List Byte}
    (hf : file.drop p = aiffINST h hd ++ rest) :
    ∃ q, aiffParseINST h' s file (p + 8) = .ok ({ s with inst := some (instRead hd) }, q) := by
  unfold aiffINST at hf
  simp only [List.append_assoc] at hf
  have h1 := drop_step hf (n := 4) rfl
  have h2 := drop_step h1 (n := 4) (fieldBytes_length _ _ _ _)
  rw [Nat.add_assoc] at h2
  refine ⟨_, (inst_fields h h' s _ _ _ _ _ _ _ _ _ _ _ _ _) file (p + 8) rest ?_⟩
  simp only [List.append_assoc, List.nil_append]
  exact h2

/-! ## MARK -/

theorem uInit_ok {h h' o : Endian} {k : FieldSize} {file : List Byte} {p : Nat} {x : Int} {rest : List Byte}
    (hf : file.drop p = fieldBytes h' o k x ++ rest) :
    Rd.uInit h o k file p = .ok ((x % 256 ^ k.bytes).toNat, p + k.bytes) := by
  have h1 := (Rd.field_ok (h := h) hf).1
  unfold Rd.field? at h1
  unfold Rd.uInit
  generalize readField h o k (file.drop p) = r at *
  cases r with
  | none => cases h1
  | some r =>
    obtain ⟨x1, r1⟩ := r
    dsimp only at h1 ⊢
    have h2 : x1.toNat = (x % 256 ^ k.bytes).toNat := by
      simp only [Except.ok.injEq, Prod.mk.injEq, Option.some.injEq] at h1
      exact h1.1
    rw [h2]

structure AMarkOK (m : WMark) : Prop where
  id : -2 ^ 15 ≤ m.id ∧ m.id < 2 ^ 15
  pos : 0 ≤ m.position ∧ m.position < 2 ^ 32
  name : m.name.length ≤ 255

def amarkRead (m : WMark) : RMark := ⟨m.id, m.position, m.name ++ [0], [0]⟩

theorem byte_field (h o : Endian) (n : Nat) : [BitVec.ofNat 8 n] = fieldBytes h o .s1 (n : Int) := by
  rw [fieldBytes, writeField_eq]
  have : BitVec.ofInt 8 (((BitVec.ofInt (8 * FieldSize.s1.bytes) (n : Int)).toNat : Nat) : Int) = BitVec.ofNat 8 n := by
    apply BitVec.eq_of_toNat_eq
    rw [BitVec.toNat_ofInt, BitVec.toNat_ofInt, BitVec.toNat_ofNat]
    show ((((n : Int) % 256).toNat : Int) % 256).toNat = n % 256
    omega
  cases o
  · show _ = leBytes 1 _
    rw [leBytes, this]; rfl
  · show _ = (leBytes 1 _).reverse
    rw [leBytes, this]; rfl

theorem pString_eq (h : Endian) {s : List Byte} (hs : s.length ≤ 255) :
    pString s = fieldBytes h .big .s1 (s.length : Int) ++ (s ++ if s.length % 2 = 0 then [0] else []) := by
  unfold pString
  rw [if_neg (by omega), byte_field h .big, List.append_assoc]

theorem pString_length {s : List Byte} (hs : s.length ≤ 255) : (pString s).length = 1 + s.length + (1 + s.length) % 2 := by
  unfold pString
  rw [if_neg (by omega)]
  split <;> simp <;> omega

theorem mark_reads (h h' : Endian) {m : WMark} (hm : AMarkOK m) : Reads (aiffReadMark h') (aiffMark h m) (amarkRead m) := by
  intro file p rest hf
  have hl := aiffMark_length h m
  rw [pString_length hm.name] at hl
  unfold aiffMark at hf
  rw [pString_eq h hm.name] at hf
  simp only [List.append_assoc] at hf
  have e1 := fb _ _ _ _ hf
  have e2 := fb _ _ _ _ e1
  have e3 := fb _ _ _ _ e2
  unfold aiffReadMark
  rw [Rd.bind_ok (uInit_ok hf), Rd.bind_ok (uInit_ok e1), Rd.bind_ok (uInit_ok e2)]
  have q1 : (((m.name.length : Nat) : Int) % 256 ^ FieldSize.s1.bytes).toNat = m.name.length := by
    rw [p1]; have := hm.name; omega
  have q2 : (m.position % 256 ^ FieldSize.s4.bytes).toNat = m.position.toNat := by rw [p4]; have := hm.pos; omega
  rw [q1, q2, Rd.bind_ok (Rd.read_ok e3 rfl), if_neg (by omega)]
  have q3 : wrapS 16 (((m.id % 256 ^ FieldSize.s2.bytes).toNat : Nat) : Int) = m.id := by
    rw [p2]
    unfold wrapS Int.bmod
    have : ((2 ^ 16 : Nat) : Int) = 65536 := rfl
    rw [this]
    have := hm.id
    dsimp only
    split <;> omega
  rw [Rd.bind_ok (m := Rd.skip _) (a := ()) (p' := p + FieldSize.s2.bytes + FieldSize.s4.bytes + FieldSize.s1.bytes +
    m.name.length + (if m.name.length % 2 = 0 then 1 else 0)) rfl, q3]
  have hp : (m.position.toNat : Int) = m.position := by have := hm.pos; omega
  rw [hp, hl]
  have q4 : p + FieldSize.s2.bytes + FieldSize.s4.bytes + FieldSize.s1.bytes + m.name.length +
      (if m.name.length % 2 = 0 then 1 else 0) = p + (6 + (1 + m.name.length + (1 + m.name.length) % 2)) := by
    have e1 : FieldSize.s1.bytes = 1 := rfl
    rw [b2, b4, e1]
    split <;> omega
  rw [q4]
  rfl

theorem marks_read (h h' : Endian) (ms : List WMark) (hm : ∀ m ∈ ms, AMarkOK m) :
    Reads (Rd.times (aiffReadMark h') ms.length) (ms.flatMap (aiffMark h)) (ms.map amarkRead) := by
  induction ms with
  | nil => exact Reads.pure _
  | cons m ms ih =>
    have h1 := (mark_reads h h' (hm m (by simp))).bind (g := fun a => do let as ← Rd.times (aiffReadMark h') ms.length; return a :: as)
      ((ih fun x hx => hm x (by simp [hx])).bind (Reads.pure _))
    simpa [Rd.times] using h1

theorem mark_chunk (h h' : Endian) (ms : List WMark) (hm : ∀ m ∈ ms, AMarkOK m) (hn : ms.length < 2 ^ 16) (s : AiffRead)
    {file : List Byte} {p : Nat} {rest : List Byte}
    (hf : file.drop p = fieldBytes h .big .s2 ms.length ++ (ms.flatMap (aiffMark h) ++ rest)) :
    ∃ q, aiffParseMARK h' s file p = .ok ({ s with markers := ms.map amarkRead }, q) := by
  unfold aiffParseMARK
  rw [Rd.bind_ok (Rd.field_ok hf).2]
  have q1 : (((ms.length : Nat) : Int) % 256 ^ FieldSize.s2.bytes).toNat = ms.length := by rw [p2]; omega
  rw [q1, Rd.bind_ok (marks_read h h' ms hm file _ _ (fb _ _ _ _ hf))]
  exact ⟨_, rfl⟩

/-! ## COMM -/

/-- What the formats of AIFF files are. -/
structure AiffFormat (aifc : Bool) (f : AFmt) : Prop where
  compression : f.compression ∈ [0, 502, 503, 519]
  plain : f.compression = 0 → f.byteOrder = 501 ∧ ((f.sampleFormat = 401 ∧ 1 ≤ f.sampleWidth ∧ f.sampleWidth ≤ 32) ∨
    (f.sampleFormat = 403 ∧ f.sampleWidth = 32) ∨ (f.sampleFormat = 404 ∧ f.sampleWidth = 64))
  simple : aifc = false → f.compression = 0 ∧ f.sampleFormat = 401
  channels : 1 ≤ f.channels
  channels' : f.channels < 2 ^ 16
  rate : IsDouble f.rate

/-- What is read back. -/
structure CommRead (f : AFmt) (n : Int) (t : Trk) : Prop where
  rate : t.f.rate = f.rate
  channels : t.f.channels = f.channels
  compression : t.f.compression = f.compression
  plain : f.compression = 0 → t.f.sampleFormat = f.sampleFormat ∧ t.f.sampleWidth = f.sampleWidth ∧ t.f.byteOrder = 501
  decoded : f.compression ≠ 0 → t.f.sampleFormat = 401 ∧ t.f.sampleWidth = 16
  fpp : t.fpp = if f.compression = 519 then 64 else 1
  bpp : t.bpp = if f.compression = 519 then 34 * f.channels else (bytesPerFrame f : Nat)
  frames : t.frames = if f.compression = 519 then n * 64 else n

theorem aiffCompression_lengths (f : AFmt) : (aiffCompression f).1.length = 4 ∧ (aiffCompression f).2.length ≤ 255 := by
  unfold aiffCompression
  repeat' split
  all_goals exact ⟨rfl, by decide⟩

/-- The compression id. -/
theorem comp_reads (h : Endian) (aifc : Bool) (f : AFmt) {file : List Byte} {p : Nat} {rest : List Byte}
    (hf : file.drop p = (if aifc then (aiffCompression f).1 ++ pString (aiffCompression f).2 else []) ++ rest) :
    ∃ q, aiffReadCompression aifc file p = .ok (if aifc then (aiffCompression f).1 else tag "NONE", q) := by
  obtain ⟨h1, h2⟩ := aiffCompression_lengths f
  cases aifc with
  | false => exact ⟨_, rfl⟩
  | true =>
    rw [if_pos rfl] at hf ⊢
    unfold aiffReadCompression
    rw [if_pos rfl]
    unfold pString at hf
    rw [if_neg (by omega)] at hf
    simp only [List.append_assoc] at hf
    rw [Rd.bind_ok (Rd.tag_ok hf h1)]
    have e1 := drop_step hf h1
    rw [Rd.bind_ok (Rd.read_ok e1 (n := 1) rfl)]
    exact ⟨_, rfl⟩

theorem set_plain {g : AFmt} {f : AFmt} (hp : (f.sampleFormat = 401 ∧ 1 ≤ f.sampleWidth ∧ f.sampleWidth ≤ 32) ∨
    (f.sampleFormat = 403 ∧ f.sampleWidth = 32) ∨ (f.sampleFormat = 404 ∧ f.sampleWidth = 64))
    (h1 : g.sampleFormat = f.sampleFormat) (h2 : g.sampleWidth = f.sampleWidth) :
    (setSampleFormat g g.sampleFormat g.sampleWidth).1 = true ∧
    (setSampleFormat g g.sampleFormat g.sampleWidth).2.sampleFormat = f.sampleFormat ∧
    (setSampleFormat g g.sampleFormat g.sampleWidth).2.sampleWidth = f.sampleWidth ∧
    (setSampleFormat g g.sampleFormat g.sampleWidth).2.byteOrder = g.byteOrder ∧
    (setSampleFormat g g.sampleFormat g.sampleWidth).2.compression = g.compression ∧
    (setSampleFormat g g.sampleFormat g.sampleWidth).2.channels = g.channels ∧
    (setSampleFormat g g.sampleFormat g.sampleWidth).2.rate = g.rate := by
  rw [h1, h2]
  rcases hp with ⟨a, b⟩ | ⟨a, b⟩ | ⟨a, b⟩
  · rw [a]
    refine ⟨?_, set_sampleFormat (Or.inl rfl) b⟩
    unfold setSampleFormat
    rw [if_pos (Or.inr rfl), if_neg (by omega)]
    dsimp only
    rw [if_pos rfl]
  · rw [a, b]; simp [setSampleFormat, UNSIGNED, TWOSCOMP, FLOAT]
  · rw [a, b]; simp [setSampleFormat, UNSIGNED, TWOSCOMP, FLOAT, DOUBLE]

theorem aiffFormat_none (h : Endian) (f : AFmt) (n : Int) : aiffFormat h f n (tag "NONE") = some (f, 1, 0, n) := rfl
theorem aiffFormat_fl32 (h : Endian) (f : AFmt) (n : Int) : aiffFormat h f n (tag "fl32") =
    some ({ f with sampleFormat := FLOAT, sampleWidth := 32 }, 1, 0, n) := rfl
theorem aiffFormat_fl64 (h : Endian) (f : AFmt) (n : Int) : aiffFormat h f n (tag "fl64") =
    some ({ f with sampleFormat := DOUBLE, sampleWidth := 64 }, 1, 0, n) := rfl
theorem aiffFormat_ulaw (h : Endian) (f : AFmt) (n : Int) : aiffFormat h f n (tag "ulaw") =
    some ({ f with compression := ULAW, byteOrder := native h, sampleWidth := 16 }, 1, f.channels, n) := rfl
theorem aiffFormat_alaw (h : Endian) (f : AFmt) (n : Int) : aiffFormat h f n (tag "alaw") =
    some ({ f with compression := ALAW, byteOrder := native h, sampleWidth := 16 }, 1, f.channels, n) := rfl
theorem aiffFormat_ima4 (h : Endian) (f : AFmt) (n : Int) : aiffFormat h f n (tag "ima4") =
    some ({ f with compression := IMA, byteOrder := native h, sampleWidth := 16 }, 64, 34 * f.channels, n * 64) := rfl

theorem comm_format (h' : Endian) {aifc : Bool} {f : AFmt} (hf : AiffFormat aifc f) (n : Int) (W : Nat) (hW : f.compression = 0 → f.sampleFormat = 401 → W = f.sampleWidth) :
    ∃ G fpp bpp m, aiffFormat h' ⟨f.rate, TWOSCOMP, W, BIG, ⟨0, 0, 0, 0⟩, f.channels, NONE⟩ n
        (if aifc then (aiffCompression f).1 else tag "NONE") = some (G, fpp, bpp, m) ∧
      (setSampleFormat G G.sampleFormat G.sampleWidth).1 = true ∧
      ∀ t : Trk, CommRead f n { t with f := (setSampleFormat G G.sampleFormat G.sampleWidth).2, fpp := fpp
                                       bpp := if G.isUncompressed then pcmBytesPerPacket G else bpp, frames := m } := by
  have hbpp : ∀ w : Int, 0 ≤ w → (w + 7).tdiv 8 = (w + 7) / 8 := fun w hw => Int.tdiv_eq_ediv_of_nonneg (by omega)
  have hch := hf.channels
  -- a compressed format
  have comp : ∀ (G : AFmt), G.sampleFormat = 401 → G.sampleWidth = 16 → G.compression = f.compression → G.channels = f.channels →
      G.rate = f.rate → f.compression ≠ 0 → ∀ fpp bpp m,
      fpp = (if f.compression = 519 then 64 else 1) → bpp = (if f.compression = 519 then 34 * f.channels else f.channels) →
      m = (if f.compression = 519 then n * 64 else n) →
      (setSampleFormat G G.sampleFormat G.sampleWidth).1 = true ∧
      ∀ t : Trk, CommRead f n { t with f := (setSampleFormat G G.sampleFormat G.sampleWidth).2, fpp := fpp
                                       bpp := if G.isUncompressed then pcmBytesPerPacket G else bpp, frames := m } := by
    intro G g1 g2 g3 g4 g5 hz fpp bpp m p1 p2 p3
    obtain ⟨s1, s2, s3, s4, s5, s6, s7⟩ := set_plain (g := G) (f := G) (Or.inl ⟨g1, by omega, by omega⟩) rfl rfl
    refine ⟨s1, fun t => ⟨by rw [s7, g5], by rw [s6, g4], by rw [s5, g3], fun h => absurd h hz, fun _ => ⟨by rw [s2, g1], by rw [s3, g2]⟩, p1, ?_, p3⟩⟩
    dsimp only
    have : G.isUncompressed = false := by unfold AFmt.isUncompressed; rw [g3]; simpa [NONE] using hz
    rw [this, p2]
    simp only [bytesPerFrame, NONE, hz, if_false, Bool.false_eq_true]
    split
    · rfl
    · omega
  -- an uncompressed one
  have plain : ∀ (G : AFmt), f.compression = 0 → G.sampleFormat = f.sampleFormat → G.sampleWidth = f.sampleWidth → G.compression = 0 →
      G.channels = f.channels → G.rate = f.rate → G.byteOrder = 501 →
      (setSampleFormat G G.sampleFormat G.sampleWidth).1 = true ∧
      ∀ t : Trk, CommRead f n { t with f := (setSampleFormat G G.sampleFormat G.sampleWidth).2, fpp := 1
                                       bpp := if G.isUncompressed then pcmBytesPerPacket G else 0, frames := n } := by
    intro G hz g1 g2 g3 g4 g5 g6
    have hp := (hf.plain hz).2
    obtain ⟨s1, s2, s3, s4, s5, s6, s7⟩ := set_plain hp g1 g2
    refine ⟨s1, fun t => ⟨by rw [s7, g5], by rw [s6, g4], by rw [s5, g3, hz], fun _ => ⟨s2, s3, by rw [s4, g6]⟩, fun h => absurd hz h,
      by rw [hz]; rfl, ?_, by rw [hz]; rfl⟩⟩
    dsimp only
    have : G.isUncompressed = true := by unfold AFmt.isUncompressed; rw [g3]; rfl
    rw [this, if_pos rfl, hz, if_neg (by decide), pcmBytesPerPacket, g2, g4, hbpp _ (by omega), bytesPerFrame, if_pos hz]
    have : 0 ≤ (f.sampleWidth + 7) / 8 * f.channels := Int.mul_nonneg (by omega) (by omega)
    omega
  have hc := hf.compression
  simp only [List.mem_cons, List.not_mem_nil, or_false] at hc
  cases aifc with
  | false =>
    obtain ⟨hz, h4⟩ := hf.simple rfl
    exact ⟨_, _, _, _, aiffFormat_none _ _ _, plain _ hz h4.symm (hW hz h4) rfl rfl rfl rfl⟩
  | true =>
    rw [if_pos rfl]
    unfold aiffCompression
    rcases hc with hz | hz | hz | hz
    · rw [if_pos hz]
      rcases (hf.plain hz).2 with ⟨h1, h2⟩ | ⟨h1, h2⟩ | ⟨h1, h2⟩
      · rw [if_pos h1]
        exact ⟨_, _, _, _, aiffFormat_none _ _ _, plain _ hz h1.symm (hW hz h1) rfl rfl rfl rfl⟩
      · rw [if_neg (by rw [h1]; decide), if_pos h1]
        exact ⟨_, _, _, _, aiffFormat_fl32 _ _ _, plain _ hz h1.symm h2.symm rfl rfl rfl rfl⟩
      · rw [if_neg (by rw [h1]; decide), if_neg (by rw [h1]; decide)]
        exact ⟨_, _, _, _, aiffFormat_fl64 _ _ _, plain _ hz h1.symm h2.symm rfl rfl rfl rfl⟩
    · rw [if_neg (by rw [hz]; decide), if_pos hz]
      refine ⟨_, _, _, _, aiffFormat_ulaw _ _ _, ?_⟩
      refine comp _ ?_ ?_ ?_ ?_ ?_ ?_ _ _ _ ?_ ?_ ?_
      all_goals first | rfl | exact hz.symm | (rw [hz]; decide) | (rw [hz]; rfl)
    · rw [if_neg (by rw [hz]; decide), if_neg (by rw [hz]; decide), if_pos hz]
      refine ⟨_, _, _, _, aiffFormat_alaw _ _ _, ?_⟩
      refine comp _ ?_ ?_ ?_ ?_ ?_ ?_ _ _ _ ?_ ?_ ?_
      all_goals first | rfl | exact hz.symm | (rw [hz]; decide) | (rw [hz]; rfl)
    · rw [if_neg (by rw [hz]; decide), if_neg (by rw [hz]; decide), if_neg (by rw [hz]; decide)]
      refine ⟨_, _, _, _, aiffFormat_ima4 _ _ _, ?_⟩
      refine comp _ ?_ ?_ ?_ ?_ ?_ ?_ _ _ _ ?_ ?_ ?_
      all_goals first | rfl | exact hz.symm | (rw [hz]; decide) | (rw [hz]; rfl)

theorem comm_chunk (rnd : Rat → Dbl) (hrnd : ExactOnDoubles rnd) (h h' : Endian) {aifc : Bool} {t : Trk} (hf : AiffFormat aifc t.f)
    (hn : 0 ≤ aiffFrameCount t) (hn' : aiffFrameCount t < 2 ^ 32) (s : AiffRead)
    {file : List Byte} {p : Nat} {rest : List Byte} (he : file.drop p = aiffCOMM h aifc t ++ rest) :
    ∃ t' q, aiffParseCOMM rnd h' aifc s file (p + 8) = .ok ({ s with hasCOMM := true, t := t' }, q) ∧
      CommRead t.f (aiffFrameCount t) t' ∧ t'.first = s.t.first ∧ t'.dataSize = s.t.dataSize := by
  obtain ⟨rate1, rate2⟩ := AF.Props.C24_rate_roundtrip rnd hrnd t.f.rate hf.rate
  unfold aiffCOMM at he
  simp only [List.append_assoc] at he
  have e1 := drop_step he (n := 4) rfl
  have e2 := fb _ _ _ _ e1
  have e3 := fb _ _ _ _ e2
  have e4 := fb _ _ _ _ e3
  have e5 := fb _ _ _ _ e4
  have e6 := drop_step e5 rate1
  obtain ⟨q, hq⟩ := comp_reads h aifc t.f e6
  unfold aiffParseCOMM
  rw [show p + 8 = p + 4 + FieldSize.s4.bytes by rw [b4], Rd.bind_ok (Rd.field_ok e2).2]
  have hc := hf.channels
  have hc' := hf.channels'
  have q1 : (t.f.channels % 256 ^ FieldSize.s2.bytes).toNat = t.f.channels.toNat := by rw [p2]; omega
  rw [q1, if_neg (by omega), Rd.bind_ok (Rd.field_ok e3).2, Rd.bind_ok (Rd.field_ok e4).2, Rd.bind_ok (Rd.read_ok e5 rate1),
    if_neg (by omega), rate2]
  dsimp only
  rw [Rd.bind_ok hq]
  have q2 : (((aiffFrameCount t % 256 ^ FieldSize.s4.bytes).toNat : Nat) : Int) = aiffFrameCount t := by rw [p4]; omega
  have q3 : ((t.f.channels.toNat : Nat) : Int) = t.f.channels := by omega
  rw [q2, q3]
  generalize hW : (t.f.sampleWidth % 256 ^ FieldSize.s2.bytes).toNat = W
  generalize aiffFrameCount t = n at *
  obtain ⟨G, fpp, bpp, m, c1, c2, c3⟩ := comm_format h' hf n W (by
    intro hz h4
    have := (hf.plain hz).2
    rw [← hW, p2]
    omega)
  dsimp only [dblValue]
  rw [c1]
  dsimp only
  rw [c2]
  exact ⟨_, _, rfl, c3 s.t, rfl, rfl⟩

end AF.Files
