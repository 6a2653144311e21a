import Verif.Model.Files.Simple
import Verif.Proof.Disk
import Verif.Proof.Files.Accept
/-!
# NeXT/Sun, AVR and IRCAM files
-/
namespace AF.Files
open AF AF.Setup AF.Spec.Files

/-! ## Numbers -/

theorem wrapS_id {n : Nat} {x : Int} (h1 : 0 ≤ x) (h2 : 2 * x < 2 ^ n) : wrapS n x = x := by
  unfold wrapS
  have e : ((2 ^ n : Nat) : Int) = (2 : Int) ^ n := by simp
  exact Int.bmod_eq_of_le (by rw [e]; omega) (by rw [e]; omega)

theorem wrapU_id {n : Nat} {x : Int} (h1 : 0 ≤ x) (h2 : x < 2 ^ n) : wrapU n x = x := by
  unfold wrapU
  exact Int.emod_eq_of_lt h1 h2

theorem frames_exact {t : Trk} {n k : Nat} (hb : t.bpp = k) (hk : 0 < k) (hf : t.fpp = 1) (hs : t.dataSize = (n * k : Nat))
    (h : n * k < 2 ^ 63) : t.computeTotalFileFrames.frames = n := by
  have h1 : n ≤ n * k := Nat.le_mul_of_pos_right n hk
  have h2 : k < 2 ^ 64 ∨ 2 ^ 64 ≤ k := by omega
  unfold Trk.computeTotalFileFrames
  rw [if_pos (by rw [hb, hf]; omega)]
  dsimp only
  rw [hb, hf, hs]
  rcases Nat.eq_zero_or_pos n with rfl | hn
  · simp [wrapU, wrapS]
  · have h3 : k ≤ n * k := Nat.le_mul_of_pos_left k hn
    rw [wrapU_id (by omega) (by omega), wrapU_id (by omega) (by omega), wrapU_id (by omega) (by omega)]
    have : ((n * k : Nat) : Int) / (k : Int) * 1 = n := by
      rw [Int.mul_one, Int.natCast_mul, Int.mul_ediv_cancel _ (by omega)]
    rw [this]
    exact wrapS_id (by omega) (by omega)

theorem computeTotalFileFrames_rest (t : Trk) : t.computeTotalFileFrames.f = t.f ∧
    t.computeTotalFileFrames.first = t.first ∧ t.computeTotalFileFrames.dataSize = t.dataSize := by
  unfold Trk.computeTotalFileFrames; split <;> exact ⟨rfl, rfl, rfl⟩

theorem set_default {f : AFmt} (hl : Legal f) :
    (setSampleFormat f f.sampleFormat f.sampleWidth).2.sampleFormat = f.sampleFormat ∧
    (setSampleFormat f f.sampleFormat f.sampleWidth).2.sampleWidth = f.sampleWidth ∧
    (setSampleFormat f f.sampleFormat f.sampleWidth).2.byteOrder = f.byteOrder ∧
    (setSampleFormat f f.sampleFormat f.sampleWidth).2.compression = f.compression ∧
    (setSampleFormat f f.sampleFormat f.sampleWidth).2.channels = f.channels ∧
    (setSampleFormat f f.sampleFormat f.sampleWidth).2.rate = f.rate := by
  rcases hl.sample with ⟨h1, h2⟩ | ⟨h1, h2⟩ | ⟨h1, h2⟩
  · exact set_sampleFormat h1 h2
  · rw [h1, h2]; simp [setSampleFormat, UNSIGNED, TWOSCOMP, FLOAT, DOUBLE]
  · rw [h1, h2]; simp [setSampleFormat, UNSIGNED, TWOSCOMP, FLOAT, DOUBLE]

/-! ## NeXT/Sun -/

theorem nextHeader_length (h : Endian) (t : Trk) : (nextHeader h t).length = 24 := by
  simp [nextHeader, fieldBytes_length, tag, FieldSize.bytes]

/-- The file after a session. -/
theorem next_file (h : Endian) (f : AFmt) (evs : List Ev) :
    ∃ t d, session (nextUpdate h) (nextInit h f) evs = nextHeader h t ++ d ∧ t.f = f ∧ t.first = 28 ∧
      t.dataSize = (dataOf evs).length ∧ Holds 28 (dataOf evs) ⟨nextHeader h t ++ d, 0⟩ ∧
      (dataOf evs = [] → d = []) := by
  obtain ⟨d, t, x, ⟨hf, h1, hs, hh, hz⟩, he⟩ := session_induct (nextUpdate h)
    (fun d t _ D n => t.f = f ∧ t.first = 28 ∧ t.dataSize = D.length ∧ Holds 28 D d ∧
      (D = [] → d.bytes.length = 24)) (nextInit h f) evs
    ⟨rfl, rfl, rfl, Holds.nil _ _, fun _ => by
      show (((⟨[], 0⟩ : Disk).seek 0).write _).bytes.length = _
      rw [Disk.write_zero]; simp [nextHeader_length]⟩
    (by
      rintro d t x D n bs k - ⟨hf, h1, hs, hh, hz⟩
      refine ⟨hf, h1, by dsimp only; rw [hs]; simp, ?_, ?_⟩
      · have : (t.first + t.dataSize).toNat = 28 + D.length := by rw [h1, hs]; omega
        rw [this]
        exact hh.append bs
      · intro e
        obtain ⟨rfl, rfl⟩ := List.append_eq_nil_iff.1 e
        rw [Disk.write_nil]
        exact hz rfl)
    (by
      rintro d t x D n ⟨hf, h1, hs, hh, hz⟩
      refine ⟨hf, h1, hs, (hh.seek 0).low (by rw [nextHeader_length]; simp), fun e => ?_⟩
      show ((d.seek 0).write (nextHeader h { t with afterData := d.pos })).bytes.length = 24
      rw [Disk.write_zero, List.length_append, nextHeader_length, List.length_drop, hz e])
  refine ⟨{ t with afterData := d.pos }, d.bytes.drop 24, ?_, hf, h1, hs, ?_,
    fun e => List.eq_nil_of_length_eq_zero (by rw [List.length_drop, hz e])⟩
  · rw [he]
    simp only [nextUpdate]
    rw [Disk.write_zero, nextHeader_length]
  · have := (hh.seek 0).low (bs := nextHeader h { t with afterData := d.pos }) (by rw [nextHeader_length]; simp)
    unfold Holds at this ⊢
    rw [Disk.write_zero, nextHeader_length] at this
    exact this

theorem nextRead_eq (h h' : Endian) (t : Trk) (d : List Byte) (hc : t.f.channels % 2 ^ 32 ≠ 0) :
    nextRead h' (nextHeader h t ++ d) 0 =
      (let length : Nat := (t.dataSize % 2 ^ 32).toNat
       let offset : Nat := (t.first % 2 ^ 32).toNat
       let available : Int := ((24 + d.length : Nat) : Int) - offset
       let length : Int := if length = (0xffffffff : Nat) ∨ (length : Int) > available then wrapU 32 available else length
       match nextFormat h' { rate := ((toUnsigned t.f.rate % 2 ^ 32).toNat : Rat), sampleFormat := 0, sampleWidth := 0,
                             byteOrder := BIG, pcm := ⟨0, 0, 0, 0⟩,
                             channels := wrapS 32 (t.f.channels % 2 ^ 32).toNat, compression := NONE }
           (nextEncoding t.f % 2 ^ 32).toNat with
       | none => .error .fail
       | some f => .ok (Trk.computeTotalFileFrames
          { f := (setSampleFormat f f.sampleFormat f.sampleWidth).2, fpp := 1,
            bpp := if f.isUncompressed then pcmBytesPerPacket f else f.channels,
            first := offset, afterData := 0, dataSize := length, frames := 0 }, 24)) := by
  generalize hfile : nextHeader h t ++ d = file
  have e0 : file.drop 0 = tag ".snd" ++ (fieldBytes h .big .s4 t.first ++ (fieldBytes h .big .s4 t.dataSize ++
      (fieldBytes h .big .s4 (nextEncoding t.f) ++ (fieldBytes h .big .s4 (toUnsigned t.f.rate) ++
      (fieldBytes h .big .s4 t.f.channels ++ d))))) := by
    rw [← hfile]; simp [nextHeader]
  have hlen : file.length = 24 + d.length := by rw [← hfile]; simp [nextHeader_length]
  unfold nextRead
  rw [Rd.bind_ok (a := ()) (p' := 0) rfl, Rd.bind_ok (Rd.read_ok (n := 4) e0 rfl)]
  have e1 := drop_step e0 (n := 4) rfl
  rw [Rd.bind_ok (Rd.field_ok e1).2]
  have e2 := drop_step e1 (fieldBytes_length _ _ _ _)
  rw [Rd.bind_ok (Rd.field_ok e2).2]
  have e3 := drop_step e2 (fieldBytes_length _ _ _ _)
  rw [Rd.bind_ok (Rd.field_ok e3).2]
  have e4 := drop_step e3 (fieldBytes_length _ _ _ _)
  rw [Rd.bind_ok (Rd.field_ok e4).2]
  have e5 := drop_step e4 (fieldBytes_length _ _ _ _)
  rw [Rd.bind_ok (Rd.field_ok e5).2]
  have hp : (256 : Int) ^ FieldSize.s4.bytes = 2 ^ 32 := rfl
  simp only [hp]
  have hc' : ¬ (t.f.channels % 2 ^ 32).toNat = 0 := by omega
  rw [if_neg hc', Rd.bind_ok (a := file.length) (p' := 24) rfl]
  rw [hlen]
  generalize nextFormat h' _ _ = o
  cases o <;> rfl

theorem next_encoding (h : Endian) {f F : AFmt} (hl : Legal f) (h1 : f.sampleFormat ≠ 402)
    (h2 : f.sampleFormat = 401 → f.sampleWidth ∈ [8, 16, 24, 32]) (h3 : f.compression ∈ [0, 502, 503])
    (h4 : f.compression = 0 → f.byteOrder = 501) (hF : F.byteOrder = 501) (hF' : F.compression = 0) :
    ∃ g, nextFormat h F (nextEncoding f % 2 ^ 32).toNat = some g ∧ g.rate = F.rate ∧ g.channels = F.channels ∧
      g.compression = f.compression ∧
      (f.compression = 0 → g.sampleFormat = f.sampleFormat ∧ g.sampleWidth = f.sampleWidth ∧ g.byteOrder = f.byteOrder) ∧
      (f.compression ≠ 0 → g.sampleFormat = 401 ∧ g.sampleWidth = 16) := by
  unfold nextEncoding
  simp only [NONE, ULAW, ALAW, TWOSCOMP, FLOAT, DOUBLE]
  simp only [List.mem_cons, List.not_mem_nil, or_false] at h2 h3
  rcases h3 with h3 | h3 | h3
  · have h4 := h4 h3
    rcases hl.sample with ⟨h5 | h5, -⟩ | ⟨h5, h6⟩ | ⟨h5, h6⟩
    · rcases h2 h5 with h6 | h6 | h6 | h6 <;> simp [h3, h5, h6, nextFormat, hF, h4, hF']
    · exact absurd h5 h1
    · simp [h3, h5, h6, nextFormat, hF, h4, hF']
    · simp [h3, h5, h6, nextFormat, hF, h4, hF']
  · simp [h3, nextFormat]
  · simp [h3, nextFormat]

theorem toUnsigned_nat (r : Nat) : toUnsigned (r : Rat) = r := by
  unfold toUnsigned
  exact Rat.floor_intCast r

/-- What `SameSound` asks for when the reader has found the format `g` for the written format `f`. -/
theorem same_of {f0 f g : AFmt} {data file : List Byte} {n : Nat} {first : Int} {size : Int} {ad : Int}
    (hl0 : Legal f0) (e1 : f.sampleFormat = f0.sampleFormat) (e2 : f.sampleWidth = f0.sampleWidth) (e3 : f.channels = f0.channels)
    (hcomp : f.compression ∈ [0, 502, 503]) (hgr : g.rate = f.rate) (hgc : g.channels = f.channels)
    (hgm : g.compression = f.compression)
    (hu : f.compression = 0 → g.sampleFormat = f.sampleFormat ∧ g.sampleWidth = f.sampleWidth ∧
      (8 < f.sampleWidth → g.byteOrder = f.byteOrder))
    (hc : f.compression ≠ 0 → g.sampleFormat = 401 ∧ g.sampleWidth = 16)
    (hn : data.length = n * bytesPerFrame f) (hsz : data.length < 2 ^ 63)
    (hsize : size = data.length) (hfirst : 0 ≤ first)
    (hh : (file.drop first.toNat).take data.length = data) :
    SameSound f data n file (Trk.computeTotalFileFrames
          { f := (setSampleFormat g g.sampleFormat g.sampleWidth).2, fpp := 1,
            bpp := if g.isUncompressed then pcmBytesPerPacket g else g.channels,
            first := first, afterData := ad, dataSize := size, frames := 0 }) := by
  have hl : (((f.sampleFormat = 401 ∨ f.sampleFormat = 402) ∧ 1 ≤ f.sampleWidth ∧ f.sampleWidth ≤ 32) ∨
      (f.sampleFormat = 403 ∧ f.sampleWidth = 32) ∨ (f.sampleFormat = 404 ∧ f.sampleWidth = 64)) ∧ 1 ≤ f.channels := by
    rw [e1, e2, e3]; exact ⟨hl0.sample, hl0.channels⟩
  have hlg : ((g.sampleFormat = 401 ∨ g.sampleFormat = 402) ∧ 1 ≤ g.sampleWidth ∧ g.sampleWidth ≤ 32) ∨
      (g.sampleFormat = 403 ∧ g.sampleWidth = 32) ∨ (g.sampleFormat = 404 ∧ g.sampleWidth = 64) := by
    by_cases hz : f.compression = 0
    · rw [(hu hz).1, (hu hz).2.1]; exact hl.1
    · have := hc hz; omega
  have hset : (setSampleFormat g g.sampleFormat g.sampleWidth).2.sampleFormat = g.sampleFormat ∧
    (setSampleFormat g g.sampleFormat g.sampleWidth).2.sampleWidth = g.sampleWidth ∧
    (setSampleFormat g g.sampleFormat g.sampleWidth).2.byteOrder = g.byteOrder ∧
    (setSampleFormat g g.sampleFormat g.sampleWidth).2.compression = g.compression ∧
    (setSampleFormat g g.sampleFormat g.sampleWidth).2.channels = g.channels ∧
    (setSampleFormat g g.sampleFormat g.sampleWidth).2.rate = g.rate := by
    rcases hlg with ⟨h1, h2⟩ | ⟨h1, h2⟩ | ⟨h1, h2⟩
    · exact set_sampleFormat h1 h2
    · rw [h1, h2]; simp [setSampleFormat, UNSIGNED, TWOSCOMP, FLOAT, DOUBLE]
    · rw [h1, h2]; simp [setSampleFormat, UNSIGNED, TWOSCOMP, FLOAT, DOUBLE]
  obtain ⟨s1, s2, s3, s4, s5, s6⟩ := hset
  generalize (setSampleFormat g g.sampleFormat g.sampleWidth).2 = G at *
  have hbpp : (if g.isUncompressed then pcmBytesPerPacket g else g.channels) = (bytesPerFrame f : Int) := by
    unfold bytesPerFrame
    have := hl.2
    by_cases hz : f.compression = 0
    · have : 0 ≤ f.sampleWidth := by have := hl.1; omega
      have h0 : 0 ≤ (f.sampleWidth + 7) / 8 * f.channels := Int.mul_nonneg (by omega) (by omega)
      simp only [AFmt.isUncompressed, hgm, hz, NONE, decide_true, if_true, pcmBytesPerPacket, (hu hz).2.1, hgc]
      rw [Int.tdiv_eq_ediv_of_nonneg (by omega)]
      omega
    · simp only [AFmt.isUncompressed, hgm, hz, NONE, decide_false, Bool.false_eq_true, if_false, hgc]
      omega
  have hbp : 0 < bytesPerFrame f := by
    unfold bytesPerFrame
    have := hl.2
    split
    · have h8 : 0 < (f.sampleWidth + 7) / 8 := by have := hl.1; omega
      have : 0 < (f.sampleWidth + 7) / 8 * f.channels := Int.mul_pos h8 (by omega)
      omega
    · omega
  have hfr := frames_exact (t := ⟨G, 1, if g.isUncompressed then pcmBytesPerPacket g else g.channels, first, ad, size, 0⟩) (n := n) (k := bytesPerFrame f)
            hbpp hbp rfl (by rw [← hn]; exact hsize) (by rw [← hn]; exact hsz)
  generalize ht : Trk.computeTotalFileFrames
    ⟨G, 1, if g.isUncompressed then pcmBytesPerPacket g else g.channels, first, ad, size, 0⟩ = T at *
  have hT : T.f = G ∧ T.first = first ∧ T.dataSize = size := by
    rw [← ht]; exact computeTotalFileFrames_rest _
  obtain ⟨t1, t2, t3⟩ := hT
  refine ⟨by rw [t1, s6, hgr], by rw [t1, s5, hgc], by rw [t1, s4, hgm], ?_, ?_, hfr, by rw [t2]; exact hfirst,
    by rw [t3, hsize], ?_⟩
  · intro hz
    rw [t1, s1, s2, s3]
    exact hu hz
  · intro hz
    rw [t1, s1, s2]
    exact hc hz
  · unfold audio
    rw [t2, t3, hsize, Int.toNat_natCast]
    exact hh

theorem rate_nat {f : AFmt} (hl : Legal f) : ∃ r : Nat, toUnsigned f.rate = r ∧ (wholeRate f).rate = (r : Rat) := by
  have h0 : 0 ≤ f.rate.floor := Rat.le_floor_iff.2 (by have := hl.rate; exact Rat.le_of_lt this)
  refine ⟨f.rate.floor.toNat, by unfold toUnsigned; omega, ?_⟩
  show (f.rate.floor : Rat) = _
  have : f.rate.floor = ((f.rate.floor.toNat : Nat) : Int) := by omega
  rw [this]; rfl

theorem rate_lt {x : Rat} {r n : Nat} (h1 : toUnsigned x = r) (h2 : x < (n : Rat)) : r < n := by
  apply Decidable.byContradiction
  intro h
  have h3 : ((n : Int) : Rat) ≤ x := Rat.le_floor_iff.1 (by have : x.floor = r := h1; omega)
  exact absurd h2 (Rat.not_lt.2 h3)

/-- A NeXT/Sun header with the data behind it, whatever follows. -/
theorem next_reads (h h' : Endian) {f : AFmt} (hl : Legal f) (h1 : f.sampleFormat ≠ 402)
    (h2 : f.sampleFormat = 401 → f.sampleWidth ∈ [8, 16, 24, 32]) (h3 : f.compression ∈ [0, 502, 503])
    (h4 : f.compression = 0 → f.byteOrder = 501) (r : Nat) (hr : toUnsigned f.rate = r) (hw : (wholeRate f).rate = r) (hr' : r < 2 ^ 32) (hch : f.channels < 2 ^ 31)
    {D : List Byte} {n : Nat} (hn : D.length = n * bytesPerFrame f) (hd : D ≠ []) (hsz : D.length < 2 ^ 32 - 1)
    {t : Trk} {d : List Byte} (hf : t.f = f) (hfirst : t.first = 28) (hds : t.dataSize = D.length)
    (hh : Holds 28 D ⟨nextHeader h t ++ d, 0⟩) :
    ∃ t' p, nextRead h' (nextHeader h t ++ d) 0 = .ok (t', p) ∧
      SameSound (wholeRate f) D n (nextHeader h t ++ d) t' := by
  have hlen := hh.length hd
  have hch0 := hl.channels
  rw [nextRead_eq h h' t d (by rw [hf]; omega), hf, hfirst, hds, hr]
  have e1 : (D.length : Int) % 2 ^ 32 = D.length := Int.emod_eq_of_lt (by omega) (by omega)
  have e2 : (r : Int) % 2 ^ 32 = r := Int.emod_eq_of_lt (by omega) (by omega)
  have e3 : f.channels % 2 ^ 32 = f.channels := Int.emod_eq_of_lt (by omega) (by omega)
  rw [e1, e2, e3]
  have e4 : (f.channels.toNat : Int) = f.channels := by omega
  simp only [Int.toNat_natCast, e4]
  rw [wrapS_id (by omega) (by omega)]
  obtain ⟨g, hg, g1, g2, g3, g4, g5⟩ := next_encoding h' (F := { rate := (r : Rat), sampleFormat := 0, sampleWidth := 0, byteOrder := BIG, pcm := ⟨0, 0, 0, 0⟩, channels := f.channels, compression := NONE }) hl h1 h2 h3 h4 rfl rfl
  rw [hg]
  refine ⟨_, _, rfl, ?_⟩
  simp only [List.length_append, nextHeader_length] at hlen
  have e5 : ((28 : Int) % 2 ^ 32).toNat = 28 := rfl
  rw [e5, if_neg (show ¬ (D.length = 4294967295 ∨
    (D.length : Int) > ((24 + d.length : Nat) : Int) - ((28 : Nat) : Int)) by omega)]
  refine same_of (f := wholeRate f) hl rfl rfl rfl h3 (by rw [g1, hw]) g2 g3 (fun hz => ⟨(g4 hz).1, (g4 hz).2.1, fun _ => (g4 hz).2.2⟩) g5 hn
    (by omega) rfl (Int.natCast_nonneg 28) ?_
  exact hh

theorem next_same (h h' : Endian) {f : AFmt} (hl : Legal f) (h1 : f.sampleFormat ≠ 402)
    (h2 : f.sampleFormat = 401 → f.sampleWidth ∈ [8, 16, 24, 32]) (h3 : f.compression ∈ [0, 502, 503])
    (h4 : f.compression = 0 → f.byteOrder = 501) (r : Nat) (hr : toUnsigned f.rate = r) (hw : (wholeRate f).rate = r) (hr' : r < 2 ^ 32) (hch : f.channels < 2 ^ 31)
    (evs : List Ev) (hn : (dataOf evs).length = framesOf evs * bytesPerFrame f) (hd : dataOf evs ≠ [])
    (hsz : (dataOf evs).length < 2 ^ 32 - 1) :
    ∃ t p, nextRead h' (session (nextUpdate h) (nextInit h f) evs) 0 = .ok (t, p) ∧
      SameSound (wholeRate f) (dataOf evs) (framesOf evs) (session (nextUpdate h) (nextInit h f) evs) t := by
  obtain ⟨t, d, he, hf, hfirst, hds, hh, -⟩ := next_file h f evs
  rw [he]
  exact next_reads h h' hl h1 h2 h3 h4 r hr hw hr' hch hn hd hsz hf hfirst hds hh

/-! ## AVR -/

/-- The three parts of the header. -/
def avrA (h : Endian) (name : List Byte) (f : AFmt) : List Byte :=
  tag "2BIT" ++ (name ++ List.replicate 8 0).take 8 ++
  fieldBytes h .big .s2 (if f.channels = 1 then 0 else 0xffff) ++
  fieldBytes h .big .s2 f.sampleWidth ++
  fieldBytes h .big .s2 (if f.sampleFormat = UNSIGNED then 0 else 0xffff) ++
  fieldBytes h .big .s2 0 ++ fieldBytes h .big .s2 0xffff ++
  fieldBytes h .big .s4 (0xff000000 + toUnsigned f.rate % 2 ^ 24)
/-- The number of frames and the ends of the loop. -/
def avrL (h : Endian) (frames loopEnd : Int) : List Byte :=
  fieldBytes h .big .s4 frames ++ fieldBytes h .big .s4 0 ++ fieldBytes h .big .s4 loopEnd
def avrB (h : Endian) (frames : Int) : List Byte := avrL h frames frames
def avrC : List Byte := List.replicate 26 0 ++ List.replicate 64 0

theorem avrHeader_eq (h : Endian) (name : List Byte) (t : Trk) :
    avrHeader h name t = avrA h name t.f ++ avrB h t.frames ++ avrC := by
  simp only [avrHeader, avrA, avrB, avrL, avrC, List.append_assoc]

theorem avrA_length (h : Endian) (name : List Byte) (f : AFmt) : (avrA h name f).length = 26 := by
  simp [avrA, fieldBytes_length, tag, FieldSize.bytes, Nat.min_eq_left]

theorem avrB_length (h : Endian) (n : Int) : (avrB h n).length = 12 := by
  simp [avrB, avrL, fieldBytes_length, FieldSize.bytes]

theorem avrHeader_length (h : Endian) (name : List Byte) (t : Trk) : (avrHeader h name t).length = 128 := by
  rw [avrHeader_eq]; simp [avrA_length, avrB_length, avrC]

theorem avr_file (h : Endian) (name : List Byte) (f : AFmt) (evs : List Ev) :
    ∃ R, session (avrUpdate h) (avrInit h name f) evs =
      avrA h name f ++ avrB h (framesOf evs) ++ avrC ++ R ∧
      Holds 128 (dataOf evs) ⟨avrA h name f ++ avrB h (framesOf evs) ++ avrC ++ R, 0⟩ := by
  have hfirst : (avrInit h name f).2.1.first = 128 := by
    unfold avrInit
    dsimp only
    rw [Disk.write_pos, avrHeader_length]; rfl
  have hup : ∀ (d : Disk) (B R : List Byte) (n : Nat), B.length = 12 → d.bytes = avrA h name f ++ B ++ avrC ++ R →
      ((d.seek 26).write (avrB h n)).bytes = avrA h name f ++ avrB h n ++ avrC ++ R := by
    intro d B R n hB hd
    have := Disk.patch (d := d) (A := avrA h name f) (B := B) (C := avrC ++ R) (B' := avrB h n)
      (by rw [hd]; simp) (by rw [hB, avrB_length])
    rw [avrA_length] at this
    rw [this]; simp
  obtain ⟨d, t, x, ⟨hfr, h1, hs, hh, B, R, hB, hd⟩, he⟩ := session_induct (avrUpdate h)
    (fun d t _ D n => t.frames = n ∧ t.first = 128 ∧ t.dataSize = D.length ∧ Holds 128 D d ∧
      ∃ B R, B.length = 12 ∧ d.bytes = avrA h name f ++ B ++ avrC ++ R) (avrInit h name f) evs
    (by
      refine ⟨rfl, hfirst, rfl, Holds.nil _ _, avrB h 0, [], avrB_length _ _, ?_⟩
      show (((⟨[], 0⟩ : Disk).seek 0).write _).bytes = _
      rw [Disk.write_zero, avrHeader_eq]
      simp [Trk.ofFormat])
    (by
      rintro d t x D n bs k - ⟨hfr, h1, hs, hh, B, R, hB, hd⟩
      have e : (t.first + t.dataSize).toNat = 128 + D.length := by rw [h1, hs]; omega
      refine ⟨by dsimp only; rw [hfr]; simp, h1, by dsimp only; rw [hs]; simp, ?_, B, ?_⟩
      · rw [e]; exact hh.append bs
      · obtain ⟨R', hR'⟩ := Disk.write_after (d := d.seek (t.first + t.dataSize).toNat) (bs := bs) (R := R)
          (H := avrA h name f ++ B ++ avrC) hd (by
            simp only [List.length_append, avrA_length, hB, e, Disk.seek_pos]
            simp [avrC])
        exact ⟨R', hB, hR'⟩)
    (by
      rintro d t x D n ⟨hfr, h1, hs, hh, B, R, hB, hd⟩
      refine ⟨hfr, h1, hs, ?_, avrB h n, R, avrB_length _ _, ?_⟩
      · exact (hh.seek 26).low (by
          simp only [List.length_append, fieldBytes_length]; simp [FieldSize.bytes])
      · have := hup d B R n hB hd
        rw [← this, ← hfr]
        rfl)
  have h2 := hup d B R (framesOf evs) hB hd
  have h3 : session (avrUpdate h) (avrInit h name f) evs = ((d.seek 26).write (avrB h (framesOf evs))).bytes := by
    rw [he, ← hfr]; rfl
  refine ⟨R, by rw [h3, h2], ?_⟩
  have := (hh.seek 26).low (bs := avrB h (framesOf evs)) (by rw [avrB_length]; simp)
  unfold Holds at this ⊢
  rw [h2] at this
  exact this

theorem avr_read (h h' : Endian) (name : List Byte) {f : AFmt} (hl : Legal f)
    (h1 : f.sampleFormat ∈ [401, 402]) (h2 : f.sampleWidth ∈ [8, 16])
    (r : Nat) (hr : toUnsigned f.rate = r) (n : Nat) (e : Int) (R : List Byte) :
    ∃ t p, avrRead h' (avrA h name f ++ avrL h n e ++ avrC ++ R) 0 = .ok (t, p) ∧
      t.f.rate = ((r % 2 ^ 24 : Nat) : Rat) ∧ t.f.channels = (if f.channels = 1 then 1 else 2) ∧ t.f.compression = 0 ∧
      t.f.sampleFormat = f.sampleFormat ∧ t.f.sampleWidth = f.sampleWidth ∧ t.f.byteOrder = 501 ∧
      t.frames = (n % 2 ^ 32 : Nat) ∧ t.first = 128 ∧
      t.dataSize = t.frames * ((f.sampleWidth + 7) / 8 * t.f.channels) := by
  generalize hfile : avrA h name f ++ avrL h n e ++ avrC ++ R = file at *
  have e0 : file.drop 0 = tag "2BIT" ++ ((name ++ List.replicate 8 0).take 8 ++
    (fieldBytes h .big .s2 (if f.channels = 1 then 0 else 0xffff) ++
    (fieldBytes h .big .s2 f.sampleWidth ++
    (fieldBytes h .big .s2 (if f.sampleFormat = UNSIGNED then 0 else 0xffff) ++
    (fieldBytes h .big .s2 0 ++ (fieldBytes h .big .s2 0xffff ++
    (fieldBytes h .big .s4 (0xff000000 + toUnsigned f.rate % 2 ^ 24) ++
    (fieldBytes h .big .s4 n ++ (fieldBytes h .big .s4 0 ++ (fieldBytes h .big .s4 e ++
    (List.replicate 26 0 ++ (List.replicate 64 0 ++ R)))))))))))) := by
    rw [← hfile]; simp [avrA, avrL, avrC]
  unfold avrRead
  rw [Rd.bind_ok (a := ()) (p' := 0) rfl, Rd.bind_ok (Rd.read_ok (n := 4) e0 rfl)]
  have e1 := drop_step e0 (n := 4) rfl
  rw [if_neg (by simp), Rd.bind_ok (Rd.read_ok (n := 8) e1 (by simp [Nat.min_eq_left]))]
  have e2 := drop_step e1 (n := 8) (by simp [Nat.min_eq_left])
  rw [Rd.bind_ok (Rd.field_ok e2).2]
  have e3 := drop_step e2 (fieldBytes_length _ _ _ _)
  rw [Rd.bind_ok (Rd.field_ok e3).2]
  have e4 := drop_step e3 (fieldBytes_length _ _ _ _)
  rw [Rd.bind_ok (Rd.field_ok e4).2]
  have e5 := drop_step e4 (fieldBytes_length _ _ _ _)
  rw [Rd.bind_ok (Rd.field_ok e5).1]
  have e6 := drop_step e5 (fieldBytes_length _ _ _ _)
  rw [Rd.bind_ok (Rd.field_ok e6).1]
  have e7 := drop_step e6 (fieldBytes_length _ _ _ _)
  rw [Rd.bind_ok (Rd.field_ok e7).2]
  have e8 := drop_step e7 (fieldBytes_length _ _ _ _)
  rw [Rd.bind_ok (Rd.field_ok e8).2]
  have e9 := drop_step e8 (fieldBytes_length _ _ _ _)
  rw [Rd.bind_ok (Rd.field_ok e9).1]
  have e10 := drop_step e9 (fieldBytes_length _ _ _ _)
  rw [Rd.bind_ok (Rd.field_ok e10).1]
  have e11 := drop_step e10 (fieldBytes_length _ _ _ _)
  rw [Rd.bind_ok (Rd.read_ok (n := 26) e11 (by simp))]
  have e12 := drop_step e11 (n := 26) (by simp)
  rw [Rd.bind_ok (Rd.read_ok (n := 64) e12 (by simp))]
  have hp4 : (256 : Int) ^ FieldSize.s4.bytes = 2 ^ 32 := rfl
  have hp2 : (256 : Int) ^ FieldSize.s2.bytes = 65536 := rfl
  simp only [hp4, hp2, hr]
  have q1 : ((0xff000000 + (r : Int) % 2 ^ 24) % 2 ^ 32).toNat % 2 ^ 24 = r % 2 ^ 24 := by omega
  have q2 : ((n : Int) % 2 ^ 32).toNat = n % 2 ^ 32 := by omega
  rw [q1, q2]
  have hch0 := hl.channels
  simp only [List.mem_cons, List.not_mem_nil, or_false] at h1 h2
  have q3 : (f.sampleWidth % 65536).toNat = f.sampleWidth.toNat := by rcases h2 with h2 | h2 <;> rw [h2] <;> rfl
  have q3' : (f.sampleWidth.toNat : Int) = f.sampleWidth := by omega
  simp only [q3, q3']
  have q4 : ((if f.sampleFormat = UNSIGNED then (0 : Int) else 65535) % 65536).toNat =
      if f.sampleFormat = UNSIGNED then 0 else 65535 := by split <;> rfl
  have q5 : ((if f.channels = 1 then (0 : Int) else 65535) % 65536).toNat =
      if f.channels = 1 then 0 else 65535 := by split <;> rfl
  rw [q4, q5, if_neg (by split <;> omega), if_neg (by omega), if_neg (by split <;> omega)]
  rw [Rd.bind_ok (a := 128) (p' := 128) rfl]
  refine ⟨_, _, rfl, ?_⟩
  have q6 : (if (if f.sampleFormat = UNSIGNED then (0 : Nat) else 65535) = 0 then UNSIGNED else TWOSCOMP) =
      f.sampleFormat := by
    rcases h1 with h1 | h1 <;> rw [h1] <;> simp [UNSIGNED, TWOSCOMP]
  have q7 : (if (if f.channels = 1 then (0 : Nat) else 65535) = 0 then (1 : Int) else 2) =
      if f.channels = 1 then 1 else 2 := by
    by_cases hc : f.channels = 1 <;> simp [hc]
  simp only [q6, q7]
  generalize (if f.channels = 1 then (1 : Int) else 2) = ch
  generalize hG : AFmt.mk ((r % 2 ^ 24 : Nat) : Rat) f.sampleFormat f.sampleWidth BIG ⟨0, 0, 0, 0⟩ ch NONE = G
  have hset := set_sampleFormat (f := G) (w := f.sampleWidth) (a := f.sampleFormat) h1 (by omega)
  obtain ⟨s1, s2, s3, s4, s5, s6⟩ := hset
  generalize (setSampleFormat G f.sampleFormat f.sampleWidth).2 = K at *
  subst hG
  dsimp only at s1 s2 s3 s4 s5 s6
  have : frameSizeUncompressed K false = (f.sampleWidth + 7) / 8 * ch := by
    simp only [frameSizeUncompressed, sampleSizeUncompressed, s1, s2, s5, FLOAT, DOUBLE,
      Bool.false_eq_true, and_false, if_false]
    rw [if_neg (by omega), if_neg (by omega), Int.tdiv_eq_ediv_of_nonneg (by omega)]
  refine ⟨s6, s5, s4, s1, s2, s3, trivial, rfl, ?_⟩
  rw [this, s5]

/-- An AVR header with the data behind it, whatever follows. -/
theorem avr_reads (h h' : Endian) (name : List Byte) {f : AFmt} (hl : Legal f)
    (h1 : f.sampleFormat ∈ [401, 402]) (h2 : f.sampleWidth ∈ [8, 16]) (h3 : f.compression = 0) (h4 : f.byteOrder = 501)
    (r : Nat) (hr : toUnsigned f.rate = r) (hw : (wholeRate f).rate = r) (hr' : r < 2 ^ 24) (hch : f.channels ≤ 2)
    {D : List Byte} {n : Nat} (hn : D.length = n * bytesPerFrame f) (hsz : n < 2 ^ 32) {e : Int} {R : List Byte}
    (hh : Holds 128 D ⟨avrA h name f ++ avrL h n e ++ avrC ++ R, 0⟩) :
    ∃ t p, avrRead h' (avrA h name f ++ avrL h n e ++ avrC ++ R) 0 = .ok (t, p) ∧
      SameSound (wholeRate f) D n (avrA h name f ++ avrL h n e ++ avrC ++ R) t := by
  obtain ⟨t, p, ht, a1, a2, a3, a4, a5, a6, a7, a8, a9⟩ := avr_read h h' name hl h1 h2 r hr n e R
  have hch0 := hl.channels
  have hc : (if f.channels = 1 then (1 : Int) else 2) = f.channels := by split <;> omega
  rw [hc] at a2
  rw [Nat.mod_eq_of_lt hr'] at a1
  rw [Nat.mod_eq_of_lt hsz] at a7
  have hsz' : t.dataSize = D.length := by
    rw [a9, a7, a2, hn]
    have : ((bytesPerFrame f : Nat) : Int) = (f.sampleWidth + 7) / 8 * f.channels := by
      have h0 : 0 ≤ (f.sampleWidth + 7) / 8 * f.channels := Int.mul_nonneg (by simp at h2; omega) (by omega)
      simp only [bytesPerFrame, h3, NONE, if_true]
      omega
    rw [Int.natCast_mul, this]
  refine ⟨t, p, ht, ⟨by rw [a1, hw], a2, a3.trans h3.symm, fun _ => ⟨a4, a5, fun _ => a6.trans h4.symm⟩,
    fun hz => absurd h3 hz, a7, by omega, hsz', ?_⟩⟩
  unfold audio
  rw [hsz', a8]
  exact hh

theorem avr_same (h h' : Endian) (name : List Byte) {f : AFmt} (hl : Legal f)
    (h1 : f.sampleFormat ∈ [401, 402]) (h2 : f.sampleWidth ∈ [8, 16]) (h3 : f.compression = 0) (h4 : f.byteOrder = 501)
    (r : Nat) (hr : toUnsigned f.rate = r) (hw : (wholeRate f).rate = r) (hr' : r < 2 ^ 24) (hch : f.channels ≤ 2)
    (evs : List Ev) (hn : (dataOf evs).length = framesOf evs * bytesPerFrame f) (hsz : framesOf evs < 2 ^ 32) :
    ∃ t p, avrRead h' (session (avrUpdate h) (avrInit h name f) evs) 0 = .ok (t, p) ∧
      SameSound (wholeRate f) (dataOf evs) (framesOf evs) (session (avrUpdate h) (avrInit h name f) evs) t := by
  obtain ⟨R, he, hh⟩ := avr_file h name f evs
  rw [he]
  exact avr_reads h h' name hl h1 h2 h3 h4 r hr hw hr' hch hn hsz hh

/-! ## IRCAM -/

def ircamHead (F : Float32) (h : Endian) (f : AFmt) (pack : Int) : List Byte :=
  ircamMagic h ++ writeField h h .s4 (F.enc f.rate) ++ fieldBytes h h .s4 f.channels ++ fieldBytes h h .s4 pack ++
    List.replicate 1008 0

theorem ircamMagic_length (h : Endian) : (ircamMagic h).length = 4 := by cases h <;> rfl

theorem ircamHead_length (F : Float32) (h : Endian) (f : AFmt) (pack : Int) : (ircamHead F h f pack).length = 1024 := by
  have : (writeField h h .s4 (F.enc f.rate)).length = 4 := by rw [writeField_eq, toBytes_length]
  simp only [ircamHead, fieldBytes_length, ircamMagic_length, FieldSize.bytes, this, List.length_append, List.length_replicate]

theorem ircam_file (F : Float32) (h : Endian) (f : AFmt) {pack : Int} (hp : ircamPack f = some pack)
    (evs : List Ev) : ∃ s, ircamInit F h f = some s ∧
      session ircamUpdate s evs = ircamHead F h f pack ++ dataOf evs := by
  refine ⟨_, by unfold ircamInit; rw [hp]; rfl, ?_⟩
  obtain ⟨d, t, x, ⟨h1, hs, hd⟩, he⟩ := session_induct ircamUpdate
    (fun d t _ D _ => t.first = 1024 ∧ t.dataSize = D.length ∧ d.bytes = ircamHead F h f pack ++ D)
    (((⟨[], 0⟩ : Disk).seek 0).write (ircamHead F h f pack), { Trk.ofFormat f with first := 1024 }, ()) evs
    (by
      refine ⟨rfl, rfl, ?_⟩
      show (((⟨[], 0⟩ : Disk).seek 0).write _).bytes = _
      rw [Disk.write_zero]
      simp)
    (by
      rintro d t x D n bs k - ⟨h1, hs, hd⟩
      refine ⟨h1, by dsimp only; rw [hs]; simp, ?_⟩
      rw [Disk.write_end]
      · dsimp only [Disk.seek_bytes]; rw [hd, List.append_assoc]
      · dsimp only [Disk.seek_pos, Disk.seek_bytes]
        rw [h1, hs, hd]
        simp [ircamHead_length]; omega)
    (by
      rintro d t x D n ⟨h1, hs, hd⟩
      exact ⟨h1, hs, hd⟩)
  exact he.trans hd

theorem ircam_pack {f : AFmt} (hl : Legal f) (h1 : f.sampleFormat ≠ 402)
    (h2 : f.sampleFormat = 401 → f.sampleWidth ∈ [8, 16, 24, 32]) (h3 : f.compression ∈ [0, 502, 503]) (h : Endian)
    {F : AFmt} (hF : F.compression = 0) :
    ∃ pack g, ircamPack f = some pack ∧ 0 ≤ pack ∧ pack < 2 ^ 32 ∧ ircamFormat h F pack.toNat = some g ∧
      g.rate = F.rate ∧ g.channels = F.channels ∧ g.compression = f.compression ∧
      (f.compression = 0 → g.sampleFormat = f.sampleFormat ∧ g.sampleWidth = f.sampleWidth ∧
        (8 < f.sampleWidth → g.byteOrder = F.byteOrder)) ∧
      (f.compression ≠ 0 → g.sampleFormat = 401 ∧ g.sampleWidth = 16) := by
  unfold ircamPack
  simp only [NONE, ULAW, ALAW, FLOAT, DOUBLE, AFmt.isSigned, AFmt.isUnsigned, sampleSizeUncompressed, TWOSCOMP, UNSIGNED]
  simp only [List.mem_cons, List.not_mem_nil, or_false] at h2 h3
  rcases h3 with h3 | h3 | h3
  · rcases hl.sample with ⟨h5 | h5, -⟩ | ⟨h5, h6⟩ | ⟨h5, h6⟩
    · rcases h2 h5 with h6 | h6 | h6 | h6 <;> simp [h3, h5, h6, ircamFormat, hF]
    · exact absurd h5 h1
    · simp [h3, h5, h6, ircamFormat, hF]
    · simp [h3, h5, h6, ircamFormat, hF]
  · simp [h3, ircamFormat]
  · simp [h3, ircamFormat]

theorem writeField_read {h h' o : Endian} {x : BitVec (8 * FieldSize.s4.bytes)} {file rest : List Byte} {p : Nat}
    (hf : file.drop p = writeField h o .s4 x ++ rest) :
    Rd.field h' o .s4 file p = .ok (x.toNat, p + 4) := by
  have h1 : Rd.field? h' o .s4 file p = .ok (some x.toNat, p + 4) := by
    unfold Rd.field?
    have : writeField h o .s4 x = writeField h' o .s4 x := by rw [writeField_eq, writeField_eq]
    rw [hf, this, readField_writeField]
  unfold Rd.field
  rw [Rd.bind_ok h1]
  rfl

theorem ircam_read (F : Float32) (h h' : Endian) {f : AFmt} (hl : Legal f) (h1 : f.sampleFormat ≠ 402)
    (h2 : f.sampleFormat = 401 → f.sampleWidth ∈ [8, 16, 24, 32]) (h3 : f.compression ∈ [0, 502, 503])
    (h4 : f.channels ∈ [1, 2, 4])
    (evs : List Ev) (hn : (dataOf evs).length = framesOf evs * bytesPerFrame f) (hsz : (dataOf evs).length < 2 ^ 63) :
    ∃ s t p, ircamInit F h f = some s ∧ ircamRead F h' (session ircamUpdate s evs) 0 = .ok (t, p) ∧
      SameSound { f with byteOrder := native h, rate := F.dec (F.enc f.rate) } (dataOf evs) (framesOf evs) (session ircamUpdate s evs) t := by
  have hch0 := hl.channels
  obtain ⟨pack, g, hpk, pk0, pk1, hg, g1, g2, g3, g4, g5⟩ := ircam_pack hl h1 h2 h3 h'
    (F := AFmt.mk (F.dec (F.enc f.rate)) 0 0 (native h) ⟨0, 0, 0, 0⟩ f.channels NONE) rfl
  obtain ⟨s, hs, he⟩ := ircam_file F h f hpk evs
  refine ⟨s, ?_⟩
  rw [he]
  generalize hfile : ircamHead F h f pack ++ dataOf evs = file at *
  have e0 : file.drop 0 = ircamMagic h ++ (writeField h h .s4 (F.enc f.rate) ++ (fieldBytes h h .s4 f.channels ++
      (fieldBytes h h .s4 pack ++ (List.replicate 1008 0 ++ dataOf evs)))) := by
    rw [← hfile]; simp only [ircamHead, List.drop_zero, List.append_assoc]
  have hlen : file.length = 1024 + (dataOf evs).length := by rw [← hfile]; simp [ircamHead_length]
  have hmag : ircamMagics.find? (·.1 == ircamMagic h) = some (ircamMagic h, h) := by cases h <;> decide
  unfold ircamRead
  rw [Rd.bind_ok (a := ()) (p' := 0) rfl, Rd.bind_ok (Rd.read_ok (n := 4) e0 (ircamMagic_length h)), hmag]
  have e1 := drop_step e0 (ircamMagic_length h)
  dsimp only
  rw [Rd.bind_ok (writeField_read e1)]
  have e2 := drop_step e1 (n := 4) (by rw [writeField_eq, toBytes_length])
  rw [Rd.bind_ok (Rd.field_ok e2).2]
  have e3 := drop_step e2 (fieldBytes_length _ _ _ _)
  rw [Rd.bind_ok (Rd.field_ok e3).2]
  have hp4 : (256 : Int) ^ FieldSize.s4.bytes = 2 ^ 32 := rfl
  have q1 : (f.channels % 2 ^ 32).toNat = f.channels.toNat := by
    simp at h4; rcases h4 with h4 | h4 | h4 <;> rw [h4] <;> rfl
  have q2 : (pack % 2 ^ 32).toNat = pack.toNat := by rw [Int.emod_eq_of_lt pk0 pk1]
  have q3 : (f.channels.toNat : Int) = f.channels := by omega
  have q4 : BitVec.ofNat 32 (F.enc f.rate).toNat = F.enc f.rate := by simp
  simp only [hp4, q1, q2, q3]
  erw [q4]
  rw [if_neg (by simp at h4; omega), hg]
  dsimp only
  rw [Rd.bind_ok (a := file.length) rfl]
  refine ⟨_, _, hs, rfl, ?_⟩
  refine same_of (f := { f with byteOrder := native h, rate := F.dec (F.enc f.rate) }) hl rfl rfl rfl h3 g1 g2 g3 (fun hz => ⟨(g4 hz).1, (g4 hz).2.1, fun hw => ?_⟩) g5 hn hsz ?_ (by omega) ?_
  · exact (g4 hz).2.2 hw
  · rw [hlen]; omega
  · rw [← hfile, show (1024 : Int).toNat = (ircamHead F h f pack).length from (ircamHead_length ..).symm, List.drop_left,
      List.take_length]

end AF.Files
