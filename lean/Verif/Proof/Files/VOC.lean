import Verif.Model.Files.VOC
import Verif.Proof.Files.Simple
import Verif.Proof.Safe
/-!
# VOC files
-/
namespace AF.Files
open AF AF.Setup AF.Spec.Files

theorem vocStart_length (h : Endian) : (vocStart h).length = 26 := by
  simp [vocStart, vocMagic, tag, fieldBytes_length, FieldSize.bytes]

theorem vocBlock_length (h : Endian) (t : Trk) : (vocBlock h t).length = 16 := by
  simp [vocBlock, fieldBytes_length, FieldSize.bytes]

theorem voc_file (h : Endian) (f : AFmt) (evs : List Ev) :
    ∃ t R, session (vocUpdate h) (vocInit h f) evs = vocStart h ++ vocBlock h t ++ R ∧ t.f = f ∧
      t.dataSize = (dataOf evs).length ∧ R.length = (dataOf evs).length + 1 ∧
      Holds 42 (dataOf evs) ⟨vocStart h ++ vocBlock h t ++ R, 0⟩ := by
  have hpos : (vocInit h f).2.1.first = 42 := by
    unfold vocInit
    dsimp only
    rw [Disk.write_pos, Disk.write_pos, vocStart_length, vocBlock_length]; rfl
  have one : (fieldBytes h .little .s1 0).length = 1 := fieldBytes_length _ _ _ _
  have hne : fieldBytes h .little .s1 0 ≠ [] := by intro e; rw [e] at one; simp at one
  -- one update
  have hup : ∀ (d : Disk) (t : Trk) (D B R : List Byte), B.length = 16 → d.bytes = vocStart h ++ B ++ R →
      t.first = 42 → t.dataSize = D.length → R.length ≤ D.length + 1 → D.length ≤ R.length → Holds 42 D d →
      ∃ R', (vocUpdate h t () d).1.bytes = vocStart h ++ vocBlock h t ++ R' ∧ R'.length = D.length + 1 ∧
        Holds 42 D (vocUpdate h t () d).1 := by
    intro d t D B R hB hd h1 hs hR1 hR2 hh
    have hp := Disk.patch (d := d) (A := vocStart h) (B := B) (C := R) (B' := vocBlock h t) hd (by rw [hB, vocBlock_length])
    rw [vocStart_length] at hp
    have hh2 : Holds 42 D ((d.seek 26).write (vocBlock h t)) := (hh.seek 26).low (by rw [vocBlock_length]; simp)
    have e : (t.first + t.dataSize).toNat = 42 + D.length := by rw [h1, hs]; omega
    unfold vocUpdate
    rw [e]
    dsimp only
    have hh3 := (hh2.seek (42 + D.length)).high (bs := fieldBytes h .little .s1 0) (by simp)
    generalize hd2 : ((d.seek 26).write (vocBlock h t)) = d2 at *
    have hlen : d2.bytes.length = 42 + R.length := by rw [hp]; simp [vocStart_length, vocBlock_length]; omega
    obtain ⟨R', hR'⟩ := Disk.write_after (d := d2.seek (42 + D.length)) (bs := fieldBytes h .little .s1 0)
      (H := vocStart h ++ vocBlock h t) (R := R) hp (by simp [vocStart_length, vocBlock_length])
    refine ⟨R', hR', ?_, hh3⟩
    have hl := Disk.write_length (d := d2.seek (42 + D.length)) hne
    rw [one, hR'] at hl
    simp [vocStart_length, vocBlock_length, hlen] at hl
    omega
  obtain ⟨d, t, x, ⟨hf, h1, hs, hh, B, R, hB, hd, hR1, hR2⟩, he⟩ := session_induct (vocUpdate h)
    (fun d t _ D n => t.f = f ∧ t.first = 42 ∧ t.dataSize = D.length ∧ Holds 42 D d ∧
      ∃ B R, B.length = 16 ∧ d.bytes = vocStart h ++ B ++ R ∧ R.length ≤ D.length + 1 ∧ D.length ≤ R.length)
    (vocInit h f) evs
    (by
      refine ⟨rfl, hpos, rfl, Holds.nil _ _, vocBlock h (Trk.ofFormat f), [], vocBlock_length _ _, ?_, by simp, by simp⟩
      show (((⟨[], 0⟩ : Disk).write (vocStart h)).write _).bytes = _
      rw [Disk.write_end (d := ⟨[], 0⟩) rfl, Disk.write_end]
      · simp
      · simp)
    (by
      rintro d t x D n bs k - ⟨hf, h1, hs, hh, B, R, hB, hd, hR1, hR2⟩
      have e : (t.first + t.dataSize).toNat = 42 + D.length := by rw [h1, hs]; omega
      refine ⟨hf, h1, by dsimp only; rw [hs]; simp, ?_, B, ?_⟩
      · rw [e]; exact hh.append bs
      · rw [e]
        obtain ⟨R', hR'⟩ := Disk.write_after (d := d.seek (42 + D.length)) (bs := bs) (R := R)
          (H := vocStart h ++ B) hd (by simp [vocStart_length, hB])
        refine ⟨R', hB, hR', ?_⟩
        by_cases hb : bs = []
        · subst hb
          rw [Disk.write_nil] at hR'
          have : R' = R := by
            have : d.bytes = vocStart h ++ B ++ R' := hR'
            rw [hd] at this
            exact (List.append_cancel_left this).symm
          subst this
          simp; omega
        · have hl := Disk.write_length (d := d.seek (42 + D.length)) hb
          rw [hR'] at hl
          simp [vocStart_length, hB, hd] at hl
          simp; have : bs.length ≠ 0 := fun h => hb (List.eq_nil_of_length_eq_zero h)
          omega)
    (by
      rintro d t x D n ⟨hf, h1, hs, hh, B, R, hB, hd, hR1, hR2⟩
      obtain ⟨R', a, b, c⟩ := hup d { t with afterData := d.pos } D B R hB hd h1 hs hR1 hR2 hh
      exact ⟨hf, h1, hs, c, _, R', vocBlock_length _ _, a, by omega, by omega⟩)
  obtain ⟨R', a, b, c⟩ := hup d { t with afterData := d.pos } _ B R hB hd h1 hs hR1 hR2 hh
  refine ⟨{ t with afterData := d.pos }, R', by rw [he]; exact a, hf, hs, b, ?_⟩
  unfold Holds at c ⊢
  rw [a] at c
  exact c

/-- The block loop at the sound block the library writes. -/
theorem voc_round (h h' : Endian) (t : Trk) {R : List Byte} {f : AFmt} (hf : t.f = f) (hl : Legal f)
    (hch : f.channels < 256) (r : Nat) (hr : toUnsigned f.rate = r) (hr' : r < 2 ^ 32)
    (hsf : f.sampleFormat = 401 ∧ f.sampleWidth = 16 ∨ f.sampleFormat = 402 ∧ f.sampleWidth = 8)
    (hcm : f.compression ∈ [0, 502, 503]) (n : Nat) (hn : t.dataSize = n) :
    ∃ g : AFmt, g.rate = (r : Rat) ∧ g.channels = f.channels ∧ g.compression = f.compression ∧
      (f.compression = 0 → g.sampleFormat = f.sampleFormat ∧ g.sampleWidth = f.sampleWidth ∧ g.byteOrder = 502) ∧
      (f.compression ≠ 0 → g.sampleFormat = 401 ∧ g.sampleWidth = 16) ∧
      vocRound h' ⟨26, none, none⟩ (vocStart h ++ vocBlock h t ++ R) 26 = .ok (.inl ⟨30 + (12 + n) % 2 ^ 24, none, some
        (Trk.computeTotalFileFrames
          { f := (setSampleFormat g g.sampleFormat g.sampleWidth).2, fpp := 1,
            bpp := if g.isUncompressed then pcmBytesPerPacket g else g.channels,
            first := 42, afterData := 0, dataSize := wrapU 32 ((((12 + n) % 2 ^ 24 : Nat) : Int) - 12), frames := 0 })⟩,
          30 + (12 + n) % 2 ^ 24) := by
  generalize hfile : vocStart h ++ vocBlock h t ++ R = file
  have e0 : file.drop 26 = fieldBytes h .little .s4 ((12 + t.dataSize) * 256 + 9) ++
      (fieldBytes h .little .s4 (toUnsigned t.f.rate) ++
      (fieldBytes h .little .s1 (if t.f.compression = ULAW ∨ t.f.compression = ALAW then 8 else t.f.sampleWidth) ++
      (fieldBytes h .little .s1 t.f.channels ++ (fieldBytes h .little .s2 (vocFormat t.f) ++
      (fieldBytes h .little .s4 0 ++ R))))) := by
    rw [← hfile, List.append_assoc, List.drop_append_of_le_length (by rw [vocStart_length]; omega),
      List.drop_of_length_le (by rw [vocStart_length]; omega)]
    simp only [List.nil_append, vocBlock, List.append_assoc]
  have hlen : file.length = 42 + R.length := by
    rw [← hfile]; simp [vocStart_length, vocBlock_length]; omega
  have hch0 := hl.channels
  have hp4 : (256 : Int) ^ FieldSize.s4.bytes = 2 ^ 32 := rfl
  have hp2 : (256 : Int) ^ FieldSize.s2.bytes = 65536 := rfl
  have hp1 : (256 : Int) ^ FieldSize.s1.bytes = 256 := rfl
  unfold vocRound
  rw [Rd.bind_ok (a := file.length) (p' := 26) rfl, if_pos (by rw [hlen]; show 26 < _; omega),
    Rd.bind_ok (Rd.field_ok e0).1]
  have e1 := drop_step e0 (fieldBytes_length _ _ _ _)
  have q1 : (((12 + t.dataSize) * 256 + 9) % 2 ^ 32).toNat % 256 = 9 := by rw [hn]; omega
  have q2 : (((12 + t.dataSize) * 256 + 9) % 2 ^ 32).toNat / 256 = (12 + n) % 2 ^ 24 := by rw [hn]; omega
  simp only [hp4, q1, q2]
  rw [if_neg (by decide), if_neg (by decide), if_pos trivial, if_neg (by simp)]
  rw [Rd.bind_ok (Rd.field_ok e1).2]
  have e2 := drop_step e1 (fieldBytes_length _ _ _ _)
  rw [Rd.bind_ok (Rd.field_ok e2).1]
  have e3 := drop_step e2 (fieldBytes_length _ _ _ _)
  rw [Rd.bind_ok (Rd.field_ok e3).2]
  have e4 := drop_step e3 (fieldBytes_length _ _ _ _)
  rw [Rd.bind_ok (Rd.field_ok e4).2]
  have e5 := drop_step e4 (fieldBytes_length _ _ _ _)
  rw [Rd.bind_ok (Rd.field_ok e5).1]
  simp only [hp4, hp2, hp1, hf, hr]
  have q3 : ((r : Int) % 2 ^ 32).toNat = r := by omega
  have q4 : (f.channels % 256).toNat = f.channels.toNat := by omega
  have q5 : (f.channels.toNat : Int) = f.channels := by omega
  rw [q3, q4, if_neg (by omega), Rd.bind_ok (a := 42) (p' := 42) rfl, q5]
  have hnx : 26 + (4 + (12 + n) % 2 ^ 24) = 30 + (12 + n) % 2 ^ 24 := by omega
  simp only [hnx]
  simp only [List.mem_cons, List.not_mem_nil, or_false] at hcm
  generalize hF : AFmt.mk (r : Rat) 0 0 LITTLE ⟨0, 0, 0, 0⟩ f.channels NONE = F
  have key : ∃ G : AFmt, vocSample h' r f.channels (vocFormat f % 65536).toNat =
        some (setSampleFormat G G.sampleFormat G.sampleWidth).2 ∧ G.rate = r ∧ G.channels = f.channels ∧
        G.compression = f.compression ∧
        (f.compression = 0 → G.sampleFormat = f.sampleFormat ∧ G.sampleWidth = f.sampleWidth ∧ G.byteOrder = 502) ∧
        (f.compression ≠ 0 → G.sampleFormat = 401 ∧ G.sampleWidth = 16) := by
    rcases hcm with hc | hc | hc
    · rcases hsf with ⟨a, b⟩ | ⟨a, b⟩
      · refine ⟨⟨r, 401, 16, 502, ⟨0, 0, 0, 0⟩, f.channels, 0⟩, ?_⟩
        simp [vocSample, vocFormat, hc, a, b, ULAW, ALAW, AFmt.isUnsigned, UNSIGNED, setSampleFormat, TWOSCOMP,
          sampleSizeUncompressed, NONE, LITTLE]
      · refine ⟨⟨r, 402, 8, 502, ⟨0, 0, 0, 0⟩, f.channels, 0⟩, ?_⟩
        simp [vocSample, vocFormat, hc, a, b, ULAW, ALAW, AFmt.isUnsigned, UNSIGNED, setSampleFormat, TWOSCOMP,
          sampleSizeUncompressed, NONE, LITTLE]
    · refine ⟨⟨r, 401, 16, native h', ⟨0, 0, 0, 0⟩, f.channels, 502⟩, ?_⟩
      simp [vocSample, vocFormat, hc, ULAW, ALAW, UNSIGNED, setSampleFormat, TWOSCOMP,
          sampleSizeUncompressed]
    · refine ⟨⟨r, 401, 16, native h', ⟨0, 0, 0, 0⟩, f.channels, 503⟩, ?_⟩
      simp [vocSample, vocFormat, hc, ULAW, ALAW, UNSIGNED, setSampleFormat, TWOSCOMP,
          sampleSizeUncompressed]
  obtain ⟨G, k1, k2, k3, k4, k5, k6⟩ := key
  refine ⟨G, k2, k3, k4, k5, k6, ?_⟩
  rw [k1]
  have hset : ((setSampleFormat G G.sampleFormat G.sampleWidth).2.sampleWidth = G.sampleWidth) ∧
      ((setSampleFormat G G.sampleFormat G.sampleWidth).2.channels = G.channels) ∧
      ((setSampleFormat G G.sampleFormat G.sampleWidth).2.compression = G.compression) := by
    have : (G.sampleFormat = 401 ∨ G.sampleFormat = 402) ∧ 1 ≤ G.sampleWidth ∧ G.sampleWidth ≤ 32 := by
      by_cases hz : f.compression = 0
      · have := k5 hz; omega
      · have := k6 hz; omega
    have := set_sampleFormat (f := G) this.1 this.2
    exact ⟨this.2.1, this.2.2.2.2.1, this.2.2.2.1⟩
  obtain ⟨s1, s2, s3⟩ := hset
  dsimp only
  rw [Rd.bind_ok (a := ()) (p' := 30 + (12 + n) % 2 ^ 24) rfl]
  simp only [AFmt.isUncompressed, pcmBytesPerPacket, s1, s2, s3]
  rfl

/-- `readInit` up to the loop. -/
theorem voc_start (h h' : Endian) (B : List Byte) (fuel : Nat) :
    vocRead h' fuel (vocStart h ++ B) 0 =
      (do match ← Rd.loop (vocRound h') fuel ⟨26, none, none⟩ with
          | some t => return t
          | none => Rd.undefined : Rd Trk) (vocStart h ++ B) 26 := by
  generalize hfile : vocStart h ++ B = file
  have e0 : file.drop 20 = fieldBytes h .little .s2 0x1a ++ (fieldBytes h .little .s2 0x114 ++
      (fieldBytes h .little .s2 (0x1234 + (-1 - 0x114)) ++ B)) := by
    have : vocMagic.length = 20 := rfl
    rw [← hfile, vocStart]
    simp only [List.append_assoc]
    exact List.drop_left' this
  unfold vocRead
  rw [Rd.bind_ok (a := ()) (p' := 20) rfl, Rd.bind_ok (Rd.field_ok e0).1]
  have e1 := drop_step e0 (fieldBytes_length _ _ _ _)
  rw [Rd.bind_ok (Rd.field_ok e1).1]
  have e2 := drop_step e1 (fieldBytes_length _ _ _ _)
  rw [Rd.bind_ok (Rd.field_ok e2).1, Rd.bind_ok (a := 26) (p' := 26) rfl]
  rfl

theorem voc_same (h h' : Endian) {f : AFmt} (hl : Legal f)
    (hsf : f.sampleFormat = 401 ∧ f.sampleWidth = 16 ∨ f.sampleFormat = 402 ∧ f.sampleWidth = 8)
    (hcm : f.compression ∈ [0, 502, 503]) (hbo : f.compression = 0 → f.byteOrder = 502)
    (hch : f.channels < 256) (r : Nat) (hr : toUnsigned f.rate = r) (hw : (wholeRate f).rate = r) (hr' : r < 2 ^ 32)
    (evs : List Ev) (hn : (dataOf evs).length = framesOf evs * bytesPerFrame f)
    (hsz : (dataOf evs).length + 12 < 2 ^ 24) (fuel : Nat) :
    ∃ t p, vocRead h' (fuel + 2) (session (vocUpdate h) (vocInit h f) evs) 0 = .ok (t, p) ∧
      SameSound (wholeRate f) (dataOf evs) (framesOf evs) (session (vocUpdate h) (vocInit h f) evs) t := by
  obtain ⟨t, R, he, hf, hs, hR, hh⟩ := voc_file h f evs
  obtain ⟨g, g1, g2, g3, g4, g5, hround⟩ := voc_round h h' t (R := R) hf hl hch r hr hr' hsf hcm _ hs
  have e1 : (12 + (dataOf evs).length) % 2 ^ 24 = 12 + (dataOf evs).length := Nat.mod_eq_of_lt (by omega)
  rw [e1] at hround
  have e2 : wrapU 32 (((12 + (dataOf evs).length : Nat) : Int) - 12) = (dataOf evs).length := by
    rw [wrapU_id (by omega) (by omega)]; omega
  rw [e2] at hround
  rw [he]
  have hvs := voc_start h h' (vocBlock h t ++ R) (fuel + 2)
  rw [← List.append_assoc] at hvs
  generalize hT : Trk.computeTotalFileFrames
          { f := (setSampleFormat g g.sampleFormat g.sampleWidth).2, fpp := 1,
            bpp := if g.isUncompressed then pcmBytesPerPacket g else g.channels,
            first := 42, afterData := 0, dataSize := ((dataOf evs).length : Int), frames := 0 } = T at hround
  -- the second round: the terminator
  have hlast : vocRound h' ⟨30 + (12 + (dataOf evs).length), none, some T⟩ (vocStart h ++ vocBlock h t ++ R)
      (30 + (12 + (dataOf evs).length)) = .ok (.inr (some T), 43 + (dataOf evs).length) := by
    have hlen : (vocStart h ++ vocBlock h t ++ R).length = 43 + (dataOf evs).length := by
      simp [vocStart_length, vocBlock_length, hR]; omega
    generalize vocStart h ++ vocBlock h t ++ R = file at hlen
    unfold vocRound
    rw [Rd.bind_ok (a := file.length) rfl]
    dsimp only
    rw [if_pos (by omega)]
    have hd : (file.drop (30 + (12 + (dataOf evs).length))).length = 1 := by rw [List.length_drop]; omega
    have hfld : Rd.field? h' .little .s4 file (30 + (12 + (dataOf evs).length)) =
        .ok (none, 30 + (12 + (dataOf evs).length) + 1) := by
      unfold Rd.field?
      rw [readField_eq, hd]
      rfl
    rw [Rd.bind_ok hfld]
    rw [show 30 + (12 + (dataOf evs).length) + 1 = 43 + (dataOf evs).length by omega]
    rfl
  rw [hvs, Rd.bind_ok (by rw [Rd.loop_step hround, Rd.loop_done hlast])]
  refine ⟨T, _, rfl, ?_⟩
  rw [← hT]
  exact same_of (f := wholeRate f) hl rfl rfl rfl hcm (g1.trans hw.symm) g2 g3 (fun hz => ⟨(g4 hz).1, (g4 hz).2.1, fun _ => (g4 hz).2.2.trans (hbo hz).symm⟩) g5 hn
    (show (dataOf evs).length < 2 ^ 63 by omega) rfl (show (0 : Int) ≤ 42 by decide) hh

/-- What a round of the block loop does: it moves forward, and keeps a track once there is one. -/
def VocPost (file : List Byte) (s : VocState) : VocState ⊕ Option Trk → Prop
  | .inl s' => s.position < file.length ∧ s.position + 4 ≤ s'.position ∧ (s.track.isSome → s'.track = s.track)
  | .inr t => t = s.track

theorem vocRound_safe (h : Endian) (file : List Byte) (s : VocState) : Safe file (vocRound h s) (VocPost file s) := by
  unfold vocRound
  rd_safe
  all_goals simp only [VocPost]
  all_goals refine ⟨by omega, by omega, fun h => ?_⟩
  all_goals simp_all

theorem vocRead_ends (h : Endian) (file : List Byte) (fuel : Nat) (hf : file.length < fuel) :
    Safe file (vocRead h fuel) fun _ => True := by
  have hloop : ∀ s : VocState, Safe file (Rd.loop (vocRound h) fuel s) fun _ => True := by
    intro s
    refine Safe.loop (fun _ => True) (fun s => file.length - s.position) (fun s _ => ?_) fuel s trivial (by omega)
    refine (vocRound_safe h file s).mono fun r hr => ?_
    cases r with
    | inl s' => exact ⟨trivial, by have := hr.1; have := hr.2.1; omega⟩
    | inr a => trivial
  unfold vocRead
  rd_safe
  refine Safe.bind' (hloop _) fun _ => ?_
  rd_safe
  trivial

/-- Once a track has been found the loop ends with it. -/
theorem voc_keeps (h : Endian) (file : List Byte) (fuel : Nat) (s : VocState) (t : Trk) (hs : s.track = some t) (p p' : Nat)
    (a : Option Trk) (ha : Rd.loop (vocRound h) fuel s file p = .ok (a, p')) : a = some t := by
  refine Rd.loop_inv (fun s => s.track = some t) (fun a => a = some t) ?_ ?_ fuel s p hs a p' ha
  · intro s p s' p' hI hb
    have := (vocRound_safe h file s).ok hb
    rw [← hI]
    exact this.2.2 (by rw [hI]; rfl)
  · intro s p a p' hI hb
    have := (vocRound_safe h file s).ok hb
    rw [← hI]
    exact this

/-- A sound block of 2^24 bytes or more is never read back with its size. -/
theorem voc_large (h h' : Endian) {f : AFmt} (hl : Legal f)
    (hsf : f.sampleFormat = 401 ∧ f.sampleWidth = 16 ∨ f.sampleFormat = 402 ∧ f.sampleWidth = 8)
    (hcm : f.compression ∈ [0, 502, 503])
    (hch : f.channels < 256) (r : Nat) (hr : toUnsigned f.rate = r) (hr' : r < 2 ^ 32)
    (evs : List Ev) (hsz : 2 ^ 24 ≤ (dataOf evs).length + 12) (hsz' : (dataOf evs).length < 2 ^ 31) (fuel : Nat) (t : Trk) (p : Nat)
    (hread : vocRead h' fuel (session (vocUpdate h) (vocInit h f) evs) 0 = .ok (t, p)) :
    t.dataSize ≠ (dataOf evs).length := by
  obtain ⟨t0, R, he, hf, hs, hR, hh⟩ := voc_file h f evs
  obtain ⟨g, -, -, -, -, -, hround⟩ := voc_round h h' t0 (R := R) hf hl hch r hr hr' hsf hcm _ hs
  have hvs := voc_start h h' (vocBlock h t0 ++ R) fuel
  rw [← List.append_assoc] at hvs
  rw [he, hvs] at hread
  cases fuel with
  | zero => cases hread
  | succ fuel =>
    match hlp : Rd.loop (vocRound h') (fuel + 1) ⟨26, none, none⟩ (vocStart h ++ vocBlock h t0 ++ R) 26 with
    | .error e => rw [Rd.bind_error hlp] at hread; cases hread
    | .ok (a, p1) =>
      rw [Rd.bind_ok hlp] at hread
      rw [Rd.loop_step hround] at hlp
      have := voc_keeps h' _ fuel _ _ rfl _ _ a hlp
      subst this
      have : (Trk.computeTotalFileFrames
          { f := (setSampleFormat g g.sampleFormat g.sampleWidth).2, fpp := 1,
            bpp := if g.isUncompressed then pcmBytesPerPacket g else g.channels,
            first := 42, afterData := 0,
            dataSize := wrapU 32 ((((12 + (dataOf evs).length) % 2 ^ 24 : Nat) : Int) - 12), frames := 0 }) = t := by
        cases hread; rfl
      rw [← this, (computeTotalFileFrames_rest _).2.2]
      dsimp only
      unfold wrapU
      intro e
      generalize (dataOf evs).length = n at *
      omega

end AF.Files
