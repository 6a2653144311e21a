import Verif.Proof.Files.Simple
import Verif.Model.Files.SampleVision
import Verif.Proof.Files.Accept
/-!
# SampleVision files: proofs
-/
namespace AF.Files
open AF AF.Setup AF.Spec.Files

/-- `m` on a file that has at least `k` more bytes succeeds and moves forward by `k`. -/
def Moves {α : Type} (m : Rd α) (k : Nat) : Prop :=
  ∀ file p, p + k ≤ file.length → ∃ a, m file p = .ok (a, p + k)

theorem Moves.bind {α β : Type} {m : Rd α} {g : α → Rd β} {j k : Nat} (h1 : Moves m j) (h2 : ∀ a, Moves (g a) k) :
    Moves (m >>= g) (j + k) := by
  intro file p hp
  obtain ⟨a, ha⟩ := h1 file p (by omega)
  obtain ⟨b, hb⟩ := h2 a file (p + j) (by omega)
  exact ⟨b, by rw [Rd.bind_ok ha, hb, Nat.add_assoc]⟩

theorem Moves.pure {α : Type} (a : α) : Moves (Pure.pure a : Rd α) 0 := fun _ _ _ => ⟨a, rfl⟩

theorem Moves.read (k : Nat) : Moves (Rd.read k) k := by
  intro file p hp
  exact ⟨_, by unfold Rd.read; rw [List.length_take, List.length_drop, Nat.min_eq_left (by omega)]⟩

theorem field_any {h o : Endian} {k : FieldSize} {file : List Byte} {p : Nat} (hp : p + k.bytes ≤ file.length) :
    Rd.field? h o k file p = .ok (some (BitVec.ofInt (8 * k.bytes) (uintOf o ((file.drop p).take k.bytes))).toNat, p + k.bytes) ∧
    Rd.field h o k file p = .ok ((BitVec.ofInt (8 * k.bytes) (uintOf o ((file.drop p).take k.bytes))).toNat, p + k.bytes) := by
  have h1 : Rd.field? h o k file p =
      .ok (some (BitVec.ofInt (8 * k.bytes) (uintOf o ((file.drop p).take k.bytes))).toNat, p + k.bytes) := by
    unfold Rd.field?
    rw [readField_eq, if_pos (by rw [List.length_drop]; omega)]
  refine ⟨h1, ?_⟩
  unfold Rd.field
  rw [Rd.bind_ok h1]
  rfl

theorem Moves.field? (h o : Endian) (k : FieldSize) : Moves (Rd.field? h o k) k.bytes :=
  fun _ _ hp => ⟨_, (field_any hp).1⟩

theorem Moves.times {α : Type} {m : Rd α} {k : Nat} (hm : Moves m k) : ∀ n, Moves (Rd.times m n) (n * k)
  | 0 => by rw [Nat.zero_mul]; exact Moves.pure _
  | n + 1 => by
    rw [show (n + 1) * k = k + (n * k + 0) by rw [Nat.add_mul]; omega]
    exact Moves.bind hm fun _ => Moves.bind (k := 0) (Moves.times hm n) fun _ => Moves.pure _

theorem smpTop_length : smpTop.length = 112 := by decide +kernel
theorem smpTrailer_length (h : Endian) (r : Rat) : (smpTrailer h r).length = 215 := by
  simp [smpTrailer, smpLoop, smpMarker, fieldBytes_length, FieldSize.bytes, List.replicate_succ]

/-- The file a session leaves: header, frame count, data, trailer (and perhaps more). -/
theorem smp_file (h : Endian) (f : AFmt) (evs : List Ev) :
    ∃ R, session (smpUpdate h) (smpInit h f) evs =
      smpTop ++ fieldBytes h .little .s4 (framesOf evs) ++ dataOf evs ++ smpTrailer h f.rate ++ R := by
  have hup : ∀ (d : Disk) (F R : List Byte) (x : Int), F.length = 4 → d.bytes = smpTop ++ F ++ R →
      ((d.seek 112).write (fieldBytes h .little .s4 x)).bytes = smpTop ++ fieldBytes h .little .s4 x ++ R := by
    intro d F R x hF hd
    have := Disk.patch (d := d) (A := smpTop) (B := F) (C := R) (B' := fieldBytes h .little .s4 x) hd
      (by rw [hF, fieldBytes_length])
    rwa [smpTop_length] at this
  have hsync : ∀ (d : Disk) (D F R : List Byte) (x : Int), F.length = 4 → d.bytes = smpTop ++ F ++ R → Holds 116 D d →
      (d.pos = 116 + D.length ∨ 331 + D.length ≤ d.pos ∧ Holds 116 (D ++ smpTrailer h f.rate) d) →
      let d' := (((d.seek 112).write (fieldBytes h .little .s4 x)).seek d.pos).write (smpTrailer h f.rate)
      (∃ R, d'.bytes = smpTop ++ fieldBytes h .little .s4 x ++ R) ∧ 331 + D.length ≤ d'.pos ∧
        Holds 116 (D ++ smpTrailer h f.rate) d' := by
    intro d D F R x hF hd hh hp
    have e4 : ((fieldBytes h .little .s4 x)).length = 4 := by rw [fieldBytes_length]
    have h1 := hup d F R x hF hd
    have hpos : 116 + D.length ≤ d.pos := by omega
    dsimp only
    refine ⟨?_, ?_, ?_⟩
    · exact Disk.write_after (H := smpTop ++ fieldBytes h .little .s4 x) (R := R) h1 (by
        rw [List.length_append, smpTop_length, e4, Disk.seek_pos]; omega)
    · rw [Disk.write_pos, smpTrailer_length, Disk.seek_pos]; omega
    · rcases hp with hp | ⟨hp, hT⟩
      · have := ((hh.seek 112).low (bs := fieldBytes h .little .s4 x) (by rw [e4]; simp)).append (smpTrailer h f.rate)
        rw [hp]; exact this
      · have := ((hT.seek 112).low (bs := fieldBytes h .little .s4 x) (by rw [e4]; simp)).seek d.pos
        exact this.high (by rw [List.length_append, smpTrailer_length, Disk.seek_pos]; omega)
  have e0 : (smpInit h f).2.1.first = 116 ∧ (smpInit h f).2.2 = 112 ∧
      (smpInit h f).1.bytes = smpTop ++ fieldBytes h .little .s4 0 := by
    unfold smpInit
    have e : ((⟨[], 0⟩ : Disk).write smpTop) = ⟨smpTop, 112⟩ := by decide +kernel
    dsimp only
    rw [e]
    refine ⟨by rw [Disk.write_pos, fieldBytes_length]; rfl, rfl, ?_⟩
    rw [Disk.write_end (by rw [smpTop_length])]
  obtain ⟨d, t, off, ⟨hf, hfr, h1, hs, ho, ⟨F, R, hF, hd⟩, hh, hp⟩, he⟩ := session_induct (smpUpdate h)
    (fun d t off D n => t.f = f ∧ t.frames = n ∧ t.first = 116 ∧ t.dataSize = D.length ∧ off = 112 ∧
      (∃ F R, F.length = 4 ∧ d.bytes = smpTop ++ F ++ R) ∧ Holds 116 D d ∧
      (d.pos = 116 + D.length ∨ 331 + D.length ≤ d.pos ∧ Holds 116 (D ++ smpTrailer h f.rate) d))
    (smpInit h f) evs
    (by
      refine ⟨rfl, rfl, e0.1, rfl, e0.2.1, ⟨fieldBytes h .little .s4 0, [], by rw [fieldBytes_length], ?_⟩,
        Holds.nil _ _, .inl ?_⟩
      · rw [List.append_nil]; exact e0.2.2
      · rw [Disk.seek_pos, e0.1]; rfl)
    (by
      rintro d t off D n bs k - ⟨hf, hfr, h1, hs, ho, ⟨F, R, hF, hd⟩, hh, hp⟩
      have e : (t.first + t.dataSize).toNat = 116 + D.length := by rw [h1, hs]; omega
      rw [e]
      refine ⟨hf, by dsimp only; rw [hfr]; simp, h1, by dsimp only; rw [hs]; simp, ho, ?_, hh.append bs, .inl ?_⟩
      · obtain ⟨R', hR'⟩ := Disk.write_after (d := d.seek (116 + D.length)) (bs := bs) (R := R)
          (H := smpTop ++ F) hd (by rw [List.length_append, smpTop_length, hF, Disk.seek_pos]; omega)
        exact ⟨F, R', hF, hR'⟩
      · rw [Disk.write_pos, Disk.seek_pos, List.length_append]; omega)
    (by
      rintro d t off D n ⟨hf, hfr, h1, hs, ho, ⟨F, R, hF, hd⟩, hh, hp⟩
      obtain ⟨⟨R', k1⟩, k2, k3⟩ := hsync d D F R n hF hd hh hp
      subst ho
      have eq : (smpUpdate h { t with afterData := d.pos } 112 d).1 =
        (((d.seek 112).write (fieldBytes h .little .s4 n)).seek d.pos).write (smpTrailer h f.rate) := by
        unfold smpUpdate
        simp only [hf, hfr, Int.toNat_natCast]
      rw [eq]
      refine ⟨hf, hfr, h1, hs, rfl, ⟨_, R', by rw [fieldBytes_length], k1⟩, ?_, .inr ⟨k2, k3⟩⟩
      unfold Holds at k3 ⊢
      have := congrArg (List.take D.length) k3
      rw [List.take_take, List.length_append, Nat.min_eq_left (by omega), List.take_left] at this
      exact this)
  obtain ⟨⟨R', k1⟩, -, k3⟩ := hsync d (dataOf evs) F R (framesOf evs) hF hd hh hp
  subst ho
  have eq : (smpUpdate h { t with afterData := d.pos } 112 d).1 =
    (((d.seek 112).write (fieldBytes h .little .s4 (framesOf evs))).seek d.pos).write (smpTrailer h f.rate) := by
    unfold smpUpdate
    simp only [hf, hfr, Int.toNat_natCast]
  rw [he, eq]
  unfold Holds at k3
  rw [k1] at k3 ⊢
  have e4 : (smpTop ++ fieldBytes h .little .s4 (framesOf evs)).length = 116 := by
    rw [List.length_append, smpTop_length, fieldBytes_length]; rfl
  rw [List.drop_left' e4] at k3
  have := List.take_append_drop (dataOf evs ++ smpTrailer h f.rate).length R'
  rw [k3] at this
  refine ⟨R'.drop (dataOf evs ++ smpTrailer h f.rate).length, ?_⟩
  generalize R'.drop (dataOf evs ++ smpTrailer h f.rate).length = Q at this
  rw [← this]; simp only [List.append_assoc]

/-- What opening such a file reports. -/
theorem smp_read (h h' : Endian) (n : Nat) (B : List Byte) (hB : 2 * n % 2 ^ 32 + 215 ≤ B.length) (hn : n < 2 ^ 32) :
    ∃ t p, smpRead h' (smpTop ++ fieldBytes h .little .s4 n ++ B) 0 = .ok ((t, [(203, [0x20]), (210, [0x20])]), p) ∧
      t.f.rate = ((BitVec.ofInt 32 (uintOf .little ((B.drop (2 * n % 2 ^ 32 + 203)).take 4))).toNat : Rat) ∧
      t.f.channels = 1 ∧ t.f.compression = NONE ∧ t.f.sampleFormat = TWOSCOMP ∧ t.f.sampleWidth = 16 ∧
      t.f.byteOrder = LITTLE ∧ t.first = 116 ∧ t.dataSize = (2 * n % 2 ^ 32 : Nat) ∧ t.frames = n := by
  generalize hfile : smpTop ++ fieldBytes h .little .s4 n ++ B = file
  have e4 : (fieldBytes h .little .s4 (n : Int)).length = 4 := by rw [fieldBytes_length]
  have hlen : file.length = 116 + B.length := by
    rw [← hfile, List.length_append, List.length_append, smpTop_length, e4]
  have e0 : file.drop 0 = smpMagic ++ (smpVersion ++ (List.replicate 30 0x20 ++ (List.replicate 60 0x20 ++
    (fieldBytes h .little .s4 n ++ B)))) := by
    rw [← hfile, smpTop]; simp only [List.append_assoc, List.drop_zero]
  have l1 : smpMagic.length = 18 := by decide +kernel
  have l2 : smpVersion.length = 4 := by decide +kernel
  unfold smpRead
  rw [Rd.bind_ok (a := ()) (p' := 0) rfl, Rd.bind_ok (Rd.read_ok (n := 18) e0 l1), if_neg (by simp)]
  have e1 := drop_step e0 (n := 18) l1
  rw [Rd.bind_ok (Rd.read_ok (n := 4) e1 l2), if_neg (by simp)]
  have e2 := drop_step e1 (n := 4) l2
  have t1 : smpText 203 30 file 22 = .ok ([(203, [0x20])], 52) := by
    unfold smpText
    rw [Rd.bind_ok (Rd.read_ok (n := 30) e2 List.length_replicate), if_neg (by rw [List.length_replicate]; omega)]
    have : trimTrailing (cstring (List.replicate 30 0x20)) = [0x20] := by decide +kernel
    simp only [this]
    rfl
  rw [Rd.bind_ok t1]
  have e3 := drop_step e2 (n := 30) List.length_replicate
  have t2 : smpText 210 60 file 52 = .ok ([(210, [0x20])], 112) := by
    unfold smpText
    rw [Rd.bind_ok (Rd.read_ok (n := 60) e3 List.length_replicate), if_neg (by rw [List.length_replicate]; omega)]
    have : trimTrailing (cstring (List.replicate 60 0x20)) = [0x20] := by decide +kernel
    simp only [this]
    rfl
  rw [Rd.bind_ok t2]
  have e5 := drop_step e3 (n := 60) List.length_replicate
  rw [Rd.bind_ok (Rd.field_ok e5).2]
  have q1 : ((n : Int) % 256 ^ FieldSize.s4.bytes).toNat = n := by
    have : (256 : Int) ^ FieldSize.s4.bytes = 2 ^ 32 := rfl
    rw [this]; omega
  rw [q1]
  have e6 := drop_step e5 (n := 4) e4
  rw [Rd.bind_ok (a := 116) (p' := 116) rfl]
  dsimp only
  generalize hs : 2 * n % 2 ^ 32 = s at *
  rw [Rd.bind_ok (a := ()) (p' := 116 + s) rfl]
  obtain ⟨a1, m1⟩ := Moves.field? h' .little .s2 file (116 + s) (by rw [hlen, FieldSize.bytes]; omega)
  rw [Rd.bind_ok m1]
  have ml : Moves (smpSkipLoop h') 11 :=
    Moves.bind (j := 4) (Moves.field? _ _ _) fun _ => Moves.bind (j := 4) (Moves.field? _ _ _) fun _ =>
      Moves.bind (j := 1) (Moves.field? _ _ _) fun _ => Moves.bind (j := 2) (Moves.field? _ _ _) fun _ => Moves.pure _
  have mm : Moves (smpSkipMarker h') 14 :=
    Moves.bind (j := 10) (Moves.read _) fun _ => Moves.bind (j := 4) (Moves.field? _ _ _) fun _ => Moves.pure _
  obtain ⟨a2, m2⟩ := Moves.times ml 8 file (116 + s + 2) (by omega)
  rw [Rd.bind_ok m2]
  obtain ⟨a3, m3⟩ := Moves.times mm 8 file (116 + s + 2 + 8 * 11) (by omega)
  rw [Rd.bind_ok m3]
  obtain ⟨a4, m4⟩ := Moves.field? h' .little .s1 file (116 + s + 2 + 8 * 11 + 8 * 14) (by rw [FieldSize.bytes]; omega)
  rw [Rd.bind_ok m4]
  have m5 := (field_any (h := h') (o := .little) (k := .s4) (file := file) (p := 116 + s + 2 + 8 * 11 + 8 * 14 + 1)
    (by rw [FieldSize.bytes]; omega)).2
  rw [Rd.bind_ok m5]
  obtain ⟨a6, m6⟩ := Moves.field? h' .little .s4 file (116 + s + 2 + 8 * 11 + 8 * 14 + 1 + 4) (by rw [FieldSize.bytes]; omega)
  rw [Rd.bind_ok m6]
  obtain ⟨a7, m7⟩ := Moves.field? h' .little .s4 file (116 + s + 2 + 8 * 11 + 8 * 14 + 1 + 4 + 4) (by rw [FieldSize.bytes]; omega)
  rw [Rd.bind_ok m7]
  have hdrop : file.drop (116 + s + 2 + 8 * 11 + 8 * 14 + 1) = B.drop (s + 203) := by
    rw [← e6, List.drop_drop]
    exact congrArg (fun k => List.drop k file) (by omega)
  rw [hdrop]
  refine ⟨_, _, rfl, ?_⟩
  obtain ⟨s1, s2, s3, s4, s5, s6⟩ := set_sampleFormat (f := ⟨((BitVec.ofInt (8 * FieldSize.s4.bytes)
      (uintOf .little ((B.drop (s + 203)).take FieldSize.s4.bytes))).toNat : Rat), 0, 0, LITTLE, ⟨0, 0, 0, 0⟩, 1, NONE⟩)
    (w := 16) (a := 401) (.inl rfl) (by omega)
  exact ⟨s6, s5, s4, s1, s2, s3, rfl, rfl, rfl⟩

/-- SampleVision: what an accepted setup's format is. -/
theorem smp_accepted {h : Endian} {s s' : Setup} {tr : TrackSetup} {f : AFmt} (ht : s.tracks = [tr])
    (hid : tr.id = DEFAULT_TRACK) (hF : Flags tr) (hfmt : s.fileFormat = .smp)
    (hc : complete h s = (s', some (completed s tr f))) :
    f.sampleFormat = 401 ∧ f.sampleWidth = 16 ∧ f.compression = 0 ∧ f.byteOrder = 502 ∧
    f.channels = tr.f.channels ∧ f.rate = tr.f.rate := by
  have hw : ∀ f, s.withFormat f = setF s tr f := withFormat_one ht hid
  unfold complete at hc
  rw [hfmt] at hc
  dsimp only at hc
  unfold completeSMP at hc
  rw [theTrack_one ht hid] at hc
  dsimp only at hc
  rw [hw] at hc
  obtain ⟨g1, hc⟩ := ite_none hc
  obtain ⟨g2, hc⟩ := ite_none hc
  obtain ⟨g3, hc⟩ := ite_none hc
  have := copy_format hc
  subst this
  by_cases hset : tr.sampleFormatSet = true
  · rw [if_pos hset] at *
    simp only [AFmt.isSigned, AFmt.isUncompressed, NONE, TWOSCOMP, LITTLE] at *
    have := hF.compression
    grind
  · rw [if_neg hset] at *
    have hq := hF.sample (by simpa using hset)
    have hq2 := hF.compression
    obtain ⟨s1, s2, s3, s4, s5, s6⟩ := set_sampleFormat (f := tr.f) (w := tr.f.sampleWidth) (a := 401) (.inl rfl)
      (by omega)
    simp only [AFmt.isSigned, AFmt.isUncompressed, NONE, TWOSCOMP, LITTLE] at *
    generalize (setSampleFormat tr.f 401 tr.f.sampleWidth).2 = G at *
    refine ⟨s1, by rw [s2]; exact hq.2, ?_, trivial, s5, s6⟩
    by_cases hcs : tr.compressionSet = true
    · rw [s4]
      simp [hcs, s4] at g2
      exact g2
    · rw [s4]; exact hq2 (by simpa using hcs)

end AF.Files
