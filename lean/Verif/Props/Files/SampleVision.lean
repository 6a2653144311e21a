import Verif.Proof.Files.SampleVision
import Verif.Props.Files.Simple
/-!
# C60: SampleVision files

A file is written by a program that made any calls `ops` on a new setup, opened a SampleVision file with it (which gave the
track the format `f`), wrote data and synced in any order (`evs`), and closed the file.
-/
namespace AF.Files
open AF AF.Setup AF.Spec.Files

/-- The number four bytes of the file stand for. -/
def little32 (bs : List Byte) : Nat := (BitVec.ofInt 32 (uintOf .little bs)).toNat

theorem little32_field (h : Endian) {x : Int} (hx : 0 ≤ x) (hx' : x < 2 ^ 32) (rest : List Byte) :
    little32 ((fieldBytes h .little .s4 x ++ rest).take 4) = x.toNat := by
  have h1 := (Rd.field_ok (h := h) (h' := h) (o := .little) (k := .s4) (file := fieldBytes h .little .s4 x ++ rest) (p := 0)
    (x := x) (rest := rest) rfl).2
  have h2 := (field_any (h := h) (o := .little) (k := .s4) (file := fieldBytes h .little .s4 x ++ rest) (p := 0)
    (by rw [List.length_append, fieldBytes_length]; omega)).2
  rw [h1] at h2
  injection h2 with h2
  injection h2 with h2
  unfold little32
  have e : (256 : Int) ^ FieldSize.s4.bytes = 2 ^ 32 := rfl
  rw [e, Int.emod_eq_of_lt hx hx'] at h2
  exact h2.symm

/-- C60: a file with one channel and fewer than 2^31 frames reads back as it was written, with the rate rounded down to a whole
number. -/
theorem C60_samplevision_roundtrip (h h' : Endian) (ops : List Op) (s' : Setup) (o : Opened) (f : AFmt)
    (hfmt : (run (newSetup h) ops).fileFormat = .smp)
    (ho : openWrite h (run (newSetup h) ops) = (s', some o)) (hf : o.f = [f])
    (hr : f.rate < 2 ^ 32) (hch : f.channels = 1)
    (evs : List Ev) (hn : (dataOf evs).length = framesOf evs * bytesPerFrame f) (hsz : framesOf evs < 2 ^ 31) :
    ∃ t misc p, smpRead h' (session (smpUpdate h) (smpInit h f) evs) 0 = .ok ((t, misc), p) ∧
      SameSound (wholeRate f) (dataOf evs) (framesOf evs) (session (smpUpdate h) (smpInit h f) evs) t := by
  obtain ⟨tr, ht, hid, hl, hF, hlf, hc⟩ := opened ho hf
  obtain ⟨h1, h2, h3, h4, -⟩ := smp_accepted ht hid hF hfmt hc
  obtain ⟨r, r1, r2⟩ := rate_nat hlf
  have hr' : r < 2 ^ 32 := rate_lt r1 (by exact_mod_cast hr)
  have hb : bytesPerFrame f = 2 := by
    unfold bytesPerFrame; rw [h3, h2, hch]; rfl
  rw [hb] at hn
  obtain ⟨R, hfile⟩ := smp_file h f evs
  have e2 : 2 * framesOf evs % 2 ^ 32 = (dataOf evs).length := by rw [hn]; omega
  generalize hB : dataOf evs ++ smpTrailer h f.rate ++ R = B at *
  have hfile' : session (smpUpdate h) (smpInit h f) evs = smpTop ++ fieldBytes h .little .s4 (framesOf evs) ++ B := by
    rw [hfile, ← hB]; simp only [List.append_assoc]
  obtain ⟨t, p, hread, t1, t2, t3, t4, t5, t6, t7, t8, t9⟩ := smp_read h h' (framesOf evs) B (by
    rw [← hB, e2, List.length_append, List.length_append, smpTrailer_length]; omega) (by omega)
  rw [e2] at t1 t8
  refine ⟨t, _, p, by rw [hfile']; exact hread, ?_⟩
  refine ⟨?_, t2.trans hch.symm, t3.trans h3.symm, fun _ => ⟨t4.trans h1.symm, t5.trans h2.symm, fun _ => t6.trans h4.symm⟩,
    fun hz => absurd h3 hz, t9, by rw [t7]; decide, t8, ?_⟩
  · rw [t1, r2, ← hB]
    have e3 : ∃ rest, (dataOf evs ++ smpTrailer h f.rate ++ R).drop ((dataOf evs).length + 203)
        = fieldBytes h .little .s4 (toUnsigned f.rate) ++ rest := by
      rw [← List.drop_drop, List.append_assoc, List.drop_left]
      refine ⟨fieldBytes h .little .s4 0 ++ (fieldBytes h .little .s4 0 ++ R), ?_⟩
      have e5 : (fieldBytes h .little .s2 0 ++ (List.replicate 8 (smpLoop h)).flatten ++
          (List.replicate 8 (smpMarker h)).flatten ++ fieldBytes h .little .s1 60).length = 203 := by
        simp [smpLoop, smpMarker, fieldBytes_length, FieldSize.bytes, List.replicate_succ]
      rw [smpTrailer]
      simp only [List.append_assoc] at e5 ⊢
      have e6 : ∀ a b c d (x : List Byte), (a ++ (b ++ (c ++ d))).length = 203 →
          (a ++ (b ++ (c ++ (d ++ x)))).drop 203 = x := by
        intro a b c d x hx
        rw [← List.append_assoc c, ← List.append_assoc b, ← List.append_assoc a]
        exact List.drop_left' hx
      rw [e6 _ _ _ _ _ e5]
    obtain ⟨rest, e3⟩ := e3
    rw [e3, r1]
    have := little32_field h (x := r) (by omega) (by omega) rest
    unfold little32 at this
    rw [this]; rfl
  · unfold audio
    rw [t7, t8, hfile', ← hB]
    have e4 : (smpTop ++ fieldBytes h .little .s4 (framesOf evs : Int)).length = (116 : Int).toNat := by
      rw [List.length_append, smpTop_length, fieldBytes_length]; rfl
    rw [List.drop_left' e4, Int.toNat_natCast, List.append_assoc, List.take_left]

/-- C60: an accepted setup with more channels is written as a file that opens as a mono file: the frame count is kept,
so only the first `1/channels` of the samples are found, and the sample rate is taken from where the trailer of a
mono file would be, 319 bytes and twice the frame count into the file. -/
theorem C60_channels_lost (h h' : Endian) (ops : List Op) (s' : Setup) (o : Opened) (f : AFmt)
    (hfmt : (run (newSetup h) ops).fileFormat = .smp)
    (ho : openWrite h (run (newSetup h) ops) = (s', some o)) (hf : o.f = [f]) (hch : 2 ≤ f.channels)
    (evs : List Ev) (hn : (dataOf evs).length = framesOf evs * bytesPerFrame f) (hsz : framesOf evs < 2 ^ 31) :
    ∃ t misc p, smpRead h' (session (smpUpdate h) (smpInit h f) evs) 0 = .ok ((t, misc), p) ∧
      t.f.channels = 1 ∧ t.frames = framesOf evs ∧
      audio (session (smpUpdate h) (smpInit h f) evs) t = (dataOf evs).take (2 * framesOf evs) ∧
      t.f.rate = (little32 (((session (smpUpdate h) (smpInit h f) evs).drop (319 + 2 * framesOf evs)).take 4) : Rat) := by
  obtain ⟨tr, ht, hid, hl, hF, hlf, hc⟩ := opened ho hf
  obtain ⟨h1, h2, h3, h4, -⟩ := smp_accepted ht hid hF hfmt hc
  have hb : bytesPerFrame f = 2 * f.channels.toNat := by
    unfold bytesPerFrame; rw [h3, h2]
    have : ((16 + 7) / 8 * f.channels : Int) = 2 * f.channels := by
      have : ((16 + 7) / 8 : Int) = 2 := rfl
      rw [this]
    simp only [NONE, if_true, this]
    omega
  obtain ⟨R, hfile⟩ := smp_file h f evs
  have e2 : 2 * framesOf evs % 2 ^ 32 = 2 * framesOf evs := Nat.mod_eq_of_lt (by omega)
  have e3 : 2 * framesOf evs ≤ (dataOf evs).length := by
    rw [hn, hb, Nat.mul_comm 2]
    exact Nat.mul_le_mul_left _ (by omega)
  generalize hB : dataOf evs ++ smpTrailer h f.rate ++ R = B at *
  have hfile' : session (smpUpdate h) (smpInit h f) evs = smpTop ++ fieldBytes h .little .s4 (framesOf evs) ++ B := by
    rw [hfile, ← hB]; simp only [List.append_assoc]
  obtain ⟨t, p, hread, t1, t2, t3, t4, t5, t6, t7, t8, t9⟩ := smp_read h h' (framesOf evs) B (by
    rw [← hB, e2, List.length_append, List.length_append, smpTrailer_length]; omega) (by omega)
  rw [e2] at t1 t8
  have e4 : (smpTop ++ fieldBytes h .little .s4 (framesOf evs : Int)).length = 116 := by
    rw [List.length_append, smpTop_length, fieldBytes_length]; rfl
  refine ⟨t, _, p, by rw [hfile']; exact hread, t2, t9, ?_, ?_⟩
  · unfold audio
    rw [t7, t8, hfile', ← hB, show (116 : Int).toNat = 116 from rfl, List.drop_left' e4, Int.toNat_natCast,
      List.append_assoc, List.take_append_of_le_length e3]
  · rw [t1, hfile', little32]
    have : List.drop (319 + 2 * framesOf evs) (smpTop ++ fieldBytes h .little .s4 (framesOf evs : Int) ++ B)
        = B.drop (2 * framesOf evs + 203) := by
      rw [show 319 + 2 * framesOf evs = 116 + (2 * framesOf evs + 203) by omega, ← List.drop_drop, List.drop_left' e4]
    rw [this]

/-- C60: a file nobody gave a name or a comment opens with two miscellaneous items, a name and a comment of one space. -/
theorem C60_phantom_items (h h' : Endian) (f : AFmt) (evs : List Ev)
    (hn : 2 * framesOf evs ≤ (dataOf evs).length) (hsz : framesOf evs < 2 ^ 31) :
    ∃ t p, smpRead h' (session (smpUpdate h) (smpInit h f) evs) 0 = .ok ((t, [(203, [0x20]), (210, [0x20])]), p) := by
  obtain ⟨R, hfile⟩ := smp_file h f evs
  have hfile' : session (smpUpdate h) (smpInit h f) evs = smpTop ++ fieldBytes h .little .s4 (framesOf evs) ++
      (dataOf evs ++ smpTrailer h f.rate ++ R) := by
    rw [hfile]; simp only [List.append_assoc]
  obtain ⟨t, p, hread, -⟩ := smp_read h h' (framesOf evs) (dataOf evs ++ smpTrailer h f.rate ++ R) (by
    rw [List.length_append, List.length_append, smpTrailer_length]; omega) (by omega)
  exact ⟨t, p, by rw [hfile']; exact hread⟩

/-- Each synchronisation without data since the last one makes the file 215 bytes longer. -/
theorem C60_sync_grows (h : Endian) (d : Disk) (t : Trk) (hd : d.bytes.length = d.pos) (h0 : 116 ≤ d.pos) :
    (step (smpUpdate h) (d, t, 112) .sync).1.bytes.length = d.bytes.length + 215 ∧
    (step (smpUpdate h) (d, t, 112) .sync).1.pos = (step (smpUpdate h) (d, t, 112) .sync).1.bytes.length := by
  have e4 : (fieldBytes h .little .s4 t.frames).length = 4 := by rw [fieldBytes_length]
  have hne : fieldBytes h .little .s4 t.frames ≠ [] := by
    intro he; rw [he] at e4; simp at e4
  have hne2 : smpTrailer h t.f.rate ≠ [] := by
    intro he
    have := smpTrailer_length h t.f.rate
    rw [he] at this; simp at this
  have h1 : ((d.seek 112).write (fieldBytes h .little .s4 t.frames)).bytes.length = d.bytes.length := by
    rw [Disk.write_length hne, e4, Disk.seek_pos, Disk.seek_bytes]; omega
  have h2 : (step (smpUpdate h) (d, t, 112) .sync).1 =
      (((d.seek 112).write (fieldBytes h .little .s4 t.frames)).seek d.pos).write (smpTrailer h t.f.rate) := by
    simp only [step, smpUpdate, Int.toNat_natCast]
  rw [h2]
  rw [Disk.write_length hne2, Disk.write_pos, smpTrailer_length, Disk.seek_pos, Disk.seek_bytes, h1]
  omega

/-- Setups that are accepted, a mono and a stereo one; the stereo file reports a rate made of its samples. -/
def smpMono : List Op := [.fileFormat 11, .channels 1001 1, .rate 1001 22050]
def smpStereo : List Op := [.fileFormat 11, .channels 1001 2, .rate 1001 22050]

example : ∃ s' o f, openWrite .little (run (newSetup .little) smpMono) = (s', some o) ∧ o.f = [f] ∧
    (run (newSetup .little) smpMono).fileFormat = .smp ∧ f.rate = (22050 : Nat) ∧ f.channels = 1 ∧
    (dataOf [.data [1, 2, 3, 4] 2, .sync, .sync, .data [4, 5] 1]).length =
      framesOf [.data [1, 2, 3, 4] 2, .sync, .sync, .data [4, 5] 1] * bytesPerFrame f := by
  refine ⟨_, _, _, rfl, rfl, ?_⟩
  decide +kernel

example : ∃ s' o f, openWrite .little (run (newSetup .little) smpStereo) = (s', some o) ∧ o.f = [f] ∧
    (run (newSetup .little) smpStereo).fileFormat = .smp ∧ 2 ≤ f.channels ∧
    (dataOf [.data [1, 2, 3, 4] 1]).length = framesOf [.data [1, 2, 3, 4] 1] * bytesPerFrame f ∧
    ((smpRead .big (session (smpUpdate .little) (smpInit .little f) [.data [1, 2, 3, 4] 1]) 0).toOption.map
      fun x => x.1.1.f.rate) = some (0x56223cff : Nat) := by
  refine ⟨_, _, _, rfl, rfl, ?_⟩
  decide +kernel

end AF.Files
