import Verif.Proof.Crash
import Verif.Props.Files.NIST
import Verif.Props.Files.WAVE
import Verif.Props.Files.AIFF
import Verif.Props.Files.IFF
import Verif.Props.Files.VOC
import Verif.Props.Files.CAF
import Verif.Props.Files.SampleVision
/-!
# C66: what `afSyncFile` has written survives the death of the program

A program makes any calls `ops` on a new setup, opens a file with it, writes and syncs in any order (`a`), syncs once
more, goes on writing (`b`, without another sync) and dies. The file it leaves is `died …` (Verif/Model/Crash.lean).
-/
namespace AF.Files
open AF AF.Setup AF.Spec.Files AF.Meta AF.Spec AF.Convert

/-- C66, NeXT/Sun: the file opens and holds what had been written at the last sync. -/
theorem C66_next (h h' : Endian) (ops : List Setup.Op) (s' : Setup) (o : Opened) (f : AFmt)
    (hfmt : (Setup.run (newSetup h) ops).fileFormat = .next)
    (ho : openWrite h (Setup.run (newSetup h) ops) = (s', some o)) (hf : o.f = [f])
    (hr : f.rate < 2 ^ 32) (hch : f.channels < 2 ^ 31)
    (a b : List Ev) (hb : Ev.sync ∉ b) (hn : (dataOf a).length = framesOf a * bytesPerFrame f) (hd : dataOf a ≠ [])
    (hsz : (dataOf a).length < 2 ^ 32 - 1) :
    ∃ t p, nextRead h' (died (nextUpdate h) (nextInit h f) (a ++ .sync :: b)) 0 = .ok (t, p) ∧
      SameSound (wholeRate f) (dataOf a) (framesOf a) (died (nextUpdate h) (nextInit h f) (a ++ .sync :: b)) t := by
  obtain ⟨tr, ht, hid, hl, -, hlf, hc⟩ := opened ho hf
  obtain ⟨r, r1, r2⟩ := rate_nat hlf
  obtain ⟨h1, h2, h3, h4, -⟩ := next_accepted ht hid hl hfmt hc
  rw [died_after _ _ a b hb (show (0 : Int) ≤ 28 + 0 by decide)]
  obtain ⟨t, d, he, hf, hfirst, hds, hh, -⟩ := next_file h f a
  rw [he, show ((nextInit h f).2.1.first + (nextInit h f).2.1.dataSize + ((dataOf a).length : Int)).toNat = 28 + (dataOf a).length from
    by show ((28 : Int) + 0 + _).toNat = _; omega]
  have hk : Holds 28 (dataOf a) (((⟨nextHeader h t ++ d, 0⟩ : Disk).seek (28 + (dataOf a).length)).write (dataOf b)) :=
    (hh.seek _).high (Nat.le_refl _)
  obtain ⟨d', hd'⟩ := Disk.write_after (d := (⟨nextHeader h t ++ d, 0⟩ : Disk).seek (28 + (dataOf a).length)) (bs := dataOf b)
    (H := nextHeader h t) (R := d) rfl (by rw [nextHeader_length, Disk.seek_pos]; omega)
  unfold Holds at hk
  rw [hd'] at hk ⊢
  exact next_reads h h' hlf h1 h2 h3 h4 r r1 r2 (rate_lt r1 (by exact_mod_cast hr)) hch hn hd hsz hf hfirst hds hk

/-- C66, AVR. -/
theorem C66_avr (h h' : Endian) (name : List Byte) (ops : List Setup.Op) (s' : Setup) (o : Opened) (f : AFmt)
    (hfmt : (Setup.run (newSetup h) ops).fileFormat = .avr)
    (ho : openWrite h (Setup.run (newSetup h) ops) = (s', some o)) (hf : o.f = [f])
    (hr : f.rate < 2 ^ 24) (hch : f.channels ≤ 2)
    (a b : List Ev) (hb : Ev.sync ∉ b) (hn : (dataOf a).length = framesOf a * bytesPerFrame f) (hsz : framesOf a < 2 ^ 32) :
    ∃ t p, avrRead h' (died (avrUpdate h) (avrInit h name f) (a ++ .sync :: b)) 0 = .ok (t, p) ∧
      SameSound (wholeRate f) (dataOf a) (framesOf a) (died (avrUpdate h) (avrInit h name f) (a ++ .sync :: b)) t := by
  obtain ⟨tr, ht, hid, hl, -, hlf, hc⟩ := opened ho hf
  obtain ⟨r, r1, r2⟩ := rate_nat hlf
  obtain ⟨h1, h2, h3, h4, -⟩ := avr_accepted ht hid hfmt hc
  have hfirst : (avrInit h name f).2.1.first = 128 := by
    unfold avrInit
    dsimp only
    rw [Disk.write_pos, avrHeader_length]; rfl
  have hsize : (avrInit h name f).2.1.dataSize = 0 := rfl
  rw [died_after _ _ a b hb (by rw [hfirst, hsize]; decide), hfirst, hsize]
  obtain ⟨R, he, hh⟩ := avr_file h name f a
  rw [he, show ((128 : Int) + 0 + ((dataOf a).length : Int)).toNat = 128 + (dataOf a).length by omega]
  have hlen : (avrA h name f ++ avrB h (framesOf a) ++ avrC).length = 128 := by
    rw [List.length_append, List.length_append, avrA_length, avrB_length]; rfl
  generalize hX : avrA h name f ++ avrB h (framesOf a) ++ avrC ++ R = X at hh
  have hk : Holds 128 (dataOf a) (((⟨X, 0⟩ : Disk).seek (128 + (dataOf a).length)).write (dataOf b)) :=
    (hh.seek _).high (Nat.le_refl _)
  obtain ⟨R', hR'⟩ := Disk.write_after (d := (⟨X, 0⟩ : Disk).seek (128 + (dataOf a).length)) (bs := dataOf b)
    (H := avrA h name f ++ avrB h (framesOf a) ++ avrC) (R := R) hX.symm (by rw [hlen, Disk.seek_pos]; omega)
  unfold Holds at hk
  rw [hR'] at hk ⊢
  exact avr_reads h h' name hlf h1 h2 h3 h4 r r1 r2 (rate_lt r1 (by exact_mod_cast hr)) hch hn hsz hk

theorem nist_track {f : AFmt} {s : Disk × Trk × Unit} (e : nistInit f = some s) : s.2.1.first = 1024 ∧ s.2.1.dataSize = 0 := by
  unfold nistInit at e
  generalize nistHeader = hdr at e
  by_cases hd : nistDefined f = true
  · rw [if_pos hd] at e
    injection e with e
    rw [← e]
    exact ⟨rfl, rfl⟩
  · rw [if_neg hd] at e
    cases e

/-- C66, NIST SPHERE: the header has the number of frames at the last sync; the data goes to the end of the file. -/
theorem C66_nist (h h' : Endian) (ops : List Setup.Op) (s' : Setup) (o : Opened) (f : AFmt)
    (hfmt : (Setup.run (newSetup h) ops).fileFormat = .nist)
    (ho : openWrite h (Setup.run (newSetup h) ops) = (s', some o)) (hf : o.f = [f])
    (hch : f.channels < 2 ^ 31) (hr : f.rate < 2 ^ 31) (hr1 : 1 ≤ f.rate) (hw : 9 ≤ f.sampleWidth)
    (a b : List Ev) (hb : Ev.sync ∉ b) (hsz : framesOf a < 2 ^ 31) :
    ∃ s t p, nistInit f = some s ∧ nistRead h' (died nistUpdate s (a ++ .sync :: b)) 0 = .ok (t, p) ∧
      SameSound (wholeRate f) (dataOf a ++ dataOf b) (framesOf a) (died nistUpdate s (a ++ .sync :: b)) t := by
  obtain ⟨w1, w2, h1, h4, hbs, hlf, s, t, e1, e2, e3, e4, e5, e6⟩ := nist_session_any h h' ops s' o f hfmt ho hf hch
    hr (.inr hw) a
  have hs := nist_track e1
  have hdied : died nistUpdate s (a ++ .sync :: b) = nistHeader t ++ (dataOf a ++ dataOf b) := by
    rw [died_after _ _ a b hb (by rw [hs.1, hs.2]; decide), e4, hs.1, hs.2, Disk.write_end (by
      rw [Disk.seek_pos, Disk.seek_bytes, List.length_append, e5]; omega)]
    exact List.append_assoc _ _ _
  obtain ⟨u, p, g1, g2, -⟩ := nist_sound hr1 hw w2 h1 hbs hlf e2 e3 hsz e5 (e6 (dataOf a ++ dataOf b))
  exact ⟨s, u, p, e1, by rw [hdied]; exact g1, by rw [hdied]; exact g2⟩

/-- C66, IRCAM: nothing in the header depends on the data, so that everything written survives, synced or not. -/
theorem C66_ircam (F : Float32) (h h' : Endian) (ops : List Setup.Op) (s' : Setup) (o : Opened) (f : AFmt)
    (hfmt : (Setup.run (newSetup h) ops).fileFormat = .ircam)
    (ho : openWrite h (Setup.run (newSetup h) ops) = (s', some o)) (hf : o.f = [f])
    (evs : List Ev) (hn : (dataOf evs).length = framesOf evs * bytesPerFrame f) (hsz : (dataOf evs).length < 2 ^ 63) :
    ∃ s t p, ircamInit F h f = some s ∧ ircamRead F h' (died ircamUpdate s evs) 0 = .ok (t, p) ∧
      SameSound { f with byteOrder := native h, rate := F.dec (F.enc f.rate) } (dataOf evs) (framesOf evs)
        (died ircamUpdate s evs) t := by
  have e : ∀ s, died ircamUpdate s evs = session ircamUpdate s evs := by
    intro s
    unfold died session
    generalize List.foldl (step ircamUpdate) (s.1.seek s.2.1.first.toNat, s.2) evs = q
    rfl
  simp only [e]
  exact C49_ircam_roundtrip F h h' ops s' o f hfmt ho hf evs hn hsz

/-! ## WAVE -/

theorem Disk.write_at_end (A B : List Byte) (n : Nat) (hn : A.length = n) :
    (((⟨A, 0⟩ : Disk).seek n).write B).bytes = A ++ B := by
  rw [Disk.write_end (show ((⟨A, 0⟩ : Disk).seek n).pos = ((⟨A, 0⟩ : Disk).seek n).bytes.length from hn.symm)]
  rfl

theorem waveTrack_size (f : AFmt) : (waveTrack f).dataSize = 0 := by
  unfold waveTrack
  split
  · rfl
  · split <;> rfl

theorem wave_died {h : Endian} {ops : List Setup.Op} {o : Opened} {f : AFmt} {a b : List MEv} {closed file : List Byte} {x : WaveObj}
    (hw : WaveWritten h ops o f a closed x) (hfit : WaveFits o f a closed x) (hb : MEv.ev .sync ∉ b)
    (hdied : waveDied h o f (a ++ .ev .sync :: b) = .ok file) : file = closed ++ dataOfM b := by
  obtain ⟨-, -, hO, -, -, -, -, k8⟩ := wave_known hw hfit
  have hm : ∀ m ∈ o.handle.misc, Sized m := fun m h => (wave_misc hw hfit m h).toSized
  obtain ⟨-, i2, -, -⟩ := waveInit_eq h o.handle (o.names.headD []) f hm
  have hlen : closed.length = (waveHead h f [0, 0, 0, 0] o.handle.misc (wmarks o.handle (o.names.headD [])) 0 0).length +
      (dataOfM a).length := by
    rw [k8, List.length_append]
    congr 1
    exact waveHead_length hm hO (by rw [fieldBytes_length, b4]; rfl)
  have hfirst : (waveInit h o.handle (o.names.headD []) f).2.1.first =
      ((waveHead h f [0, 0, 0, 0] o.handle.misc (wmarks o.handle (o.names.headD [])) 0 0).length : Nat) := by rw [i2]
  have hsize : (waveInit h o.handle (o.names.headD []) f).2.1.dataSize = 0 := by rw [i2]; exact waveTrack_size f
  obtain ⟨c, y, h1, h2⟩ := mdied_after _ _ _ a b hb (by rw [hfirst, hsize]; omega) hdied
  have h3 := hw.session
  unfold waveSession at h3
  rw [h1] at h3
  cases h3
  rw [h2, hfirst, hsize]
  exact Disk.write_at_end _ _ _ (by omega)

theorem wave_marks {f : AFmt} {misc : List Misc} {marks : List WMark} {n : Nat} {D T file : List Byte} {s : WaveRead}
    (hr : WaveReport f misc marks n D T file s) (hstr : ∀ m ∈ marks, 0 ∉ m.name ∧ 0 ∉ m.comment) :
    readMarks s.markers = marks.map fun m => (m.id, m.position, some m.name, some m.comment) := by
  rw [hr.markers]
  unfold readMarks
  rw [List.map_map]
  refine List.map_congr_left fun m hm => ?_
  have := hstr m hm
  simp only [Function.comp, labelRead, cString_zString this.1, cString_zString this.2]

/-- C66, WAVE: the file opens and holds the sound, the markers and the miscellaneous data that `afCloseFile` in place of the
sync would have left. -/
theorem C66_wave (h h' : Endian) (ops : List Setup.Op) (o : Opened) (f : AFmt) (a b : List MEv) (closed file : List Byte)
    (x : WaveObj) (hw : WaveWritten h ops o f a closed x) (hfit : WaveFits o f a closed x) (hb : MEv.ev .sync ∉ b)
    (hdied : waveDied h o f (a ++ .ev .sync :: b) = .ok file)
    (hn : f.compression = NONE → (dataOfM a).length = framesOfM a * bytesPerFrame f)
    (hstr : ∀ m ∈ marksOf x.handle o.names, 0 ∉ m.2.2.1 ∧ 0 ∉ m.2.2.2)
    (fuel : Nat) (hfuel : 8 + x.handle.misc.length + 2 * (marksOf x.handle o.names).length ≤ fuel) :
    ∃ s p, waveRead h' fuel file 0 = .ok (s, p) ∧
      SameSound (wholeBytes (wholeRate f)) (dataOfM a) (framesOfM a) file s.t ∧
      readMarks s.markers = (marksOf x.handle o.names).map (fun m => (m.1, m.2.1, some m.2.2.1, some m.2.2.2)) ∧
      s.misc.map miscContent = x.handle.misc.map miscContent := by
  obtain ⟨k1, k2, k3, k4, k5, k6, k7, k8⟩ := wave_known hw hfit
  have hfile := wave_died hw hfit hb hdied
  have hlen := congrArg List.length hfile
  have hclen := congrArg List.length k8
  rw [List.length_append] at hlen hclen
  have hfl := hfit.length
  have hL : ((closed.length : Int) - 8) = (file.length : Int) - (dataOfM b).length - 8 := by omega
  obtain ⟨s, p, hs, hr⟩ := wave_report h h' k1 k4 k5 k6 (fun _ => hfit.frames) (D := dataOfM a) (T := dataOfM b) (by omega)
    (show file = _ by rw [← hL, ← List.append_assoc, ← k8]; exact hfile) (by rw [← k7, List.length_map] at hfuel; exact hfuel)
  refine ⟨s, p, hs, wave_same k1 hr (by omega) hn, ?_, wave_misc_again k4 hr⟩
  rw [← k7] at hstr ⊢
  rw [wave_marks hr (fun m hm => hstr _ (List.mem_map.2 ⟨m, hm, rfl⟩)), List.map_map]
  rfl

/-! ## AIFF -/

theorem aiffTrack_size (f : AFmt) : (aiffTrack f).dataSize = 0 := by
  unfold aiffTrack
  split <;> rfl

theorem aiff_died {h : Endian} {aifc : Bool} {ops : List Setup.Op} {o : Opened} {f : AFmt} {a b : List MEv} {closed file : List Byte}
    {x : AiffObj} (hw : AiffWritten h aifc ops o f a closed x) (hfit : AiffFits o f a closed x) (hb : MEv.ev .sync ∉ b)
    (hdied : aiffDied h aifc o f (a ++ .ev .sync :: b) = .ok file) : file = closed ++ dataOfM b := by
  obtain ⟨-, -, -, -, hO, k6, -, -, -, k9⟩ := aiff_known hw fun m hm => (hfit.misc m hm).1
  have hm : ∀ m ∈ o.handle.misc, Sized m := fun m h => (k6 m h).1
  obtain ⟨-, i2, -, -, -⟩ := aiffInit_eq h aifc o.handle (o.names.headD []) f hm
  have hL0 : (fieldBytes h .big .s4 0).length = 4 := by rw [fieldBytes_length, b4]
  have hN : (formStart aifc (fieldBytes h .big .s4 0) ++ aiffBody h aifc (aiffTrack f) o.handle (o.names.headD [])).length =
      12 + (aiffBody h aifc (aiffTrack f) o.handle (o.names.headD [])).length := by rw [List.length_append, formStart_length _ hL0]
  rw [hN] at i2
  have hlen : closed.length = 12 + (aiffBody h aifc (aiffTrack f) o.handle (o.names.headD [])).length + (dataOfM a).length := by
    rw [k9, List.length_append, List.length_append, formStart_length _ (by rw [fieldBytes_length, b4]),
      aiffBody_length h aifc (t := aiffTrackOf f (framesOfM a) (dataOfM a).length) (t' := aiffTrack f) hO hm rfl]
  have hfirst : (aiffInit h aifc o.handle (o.names.headD []) f).2.1.first =
      ((12 + (aiffBody h aifc (aiffTrack f) o.handle (o.names.headD [])).length : Nat) : Int) := by rw [i2]
  have hsize : (aiffInit h aifc o.handle (o.names.headD []) f).2.1.dataSize = 0 := by rw [i2]; exact aiffTrack_size f
  obtain ⟨c, y, h1, h2⟩ := mdied_after _ _ _ a b hb (by rw [hfirst, hsize]; omega) hdied
  have h3 := hw.session
  unfold aiffSession at h3
  rw [h1] at h3
  cases h3
  rw [h2, hfirst, hsize]
  exact Disk.write_at_end _ _ _ (by omega)

/-- C66, AIFF and AIFF-C: the file opens and holds the sound, and exactly the markers, miscellaneous data, instrument and AES data
that opening the file finds which `afCloseFile` in place of the sync would have left. -/
theorem C66_aiff (rnd : Rat → Dbl) (hrnd : ExactOnDoubles rnd) (h h' : Endian) (aifc : Bool) (ops : List Setup.Op) (o : Opened)
    (f : AFmt) (a b : List MEv) (closed file : List Byte) (x : AiffObj) (hw : AiffWritten h aifc ops o f a closed x)
    (hfit : AiffFits o f a closed x) (hb : MEv.ev .sync ∉ b) (hdied : aiffDied h aifc o f (a ++ .ev .sync :: b) = .ok file)
    (fuel : Nat) (hfuel : 7 + x.handle.misc.length ≤ fuel) :
    ∃ s p s0 p0, aiffRead rnd h' fuel file 0 = .ok (s, p) ∧
      SameSound f (dataOfM a) (if f.compression = IMA then framesOfM a / 64 * 64 else framesOfM a) file s.t ∧
      aiffRead rnd h' fuel closed 0 = .ok (s0, p0) ∧
      s.markers = s0.markers ∧ s.misc = s0.misc ∧ s.inst = s0.inst ∧ s.aes = s0.aes := by
  have hfile := aiff_died hw hfit hb hdied
  obtain ⟨s, p, hs, hr⟩ := aiff_behind hrnd hw hfit h' (dataOfM b) fuel hfuel
  obtain ⟨s0, p0, hs0, hr0⟩ := aiff_again hrnd hw hfit h' fuel hfuel
  obtain ⟨-, k2, -⟩ := aiff_known hw fun m hm => (hfit.misc m hm).1
  rw [← hfile] at hs hr
  refine ⟨s, p, s0, p0, hs, ?_, hs0, hr.markers.trans hr0.markers.symm, hr.misc.trans hr0.misc.symm,
    hr.inst.trans hr0.inst.symm, hr.aes.trans hr0.aes.symm⟩
  split
  · rename_i hc
    exact aiff_same_ima hr hc
  · rename_i hc
    exact aiff_same hr hc fun hz => (k2 hz).1

/-! ## IFF -/

theorem iffInit_eq (h : Endian) (handle0 : Handle) (f : AFmt) (hm : ∀ m ∈ handle0.misc, Sized m) :
    (iffInit h handle0 f).1.bytes = iffStart (fieldBytes h .big .s4 0) ++ iffBody h (Trk.ofFormat f) handle0 ∧
    (iffInit h handle0 f).2.1.first = (48 + (iffMiscPart h handle0.misc).length : Nat) ∧
    (iffInit h handle0 f).2.1.dataSize = 0 := by
  have hL0 : (fieldBytes h .big .s4 0).length = 4 := by rw [fieldBytes_length, b4]
  have hA0 := iffStart_length hL0
  have s0 := Stands.nil.write (iffStart (fieldBytes h .big .s4 0))
  rw [List.nil_append, List.drop_nil] at s0
  obtain ⟨i1, i2, i3⟩ := iff_write (t := Trk.ofFormat f) (t0 := Trk.ofFormat f) (old := handle0) (x := ⟨handle0, 0, 0, 0⟩) (D := []) (P := [])
    hm (Over.refl _) ⟨Or.inl rfl, Or.inl rfl, Or.inl rfl⟩ hA0 s0 (Or.inl ⟨rfl, rfl⟩) rfl (by decide) (Or.inl rfl)
  have i2 := i2 rfl
  rw [List.length_append, hA0, iffBody_length] at i2
  simp only [List.length_nil, dataPad] at i1
  unfold iffInit
  dsimp only
  have e : tag "FORM" ++ fieldBytes h .big .s4 0 ++ tag "8SVX" = iffStart (fieldBytes h .big .s4 0) := rfl
  rw [e]
  generalize iffWrite h (Trk.ofFormat f) ⟨handle0, 0, 0, 0⟩ ((⟨[], 0⟩ : Disk).write (iffStart (fieldBytes h .big .s4 0))) = w at i1 i2 i3
  obtain ⟨d1, x1⟩ := w
  dsimp only at *
  exact ⟨by rw [i1]; simp, by rw [i2]; omega, rfl⟩

theorem iff_died {h : Endian} {ops : List Setup.Op} {o : Opened} {f : AFmt} {a b : List MEv} {closed file : List Byte}
    {x : IffObj} (hw : IffWritten h ops o f a closed x) (hfit : IffFits o a closed) (hb : MEv.ev .sync ∉ b)
    (hdied : iffDied h o f (a ++ .ev .sync :: b) = .ok file) :
    ∃ T, file = iffStart (fieldBytes h .big .s4 ((closed.length : Int) - 8)) ++ iffBody h (iffTrackOf f (dataOfM a).length) x.handle ++
        (dataOfM a ++ T) := by
  obtain ⟨-, -, hO, hm, k9⟩ := iff_known hw hfit
  obtain ⟨-, hfirst, hsize⟩ := iffInit_eq h o.handle f hm
  obtain ⟨c, y, h1, h2⟩ := mdied_after _ _ _ a b hb (by rw [hfirst, hsize]; omega) hdied
  have h3 := hw.session
  unfold iffSession at h3
  rw [h1] at h3
  cases h3
  rw [hfirst, hsize] at h2
  obtain ⟨R, hR⟩ := Disk.write_after
    (d := (⟨closed, 0⟩ : Disk).seek ((48 + (iffMiscPart h o.handle.misc).length : Nat) + 0 + ((dataOfM a).length : Int)).toNat)
    (bs := dataOfM b) (H := iffStart (fieldBytes h .big .s4 ((closed.length : Int) - 8)) ++
      iffBody h (iffTrackOf f (dataOfM a).length) x.handle ++ dataOfM a) (R := dataPad (dataOfM a).length)
    (by rw [Disk.seek_bytes, List.append_assoc]; exact k9) (by
      rw [List.length_append, List.length_append, iffStart_length (by rw [fieldBytes_length, b4]), iffBody_length,
        iffMiscPart_length h hO hm, Disk.seek_pos]
      omega)
  exact ⟨R, by rw [h2, hR, List.append_assoc]⟩

/-- C66, IFF/8SVX: the file opens and holds the sound, and exactly the miscellaneous data that opening the file finds which
`afCloseFile` in place of the sync would have left. -/
theorem C66_iff (h h' : Endian) (ops : List Setup.Op) (o : Opened) (f : AFmt) (a b : List MEv) (closed file : List Byte) (x : IffObj)
    (hw : IffWritten h ops o f a closed x) (hfit : IffFits o a closed) (hb : MEv.ev .sync ∉ b)
    (hdied : iffDied h o f (a ++ .ev .sync :: b) = .ok file) (fuel : Nat) (hfuel : 3 + x.handle.misc.length ≤ fuel) :
    ∃ s p s0 p0, iffRead h' fuel file 0 = .ok (s, p) ∧
      SameSound { f with rate := ((f.rate.floor % 65536 : Int) : Rat) } (dataOfM a) (framesOfM a) file s.t ∧
      iffRead h' fuel closed 0 = .ok (s0, p0) ∧ s.misc = s0.misc := by
  obtain ⟨T, hfile⟩ := iff_died hw hfit hb hdied
  obtain ⟨s, p, hs, hr⟩ := iff_behind hw hfit hfile h' fuel hfuel
  obtain ⟨s0, p0, hs0, hr0⟩ := iff_again hw hfit h' fuel hfuel
  obtain ⟨k1, k2, -⟩ := iff_known hw hfit
  exact ⟨s, p, s0, p0, hs, (iff_same k1 k2 hr).1, hs0, hr.misc.trans hr0.misc.symm⟩

/-! ## Before the first sync -/

/-- C66 needs the sync: a program that dies before its first one leaves a WAVE file that cannot be opened, whatever it
wrote. -/
theorem C66_wave_unsynced (h h' : Endian) (ops : List Setup.Op) (o : Opened) (f : AFmt) (a b : List MEv) (closed file : List Byte)
    (x : WaveObj) (hw : WaveWritten h ops o f a closed x) (hfit : WaveFits o f a closed x) (hb : MEv.ev .sync ∉ b)
    (hdied : waveDied h o f b = .ok file) (fuel : Nat) : waveRead h' (fuel + 1) file 0 = .error .fail := by
  have hm : ∀ m ∈ o.handle.misc, Sized m := fun m h => (wave_misc hw hfit m h).toSized
  obtain ⟨i1, i2, -, -⟩ := waveInit_eq h o.handle (o.names.headD []) f hm
  have hfirst : (waveInit h o.handle (o.names.headD []) f).2.1.first =
      ((waveHead h f [0, 0, 0, 0] o.handle.misc (wmarks o.handle (o.names.headD [])) 0 0).length : Nat) := by rw [i2]
  have hsize : (waveInit h o.handle (o.names.headD []) f).2.1.dataSize = 0 := by rw [i2]; exact waveTrack_size f
  have h1 := mdied_before _ _ _ b hb (by rw [hfirst, hsize]; omega) hdied
  unfold place at h1
  rw [hfirst, hsize] at h1
  obtain ⟨R, hR⟩ := Disk.write_after
    (d := (waveInit h o.handle (o.names.headD []) f).1.seek
      (((waveHead h f [0, 0, 0, 0] o.handle.misc (wmarks o.handle (o.names.headD [])) 0 0).length : Nat) + (0 : Int)).toNat)
    (bs := dataOfM b) (H := waveHead h f [0, 0, 0, 0] o.handle.misc (wmarks o.handle (o.names.headD [])) 0 0) (R := [])
    (by rw [Disk.seek_bytes, i1, List.append_nil]) (by rw [Disk.seek_pos]; omega)
  rw [hR] at h1
  obtain ⟨Z, hZ⟩ : ∃ Z, file.drop 0 = tag "RIFF" ++ (fieldBytes h .little .s4 0 ++ (tag "WAVE" ++ Z)) := by
    have : fieldBytes h .little .s4 0 = [0, 0, 0, 0] := by cases h <;> decide
    rw [List.drop_zero, this]
    unfold waveHead at h1
    simp only [List.append_assoc] at h1
    exact ⟨_, h1⟩
  have e3 : (tag "WAVE").length = 4 := rfl
  have hd1 := drop_step hZ (n := 4) rfl
  have hd2 := drop_step hd1 (fieldBytes_length _ _ _ _)
  unfold waveRead
  rw [Rd.bind_ok (a := ()) (p' := 0) rfl, Rd.bind_ok (Rd.tag_ok hZ rfl), Rd.bind_ok (Rd.field_ok hd1).2,
    Rd.bind_ok (Rd.tag_ok hd2 e3)]
  rw [Rd.bind_ok (Rd.loop_done (by
    unfold waveRound
    rw [if_neg (by decide)]
    rfl))]
  rfl

/-- C66, AIFF and AIFF-C: without a sync the length of the FORM chunk is 0, so that the file is one without chunks: it is accepted
and its format is whatever was in memory. -/
theorem C66_aiff_unsynced (rnd : Rat → Dbl) (h h' : Endian) (aifc : Bool) (ops : List Setup.Op) (o : Opened)
    (f : AFmt) (a b : List MEv) (closed file : List Byte) (x : AiffObj) (hw : AiffWritten h aifc ops o f a closed x)
    (hfit : AiffFits o f a closed x) (hb : MEv.ev .sync ∉ b) (hdied : aiffDied h aifc o f b = .ok file)
    (fuel : Nat) : aiffRead rnd h' (fuel + 1) file 0 = .error .undefined := by
  obtain ⟨-, -, -, -, -, k6, -⟩ := aiff_known hw fun m hm => (hfit.misc m hm).1
  have hm : ∀ m ∈ o.handle.misc, Sized m := fun m h => (k6 m h).1
  obtain ⟨i1, i2, -, -, -⟩ := aiffInit_eq h aifc o.handle (o.names.headD []) f hm
  have hsize : (aiffInit h aifc o.handle (o.names.headD []) f).2.1.dataSize = 0 := by rw [i2]; exact aiffTrack_size f
  have hfirst : (aiffInit h aifc o.handle (o.names.headD []) f).2.1.first =
      ((formStart aifc (fieldBytes h .big .s4 0) ++ aiffBody h aifc (aiffTrack f) o.handle (o.names.headD [])).length : Nat) := by
    rw [i2]
  have h1 := mdied_before _ _ _ b hb (by rw [hfirst, hsize]; omega) hdied
  unfold place at h1
  rw [hfirst, hsize] at h1
  generalize aiffBody h aifc (aiffTrack f) o.handle (o.names.headD []) = B at h1 i1
  obtain ⟨R, hR⟩ := Disk.write_after
    (d := (aiffInit h aifc o.handle (o.names.headD []) f).1.seek
      (((formStart aifc (fieldBytes h .big .s4 0) ++ B).length : Nat) + (0 : Int)).toNat)
    (bs := dataOfM b) (H := formStart aifc (fieldBytes h .big .s4 0) ++ B) (R := [])
    (by rw [Disk.seek_bytes, i1, List.append_nil]) (by rw [Disk.seek_pos]; omega)
  rw [hR] at h1
  obtain ⟨Z, hZ⟩ : ∃ Z, file.drop 0 = tag "FORM" ++ (fieldBytes h .big .s4 0 ++ (tag (if aifc then "AIFC" else "AIFF") ++ Z)) := by
    rw [List.drop_zero]
    unfold formStart at h1
    simp only [List.append_assoc] at h1
    exact ⟨_, h1⟩
  have e3 : (tag (if aifc then "AIFC" else "AIFF")).length = 4 := by cases aifc <;> rfl
  have hd1 := drop_step hZ (n := 4) rfl
  have hd2 := drop_step hd1 (fieldBytes_length _ _ _ _)
  unfold aiffRead
  rw [Rd.bind_ok (a := ()) (p' := 0) rfl, Rd.bind_ok (Rd.read_ok hZ (n := 4) rfl), Rd.bind_ok (Rd.field_ok hd1).2,
    Rd.bind_ok (Rd.read_ok hd2 e3)]
  rw [if_neg (by cases aifc <;> decide)]
  rw [Rd.bind_ok (Rd.loop_done (by
    unfold formRound
    rw [if_neg (by decide)]
    rfl))]
  rfl

/-- C66, IFF: the same. -/
theorem C66_iff_unsynced (h h' : Endian) (ops : List Setup.Op) (o : Opened) (f : AFmt) (a b : List MEv) (closed file : List Byte)
    (x : IffObj) (hw : IffWritten h ops o f a closed x) (hfit : IffFits o a closed) (hb : MEv.ev .sync ∉ b)
    (hdied : iffDied h o f b = .ok file) (fuel : Nat) : iffRead h' (fuel + 1) file 0 = .error .undefined := by
  obtain ⟨-, -, -, hm, -⟩ := iff_known hw hfit
  obtain ⟨i1, hfirst, hsize⟩ := iffInit_eq h o.handle f hm
  have h1 := mdied_before _ _ _ b hb (by rw [hfirst, hsize]; omega) hdied
  unfold place at h1
  rw [hfirst, hsize] at h1
  have hl : (iffStart (fieldBytes h .big .s4 0) ++ iffBody h (Trk.ofFormat f) o.handle).length = 48 + (iffMiscPart h o.handle.misc).length := by
    rw [List.length_append, iffStart_length (by rw [fieldBytes_length, b4]), iffBody_length]
    omega
  generalize iffBody h (Trk.ofFormat f) o.handle = B at h1 i1 hl
  obtain ⟨R, hR⟩ := Disk.write_after
    (d := (iffInit h o.handle f).1.seek (((48 + (iffMiscPart h o.handle.misc).length : Nat) : Int) + (0 : Int)).toNat)
    (bs := dataOfM b) (H := iffStart (fieldBytes h .big .s4 0) ++ B) (R := [])
    (by rw [Disk.seek_bytes, i1, List.append_nil]) (by rw [Disk.seek_pos]; omega)
  rw [hR] at h1
  obtain ⟨Z, hZ⟩ : ∃ Z, file.drop 0 = tag "FORM" ++ (fieldBytes h .big .s4 0 ++ (tag "8SVX" ++ Z)) := by
    rw [List.drop_zero]
    unfold iffStart at h1
    simp only [List.append_assoc] at h1
    exact ⟨_, h1⟩
  have e3 : (tag "8SVX").length = 4 := rfl
  have hd1 := drop_step hZ (n := 4) rfl
  have hd2 := drop_step hd1 (fieldBytes_length _ _ _ _)
  unfold iffRead
  rw [Rd.bind_ok (a := ()) (p' := 0) rfl, Rd.bind_ok (Rd.read_ok hZ (n := 4) rfl), Rd.bind_ok (Rd.field_ok hd1).2,
    Rd.bind_ok (Rd.read_ok hd2 e3)]
  rw [if_neg (by decide)]
  rw [Rd.bind_ok (Rd.loop_done (by
    unfold formRound
    rw [if_neg (by decide)]
    rfl))]
  rfl

/-! ## Formats with something behind the audio -/

/-- The VOC file of `C66_voc_lost`. -/
def vocCrashed : List Byte := [67, 114, 101, 97, 116, 105, 118, 101, 32, 86, 111, 105, 99, 101, 32, 70, 105, 108, 101, 26, 26, 0, 20, 1, 31, 17, 9, 15, 0, 0, 64, 31, 0, 0, 8, 1, 0, 0, 0, 0, 0, 0, 5, 6, 7, 1, 1, 1, 1]

/-- The CAF file of `C66_caf_lost`. -/
def cafCrashed : List Byte := [99, 97, 102, 102, 0, 1, 0, 0, 100, 101, 115, 99, 0, 0, 0, 0, 0, 0, 0, 32, 64, 229, 136, 128, 0, 0, 0, 0, 108, 112, 99, 109, 0, 0, 0, 2, 0, 0, 0, 4, 0, 0, 0, 1, 0, 0, 0, 2, 0, 0, 0, 16, 100, 97, 116, 97, 0, 0, 0, 0, 0, 0, 0, 8, 0, 0, 0, 0, 1, 2, 3, 4, 102, 114, 101, 101, 255, 255, 255, 255, 255, 255, 255, 244]

/-- C66 is false for VOC: the audio that follows a sync takes the place of the terminator, and is read as a block: four bytes of it,
and the file that the sync had left in order cannot be opened. -/
theorem C66_voc_lost : ∃ s' o f, openWrite .little (Setup.run (newSetup .little) vocExample) = (s', some o) ∧ o.f = [f] ∧
    (vocRead .little 9 (died (vocUpdate .little) (vocInit .little f) [.data [5, 6, 7] 3, .sync]) 0).toOption.isSome ∧
    ∀ fuel, vocRead .little (fuel + 2)
      (died (vocUpdate .little) (vocInit .little f) [.data [5, 6, 7] 3, .sync, .data [1, 1, 1, 1] 4]) 0 = .error .fail := by
  obtain ⟨s', o, f, h1, h2, h3, h4⟩ : ∃ s' o f, openWrite .little (Setup.run (newSetup .little) vocExample) = (s', some o) ∧ o.f = [f] ∧
      (vocRead .little 9 (died (vocUpdate .little) (vocInit .little f) [.data [5, 6, 7] 3, .sync]) 0).toOption.isSome ∧
      died (vocUpdate .little) (vocInit .little f) [.data [5, 6, 7] 3, .sync, .data [1, 1, 1, 1] 4] = vocCrashed :=
    ⟨_, _, _, rfl, rfl, by decide +kernel, by decide +kernel⟩
  exact ⟨s', o, f, h1, h2, h3, fun fuel => by rw [h4]; rfl⟩

/-- What the CAF reader knows of `cafCrashed` before its last chunk. -/
def cafKnown : CafRead :=
  match cafRead demoF64 .little 4 (cafCrashed.take 72) 0 with
  | .ok (s, _) => s
  | .error _ => ⟨false, Trk.ofFormat ⟨0, 0, 0, 0, ⟨0, 0, 0, 0⟩, 0, 0⟩, .none, none⟩

/-- C66 is false for CAF: the audio that follows a sync is read as chunks, and may keep the reader going for ever. -/
theorem C66_caf_lost : ∃ s' o f, openWrite .little (Setup.run (newSetup .little) (cafExample 0)) = (s', some o) ∧ o.f = [f] ∧
    (cafRead demoF64 .little 9 (died (cafUpdate .little) (cafInit demoF64 .little f) [.data [1, 2, 3, 4] 1, .sync]) 0).toOption.isSome ∧
    ∀ fuel, cafRead demoF64 .little fuel (died (cafUpdate .little) (cafInit demoF64 .little f)
      [.data [1, 2, 3, 4] 1, .sync, .data (tag "free" ++ [255, 255, 255, 255, 255, 255, 255, 244]) 3]) 0 = .error .running := by
  obtain ⟨s', o, f, h1, h2, h3, h4⟩ : ∃ s' o f, openWrite .little (Setup.run (newSetup .little) (cafExample 0)) = (s', some o) ∧
      o.f = [f] ∧
      (cafRead demoF64 .little 9 (died (cafUpdate .little) (cafInit demoF64 .little f) [.data [1, 2, 3, 4] 1, .sync]) 0).toOption.isSome ∧
      died (cafUpdate .little) (cafInit demoF64 .little f)
        [.data [1, 2, 3, 4] 1, .sync, .data (tag "free" ++ [255, 255, 255, 255, 255, 255, 255, 244]) 3] = cafCrashed :=
    ⟨_, _, _, rfl, rfl, by decide +kernel, by decide +kernel⟩
  refine ⟨s', o, f, h1, h2, h3, fun fuel => ?_⟩
  rw [h4]
  unfold cafRead
  rw [Rd.bind_ok (a := ()) (p' := 8) rfl, Rd.bind_ok (a := 84) (p' := 8) rfl]
  refine Rd.bind_error ?_
  match fuel with
  | 0 => rfl
  | 1 => rfl
  | n + 2 =>
    refine Eq.trans (b := Rd.loop (cafRound demoF64 .little 84) n (72, cafKnown) cafCrashed 72) rfl ?_
    exact loop_forever (by rfl) n

/-- C66 is false for Sample Vision: the sampling rate stands behind the audio, and is overwritten by what follows a sync. -/
theorem C66_smp_lost : ∃ s' o f, openWrite .little (Setup.run (newSetup .little) smpMono) = (s', some o) ∧ o.f = [f] ∧
    ((smpRead .little (died (smpUpdate .little) (smpInit .little f) [.data [1, 2, 3, 4] 2, .sync]) 0).toOption.map
      fun r => r.1.1.f.rate) = some (22050 : Nat) ∧
    ((smpRead .little (died (smpUpdate .little) (smpInit .little f)
      [.data [1, 2, 3, 4] 2, .sync, .data (List.replicate 240 0) 120]) 0).toOption.map fun r => r.1.1.f.rate) = some (0 : Nat) := by
  refine ⟨_, _, _, rfl, rfl, by decide +kernel, by decide +kernel⟩

/-! ## Programs that meet the hypotheses: the examples of the round trips, with more audio and a mark after the sync -/

def afterSync : List MEv := [.ev (.data [1, 1, 1, 1, 1, 1] 1), .call (.setMark 1001 7 3)]

/-- The result is a file. -/
def isFile (r : Except Abort (List Byte)) : Bool := match r with | .ok _ => true | .error _ => false

theorem isFile_ok {r : Except Abort (List Byte)} (h : isFile r = true) : ∃ file, r = .ok file := by
  cases r with
  | ok file => exact ⟨file, rfl⟩
  | error e => cases h

example : MEv.ev .sync ∉ afterSync ∧ ∃ o f closed x, WaveWritten .little waveOps o f waveEvs closed x ∧ WaveFits o f waveEvs closed x ∧
    (f.compression = NONE → (dataOfM waveEvs).length = framesOfM waveEvs * bytesPerFrame f) ∧
    (∀ m ∈ marksOf x.handle o.names, 0 ∉ m.2.2.1 ∧ 0 ∉ m.2.2.2) ∧
    (∃ file, waveDied .little o f (waveEvs ++ .ev .sync :: afterSync) = .ok file) ∧ ∃ file, waveDied .little o f afterSync = .ok file := by
  refine ⟨by simp [afterSync], ?_⟩
  obtain ⟨o, f, file, x, hw, hp⟩ := waveDemo_written (h := .little) (ops := waveOps) (evs := waveEvs) (P := fun r =>
    waveFitsB r.1 r.2.1 waveEvs r.2.2.1 r.2.2.2 = true ∧
    (r.2.1.compression = NONE → (dataOfM waveEvs).length = framesOfM waveEvs * bytesPerFrame r.2.1) ∧
    (∀ m ∈ marksOf r.2.2.2.handle r.1.names, 0 ∉ m.2.2.1 ∧ 0 ∉ m.2.2.2) ∧
    isFile (waveDied .little r.1 r.2.1 (waveEvs ++ .ev .sync :: afterSync)) = true ∧
    isFile (waveDied .little r.1 r.2.1 afterSync) = true) (by decide) (by decide +kernel)
  obtain ⟨h1, h2, h3, h4, h5⟩ := of_decide_eq_true hp
  exact ⟨o, f, file, x, hw, waveFits_of h1, h2, h3, isFile_ok h4, isFile_ok h5⟩

example : ∃ o f closed x, AiffWritten .little true aiffOps o f aiffEvs closed x ∧ AiffFits o f aiffEvs closed x ∧
    (∃ file, aiffDied .little true o f (aiffEvs ++ .ev .sync :: afterSync) = .ok file) ∧
    ∃ file, aiffDied .little true o f afterSync = .ok file := by
  obtain ⟨o, f, file, x, hw, hp⟩ := aiffDemo_written (h := .little) (aifc := true) (ops := aiffOps) (evs := aiffEvs) (P := fun r =>
    aiffFitsB 44100 r.1 r.2.1 aiffEvs r.2.2.1 r.2.2.2 = true ∧
    isFile (aiffDied .little true r.1 r.2.1 (aiffEvs ++ .ev .sync :: afterSync)) = true ∧
    isFile (aiffDied .little true r.1 r.2.1 afterSync) = true) (by decide) (by decide +kernel)
  obtain ⟨h1, h2, h3⟩ := of_decide_eq_true hp
  exact ⟨o, f, file, x, hw, aiffFits_of h1, isFile_ok h2, isFile_ok h3⟩

example : ∃ o f closed x, IffWritten .little (iffOps 22050) o f iffEvs closed x ∧ IffFits o iffEvs closed ∧
    (∃ file, iffDied .little o f (iffEvs ++ .ev .sync :: afterSync) = .ok file) ∧ ∃ file, iffDied .little o f afterSync = .ok file := by
  obtain ⟨o, f, file, x, hw, hp⟩ := iffDemo_written (h := .little) (ops := iffOps 22050) (evs := iffEvs) (P := fun r =>
    iffFitsB r.1 iffEvs r.2.2.1 = true ∧ isFile (iffDied .little r.1 r.2.1 (iffEvs ++ .ev .sync :: afterSync)) = true ∧
    isFile (iffDied .little r.1 r.2.1 afterSync) = true) (by decide) (by decide +kernel)
  obtain ⟨h1, h2, h3⟩ := of_decide_eq_true hp
  exact ⟨o, f, file, x, hw, iffFits_of h1, isFile_ok h2, isFile_ok h3⟩

/-- What was written after a sync is there, behind what the header describes. -/
example : ∃ s' o f, openWrite .little (Setup.run (newSetup .little) nextExample) = (s', some o) ∧ o.f = [f] ∧
    (died (nextUpdate .little) (nextInit .little f) [.data [1, 2, 3] 3, .sync, .data [4] 1]).drop 28 = [1, 2, 3, 4] ∧
    (dataOf [.data [1, 2, 3] 3]).length = framesOf [.data [1, 2, 3] 3] * bytesPerFrame f := by
  refine ⟨_, _, _, rfl, rfl, by decide +kernel, by decide +kernel⟩

end AF.Files
