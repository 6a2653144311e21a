import Verif.Proof.Torn
import Verif.Proof.TornIFF
import Verif.Spec.Torn
import Verif.Props.Files.Crash
/-!
# C75: a program that dies inside `afSyncFile` loses nothing that an earlier sync had saved

A program makes any calls `ops` on a new setup, opens a file with it, writes and syncs in any order (`a`), syncs, goes on
writing audio data (`b`), syncs again and dies inside that call, after `k` of its writes (Verif/Model/Torn.lean). The file it
leaves opens, and holds the sound of one of the two syncs.
-/
namespace AF.Files
open AF AF.Setup AF.Spec.Files AF.Meta AF.Spec AF.Convert

/-! ## The lists of writes are those of `update` -/

/-- C75: a sync of a NeXT, AVR or NIST file that is not cut short leaves what `afSyncFile` leaves. -/
theorem C75_next_all (h : Endian) (f : AFmt) (evs : List Ev) (k : Nat) (hk : 6 ≤ k) :
    diedIn (nextUpdate h) (fun t _ _ => nextWrites h t) (nextInit h f) evs k = died (nextUpdate h) (nextInit h f) (evs ++ [.sync]) :=
  diedIn_all _ _ (fun t _ d after => next_all h { t with afterData := after } d) _ _ _ (fun _ _ _ => hk)

theorem C75_avr_all (h : Endian) (name : List Byte) (f : AFmt) (evs : List Ev) (k : Nat) (hk : 3 ≤ k) :
    diedIn (avrUpdate h) (fun t _ _ => avrWrites h t) (avrInit h name f) evs k =
      died (avrUpdate h) (avrInit h name f) (evs ++ [.sync]) :=
  diedIn_all _ _ (fun t _ d after => avr_all h { t with afterData := after } d) _ _ _ (fun _ _ _ => hk)

theorem C75_nist_all (s : Disk × Trk × Unit) (evs : List Ev) (k : Nat) (hk : 1 ≤ k) :
    diedIn nistUpdate (fun t _ _ => nistWrites t) s evs k = died nistUpdate s (evs ++ [.sync]) :=
  diedIn_all nistUpdate (fun t _ _ => nistWrites t) (fun t _ d after => nist_all t after d) s evs k
    (fun t _ _ => by unfold nistWrites; rw [List.length_singleton]; exact hk)

/-! ## NeXT/Sun -/

/-- C75, NeXT/Sun. -/
theorem C75_next (h h' : Endian) (ops : List Setup.Op) (s' : Setup) (o : Opened) (f : AFmt)
    (hfmt : (Setup.run (newSetup h) ops).fileFormat = .next)
    (ho : openWrite h (Setup.run (newSetup h) ops) = (s', some o)) (hf : o.f = [f])
    (hr : f.rate < 2 ^ 32) (hch : f.channels < 2 ^ 31)
    (a b : List Ev) (hb : Ev.sync ∉ b) (hn : (dataOf a).length = framesOf a * bytesPerFrame f)
    (hnb : (dataOf b).length = framesOf b * bytesPerFrame f) (hd : dataOf a ≠ [])
    (hsz : (dataOf a).length + (dataOf b).length < 2 ^ 32 - 1) (k : Nat) (file : List Byte)
    (hfile : file = diedIn (nextUpdate h) (fun t _ _ => nextWrites h t) (nextInit h f) (a ++ .sync :: b) k) :
    ∃ t p, nextRead h' file 0 = .ok (t, p) ∧
      (SameSound (wholeRate f) (dataOf a) (framesOf a) file t ∨
       SameSound (wholeRate f) (dataOf a ++ dataOf b) (framesOf a + framesOf b) file t) := by
  obtain ⟨tr, ht, hid, hl, -, hlf, hc⟩ := opened ho hf
  obtain ⟨r, r1, r2⟩ := rate_nat hlf
  obtain ⟨h1, h2, h3, h4, -⟩ := next_accepted ht hid hl hfmt hc
  obtain ⟨t, d, he, tf, tfirst, tds, hh, -⟩ := next_file h f a
  obtain ⟨R, hR, hk⟩ := died_holds (nextUpdate h) (nextInit h f) a b hb (n := 28) rfl he (by rw [nextHeader_length]; omega) hh
  obtain ⟨after, x, hin⟩ := diedIn_eq (nextUpdate h) (fun t _ _ => nextWrites h t) (nextInit h f) (a ++ .sync :: b) k
  rw [hin, hR] at hfile
  generalize hT : endTrack (nextInit h f).2.1 (a ++ .sync :: b) after = T at hfile
  have Tf : T.f = f := by rw [← hT]; rfl
  have Tfirst : T.first = 28 := by rw [← hT]; rfl
  have hdata : dataOf (a ++ .sync :: b) = dataOf a ++ dataOf b := by simp [dataOf, Ev.bytes]
  have Tds : T.dataSize = (dataOf a ++ dataOf b).length := by
    rw [← hT]
    show (0 : Int) + _ = _
    rw [hdata]; omega
  have hcut : ∀ t : Trk, t.f = f → t.first = 28 → nextHeader h t = tag ".snd" ++ fieldBytes h .big .s4 28 ++
      fieldBytes h .big .s4 t.dataSize ++ fieldBytes h .big .s4 (nextEncoding f) ++ fieldBytes h .big .s4 (toUnsigned f.rate) ++
      fieldBytes h .big .s4 f.channels := by
    intro t e1 e2
    unfold nextHeader
    rw [e1, e2]
  have e4 : ∀ x, (fieldBytes h .big .s4 x).length = 4 := fun x => fieldBytes_length _ _ _ _
  -- data behind either header
  have hk2 : Holds 28 (dataOf a ++ dataOf b) ⟨nextHeader h T ++ R, 0⟩ := by
    unfold Holds at hk ⊢
    dsimp only at hk ⊢
    rw [List.drop_append, List.drop_of_length_le (by rw [nextHeader_length]; omega), nextHeader_length] at hk ⊢
    exact hk
  have hq0 : ∃ t' p, nextRead h' (nextHeader h t ++ R) 0 = .ok (t', p) ∧
      (SameSound (wholeRate f) (dataOf a) (framesOf a) (nextHeader h t ++ R) t' ∨
       SameSound (wholeRate f) (dataOf a ++ dataOf b) (framesOf a + framesOf b) (nextHeader h t ++ R) t') := by
    obtain ⟨t', p, g1, g2⟩ := next_reads h h' hlf h1 h2 h3 h4 r r1 r2 (rate_lt r1 (by exact_mod_cast hr)) hch hn hd (by omega)
      tf tfirst tds hk.prefix
    exact ⟨t', p, g1, .inl g2⟩
  have hq1 : ∃ t' p, nextRead h' (nextHeader h T ++ R) 0 = .ok (t', p) ∧
      (SameSound (wholeRate f) (dataOf a) (framesOf a) (nextHeader h T ++ R) t' ∨
       SameSound (wholeRate f) (dataOf a ++ dataOf b) (framesOf a + framesOf b) (nextHeader h T ++ R) t') := by
    obtain ⟨t', p, g1, g2⟩ := next_reads h h' hlf h1 h2 h3 h4 r r1 r2 (rate_lt r1 (by exact_mod_cast hr)) hch
      (n := framesOf a + framesOf b) (by rw [List.length_append, hn, hnb, Nat.add_mul])
      (by intro e; exact hd (List.append_eq_nil_iff.1 e).1) (by rw [List.length_append]; omega) Tf Tfirst Tds hk2
    exact ⟨t', p, g1, .inr g2⟩
  have hA : Among (nextWrites h T) (nextHeader h t ++ R) (nextHeader h T ++ R) (fun file => ∃ t' p, nextRead h' file 0 = .ok (t', p) ∧
      (SameSound (wholeRate f) (dataOf a) (framesOf a) file t' ∨
       SameSound (wholeRate f) (dataOf a ++ dataOf b) (framesOf a + framesOf b) file t')) := by
    unfold nextWrites
    rw [Tf, Tfirst]
    refine Among.append (ws := [_, _]) (ws' := [_, _, _, _]) (.there ?_ hq0)
      (Among.append (ws := [_]) (ws' := [_, _, _]) (file' := nextHeader h T ++ R) ?_ (.there ?_ hq1))
    · intro w hw
      simp only [List.mem_cons, List.not_mem_nil, or_false] at hw
      rw [hcut t tf tfirst]
      rcases hw with rfl | rfl
      · exact .mk' (A := []) (by simp only [List.append_assoc, List.nil_append]; rfl) rfl
      · exact .mk' (A := tag ".snd") (by simp only [List.append_assoc]; rfl) rfl
    · exact .patch (A := tag ".snd" ++ fieldBytes h .big .s4 28) (B := fieldBytes h .big .s4 t.dataSize)
        (C := fieldBytes h .big .s4 (nextEncoding f) ++ fieldBytes h .big .s4 (toUnsigned f.rate) ++
          fieldBytes h .big .s4 f.channels ++ R)
        (by rw [hcut t tf tfirst]; simp only [List.append_assoc]) (by rw [hcut T Tf Tfirst]; simp only [List.append_assoc])
        (by rw [List.length_append, e4]; rfl) (by rw [e4, e4]) hq0 hq1
    · intro w hw
      simp only [List.mem_cons, List.not_mem_nil, or_false] at hw
      rw [hcut T Tf Tfirst]
      rcases hw with rfl | rfl | rfl
      · exact .mk' (A := tag ".snd" ++ fieldBytes h .big .s4 28 ++ fieldBytes h .big .s4 T.dataSize)
          (by simp only [List.append_assoc]; rfl) (by simp only [List.length_append, e4]; rfl)
      · exact .mk' (A := tag ".snd" ++ fieldBytes h .big .s4 28 ++ fieldBytes h .big .s4 T.dataSize ++
          fieldBytes h .big .s4 (nextEncoding f))
          (by simp only [List.append_assoc]; rfl) (by simp only [List.length_append, e4]; rfl)
      · exact .mk' (A := tag ".snd" ++ fieldBytes h .big .s4 28 ++ fieldBytes h .big .s4 T.dataSize ++
          fieldBytes h .big .s4 (nextEncoding f) ++ fieldBytes h .big .s4 (toUnsigned f.rate)) (C := R)
          (by simp only [List.append_assoc]) (by simp only [List.length_append, e4]; rfl)
  rw [hfile]
  exact hA.1 k

/-! ## AVR -/

/-- C75, AVR. -/
theorem C75_avr (h h' : Endian) (name : List Byte) (ops : List Setup.Op) (s' : Setup) (o : Opened) (f : AFmt)
    (hfmt : (Setup.run (newSetup h) ops).fileFormat = .avr)
    (ho : openWrite h (Setup.run (newSetup h) ops) = (s', some o)) (hf : o.f = [f])
    (hr : f.rate < 2 ^ 24) (hch : f.channels ≤ 2)
    (a b : List Ev) (hb : Ev.sync ∉ b) (hn : (dataOf a).length = framesOf a * bytesPerFrame f)
    (hnb : (dataOf b).length = framesOf b * bytesPerFrame f) (hsz : framesOf a + framesOf b < 2 ^ 32) (k : Nat) (file : List Byte)
    (hfile : file = diedIn (avrUpdate h) (fun t _ _ => avrWrites h t) (avrInit h name f) (a ++ .sync :: b) k) :
    ∃ t p, avrRead h' file 0 = .ok (t, p) ∧
      (SameSound (wholeRate f) (dataOf a) (framesOf a) file t ∨
       SameSound (wholeRate f) (dataOf a ++ dataOf b) (framesOf a + framesOf b) file t) := by
  obtain ⟨tr, ht, hid, hl, -, hlf, hc⟩ := opened ho hf
  obtain ⟨r, r1, r2⟩ := rate_nat hlf
  obtain ⟨h1, h2, h3, h4, -⟩ := avr_accepted ht hid hfmt hc
  have hfirst : (avrInit h name f).2.1.first = 128 := by
    unfold avrInit
    dsimp only
    rw [Disk.write_pos, avrHeader_length]; rfl
  have hsize : (avrInit h name f).2.1.dataSize = 0 := rfl
  have hfr0 : (avrInit h name f).2.1.frames = 0 := rfl
  obtain ⟨R0, he, hh⟩ := avr_file h name f a
  have eL : ∀ m n, (avrL h m n).length = 12 := fun m n => by
    unfold avrL; rw [List.length_append, List.length_append, fieldBytes_length, fieldBytes_length, fieldBytes_length]; rfl
  have hlen : ∀ m n, (avrA h name f ++ avrL h m n ++ avrC).length = 128 := fun m n => by
    rw [List.length_append, List.length_append, avrA_length, eL]; rfl
  obtain ⟨R, hR, hk⟩ := died_holds (avrUpdate h) (avrInit h name f) a b hb (n := 128) (by rw [hfirst, hsize]; rfl) he
    (Nat.le_of_eq (hlen _ _)) hh
  obtain ⟨after, x, hin⟩ := diedIn_eq (avrUpdate h) (fun t _ _ => avrWrites h t) (avrInit h name f) (a ++ .sync :: b) k
  rw [hin, hR] at hfile
  have hframes : framesOf (a ++ .sync :: b) = framesOf a + framesOf b := by simp [framesOf, Ev.frames]
  have Tfr : (endTrack (avrInit h name f).2.1 (a ++ .sync :: b) after).frames = (framesOf a + framesOf b : Nat) := by
    show (avrInit h name f).2.1.frames + ((framesOf (a ++ .sync :: b) : Nat) : Int) = _
    rw [hfr0, hframes]; omega
  generalize endTrack (avrInit h name f).2.1 (a ++ .sync :: b) after = T at hfile Tfr
  have hk2 : ∀ m n, Holds 128 (dataOf a ++ dataOf b) ⟨avrA h name f ++ avrL h m n ++ avrC ++ R, 0⟩ := by
    intro m n
    unfold Holds at hk ⊢
    dsimp only at hk ⊢
    have hl0 : (avrA h name f ++ avrB h (framesOf a) ++ avrC).length = 128 := hlen _ _
    rw [List.drop_append, List.drop_of_length_le (by rw [hlen]; omega), hlen]
    rw [List.drop_append, List.drop_of_length_le (by rw [hl0]; omega), hl0] at hk
    exact hk
  have hq0 : ∀ e, ∃ t' p, avrRead h' (avrA h name f ++ avrL h (framesOf a) e ++ avrC ++ R) 0 = .ok (t', p) ∧
      (SameSound (wholeRate f) (dataOf a) (framesOf a) (avrA h name f ++ avrL h (framesOf a) e ++ avrC ++ R) t' ∨
       SameSound (wholeRate f) (dataOf a ++ dataOf b) (framesOf a + framesOf b) (avrA h name f ++ avrL h (framesOf a) e ++ avrC ++ R) t') := by
    intro e
    obtain ⟨t', p, g1, g2⟩ := avr_reads h h' name hlf h1 h2 h3 h4 r r1 r2 (rate_lt r1 (by exact_mod_cast hr)) hch hn (by omega)
      (hk2 (framesOf a) e).prefix
    exact ⟨t', p, g1, .inl g2⟩
  have hq1 : ∀ e, ∃ t' p, avrRead h' (avrA h name f ++ avrL h (framesOf a + framesOf b : Nat) e ++ avrC ++ R) 0 = .ok (t', p) ∧
      (SameSound (wholeRate f) (dataOf a) (framesOf a) (avrA h name f ++ avrL h (framesOf a + framesOf b : Nat) e ++ avrC ++ R) t' ∨
       SameSound (wholeRate f) (dataOf a ++ dataOf b) (framesOf a + framesOf b)
        (avrA h name f ++ avrL h (framesOf a + framesOf b : Nat) e ++ avrC ++ R) t') := by
    intro e
    obtain ⟨t', p, g1, g2⟩ := avr_reads h h' name hlf h1 h2 h3 h4 r r1 r2 (rate_lt r1 (by exact_mod_cast hr)) hch
      (n := framesOf a + framesOf b) (by rw [List.length_append, hn, hnb, Nat.add_mul]) hsz (hk2 _ e)
    exact ⟨t', p, g1, .inr g2⟩
  have e4 : ∀ x, (fieldBytes h .big .s4 x).length = 4 := fun x => fieldBytes_length _ _ _ _
  have hA : Among (avrWrites h T) (avrA h name f ++ avrL h (framesOf a) (framesOf a) ++ avrC ++ R)
      (avrA h name f ++ avrL h (framesOf a + framesOf b : Nat) (framesOf a + framesOf b : Nat) ++ avrC ++ R)
      (fun file => ∃ t' p, avrRead h' file 0 = .ok (t', p) ∧
      (SameSound (wholeRate f) (dataOf a) (framesOf a) file t' ∨
       SameSound (wholeRate f) (dataOf a ++ dataOf b) (framesOf a + framesOf b) file t')) := by
    unfold avrWrites
    rw [Tfr]
    generalize hM : ((framesOf a + framesOf b : Nat) : Int) = M at *
    refine Among.append (ws := [_]) (ws' := [_, _]) (file' := avrA h name f ++ avrL h M (framesOf a) ++ avrC ++ R)
      ?_ (Among.append (ws := [_]) (ws' := [_]) (file' := avrA h name f ++ avrL h M (framesOf a) ++ avrC ++ R) (.there ?_ (hq1 _)) ?_)
    · exact .patch (A := avrA h name f) (B := fieldBytes h .big .s4 (framesOf a))
        (C := fieldBytes h .big .s4 0 ++ fieldBytes h .big .s4 (framesOf a) ++ avrC ++ R)
        (by unfold avrL; simp only [List.append_assoc]) (by unfold avrL; simp only [List.append_assoc]) (avrA_length _ _ _)
        (by rw [e4, e4]) (hq0 _) (hq1 _)
    · intro w hw
      rw [List.mem_singleton] at hw
      subst hw
      exact .mk' (A := avrA h name f ++ fieldBytes h .big .s4 M) (C := fieldBytes h .big .s4 (framesOf a) ++ avrC ++ R)
        (by unfold avrL; simp only [List.append_assoc]) (by rw [List.length_append, avrA_length, e4])
    · exact .patch (A := avrA h name f ++ fieldBytes h .big .s4 M ++ fieldBytes h .big .s4 0) (B := fieldBytes h .big .s4 (framesOf a))
        (C := avrC ++ R)
        (by unfold avrL; simp only [List.append_assoc]) (by unfold avrL; simp only [List.append_assoc])
        (by rw [List.length_append, List.length_append, avrA_length, e4, e4])
        (by rw [e4, e4]) (hq1 _) (hq1 _)
  rw [hfile]
  exact hA.1 k

/-! ## NIST SPHERE and IRCAM -/

/-- C75, NIST SPHERE: the header is written at once; as always, the data of the file goes to its end. -/
theorem C75_nist (h h' : Endian) (ops : List Setup.Op) (s' : Setup) (o : Opened) (f : AFmt)
    (hfmt : (Setup.run (newSetup h) ops).fileFormat = .nist)
    (ho : openWrite h (Setup.run (newSetup h) ops) = (s', some o)) (hf : o.f = [f])
    (hch : f.channels < 2 ^ 31) (hr : f.rate < 2 ^ 31) (hr1 : 1 ≤ f.rate) (hw : 9 ≤ f.sampleWidth)
    (a b : List Ev) (hb : Ev.sync ∉ b) (hsz : framesOf a + framesOf b < 2 ^ 31) (k : Nat) :
    ∃ s t p n, nistInit f = some s ∧
      nistRead h' (diedIn nistUpdate (fun t _ _ => nistWrites t) s (a ++ .sync :: b) k) 0 = .ok (t, p) ∧
      (n = framesOf a ∨ n = framesOf a + framesOf b) ∧
      SameSound (wholeRate f) (dataOf a ++ dataOf b) n (diedIn nistUpdate (fun t _ _ => nistWrites t) s (a ++ .sync :: b) k) t := by
  cases k with
  | zero =>
    obtain ⟨s, t, p, e1, e2, e3⟩ := C66_nist h h' ops s' o f hfmt ho hf hch hr hr1 hw a b hb (by omega)
    exact ⟨s, t, p, _, e1, e2, .inl rfl, e3⟩
  | succ k =>
    have hframes : framesOf (a ++ .sync :: b) = framesOf a + framesOf b := by simp [framesOf, Ev.frames]
    have hdata : dataOf (a ++ .sync :: b) = dataOf a ++ dataOf b := by simp [dataOf, Ev.bytes]
    obtain ⟨s, t, p, e1, e2, e3⟩ := C66_nist h h' ops s' o f hfmt ho hf hch hr hr1 hw (a ++ .sync :: b) [] (by simp) (by omega)
    rw [show dataOf [] = [] from rfl, List.append_nil, hdata, hframes] at e3
    rw [← C75_nist_all s (a ++ .sync :: b) (k + 1) (by omega)] at e2 e3
    exact ⟨s, t, p, _, e1, e2, .inr rfl, e3⟩

/-! ## WAVE -/

theorem same_holds {f : AFmt} {data file : List Byte} {n : Nat} {t : Trk} (h : SameSound f data n file t) :
    HoldsSound f data n file t := by
  refine ⟨h.rate, h.channels, h.compression, h.sample, h.decoded, h.frames, h.first, ?_⟩
  have h1 := h.audio
  unfold audio at h1
  rw [← h1]
  exact List.take_prefix _ _

theorem cut_sums (a : List MEv) (b : List Ev) : dataOfM (a ++ .ev .sync :: b.map .ev) = dataOfM a ++ dataOf b ∧
    framesOfM (a ++ .ev .sync :: b.map .ev) = framesOfM a + framesOf b := by
  constructor
  · rw [← dataOfM_ev]
    simp [dataOfM, MEv.bytes, Ev.bytes]
  · have e : (b.map MEv.ev).map MEv.frames = b.map Ev.frames := by rw [List.map_map]; rfl
    unfold framesOfM framesOf
    rw [List.map_append, List.map_cons, e, List.sum_append, List.sum_cons]
    show _ + (0 + _) = _
    omega

/-- A header whose number of frames is ahead of its number of bytes. -/
theorem wave_ahead {f : AFmt} {misc : List Misc} {marks : List WMark} {n : Nat} {D T file : List Byte} {s : WaveRead}
    (hf : WaveFormat f) (hr : WaveReport f misc marks n D T file s) (hF : hasFact f = true) (hD : (D ++ T).length < 2 ^ 32)
    (hn : f.compression = NONE → (D ++ T).length = n * bytesPerFrame f) :
    HoldsSound (wholeBytes (wholeRate f)) (D ++ T) n file s.t := by
  have hr' : WaveReport f misc marks n (D ++ T) [] file { s with t := { s.t with dataSize := (D ++ T).length } } :=
    { misc := hr.misc, markers := hr.markers, format := hr.format, first := hr.first, size := rfl,
      audio := by rw [List.append_nil]; exact hr.audio, frames := hr.frames
      count := fun h => by rw [hF] at h; cases h }
  have h1 := same_holds (wave_same hf hr' hD hn)
  exact ⟨h1.rate, h1.channels, h1.compression, h1.sample, h1.decoded, h1.frames, h1.first, h1.audio⟩

/-- The state that a session with metadata reaches. -/
theorem wave_reached {h : Endian} {ops : List Setup.Op} {o : Opened} {f : AFmt} {a : List MEv} {b : List Ev} {closed : List Byte} {x : WaveObj}
    (hw : WaveWritten h ops o f (a ++ .ev .sync :: b.map .ev) closed x)
    (hfit : WaveFits o f (a ++ .ev .sync :: b.map .ev) closed x) (hb : Ev.sync ∉ b) :
    ∃ s : Disk × Trk × WaveObj,
      mrun (waveUpdate h) waveCall ((waveInit h o.handle (o.names.headD []) f).1.seek
        (waveInit h o.handle (o.names.headD []) f).2.1.first.toNat, (waveInit h o.handle (o.names.headD []) f).2)
        (a ++ .ev .sync :: b.map .ev) = .ok s ∧ s.2.2 = x ∧ s.1.bytes.length = closed.length := by
  have hm : ∀ m ∈ o.handle.misc, Sized m := fun m h => (wave_misc hw hfit m h).toSized
  have h3 := hw.session
  unfold waveSession msession at h3
  match h1 : mrun (waveUpdate h) waveCall ((waveInit h o.handle (o.names.headD []) f).1.seek
        (waveInit h o.handle (o.names.headD []) f).2.1.first.toNat, (waveInit h o.handle (o.names.headD []) f).2)
        (a ++ .ev .sync :: b.map .ev) with
  | .error e => rw [h1] at h3; cases h3
  | .ok s =>
    rw [h1] at h3
    obtain ⟨g1, g2, g3, g4, g5, g6, l, -, g7⟩ := wave_state h o.handle (o.names.headD []) f hm a b hb h1
    obtain ⟨d, t, y⟩ := s
    dsimp only at g1 g2 g3 g4 g5 g6 g7
    obtain ⟨u1, u2⟩ := waveUpdate_eq (t := { t with afterData := d.pos }) hm g5 (Over.refl _) g6 (fieldBytes_length _ _ _ _) g7 g1 g2
    have h4 : (Except.ok ((step (waveUpdate h) (d, t, y) .sync).1.bytes, (step (waveUpdate h) (d, t, y) .sync).2.2) :
      Except Abort _) = .ok (closed, x) := h3
    rw [step_sync, u2, u1] at h4
    injection h4 with h4
    injection h4 with h4 h5
    refine ⟨(d, t, y), h1, h5, ?_⟩
    have e2 := congrArg List.length g7
    have e3 := waveHead_length (h := h) (f := f) (L := fieldBytes h .little .s4 ((l : Int) - 8))
      (L' := fieldBytes h .little .s4 ((d.bytes.length : Int) - 8)) (names := o.names.headD []) (n := framesOfM a)
      (s := (dataOfM a).length) (n' := t.frames) (s' := t.dataSize) (over_sized g5.misc hm) (Over.refl _)
      (by rw [fieldBytes_length, fieldBytes_length])
    have e4 := congrArg List.length h4
    rw [List.length_append] at e2 e4
    rw [← e4, e3]
    exact e2

/-- C75, WAVE: the file opens with all markers and miscellaneous data, and holds the sound of one of the two syncs. Where
the header has no frame count of its own (uncompressed integers) the number of bytes is right as well. -/
theorem C75_wave (h h' : Endian) (ops : List Setup.Op) (o : Opened) (f : AFmt) (a : List MEv) (b : List Ev) (closed file : List Byte)
    (x : WaveObj) (hw : WaveWritten h ops o f (a ++ .ev .sync :: b.map .ev) closed x)
    (hfit : WaveFits o f (a ++ .ev .sync :: b.map .ev) closed x) (hb : Ev.sync ∉ b)
    (hn : f.compression = NONE → (dataOfM a).length = framesOfM a * bytesPerFrame f)
    (hnb : f.compression = NONE → (dataOf b).length = framesOf b * bytesPerFrame f)
    (hstr : ∀ m ∈ marksOf x.handle o.names, 0 ∉ m.2.2.1 ∧ 0 ∉ m.2.2.2)
    (k : Nat) (hdied : waveDiedIn h o f (a ++ .ev .sync :: b.map .ev) k = .ok file)
    (fuel : Nat) (hfuel : 8 + x.handle.misc.length + 2 * (marksOf x.handle o.names).length ≤ fuel) :
    ∃ s p, waveRead h' fuel file 0 = .ok (s, p) ∧
      (HoldsSound (wholeBytes (wholeRate f)) (dataOfM a) (framesOfM a) file s.t ∨
       HoldsSound (wholeBytes (wholeRate f)) (dataOfM a ++ dataOf b) (framesOfM a + framesOf b) file s.t) ∧
      (f.compression = NONE → f.sampleFormat = TWOSCOMP ∨ f.sampleFormat = UNSIGNED →
        SameSound (wholeBytes (wholeRate f)) (dataOfM a) (framesOfM a) file s.t ∨
        SameSound (wholeBytes (wholeRate f)) (dataOfM a ++ dataOf b) (framesOfM a + framesOf b) file s.t) ∧
      readMarks s.markers = (marksOf x.handle o.names).map (fun m => (m.1, m.2.1, some m.2.2.1, some m.2.2.2)) ∧
      s.misc.map miscContent = x.handle.misc.map miscContent := by
  have hm : ∀ m ∈ o.handle.misc, Sized m := fun m h => (wave_misc hw hfit m h).toSized
  obtain ⟨k1, -, -, k4, k5, k6, k7, -⟩ := wave_known hw hfit
  obtain ⟨st, hst, hx, hclen⟩ := wave_reached hw hfit hb
  obtain ⟨g1, g2, g3, g4, g5, g6, l, hl, g7⟩ := wave_state h o.handle (o.names.headD []) f hm a b hb hst
  unfold waveDiedIn mdiedIn at hdied
  rw [hst] at hdied
  have hdied : puts st.1.bytes ((waveWrites h st.2.1 st.2.2 st.1.bytes.length).take k) = file := by injection hdied
  obtain ⟨d, t, y⟩ := st
  dsimp only at hx hclen g1 g2 g3 g4 g5 g6 hl g7 hdied
  subst hx
  have hfl := hfit.length
  have hfr := hfit.frames
  obtain ⟨hdata, hframes⟩ := cut_sums a b
  rw [hframes] at hfr
  rw [← k7, List.length_map] at hfuel
  have hdl := congrArg List.length g7
  -- lengths
  have hHl : ∀ L n s, L.length = 4 → (waveHead h f L y.handle.misc (wmarks y.handle (o.names.headD [])) n s).length + ((dataOfM a).length +
      (dataOf b).length) = d.bytes.length := by
    intro L n s hL
    rw [hdl, List.length_append, List.length_append]
    congr 1
    exact waveHead_length (over_sized g5.misc hm) (Over.refl _) (by rw [hL, fieldBytes_length]; try rfl)
  have hl4 : ∀ v, (fieldBytes h .little .s4 v).length = 4 := fun v => fieldBytes_length _ _ _ _
  have hHb : 20 ≤ (waveHead h f (fieldBytes h .little .s4 ((l : Int) - 8)) y.handle.misc (wmarks y.handle (o.names.headD []))
      (framesOfM a) (dataOfM a).length).length := by
    unfold waveHead
    simp only [List.length_append, hl4]
    have e1 : (tag "data").length = 4 := rfl
    have e2 : (tag "RIFF").length = 4 := rfl
    have e3 : (tag "WAVE").length = 4 := rfl
    omega
  have hHa := hHl (fieldBytes h .little .s4 ((l : Int) - 8)) (framesOfM a) (dataOfM a).length (hl4 _)
  let Q : List Byte → Prop := fun file => ∃ s p, waveRead h' fuel file 0 = .ok (s, p) ∧
      (HoldsSound (wholeBytes (wholeRate f)) (dataOfM a) (framesOfM a) file s.t ∨
       HoldsSound (wholeBytes (wholeRate f)) (dataOfM a ++ dataOf b) (framesOfM a + framesOf b) file s.t) ∧
      (f.compression = NONE → f.sampleFormat = TWOSCOMP ∨ f.sampleFormat = UNSIGNED →
        SameSound (wholeBytes (wholeRate f)) (dataOfM a) (framesOfM a) file s.t ∨
        SameSound (wholeBytes (wholeRate f)) (dataOfM a ++ dataOf b) (framesOfM a + framesOf b) file s.t) ∧
      readMarks s.markers = (marksOf y.handle o.names).map (fun m => (m.1, m.2.1, some m.2.2.1, some m.2.2.2)) ∧
      s.misc.map miscContent = y.handle.misc.map miscContent
  rw [← k7] at hstr
  have hmk : ∀ {n D T file s}, WaveReport f y.handle.misc (wmarks y.handle (o.names.headD [])) n D T file s →
      readMarks s.markers = (marksOf y.handle o.names).map (fun m => (m.1, m.2.1, some m.2.2.1, some m.2.2.2)) ∧
      s.misc.map miscContent = y.handle.misc.map miscContent := by
    intro n D T file s hr
    refine ⟨?_, wave_misc_again k4 hr⟩
    rw [← k7, wave_marks hr (fun m hm => hstr _ (List.mem_map.2 ⟨m, hm, rfl⟩)), List.map_map]
    rfl
  have hnab : f.compression = NONE → (dataOfM a ++ dataOf b).length = (framesOfM a + framesOf b) * bytesPerFrame f := fun e => by
    rw [List.length_append, hn e, hnb e, Nat.add_mul]
  have eL : ((l : Int) - 8) = ((l - 8 : Nat) : Int) := by omega
  have eL1 : ((d.bytes.length : Int) - 8) = ((d.bytes.length - 8 : Nat) : Int) := by omega
  -- the old header
  have q0 : Q (waveHead h f (fieldBytes h .little .s4 ((l : Int) - 8)) y.handle.misc (wmarks y.handle (o.names.headD [])) (framesOfM a)
      (dataOfM a).length ++ (dataOfM a ++ dataOf b)) := by
    rw [← g7]
    obtain ⟨s, p, hs, hr⟩ := wave_report_len h h' k1 k4 k5 k6 (n := framesOfM a) (fun _ => by omega) (D := dataOfM a) (T := dataOf b)
      (file := d.bytes) (size := l - 8) (by omega) (by omega) (by omega) (by rw [← eL]; exact g7) hfuel
    have := wave_same k1 hr (by omega) hn
    exact ⟨s, p, hs, .inl (same_holds this), fun _ _ => .inl this, hmk hr⟩
  -- a new frame count
  have q1 : Q (waveHead h f (fieldBytes h .little .s4 ((l : Int) - 8)) y.handle.misc (wmarks y.handle (o.names.headD [])) t.frames
      (dataOfM a).length ++ (dataOfM a ++ dataOf b)) := by
    by_cases hF : hasFact f = true
    · rw [g4]
      have hlen := hHl (fieldBytes h .little .s4 ((l : Int) - 8)) (framesOfM a + framesOf b) (dataOfM a).length (hl4 _)
      obtain ⟨file, hfile⟩ : ∃ file, file = waveHead h f (fieldBytes h .little .s4 ((l : Int) - 8)) y.handle.misc
        (wmarks y.handle (o.names.headD [])) (framesOfM a + framesOf b) (dataOfM a).length ++ (dataOfM a ++ dataOf b) := ⟨_, rfl⟩
      have hlf : file.length = d.bytes.length := by rw [hfile, List.length_append, List.length_append]; exact hlen
      rw [← hfile]
      obtain ⟨s, p, hs, hr⟩ := wave_report_len h h' k1 k4 k5 k6 (n := framesOfM a + framesOf b) (fun _ => by omega) (D := dataOfM a)
        (T := dataOf b) (file := file) (size := l - 8) (by omega) (by omega) (by omega)
        (by rw [← eL, hfile, Int.natCast_add]) hfuel
      refine ⟨s, p, hs, .inr (wave_ahead k1 hr hF (by rw [List.length_append]; omega) hnab), fun e1 e2 => ?_, hmk hr⟩
      rw [(hasFact_iff f).1 ⟨e1, e2⟩] at hF
      cases hF
    · have e : ∀ n, factPart h f n = [] := fun n => by unfold factPart; rw [if_neg hF]
      unfold waveHead at q0 ⊢
      rw [e] at q0 ⊢
      exact q0
  -- and a new number of bytes
  have hnew : ∀ (l' : Nat), 8 ≤ l' → d.bytes.length ≤ l' + (dataOf b).length → l' ≤ d.bytes.length →
      Q (waveHead h f (fieldBytes h .little .s4 ((l' : Int) - 8)) y.handle.misc (wmarks y.handle (o.names.headD [])) t.frames
        t.dataSize ++ (dataOfM a ++ dataOf b)) := by
    intro l' h8 hl1 hl2
    rw [g4, g3]
    have hlen := hHl (fieldBytes h .little .s4 ((l' : Int) - 8)) (framesOfM a + framesOf b) ((dataOfM a).length + (dataOf b).length) (hl4 _)
    obtain ⟨file, hfile⟩ : ∃ file, file = waveHead h f (fieldBytes h .little .s4 ((l' : Int) - 8)) y.handle.misc
      (wmarks y.handle (o.names.headD [])) (framesOfM a + framesOf b) ((dataOfM a).length + (dataOf b).length) ++
        (dataOfM a ++ dataOf b) := ⟨_, rfl⟩
    have hlf : file.length = d.bytes.length := by rw [hfile, List.length_append, List.length_append]; exact hlen
    have hab : (dataOfM a ++ dataOf b).length = (dataOfM a).length + (dataOf b).length := List.length_append
    rw [← hfile]
    obtain ⟨s, p, hs, hr⟩ := wave_report_len h h' k1 k4 k5 k6 (n := framesOfM a + framesOf b) (fun _ => by omega) (D := dataOfM a ++ dataOf b)
      (T := []) (file := file) (size := l' - 8) (by rw [List.length_nil]; omega) (by rw [List.length_nil]; omega)
      (by rw [List.length_nil]; omega)
      (by rw [List.append_nil, hab, Int.natCast_add, Int.natCast_add, show ((l' - 8 : Nat) : Int) = (l' : Int) - 8 by omega]; exact hfile)
      hfuel
    have := wave_same k1 hr (by omega) hnab
    exact ⟨s, p, hs, .inr (same_holds this), fun _ _ => .inr this, hmk hr⟩
  have q2 := hnew l (by omega) (by omega) (by omega)
  have q3 := hnew d.bytes.length (by omega) (by omega) (by omega)
  have hA := waveWrites_among (length := d.bytes.length) (n0 := framesOfM a) (s0 := (dataOfM a).length) hm g5 g6 (hl4 ((l : Int) - 8)) g1 q0 q1 q2 q3
  rw [← g7] at hA
  have := hA.1 k
  rw [hdied] at this
  exact this

/-- C75: a sync of a WAVE file that is not cut short leaves what `afSyncFile` leaves. -/
theorem C75_wave_all (h : Endian) (ops : List Setup.Op) (o : Opened) (f : AFmt) (a : List MEv) (b : List Ev) (closed : List Byte)
    (x : WaveObj) (hw : WaveWritten h ops o f (a ++ .ev .sync :: b.map .ev) closed x)
    (hfit : WaveFits o f (a ++ .ev .sync :: b.map .ev) closed x) (hb : Ev.sync ∉ b) :
    ∃ N, ∀ k, N ≤ k → waveDiedIn h o f (a ++ .ev .sync :: b.map .ev) k = .ok closed := by
  have hm : ∀ m ∈ o.handle.misc, Sized m := fun m h => (wave_misc hw hfit m h).toSized
  obtain ⟨st, hst, hx, hclen⟩ := wave_reached hw hfit hb
  obtain ⟨g1, g2, g3, g4, g5, g6, l, hl, g7⟩ := wave_state h o.handle (o.names.headD []) f hm a b hb hst
  obtain ⟨-, -, -, -, -, -, -, k8⟩ := wave_known hw hfit
  refine ⟨(waveWrites h st.2.1 st.2.2 st.1.bytes.length).length, fun k hk => ?_⟩
  unfold waveDiedIn mdiedIn
  rw [hst]
  show Except.ok (puts st.1.bytes ((waveWrites h st.2.1 st.2.2 st.1.bytes.length).take k)) = _
  rw [List.take_of_length_le hk]
  have hA := waveWrites_among (Q := fun _ => True) (length := st.1.bytes.length) (t := st.2.1) (n0 := framesOfM a) (s0 := (dataOfM a).length)
    (D := dataOfM a ++ dataOf b) hm g5 g6 (show (fieldBytes h .little .s4 ((l : Int) - 8)).length = 4 from fieldBytes_length _ _ _ _)
    g1 trivial trivial trivial trivial
  rw [← g7] at hA
  rw [hA.2, hclen, hx, g3, g4]
  obtain ⟨hdata, hframes⟩ := cut_sums a b
  rw [hdata, hframes, List.length_append, Int.natCast_add, Int.natCast_add] at k8
  rw [← k8]

/-! ## IFF/8SVX -/

/-- The state that a session with metadata reaches, and what the fatal sync does to it. -/
theorem iff_reached {h : Endian} {ops : List Setup.Op} {o : Opened} {f : AFmt} {a : List MEv} {b : List Ev} {closed : List Byte} {x : IffObj}
    (hw : IffWritten h ops o f (a ++ .ev .sync :: b.map .ev) closed x)
    (hfit : IffFits o (a ++ .ev .sync :: b.map .ev) closed) (hb : Ev.sync ∉ b) :
    ∃ s : Disk × Trk × IffObj,
      mrun (iffUpdate h) iffCall ((iffInit h o.handle f).1.seek (iffInit h o.handle f).2.1.first.toNat, (iffInit h o.handle f).2)
        (a ++ .ev .sync :: b.map .ev) = .ok s ∧ s.2.2.handle = x.handle ∧ (dataOfM a).length = framesOfM a ∧
      closed = iffHead h f (fieldBytes h .big .s4 ((40 + (iffMiscPart h x.handle.misc).length + (dataOfM a ++ dataOf b).length +
        (dataOfM a ++ dataOf b).length % 2 : Nat) : Int)) x.handle.misc (dataOfM a ++ dataOf b).length (dataOfM a ++ dataOf b).length ++
        ((dataOfM a ++ dataOf b) ++ dataPad (dataOfM a ++ dataOf b).length) ∧
      ∀ Q : List Byte → Prop,
        (∀ size v T, 40 + (iffMiscPart h x.handle.misc).length + (dataOfM a).length + (dataOfM a).length % 2 = size →
          Q (iffHead h f (fieldBytes h .big .s4 (size : Nat)) x.handle.misc v (dataOfM a).length ++ (dataOfM a ++ T))) →
        (∀ size v T, 40 + (iffMiscPart h x.handle.misc).length + (dataOfM a).length + (dataOfM a).length % 2 ≤ size →
          size ≤ 40 + (iffMiscPart h x.handle.misc).length + (dataOfM a ++ dataOf b).length + (dataOfM a ++ dataOf b).length % 2 →
          Q (iffHead h f (fieldBytes h .big .s4 (size : Nat)) x.handle.misc v (dataOfM a ++ dataOf b).length ++
            ((dataOfM a ++ dataOf b) ++ T))) →
        Among (iffWrites h s.2.1 s.2.2 s.1.bytes.length) s.1.bytes closed Q := by
  obtain ⟨-, k2, k3, k4, k5⟩ := iff_known hw hfit
  obtain ⟨hdata, hframes⟩ := cut_sums a b
  have hfr := hfit.frames
  have hwa : ∀ e ∈ a, e.bytes.length = e.frames := fun e he => hfit.whole e (List.mem_append_left _ he)
  have hwb : ∀ e ∈ b, e.bytes.length = e.frames := fun e he =>
    hfit.whole (.ev e) (List.mem_append_right _ (List.mem_cons_of_mem _ (List.mem_map.2 ⟨e, he, rfl⟩)))
  rw [hdata] at k2 k5
  rw [hframes] at k2 hfr
  have h3 := hw.session
  unfold iffSession msession at h3
  match hst : mrun (iffUpdate h) iffCall ((iffInit h o.handle f).1.seek (iffInit h o.handle f).2.1.first.toNat, (iffInit h o.handle f).2)
      (a ++ .ev .sync :: b.map .ev) with
  | .error e => rw [hst] at h3; cases h3
  | .ok st =>
    rw [hst] at h3
    obtain ⟨g1, g2, g3, g4, g5, g6, g7, P, hP, g8⟩ := iff_state h o.handle f k4 a b hb hwa hwb (by omega) hst
    obtain ⟨d, t, y⟩ := st
    dsimp only at g1 g2 g3 g4 g5 g6 g8
    have h4 : (Except.ok ((step (iffUpdate h) (d, t, y) .sync).1.bytes, (step (iffUpdate h) (d, t, y) .sync).2.2) :
      Except Abort _) = .ok (closed, x) := h3
    have hs := over_sized g3.misc k4
    have hab : (dataOfM a ++ dataOf b).length = (dataOfM a).length + (dataOf b).length := List.length_append
    have hpad : (dataPad (dataOfM a ++ dataOf b).length).length = (dataOfM a ++ dataOf b).length % 2 := by
      unfold dataPad; split
      · rename_i hh; rw [hh]; rfl
      · show 0 = _; omega
    have e4 : ∀ v, (fieldBytes h .big .s4 v).length = 4 := fun v => fieldBytes_length _ _ _ _
    rw [step_sync] at h4
    injection h4 with h4
    injection h4 with h4 h5
    obtain ⟨-, u2⟩ := iffUpdate_eq (h := h) (t := { t with afterData := d.pos }) (t0 := iffTrackOf f (dataOfM a).length) (old := y.handle) (x := y)
      (d := d) (D := dataOfM a ++ dataOf b) (P := P) hs (Over.refl _) ⟨.inr g4, .inr g5, .inr g6⟩ g4 (e4 _) g8 g2 (by omega) hP
    rw [u2] at h5
    have hx : y.handle = x.handle := by rw [← h5]
    have hxm : x.handle.misc = y.handle.misc := by rw [hx]
    have hlen : closed.length = 48 + (iffMiscPart h x.handle.misc).length + ((dataOfM a ++ dataOf b).length +
        (dataPad (dataOfM a ++ dataOf b).length).length) := by
      refine (congrArg List.length k5).trans ?_
      rw [List.length_append, List.length_append, iffStart_length (e4 _), iffBody_length, List.length_append (as := dataOfM a ++ dataOf b)]
      omega
    have hc : closed = iffHead h f (fieldBytes h .big .s4 ((40 + (iffMiscPart h x.handle.misc).length + (dataOfM a ++ dataOf b).length +
        (dataOfM a ++ dataOf b).length % 2 : Nat) : Int)) x.handle.misc (dataOfM a ++ dataOf b).length (dataOfM a ++ dataOf b).length ++
        ((dataOfM a ++ dataOf b) ++ dataPad (dataOfM a ++ dataOf b).length) := by
      refine k5.trans ?_
      rw [show ((closed.length : Int) - 8) = ((40 + (iffMiscPart h x.handle.misc).length + (dataOfM a ++ dataOf b).length +
        (dataOfM a ++ dataOf b).length % 2 : Nat) : Int) by omega]
      rfl
    refine ⟨(d, t, y), hst, hx, g7, hc, fun Q q0 q1 => ?_⟩
    rw [hxm] at q0 q1 hc
    have hg2 := g2
    have := iffWrites_among (h := h) (f := f) (t := t) (x := y) (D := dataOfM a ++ dataOf b) (P := P) (v0 := (dataOfM a).length)
      (n0 := (dataOfM a).length) (length := d.bytes.length) (Q := Q) hs (e4 _) g1 g4 g5 g6 g2 (by omega) hP (congrArg List.length g8)
      (by rw [List.append_assoc]; exact q0 _ _ _ rfl) (by rw [List.append_assoc]; exact q0 _ _ _ rfl)
      (by rw [g2]; exact q1 _ _ _ (Nat.le_refl _) (by omega)) (by rw [g2]; exact q1 _ _ _ (Nat.le_refl _) (by omega))
      (by rw [g2]; exact q1 _ _ _ (by omega) (Nat.le_refl _))
    rw [← g8, g2, ← hc] at this
    exact this

/-- C75, IFF/8SVX: the file opens with all miscellaneous data, and holds the sound of one of the two syncs. -/
theorem C75_iff (h h' : Endian) (ops : List Setup.Op) (o : Opened) (f : AFmt) (a : List MEv) (b : List Ev) (closed file : List Byte)
    (x : IffObj) (hw : IffWritten h ops o f (a ++ .ev .sync :: b.map .ev) closed x)
    (hfit : IffFits o (a ++ .ev .sync :: b.map .ev) closed) (hb : Ev.sync ∉ b)
    (k : Nat) (hdied : iffDiedIn h o f (a ++ .ev .sync :: b.map .ev) k = .ok file)
    (fuel : Nat) (hfuel : 3 + x.handle.misc.length ≤ fuel) :
    ∃ s p s0 p0, iffRead h' fuel file 0 = .ok (s, p) ∧
      (SameSound { f with rate := ((f.rate.floor % 65536 : Int) : Rat) } (dataOfM a) (framesOfM a) file s.t ∨
       SameSound { f with rate := ((f.rate.floor % 65536 : Int) : Rat) } (dataOfM a ++ dataOf b) (framesOfM a + framesOf b) file s.t) ∧
      iffRead h' fuel closed 0 = .ok (s0, p0) ∧ s.misc = s0.misc := by
  obtain ⟨k1, k2, k3, k4, -⟩ := iff_known hw hfit
  have hfr := hfit.frames
  have hfl := hfit.length
  obtain ⟨hdata, hframes⟩ := cut_sums a b
  rw [hdata, hframes] at k2
  rw [hframes] at hfr
  obtain ⟨s0, p0, hs0, hr0⟩ := iff_again hw hfit h' fuel hfuel
  obtain ⟨st, hst, hx, hn, hc, hA⟩ := iff_reached hw hfit hb
  have hlen : closed.length = 48 + (iffMiscPart h x.handle.misc).length + ((dataOfM a ++ dataOf b).length +
      (dataPad (dataOfM a ++ dataOf b).length).length) := by
    refine (congrArg List.length hc).trans ?_
    rw [List.length_append, iffHead_length h f (fieldBytes_length _ _ _ _), List.length_append (as := dataOfM a ++ dataOf b)]
  unfold iffDiedIn mdiedIn at hdied
  rw [hst] at hdied
  have hdied : puts st.1.bytes ((iffWrites h st.2.1 st.2.2 st.1.bytes.length).take k) = file := by injection hdied
  have hmisc : ∀ m ∈ x.handle.misc, Sized m ∧ m.size < 2 ^ 31 := by
    intro m hm
    obtain ⟨a, ha, hr⟩ := k3.misc.mem hm
    exact ⟨(k4 a ha).over hr, by rw [hr.size]; exact (hfit.misc a ha).2⟩
  have hab : (dataOfM a ++ dataOf b).length = (dataOfM a).length + (dataOf b).length := List.length_append
  have hpad : (dataOfM a ++ dataOf b).length % 2 ≤ (dataPad (dataOfM a ++ dataOf b).length).length := by
    unfold dataPad; split
    · show _ ≤ 1; omega
    · show _ ≤ 0; omega
  have := (hA (fun file => ∃ s p s0 p0, iffRead h' fuel file 0 = .ok (s, p) ∧
      (SameSound { f with rate := ((f.rate.floor % 65536 : Int) : Rat) } (dataOfM a) (framesOfM a) file s.t ∨
       SameSound { f with rate := ((f.rate.floor % 65536 : Int) : Rat) } (dataOfM a ++ dataOf b) (framesOfM a + framesOf b) file s.t) ∧
      iffRead h' fuel closed 0 = .ok (s0, p0) ∧ s.misc = s0.misc)
    (fun size v T hsz => by
      obtain ⟨s, p, hs, hr⟩ := iff_report_len h h' (f := f) (hd := x.handle) (D := dataOfM a) (T := T) (v := v) (size := size)
        hmisc (by omega) (by omega) (by omega) (by omega) rfl hfuel
      exact ⟨s, p, s0, p0, hs, .inl (iff_same k1 hn hr).1, hs0, hr.misc.trans hr0.misc.symm⟩)
    (fun size v T hsz hsz2 => by
      obtain ⟨s, p, hs, hr⟩ := iff_report_len h h' (f := f) (hd := x.handle) (D := dataOfM a ++ dataOf b) (T := T) (v := v) (size := size)
        hmisc (by omega) (by omega) (by omega) (by omega) rfl hfuel
      exact ⟨s, p, s0, p0, hs, .inr (iff_same k1 k2 hr).1, hs0, hr.misc.trans hr0.misc.symm⟩)).1 k
  rw [hdied] at this
  exact this

/-- C75: a sync of an IFF file that is not cut short leaves what `afSyncFile` leaves. -/
theorem C75_iff_all (h : Endian) (ops : List Setup.Op) (o : Opened) (f : AFmt) (a : List MEv) (b : List Ev) (closed : List Byte)
    (x : IffObj) (hw : IffWritten h ops o f (a ++ .ev .sync :: b.map .ev) closed x)
    (hfit : IffFits o (a ++ .ev .sync :: b.map .ev) closed) (hb : Ev.sync ∉ b) :
    ∃ N, ∀ k, N ≤ k → iffDiedIn h o f (a ++ .ev .sync :: b.map .ev) k = .ok closed := by
  obtain ⟨st, hst, hx, hn, hc, hA⟩ := iff_reached hw hfit hb
  refine ⟨(iffWrites h st.2.1 st.2.2 st.1.bytes.length).length, fun k hk => ?_⟩
  unfold iffDiedIn mdiedIn
  rw [hst]
  show Except.ok (puts st.1.bytes ((iffWrites h st.2.1 st.2.2 st.1.bytes.length).take k)) = _
  rw [List.take_of_length_le hk, (hA (fun _ => True) (fun _ _ _ _ => trivial) (fun _ _ _ _ _ => trivial)).2]

/-! ## AIFF -/

def aiffTornOps : List Setup.Op := [.fileFormat 2, .channels 1001 1, .rate 1001 8000, .sampleFormat 1001 401 8]

/-- Two frames, a sync, and sixteen frames that happen to look like a chunk. -/
def aiffTornEvs : List MEv :=
  [.ev (.data [1, 2] 2), .ev .sync, .ev (.data (tag "SSND" ++ [0, 0, 0, 8] ++ List.replicate 8 0) 16)]

/-- The file of `C75_negation_aiff`. -/
def aiffTorn : List Byte :=
  [70, 79, 82, 77, 0, 0, 0, 134, 65, 73, 70, 70, 67, 79, 77, 77, 0, 0, 0, 18, 0, 1, 0, 0, 0, 2, 0, 8, 64, 11, 250, 0, 0,
   0, 0, 0, 0, 0, 77, 65, 82, 75, 0, 0, 0, 34, 0, 4, 0, 1, 0, 0, 0, 0, 0, 0, 0, 2, 0, 0, 0, 0, 0, 0, 0, 3, 0, 0, 0, 0, 0,
   0, 0, 4, 0, 0, 0, 0, 0, 0, 73, 78, 83, 84, 0, 0, 0, 20, 60, 0, 0, 127, 1, 127, 0, 0, 0, 0, 0, 1, 0, 2, 0, 0, 0, 3, 0,
   4, 83, 83, 78, 68, 0, 0, 0, 10, 0, 0, 0, 0, 0, 0, 0, 0, 1, 2, 83, 83, 78, 68, 0, 0, 0, 8, 0, 0, 0, 0, 0, 0, 0, 0]

/-- The first call is the beginning of what `update` does. -/
theorem aiffUpdate_first (h : Endian) (t : Trk) (x : AiffObj) (d : Disk) :
    aiffUpdate h t x d = aiffWrite h t x ((d.seek (aiffFirstWrite h d.bytes.length).1).write (aiffFirstWrite h d.bytes.length).2) := rfl

/-- A loop that ends does so with more rounds, too. -/
theorem loop_more_ok {σ α : Type} {body : σ → Rd (σ ⊕ α)} {file : List Byte} {r : α × Nat} :
    ∀ (n k : Nat) (s : σ) (p : Nat), Rd.loop body n s file p = .ok r → Rd.loop body (n + k) s file p = .ok r
  | 0, _, _, _, h => by cases h
  | n + 1, k, s, p, h => by
    rw [show n + 1 + k = (n + k) + 1 by omega]
    match hb : body s file p with
    | .error x =>
      have e1 : ∀ m, Rd.loop body (m + 1) s file p = .error x := fun m => Rd.bind_error hb
      rw [e1] at h
      cases h
    | .ok (.inl s1, p1) =>
      have e1 : ∀ m, Rd.loop body (m + 1) s file p = Rd.loop body m s1 file p1 := fun m => Rd.bind_ok hb
      rw [e1] at h ⊢
      exact loop_more_ok n k s1 p1 h
    | .ok (.inr x, p1) =>
      have e1 : ∀ m, Rd.loop body (m + 1) s file p = .ok (x, p1) := fun m => Rd.bind_ok hb
      rw [e1] at h ⊢
      exact h

/-- And with the same error. -/
theorem loop_more {σ α : Type} {body : σ → Rd (σ ⊕ α)} {file : List Byte} {e : Err} (he : e ≠ .running) :
    ∀ (n k : Nat) (s : σ) (p : Nat), Rd.loop body n s file p = .error e → Rd.loop body (n + k) s file p = .error e
  | 0, _, _, _, h => by injection h with h; exact absurd h.symm he
  | n + 1, k, s, p, h => by
    rw [show n + 1 + k = (n + k) + 1 by omega]
    match hb : body s file p with
    | .error x =>
      have e1 : ∀ m, Rd.loop body (m + 1) s file p = .error x := fun m => Rd.bind_error hb
      rw [e1] at h ⊢
      exact h
    | .ok (.inl s1, p1) =>
      have e1 : ∀ m, Rd.loop body (m + 1) s file p = Rd.loop body m s1 file p1 := fun m => Rd.bind_ok hb
      rw [e1] at h ⊢
      exact loop_more he n k s1 p1 h
    | .ok (.inr x, p1) =>
      have e1 : ∀ m, Rd.loop body (m + 1) s file p = .ok (x, p1) := fun m => Rd.bind_ok hb
      rw [e1] at h
      cases h

theorem bind_more {α β : Type} {m : Rd α} {g1 g2 : α → Rd β} {file : List Byte} {p : Nat} {e : Err}
    (hg : ∀ a q, g1 a file q = .error e → g2 a file q = .error e) (h : (m >>= g1) file p = .error e) : (m >>= g2) file p = .error e := by
  match hm : m file p with
  | .error x => rw [Rd.bind_error hm] at h ⊢; exact h
  | .ok (a, q) => rw [Rd.bind_ok hm] at h ⊢; exact hg a q h

theorem bind_error_more {α β : Type} {m1 m2 : Rd α} {g : α → Rd β} {file : List Byte} {p : Nat}
    (hm : m1 file p = .error .fail → m2 file p = .error .fail) (hok : ∀ r, m1 file p = .ok r → m2 file p = .ok r)
    (h : (m1 >>= g) file p = .error .fail) : (m2 >>= g) file p = .error .fail := by
  match h1 : m1 file p with
  | .error x => rw [Rd.bind_error h1] at h; injection h with h; subst h; rw [Rd.bind_error (hm h1)]
  | .ok (a, q) => rw [Rd.bind_ok h1] at h; rw [Rd.bind_ok (hok _ h1)]; exact h

theorem aiff_more {rnd : Rat → Dbl} {h : Endian} {file : List Byte} {p : Nat} (n k : Nat)
    (hr : aiffRead rnd h n file p = .error .fail) : aiffRead rnd h (n + k) file p = .error .fail := by
  unfold aiffRead at hr ⊢
  refine bind_more (fun _ q hr => ?_) hr
  refine bind_more (fun _ q hr => ?_) hr
  refine bind_more (fun _ q hr => ?_) hr
  refine bind_more (fun _ q hr => ?_) hr
  dsimp only at hr ⊢
  split at hr
  · rw [if_pos (by assumption)]; exact hr
  · rw [if_neg (by assumption)]
    exact bind_error_more (loop_more (by decide) n k _ _) (fun r => loop_more_ok n k _ _) hr

def isFail {α : Type} (r : Except Err α) : Bool := match r with | .error .fail => true | _ => false

theorem isFail_eq {α : Type} {r : Except Err α} (h : isFail r = true) : r = .error .fail := by
  unfold isFail at h
  split at h
  · rfl
  · cases h

theorem aiffTorn_fails : aiffRead .fin .little 5 aiffTorn 0 = .error .fail := isFail_eq (by decide +kernel)

/-- C75 is false for AIFF: the length of the file is the first thing that a sync writes, before the length of the sound. Audio that
was written after the last sync is then taken for chunks, and the file, which opened until then (C66_aiff), does not. -/
theorem C75_negation_aiff : ∃ o f closed x file, AiffWritten .little false aiffTornOps o f aiffTornEvs closed x ∧
    aiffDiedIn .little false o f aiffTornEvs = .ok file ∧
    ExactOnDoubles .fin ∧ ∀ fuel, aiffRead .fin .little (5 + fuel) file 0 = .error .fail := by
  obtain ⟨o, f, closed, x, hw, hp⟩ := aiffDemo_written (h := .little) (aifc := false) (ops := aiffTornOps) (evs := aiffTornEvs) (P := fun r =>
    isFile (aiffDiedIn .little false r.1 r.2.1 aiffTornEvs) &&
    match aiffDiedIn .little false r.1 r.2.1 aiffTornEvs with | .ok b => b == aiffTorn | .error _ => false) (by decide) (by decide +kernel)
  obtain ⟨h1, h2⟩ := (Bool.and_eq_true _ _ ▸ hp : _ ∧ _)
  obtain ⟨file, hfile⟩ := isFile_ok h1
  dsimp only at h2
  rw [hfile] at h2
  have e : file = aiffTorn := eq_of_beq h2
  exact ⟨o, f, closed, x, file, hw, hfile, fun _ _ => rfl, fun fuel => aiff_more _ _ (by rw [e]; exact aiffTorn_fails)⟩

/-! ## Programs that meet the hypotheses -/

/-- A NeXT/Sun file: the fatal sync, and the writes that change something. -/
example : ∃ s' o f, openWrite .little (Setup.run (newSetup .little) nextExample) = (s', some o) ∧ o.f = [f] ∧
    (Setup.run (newSetup .little) nextExample).fileFormat = .next ∧ f.rate < 2 ^ 32 ∧ f.channels < 2 ^ 31 ∧
    (dataOf [.data [1, 2, 3] 3]).length = framesOf [.data [1, 2, 3] 3] * bytesPerFrame f ∧
    (dataOf [.data [4] 1]).length = framesOf [.data [4] 1] * bytesPerFrame f ∧
    diedIn (nextUpdate .little) (fun t _ _ => nextWrites .little t) (nextInit .little f) [.data [1, 2, 3] 3, .sync, .data [4] 1] 2 ≠
    diedIn (nextUpdate .little) (fun t _ _ => nextWrites .little t) (nextInit .little f) [.data [1, 2, 3] 3, .sync, .data [4] 1] 3 :=
  ⟨_, _, _, rfl, rfl, rfl, by decide +kernel, by decide +kernel, by decide +kernel, by decide +kernel, by decide +kernel⟩

example : ∃ s' o f, openWrite .little (Setup.run (newSetup .little) (avrExample 2)) = (s', some o) ∧ o.f = [f] ∧
    (Setup.run (newSetup .little) (avrExample 2)).fileFormat = .avr ∧ f.rate < 2 ^ 24 ∧ f.channels ≤ 2 :=
  ⟨_, _, _, rfl, rfl, rfl, by decide +kernel, by decide +kernel⟩

/-- More audio after the sync. -/
def tornAfter : List Ev := [.data [1, 1, 1, 1, 1, 1] 1]

example : ∃ o f closed x, WaveWritten .little waveOps o f (waveEvs ++ .ev .sync :: tornAfter.map .ev) closed x ∧
    WaveFits o f (waveEvs ++ .ev .sync :: tornAfter.map .ev) closed x ∧ Ev.sync ∉ tornAfter ∧
    (f.compression = NONE → (dataOfM waveEvs).length = framesOfM waveEvs * bytesPerFrame f) ∧
    (f.compression = NONE → (dataOf tornAfter).length = framesOf tornAfter * bytesPerFrame f) ∧
    (∀ m ∈ marksOf x.handle o.names, 0 ∉ m.2.2.1 ∧ 0 ∉ m.2.2.2) ∧
    ∃ file, waveDiedIn .little o f (waveEvs ++ .ev .sync :: tornAfter.map .ev) 2 = .ok file := by
  obtain ⟨o, f, file, x, hw, hp⟩ := waveDemo_written (h := .little) (ops := waveOps) (evs := waveEvs ++ .ev .sync :: tornAfter.map .ev) (P := fun r =>
    waveFitsB r.1 r.2.1 (waveEvs ++ .ev .sync :: tornAfter.map .ev) r.2.2.1 r.2.2.2 = true ∧
    (r.2.1.compression = NONE → (dataOfM waveEvs).length = framesOfM waveEvs * bytesPerFrame r.2.1) ∧
    (r.2.1.compression = NONE → (dataOf tornAfter).length = framesOf tornAfter * bytesPerFrame r.2.1) ∧
    (∀ m ∈ marksOf r.2.2.2.handle r.1.names, 0 ∉ m.2.2.1 ∧ 0 ∉ m.2.2.2) ∧
    isFile (waveDiedIn .little r.1 r.2.1 (waveEvs ++ .ev .sync :: tornAfter.map .ev) 2) = true) (by decide) (by decide +kernel)
  obtain ⟨h1, h2, h3, h4, h5⟩ := of_decide_eq_true hp
  exact ⟨o, f, file, x, hw, waveFits_of h1, by simp [tornAfter], h2, h3, h4, isFile_ok h5⟩

/-- For IFF, an odd number of frames: the pad byte is written. -/
example : ∃ o f closed x, IffWritten .little (iffOps 22050) o f (iffEvs ++ .ev .sync :: [Ev.data [5, 5, 5] 3].map .ev) closed x ∧
    IffFits o (iffEvs ++ .ev .sync :: [Ev.data [5, 5, 5] 3].map .ev) closed ∧
    (∃ file, iffDiedIn .little o f (iffEvs ++ .ev .sync :: [Ev.data [5, 5, 5] 3].map .ev) 3 = .ok file) := by
  obtain ⟨o, f, file, x, hw, hp⟩ := iffDemo_written (h := .little) (ops := iffOps 22050)
    (evs := iffEvs ++ .ev .sync :: [Ev.data [5, 5, 5] 3].map .ev) (P := fun r =>
    iffFitsB r.1 (iffEvs ++ .ev .sync :: [Ev.data [5, 5, 5] 3].map .ev) r.2.2.1 = true ∧
    isFile (iffDiedIn .little r.1 r.2.1 (iffEvs ++ .ev .sync :: [Ev.data [5, 5, 5] 3].map .ev) 3) = true) (by decide) (by decide +kernel)
  obtain ⟨h1, h2⟩ := of_decide_eq_true hp
  exact ⟨o, f, file, x, hw, iffFits_of h1, isFile_ok h2⟩

end AF.Files
