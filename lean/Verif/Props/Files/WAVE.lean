import Verif.Proof.Files.WAVE
import Verif.Proof.Files.Marks
import Verif.Props.Files.Simple
/-!
# C34, C38, C40, C41, C50, C51: WAVE files
-/
namespace AF.Files
open AF AF.Setup AF.Spec.Files AF.Meta

/-- The miscellaneous data a WAVE file is opened with. -/
theorem wave_misc {h : Endian} {ops : List Setup.Op} {o : Opened} {f : AFmt} {evs : List MEv} {file : List Byte} {x : WaveObj}
    (hw : WaveWritten h ops o f evs file x) (hfit : WaveFits o f evs file x) : ∀ m ∈ o.handle.misc, InfoOK m := by
  obtain ⟨s', ho⟩ := hw.opened
  obtain ⟨tr, ht, hid, hl, hF, hlf, hc⟩ := opened ho hw.format
  obtain ⟨h1, h2, h3⟩ := wave_accepted ht hid hF hl hw.fileFormat hc
  obtain ⟨M, b, l, htr, hnm, hmisc⟩ := opened_meta ho hc
  intro m hm
  have hsz := hfit.misc m hm
  rw [hmisc] at hm
  obtain ⟨a, ha, rfl⟩ := List.mem_map.1 hm
  split at ha
  · rename_i hset
    have := h3 hset a ha
    simp only [List.mem_cons, List.not_mem_nil, or_false] at this
    refine ⟨⟨hsz.1, fun b hb => by cases hb⟩, hsz.2, ?_⟩
    dsimp only
    rcases this with h | h | h | h | h | h <;> rw [h] <;> rfl
  · cases ha

/-- What is known about a WAVE file that was written. -/
theorem wave_known {h : Endian} {ops : List Setup.Op} {o : Opened} {f : AFmt} {evs : List MEv} {file : List Byte} {x : WaveObj}
    (hw : WaveWritten h ops o f evs file x) (hfit : WaveFits o f evs file x) :
    WaveFormat f ∧ Legal f ∧ Over o.handle x.handle ∧ (∀ m ∈ x.handle.misc, InfoOK m) ∧
    (∀ m ∈ wmarks x.handle (o.names.headD []), MarkOK m) ∧ ((wmarks x.handle (o.names.headD [])).map (·.id)).Nodup ∧
    (wmarks x.handle (o.names.headD [])).map (fun m => (m.id, m.position, m.name, m.comment)) = marksOf x.handle o.names ∧
    file = waveHead h f (fieldBytes h .little .s4 ((file.length : Int) - 8)) x.handle.misc
      (wmarks x.handle (o.names.headD [])) (framesOfM evs) (dataOfM evs).length ++ dataOfM evs := by
  obtain ⟨s', ho⟩ := hw.opened
  obtain ⟨tr, ht, hid, hl, hF, hlf, hc⟩ := opened ho hw.format
  obtain ⟨h1, h2, h3⟩ := wave_accepted ht hid hF hl hw.fileFormat hc
  obtain ⟨M, b, l, htr, hnm, hmisc⟩ := opened_meta ho hc
  have hsz := wave_misc hw hfit
  obtain ⟨hO, hfile⟩ := wave_file h o.handle (o.names.headD []) f (fun m hm => (hsz m hm).toSized) evs hw.session
  obtain ⟨r, hr, hr2⟩ := rate_nat hlf
  have hr' : r < 2 ^ 32 := rate_lt hr (by exact_mod_cast hfit.rate)
  obtain ⟨k1, k2, k3⟩ := marks_known hO htr hnm
  refine ⟨⟨h1, h2, hlf.channels, hfit.channels, hfit.blocks, r, hr2, hr, hr'⟩, hlf, hO, ?_, ?_, ?_, k3, hfile⟩
  · intro m hm
    obtain ⟨a, ha, hr⟩ := hO.misc.mem hm
    exact ⟨(hsz a ha).toSized.over hr, by rw [hr.size]; exact (hsz a ha).small, by rw [hr.type]; exact (hsz a ha).known⟩
  · intro m hm
    exact ⟨(k1 m hm).1, (k1 m hm).2, hfit.marks (m.id, m.position, m.name, m.comment) (by rw [← k3]; exact List.mem_map.2 ⟨m, hm, rfl⟩)⟩
  · rw [k2]
    exact hfit.ids

/-- What opening the file again gives. -/
theorem wave_again {h : Endian} {ops : List Setup.Op} {o : Opened} {f : AFmt} {evs : List MEv} {file : List Byte} {x : WaveObj}
    (hw : WaveWritten h ops o f evs file x) (hfit : WaveFits o f evs file x) (h' : Endian) (fuel : Nat)
    (hfuel : 8 + x.handle.misc.length + 2 * (marksOf x.handle o.names).length ≤ fuel) :
    ∃ s p, waveRead h' fuel file 0 = .ok (s, p) ∧
      WaveReport f x.handle.misc (wmarks x.handle (o.names.headD [])) (framesOfM evs) (dataOfM evs) [] file s := by
  obtain ⟨k1, k2, k3, k4, k5, k6, k7, k8⟩ := wave_known hw hfit
  exact wave_report h h' k1 k4 k5 k6 (fun _ => hfit.frames) hfit.length (T := []) (by simpa using k8) (by rw [← k7, List.length_map] at hfuel; exact hfuel)

/-- What opening reports about the sound, apart from the sample width. -/
theorem wave_sound {f : AFmt} {misc : List Misc} {marks : List WMark} {n : Nat} {D T file : List Byte} {s : WaveRead}
    (hf : WaveFormat f) (hr : WaveReport f misc marks n D T file s) (hD : D.length < 2 ^ 32)
    (hn : f.compression = NONE → D.length = n * bytesPerFrame f) :
    s.t.f.rate = (wholeRate f).rate ∧ s.t.f.channels = f.channels ∧ s.t.f.compression = f.compression ∧
    (f.compression = NONE → s.t.f.sampleFormat = f.sampleFormat ∧ s.t.f.sampleWidth = (f.sampleWidth + 7) / 8 * 8 ∧
      s.t.f.byteOrder = f.byteOrder) ∧
    (f.compression ≠ NONE → s.t.f.sampleFormat = TWOSCOMP ∧ s.t.f.sampleWidth = 16) ∧
    s.t.frames = n ∧ 0 ≤ s.t.first ∧ s.t.dataSize = D.length ∧ audio file s.t = D ∧
    s.t.fpp = (if f.compression = 519 then 505 else if f.compression = 523 then 500 else 1) ∧
    s.t.bpp = (if f.compression = 519 ∨ f.compression = 523 then 256 * f.channels else bytesPerFrame f) := by
  obtain ⟨g, fpp, bpp, hG, g1, g2, g3⟩ := hr.format
  have hset : (setSampleFormat g g.sampleFormat g.sampleWidth).2.sampleFormat = g.sampleFormat ∧
    (setSampleFormat g g.sampleFormat g.sampleWidth).2.sampleWidth = g.sampleWidth ∧
    (setSampleFormat g g.sampleFormat g.sampleWidth).2.byteOrder = g.byteOrder ∧
    (setSampleFormat g g.sampleFormat g.sampleWidth).2.compression = g.compression ∧
    (setSampleFormat g g.sampleFormat g.sampleWidth).2.channels = g.channels ∧
    (setSampleFormat g g.sampleFormat g.sampleWidth).2.rate = g.rate := by
    have hlg : ((g.sampleFormat = 401 ∨ g.sampleFormat = 402) ∧ 1 ≤ g.sampleWidth ∧ g.sampleWidth ≤ 32) ∨
      (g.sampleFormat = 403 ∧ g.sampleWidth = 32) ∨ (g.sampleFormat = 404 ∧ g.sampleWidth = 64) := by
      by_cases hz : f.compression = 0
      · have h1 := hG.plain hz
        have h2 := (hf.plain hz).2
        rw [h1.1, h1.2.1]
        omega
      · have := hG.decoded hz; omega
    rcases hlg with ⟨h1, h2⟩ | ⟨h1, h2⟩ | ⟨h1, h2⟩
    · exact set_sampleFormat h1 h2
    · rw [h1, h2]; simp [setSampleFormat, UNSIGNED, TWOSCOMP, FLOAT]
    · rw [h1, h2]; simp [setSampleFormat, UNSIGNED, TWOSCOMP, FLOAT, DOUBLE]
  obtain ⟨s1, s2, s3, s4, s5, s6⟩ := hset
  rw [g1, s1, s2, s3, s4, s5, s6]
  refine ⟨hG.rate, hG.channels, hG.compression, ?_, hG.decoded, ?_, hr.first, hr.size, ?_, by rw [g2, hG.fpp], by rw [g3, hG.bpp]⟩
  · intro hz
    have h1 := hG.plain hz
    exact ⟨h1.1, h1.2.1, by rw [h1.2.2, (hf.plain hz).1]⟩
  · cases hF : hasFact f with
    | true => exact hr.frames hF
    | false =>
      obtain ⟨t, h1, h2, h3, h4⟩ := hr.count hF
      unfold hasFact at hF
      simp only [Bool.not_eq_false', decide_eq_true_eq] at hF
      have hz : f.compression = 0 := hF.1
      have hn' := hn hz
      rw [h4]
      refine frames_exact (k := bytesPerFrame f) ?_ (bytesPerFrame_pos hf) ?_ ?_ ?_
      · rw [h2, g3, hG.bpp, hz]; rfl
      · rw [h1, g2, hG.fpp, hz]; rfl
      · rw [h3, hn']
      · rw [← hn']; omega
  · unfold audio
    rw [hr.audio, hr.size, Int.toNat_natCast]
    exact List.take_left

/-- What opening reports about the sound. -/
theorem wave_same {f : AFmt} {misc : List Misc} {marks : List WMark} {n : Nat} {D T file : List Byte} {s : WaveRead}
    (hf : WaveFormat f) (hr : WaveReport f misc marks n D T file s) (hD : D.length < 2 ^ 32)
    (hn : f.compression = NONE → D.length = n * bytesPerFrame f) :
    SameSound (wholeBytes (wholeRate f)) D n file s.t := by
  obtain ⟨r1, r2, r3, r4, r5, r6, r7, r8, r9, -⟩ := wave_sound hf hr hD hn
  by_cases hz : f.compression = NONE
  · have e : wholeBytes (wholeRate f) = { wholeRate f with sampleWidth := (f.sampleWidth + 7) / 8 * 8 } := if_pos hz
    have h1 := r4 hz
    rw [e]
    exact ⟨r1, r2, r3, fun _ => ⟨h1.1, h1.2.1, fun _ => h1.2.2⟩, fun hn => absurd hz hn, r6, r7, r8, r9⟩
  · have e : wholeBytes (wholeRate f) = wholeRate f := if_neg hz
    rw [e]
    exact ⟨r1, r2, r3, fun h' => absurd h' hz, r5, r6, r7, r8, r9⟩

/-! ## C34 -/

/-- C34: every WAVE file reads back as it was written, with the rate rounded down to a whole number and the width of uncompressed
samples rounded up to whole bytes, if the numbers are such that the fields hold them. -/
theorem C34_wave_roundtrip (h h' : Endian) (ops : List Setup.Op) (o : Opened) (f : AFmt) (evs : List MEv)
    (file : List Byte) (x : WaveObj) (hw : WaveWritten h ops o f evs file x) (hfit : WaveFits o f evs file x)
    (hn : f.compression = NONE → (dataOfM evs).length = framesOfM evs * bytesPerFrame f)
    (fuel : Nat) (hfuel : 8 + x.handle.misc.length + 2 * (marksOf x.handle o.names).length ≤ fuel) :
    ∃ s p, waveRead h' fuel file 0 = .ok (s, p) ∧ SameSound (wholeBytes (wholeRate f)) (dataOfM evs) (framesOfM evs) file s.t := by
  obtain ⟨s, p, hs, hr⟩ := wave_again hw hfit h' fuel hfuel
  obtain ⟨k1, -, -, -, -, -, -, k8⟩ := wave_known hw hfit
  have hlen := congrArg List.length k8
  rw [List.length_append] at hlen
  have hfl := hfit.length
  exact ⟨s, p, hs, wave_same k1 hr (by omega) hn⟩

/-- C34: the packets of an ADPCM file are reported with the sizes they were written with. -/
theorem C34_wave_packets (h h' : Endian) (ops : List Setup.Op) (o : Opened) (f : AFmt) (evs : List MEv)
    (file : List Byte) (x : WaveObj) (hw : WaveWritten h ops o f evs file x) (hfit : WaveFits o f evs file x)
    (hc : f.compression = IMA ∨ f.compression = MSADPCM)
    (fuel : Nat) (hfuel : 8 + x.handle.misc.length + 2 * (marksOf x.handle o.names).length ≤ fuel) :
    ∃ s p, waveRead h' fuel file 0 = .ok (s, p) ∧ s.t.bpp = 256 * f.channels ∧
      s.t.fpp = (if f.compression = IMA then 505 else 500) ∧
      (s.t.fpp, s.t.bpp) = ((waveTrack f).fpp, (waveTrack f).bpp) := by
  obtain ⟨s, p, hs, hr⟩ := wave_again hw hfit h' fuel hfuel
  obtain ⟨k1, -, -, -, -, -, -, k8⟩ := wave_known hw hfit
  have hlen := congrArg List.length k8
  rw [List.length_append] at hlen
  have hfl := hfit.length
  obtain ⟨-, -, -, -, -, -, -, -, -, r1, r2⟩ := wave_sound k1 hr (by omega) (by
    intro hz; rw [hz] at hc; exact absurd hc (by decide))
  refine ⟨s, p, hs, ?_⟩
  rcases hc with hc | hc
  · rw [r1, r2, hc]; unfold waveTrack; rw [if_pos hc]; exact ⟨rfl, rfl, rfl⟩
  · have ht : waveTrack f = { Trk.ofFormat f with fpp := 500, bpp := 256 * f.channels } := by
      unfold waveTrack; rw [if_neg (by rw [hc]; decide), if_pos hc]
    rw [r1, r2, hc, ht]; exact ⟨rfl, rfl, rfl⟩

/-- C34 is false for widths that are not whole bytes: a file opened with them (which the library accepts) reads back with
the next larger multiple of eight. -/
theorem C34_odd_width_lost (h h' : Endian) (ops : List Setup.Op) (o : Opened) (f : AFmt) (evs : List MEv)
    (file : List Byte) (x : WaveObj) (hw : WaveWritten h ops o f evs file x) (hfit : WaveFits o f evs file x)
    (hn : (dataOfM evs).length = framesOfM evs * bytesPerFrame f)
    (hz : f.compression = NONE) (hwidth : f.sampleWidth % 8 ≠ 0)
    (fuel : Nat) (hfuel : 8 + x.handle.misc.length + 2 * (marksOf x.handle o.names).length ≤ fuel) :
    ∃ s p, waveRead h' fuel file 0 = .ok (s, p) ∧ s.t.f.sampleWidth = f.sampleWidth - f.sampleWidth % 8 + 8 ∧
      ¬ SameSound f (dataOfM evs) (framesOfM evs) file s.t := by
  obtain ⟨s, p, hs, hr⟩ := wave_again hw hfit h' fuel hfuel
  obtain ⟨k1, -, -, -, -, -, -, k8⟩ := wave_known hw hfit
  have hlen := congrArg List.length k8
  rw [List.length_append] at hlen
  have hfl := hfit.length
  obtain ⟨-, -, -, r4, -⟩ := wave_sound k1 hr (by omega) (fun _ => hn)
  have h1 := (r4 hz).2.1
  refine ⟨s, p, hs, by omega, fun hss => ?_⟩
  have := (hss.sample hz).2.1
  omega

/-! ## C41, C50 -/

theorem takeWhile_zero (a b : List Byte) (h : 0 ∉ a) : (a ++ [0] ++ b).takeWhile (· ≠ 0) = a := by
  induction a with
  | nil => rfl
  | cons x a ih =>
    have hx : x ≠ 0 := fun e => h (by simp [e])
    have := ih (fun e => h (List.mem_cons_of_mem _ e))
    simp only [List.cons_append, List.append_assoc] at this ⊢
    rw [List.takeWhile_cons, if_pos (by simpa using hx), this]

theorem cString_zString {a : List Byte} (h : 0 ∉ a) : cString (zString a) = some a := by
  unfold cString zString
  rw [if_pos (by simp), takeWhile_zero a _ h]

/-- C41: the markers of a WAVE file, with positions, names and comments, are those the program had set when it closed
it. (The theorem needs distinct ids that a `short` tells apart.) -/
theorem C41_wave_markers (h h' : Endian) (ops : List Setup.Op) (o : Opened) (f : AFmt) (evs : List MEv)
    (file : List Byte) (x : WaveObj) (hw : WaveWritten h ops o f evs file x) (hfit : WaveFits o f evs file x)
    (hstr : ∀ m ∈ marksOf x.handle o.names, 0 ∉ m.2.2.1 ∧ 0 ∉ m.2.2.2)
    (fuel : Nat) (hfuel : 8 + x.handle.misc.length + 2 * (marksOf x.handle o.names).length ≤ fuel) :
    ∃ s p, waveRead h' fuel file 0 = .ok (s, p) ∧
      readMarks s.markers = (marksOf x.handle o.names).map fun m => (m.1, m.2.1, some m.2.2.1, some m.2.2.2) := by
  obtain ⟨s, p, hs, hr⟩ := wave_again hw hfit h' fuel hfuel
  obtain ⟨-, -, -, -, -, -, k7, -⟩ := wave_known hw hfit
  refine ⟨s, p, hs, ?_⟩
  rw [hr.markers]
  rw [← k7] at hstr ⊢
  unfold readMarks
  rw [List.map_map, List.map_map]
  refine List.map_congr_left fun m hm => ?_
  have := hstr _ (List.mem_map.2 ⟨m, hm, rfl⟩)
  simp only [Function.comp, labelRead, cString_zString this.1, cString_zString this.2]

theorem wave_misc_again {f : AFmt} {misc : List Misc} {marks : List WMark} {n : Nat} {D T file : List Byte} {s : WaveRead}
    (k4 : ∀ m ∈ misc, InfoOK m) (hr : WaveReport f misc marks n D T file s) : s.misc.map miscContent = misc.map miscContent := by
  rw [hr.misc]
  apply List.ext_getElem
  · simp
  · intro i h1 h2
    simp only [List.getElem_map, List.getElem_mapIdx, miscContent, infoRead, miscFill]
    split
    · rename_i hz
      have hg := (k4 _ (List.getElem_mem (h := by simpa using h2))).toSized.fill
      rw [hz] at hg
      have : miscFill (misc[i]'(by simpa using h2)) = [] := List.eq_nil_of_length_eq_zero (by omega)
      unfold miscFill at this
      rw [this, hz]
      rfl
    · rfl

/-- C50: the miscellaneous data of a WAVE file is what the program had stored when it closed it, in the same order; ids
are given anew from 1. -/
theorem C50_wave_misc (h h' : Endian) (ops : List Setup.Op) (o : Opened) (f : AFmt) (evs : List MEv)
    (file : List Byte) (x : WaveObj) (hw : WaveWritten h ops o f evs file x) (hfit : WaveFits o f evs file x)
    (fuel : Nat) (hfuel : 8 + x.handle.misc.length + 2 * (marksOf x.handle o.names).length ≤ fuel) :
    ∃ s p, waveRead h' fuel file 0 = .ok (s, p) ∧ s.misc.map miscContent = x.handle.misc.map miscContent ∧
      ∀ i (hi : i < s.misc.length), s.misc[i].id = i + 1 := by
  obtain ⟨s, p, hs, hr⟩ := wave_again hw hfit h' fuel hfuel
  refine ⟨s, p, hs, ?_, ?_⟩
  · exact wave_misc_again (wave_known hw hfit).2.2.2.1 hr
  · intro i hi
    simp only [hr.misc, List.getElem_mapIdx, infoRead]

/-! ## C40 -/

theorem s4_leBytes (h : Endian) (x : Int) : fieldBytes h .little .s4 x = leBytes 4 x := by
  rw [fieldBytes, writeField_eq]
  show leBytes 4 _ = _
  apply leBytes_congr
  rw [BitVec.toNat_ofInt]
  show ((x % ((2 ^ (8 * 4) : Nat) : Int)).toNat : Int) % 256 ^ 4 = x % 256 ^ 4
  omega

/-- A list of chunks of even length. -/
def EvenChunks (b : List Byte) : Prop :=
  ∃ cs : List (List Byte × List Byte), (∀ c ∈ cs, c.1.length = 4 ∧ c.2.length % 2 = 0) ∧ b = cs.flatMap chunkLE

theorem EvenChunks.nil : EvenChunks [] := ⟨[], by simp, rfl⟩
theorem EvenChunks.append {a b : List Byte} (ha : EvenChunks a) (hb : EvenChunks b) : EvenChunks (a ++ b) := by
  obtain ⟨cs, h1, rfl⟩ := ha
  obtain ⟨ds, h2, rfl⟩ := hb
  refine ⟨cs ++ ds, ?_, by rw [List.flatMap_append]⟩
  intro c hc
  rcases List.mem_append.1 hc with h | h
  · exact h1 c h
  · exact h2 c h
theorem EvenChunks.one {id body : List Byte} (h : Endian) {x : Int} (hid : id.length = 4) (hx : x = body.length) (he : body.length % 2 = 0) :
    EvenChunks (id ++ (fieldBytes h .little .s4 x ++ body)) :=
  ⟨[(id, body)], by simp [hid, he], by simp [chunkLE, s4_leBytes, hx]⟩

theorem chunks_info (h : Endian) {ms : List Misc} (hm : ∀ m ∈ ms, Sized m) : EvenChunks (infoPart h ms) := by
  have he := infoPart_even h hm
  unfold infoPart at he ⊢
  split
  · exact .nil
  · rename_i hz
    rw [if_neg hz] at he
    rw [sum_infoSize h ms hm] at he ⊢
    generalize ms.flatMap (infoEntry h) = E at *
    have e2 : (tag "INFO").length = 4 := rfl
    have e3 : (tag "LIST").length = 4 := rfl
    have := b4
    simp only [List.append_assoc] at he ⊢
    simp only [List.length_append, fieldBytes_length] at he
    refine .one h rfl ?_ ?_
    · rw [List.length_append]; omega
    · rw [List.length_append]; omega

theorem chunks_cue (h : Endian) (ms : List WMark) : EvenChunks (cuePart h ms) := by
  unfold cuePart
  split
  · exact .nil
  · rw [waveCueBytes_eq]
    have hl := cues_length h ms 0
    have hE := flat_even (waveLabel h) ms fun m _ => waveLabel_even h m
    generalize (ms.zipIdx.flatMap fun p => waveCue h p.2 p.1) = C at *
    generalize ms.flatMap (waveLabel h) = E at *
    have e2 : (tag "adtl").length = 4 := rfl
    have h1 : EvenChunks (tag "cue " ++ (fieldBytes h .little .s4 ((4 + ms.length * 24 : Nat) : Int) ++
        (fieldBytes h .little .s4 ms.length ++ C))) := by
      refine .one h rfl ?_ ?_
      · rw [List.length_append, fieldBytes_length, b4, hl]
      · rw [List.length_append, fieldBytes_length, b4, hl]; omega
    have h2 : EvenChunks (tag "LIST" ++ (fieldBytes h .little .s4 ((4 + E.length : Nat) : Int) ++ (tag "adtl" ++ E))) := by
      refine .one h rfl ?_ ?_
      · rw [List.length_append, e2]
      · rw [List.length_append, e2]; omega
    have h3 := h1.append h2
    simpa only [List.append_assoc] using h3

theorem chunks_fact (h : Endian) (f : AFmt) (n : Int) : EvenChunks (factPart h f n) := by
  unfold factPart
  split
  · rw [List.append_assoc]
    refine .one h rfl ?_ ?_
    · rw [fieldBytes_length]; rfl
    · rw [fieldBytes_length]; rfl
  · exact .nil

theorem chunks_fmt (h : Endian) (f : AFmt) (hf : f.compression ∈ [0, 502, 503, 519, 523]) : EvenChunks (waveFmt h (waveTrack f)) := by
  have htf : (waveTrack f).f = f := waveTrack_f f
  have key : ∀ (cs : Nat) (ft al bits : Int) (X : List Byte), waveFmtParams (waveTrack f) = ((cs : Int), ft, al, bits) →
      waveFmtExtra h (waveTrack f) = X → cs = 16 + X.length → X.length % 2 = 0 → EvenChunks (waveFmt h (waveTrack f)) := by
    intro cs ft al bits X h1 h2 h3 h4
    unfold waveFmt
    rw [h1, h2]
    simp only [List.append_assoc]
    have := b2
    have := b4
    refine .one h rfl ?_ ?_
    · simp only [List.length_append, fieldBytes_length]; omega
    · simp only [List.length_append, fieldBytes_length]; omega
  simp only [List.mem_cons, List.not_mem_nil, or_false] at hf
  rcases hf with hc | hc | hc | hc | hc
  · exact key 16 _ _ _ [] (by unfold waveFmtParams; rw [htf, hc]; rfl) (by unfold waveFmtExtra; rw [htf, hc]; rfl) rfl rfl
  · exact key 18 _ _ _ (fieldBytes h .little .s2 0) (by unfold waveFmtParams; rw [htf, hc]; rfl)
      (by unfold waveFmtExtra; rw [htf, hc]; rfl) (by rw [fieldBytes_length]; rfl) (by rw [fieldBytes_length]; rfl)
  · exact key 18 _ _ _ (fieldBytes h .little .s2 0) (by unfold waveFmtParams; rw [htf, hc]; rfl)
      (by unfold waveFmtExtra; rw [htf, hc]; rfl) (by rw [fieldBytes_length]; rfl) (by rw [fieldBytes_length]; rfl)
  · have hx : (waveFmtExtra h (waveTrack f)).length = 4 := by
      unfold waveFmtExtra
      rw [htf, hc, if_neg (by decide), if_pos (by decide), List.length_append, fieldBytes_length, fieldBytes_length]; rfl
    exact key 20 _ _ _ _ (by unfold waveFmtParams; rw [htf, hc]; rfl) rfl (by rw [hx]) (by rw [hx])
  · have hcl : (msadpcmCoefficients.flatMap fun c => fieldBytes h .little .s2 c.1 ++ fieldBytes h .little .s2 c.2).length = 28 := by
      simp [msadpcmCoefficients, fieldBytes_length, FieldSize.bytes]
    have hx : (waveFmtExtra h (waveTrack f)).length = 34 := by
      unfold waveFmtExtra
      rw [htf, hc, if_neg (by decide), if_neg (by decide), if_pos (by decide),
        List.length_append, List.length_append, List.length_append, fieldBytes_length, fieldBytes_length, fieldBytes_length, hcl]; rfl
    exact key 50 _ _ _ _ (by unfold waveFmtParams; rw [htf, hc]; rfl) rfl (by rw [hx]) (by rw [hx])

theorem even_offsets {cs : List (List Byte × List Byte)} (h : ∀ c ∈ cs, c.1.length = 4 ∧ c.2.length % 2 = 0) (k : Nat) :
    ((cs.take k).flatMap chunkLE).length % 2 = 0 := by
  refine flat_even chunkLE _ fun c hc => ?_
  have := h c (List.mem_of_mem_take hc)
  simp only [chunkLE, List.length_append, leBytes_length]
  omega

/-- C40: a WAVE file is the RIFF header with the length of what follows, and chunks, the audio data being the last; each
chunk says how long it is and starts at an even offset, whatever the lengths of names, comments and miscellaneous data
are. (An audio data chunk of odd length is the end of the file: it is not padded.) -/
theorem C40_wave_even (h : Endian) (ops : List Setup.Op) (o : Opened) (f : AFmt) (evs : List MEv)
    (file : List Byte) (x : WaveObj) (hw : WaveWritten h ops o f evs file x) (hsize : ∀ m ∈ o.handle.misc, 0 ≤ m.size) :
    ∃ cs : List (List Byte × List Byte), (∀ c ∈ cs, c.1.length = 4) ∧
      file = tag "RIFF" ++ leBytes 4 ((file.length : Int) - 8) ++ tag "WAVE" ++ cs.flatMap chunkLE ++ chunkLE (tag "data", dataOfM evs) ∧
      ∀ k, (12 + ((cs.take k).flatMap chunkLE).length) % 2 = 0 := by
  obtain ⟨s', ho⟩ := hw.opened
  obtain ⟨tr, ht, hid, hl, hF, hlf, hc⟩ := opened ho hw.format
  obtain ⟨h1, -, h3⟩ := wave_accepted ht hid hF hl hw.fileFormat hc
  obtain ⟨M, b, l, htr, hnm, hmisc⟩ := opened_meta ho hc
  have hsz : ∀ m ∈ o.handle.misc, Sized m := by
    intro m hm
    refine ⟨hsize m hm, ?_⟩
    rw [hmisc] at hm
    obtain ⟨a, ha, rfl⟩ := List.mem_map.1 hm
    intro b hb
    cases hb
  obtain ⟨hO, hfile⟩ := wave_file h o.handle (o.names.headD []) f hsz evs hw.session
  obtain ⟨cs, c1, c2⟩ := (chunks_info h (over_sized hO.misc hsz)).append ((chunks_cue h (wmarks x.handle (o.names.headD []))).append
    ((chunks_fmt h f h1).append (chunks_fact h f (framesOfM evs))))
  refine ⟨cs, fun c hc => (c1 c hc).1, ?_, fun k => by have := even_offsets c1 k; omega⟩
  rw [← c2]
  refine hfile.trans ?_
  unfold waveHead
  rw [s4_leBytes, s4_leBytes]
  simp only [chunkLE, List.append_assoc]

/-! ## C38: a chunk size that wraps -/

/-- A file whose first chunk says it has 2^32 - 8 bytes. -/
def waveEndless : List Byte :=
  tag "RIFF" ++ leBytes 4 (-1) ++ tag "WAVE" ++ tag "junk" ++ leBytes 4 (-8)

theorem loop_forever {σ α : Type} {body : σ → Rd (σ ⊕ α)} {s : σ} {file : List Byte} {p : Nat}
    (h : body s file p = .ok (.inl s, p)) (n : Nat) : Rd.loop body n s file p = .error .running := by
  induction n with
  | zero => rfl
  | succ n ih => rw [Rd.loop_step h, ih]

/-- C38 is false for WAVE: opening this file never ends, however long one waits. -/
theorem C38_wave_endless (h : Endian) (fuel : Nat) : waveRead h fuel waveEndless 0 = .error .running := by
  unfold waveRead
  have e0 : waveEndless.drop 0 = tag "RIFF" ++ (fieldBytes h .little .s4 (-1) ++ (tag "WAVE" ++ (tag "junk" ++
      (fieldBytes h .little .s4 (-8) ++ [])))) := by
    rw [s4_leBytes, s4_leBytes]
    decide +kernel
  have e1 := drop_step e0 (n := 4) rfl
  have e2 := drop_step e1 (fieldBytes_length _ _ _ _)
  have e3 := drop_step e2 (n := 4) rfl
  rw [b4] at e2 e3
  rw [Rd.bind_ok (a := ()) (p' := 0) rfl, Rd.bind_ok (Rd.tag_ok e0 rfl), Rd.bind_ok (Rd.field_ok e1).2, b4,
    Rd.bind_ok (Rd.tag_ok e2 rfl)]
  refine Rd.bind_error ?_
  refine loop_forever ?_ fuel
  unfold waveRound
  rw [if_pos (by rw [p4]; decide), Rd.bind_ok (Rd.tag_ok e3 rfl)]
  have e4 := drop_step e3 (n := 4) rfl
  rw [Rd.bind_ok (Rd.u32Init_ok e4)]
  rfl

/-! ## Concrete files -/

/-- The file made with given calls. -/
def waveDemo (h : Endian) (ops : List Setup.Op) (evs : List MEv) : Option (Opened × AFmt × List Byte × WaveObj) :=
  match (openWrite h (Setup.run (newSetup h) ops)).2 with
  | none => none
  | some o =>
    match o.f with
    | [f] =>
      match waveSession h o f evs with
      | .ok (file, x) => some (o, f, file, x)
      | .error _ => none
    | _ => none

theorem waveDemo_written {h : Endian} {ops : List Setup.Op} {evs : List MEv} {P : Opened × AFmt × List Byte × WaveObj → Bool}
    (hf : (Setup.run (newSetup h) ops).fileFormat = .wave) (hd : (waveDemo h ops evs).any P = true) :
    ∃ o f file x, WaveWritten h ops o f evs file x ∧ P (o, f, file, x) = true := by
  unfold waveDemo at hd
  match ho : (openWrite h (Setup.run (newSetup h) ops)).2 with
  | none => rw [ho] at hd; cases hd
  | some o =>
    rw [ho] at hd
    match hof : o.f with
    | [] => simp only [hof] at hd; cases hd
    | f :: g :: l => simp only [hof] at hd; cases hd
    | [f] =>
      simp only [hof] at hd
      match hs : waveSession h o f evs with
      | .error e => simp only [hs] at hd; cases hd
      | .ok (file, x) =>
        simp only [hs, Option.any_some] at hd
        exact ⟨o, f, file, x, ⟨hf, ⟨(openWrite h (Setup.run (newSetup h) ops)).1, by rw [← ho]⟩, hof, hs⟩, hd⟩

/-- The result of opening. -/
def waveMarksOf (fuel : Nat) (file : List Byte) : Option (List (Int × Int × Option (List Byte) × Option (List Byte))) :=
  match waveRead .little fuel file 0 with
  | .ok (s, _) => some (readMarks s.markers)
  | .error _ => none

/-- `WaveFits`, computed. -/
def waveFitsB (o : Opened) (f : AFmt) (evs : List MEv) (file : List Byte) (x : WaveObj) : Bool :=
  f.rate < 2 ^ 32 ∧ f.channels < 2 ^ 16 ∧ (f.compression = IMA ∨ f.compression = MSADPCM → f.channels < 2 ^ 8) ∧
  framesOfM evs < 2 ^ 32 ∧ file.length + 1 < 2 ^ 32 ∧ (∀ m ∈ o.handle.misc, 0 ≤ m.size ∧ m.size < 2 ^ 31) ∧
  (∀ m ∈ marksOf x.handle o.names, m.2.1 < 2 ^ 32) ∧ ((marksOf o.handle o.names).map (·.1)).Nodup

theorem waveFits_of {o : Opened} {f : AFmt} {evs : List MEv} {file : List Byte} {x : WaveObj}
    (h : waveFitsB o f evs file x = true) : WaveFits o f evs file x := by
  unfold waveFitsB at h
  obtain ⟨h1, h3, h4, h5, h6, h7, h8, h9⟩ := of_decide_eq_true h
  exact ⟨h1, h3, h4, h5, h6, h7, h8, h9⟩

/-! ## C41: ids that a `short` does not tell apart -/

def wrapOps : List Setup.Op :=
  [.fileFormat 4, .channels 1001 1, .rate 1001 8000, .sampleFormat 1001 401 16, .markIDs 1001 [1, 65537],
   .markName 1001 1 (tag "in"), .markName 1001 65537 (tag "out")]

set_option synthInstance.maxSize 1024 in
/-- C41 is false for marker ids beyond 16 bits: of the markers 1 and 65537, "in" and "out", the first comes back named
"out" and the second without a name, both as number 1. -/
theorem C41_wave_ids_wrap : ∃ o f file x, WaveWritten .little wrapOps o f [] file x ∧
    marksOf x.handle o.names = [(1, 0, tag "in", []), (1, 0, tag "out", [])] ∧
    ∃ s p, waveRead .little 20 file 0 = .ok (s, p) ∧
      readMarks s.markers = [(1, 0, some (tag "out"), some []), (1, 0, some [], some [])] := by
  obtain ⟨o, f, file, x, hw, hp⟩ := waveDemo_written (h := .little) (ops := wrapOps) (evs := []) (P := fun r =>
    decide (marksOf r.2.2.2.handle r.1.names = [(1, 0, tag "in", []), (1, 0, tag "out", [])] ∧
    waveMarksOf 20 r.2.2.1 = some [(1, 0, some (tag "out"), some []), (1, 0, some [], some [])])) (by decide) (by decide +kernel)
  obtain ⟨h1, h2⟩ := of_decide_eq_true hp
  refine ⟨o, f, file, x, hw, h1, ?_⟩
  unfold waveMarksOf at h2
  split at h2
  · rename_i s p hs
    exact ⟨s, p, hs, by simpa using h2⟩
  · cases h2

/-! ## C51 -/

/-- The beginning of a format chunk for MS ADPCM with 257 coefficient pairs. -/
def waveOverrun : List Byte :=
  tag "RIFF" ++ leBytes 4 100 ++ tag "WAVE" ++ tag "fmt " ++ leBytes 4 50 ++ leBytes 2 2 ++ leBytes 2 1 ++ leBytes 4 8000 ++
  leBytes 4 4096 ++ leBytes 2 256 ++ leBytes 2 4 ++ leBytes 2 32 ++ leBytes 2 500 ++ leBytes 2 257

/-- C51 is false for WAVE: more than 256 coefficient pairs are stored beyond the table. -/
theorem C51_wave_overrun (h : Endian) (fuel : Nat) : waveRead h (fuel + 1) waveOverrun 0 = .error .undefined := by
  cases h <;> rfl

/-- C51 is false for WAVE: a file that ends within the length of the RIFF chunk. -/
theorem C51_wave_short (h : Endian) (fuel : Nat) : waveRead h fuel (tag "RIFF" ++ [1, 0]) 0 = .error .undefined := by
  cases h <;> rfl

/-! ## A file that meets the hypotheses -/

def waveOps : List Setup.Op :=
  [.fileFormat 4, .channels 1001 2, .rate 1001 44100, .sampleFormat 1001 401 24, .markIDs 1001 [7, -3],
   .markName 1001 7 (tag "in"), .markComment 1001 7 (tag "here"), .markName 1001 (-3) (tag "out"),
   .miscIDs [1, 2], .miscType 1 203, .miscSize 1 5, .miscType 2 202, .miscSize 2 3]

def waveEvs : List MEv :=
  [.call (.setMark 1001 7 1), .ev (.data [1, 2, 3, 4, 5, 6] 1), .call (.writeMisc 1 (tag "title")), .ev .sync,
   .ev (.data [7, 8, 9, 10, 11, 12, 13, 14, 15, 16, 17, 18] 2), .call (.setMark 1001 (-3) 2)]

example : ∃ o f file x, WaveWritten .little waveOps o f waveEvs file x ∧ WaveFits o f waveEvs file x ∧
    (f.compression = NONE → (dataOfM waveEvs).length = framesOfM waveEvs * bytesPerFrame f) ∧
    (f.compression = NONE → f.sampleWidth % 8 = 0) ∧
    marksOf x.handle o.names = [(7, 1, tag "in", tag "here"), (-3, 2, tag "out", [])] ∧
    x.handle.misc.map miscContent = [(203, 5, tag "title"), (202, 3, [0, 0, 0])] := by
  obtain ⟨o, f, file, x, hw, hp⟩ := waveDemo_written (h := .little) (ops := waveOps) (evs := waveEvs) (P := fun r =>
    waveFitsB r.1 r.2.1 waveEvs r.2.2.1 r.2.2.2 = true ∧
    (r.2.1.compression = NONE → (dataOfM waveEvs).length = framesOfM waveEvs * bytesPerFrame r.2.1) ∧
    (r.2.1.compression = NONE → r.2.1.sampleWidth % 8 = 0) ∧
    marksOf r.2.2.2.handle r.1.names = [(7, 1, tag "in", tag "here"), (-3, 2, tag "out", [])] ∧
    r.2.2.2.handle.misc.map miscContent = [(203, 5, tag "title"), (202, 3, [0, 0, 0])]) (by decide) (by decide +kernel)
  obtain ⟨h1, h2⟩ := of_decide_eq_true hp
  exact ⟨o, f, file, x, hw, waveFits_of h1, h2⟩

/-- A width that is not whole bytes is accepted. -/
example : ∃ o f file x, WaveWritten .little [.fileFormat 4, .sampleFormat 1001 401 12, .channels 1001 1, .rate 1001 8000]
      o f [.ev (.data [1, 0] 1)] file x ∧
    WaveFits o f [.ev (.data [1, 0] 1)] file x ∧ f.compression = NONE ∧ f.sampleWidth % 8 ≠ 0 := by
  obtain ⟨o, f, file, x, hw, hp⟩ := waveDemo_written (h := .little)
    (ops := [.fileFormat 4, .sampleFormat 1001 401 12, .channels 1001 1, .rate 1001 8000])
    (evs := [.ev (.data [1, 0] 1)]) (P := fun r => waveFitsB r.1 r.2.1 [.ev (.data [1, 0] 1)] r.2.2.1 r.2.2.2 = true ∧
      r.2.1.compression = NONE ∧ r.2.1.sampleWidth % 8 ≠ 0) (by decide) (by decide +kernel)
  obtain ⟨h1, h2⟩ := of_decide_eq_true hp
  exact ⟨o, f, file, x, hw, waveFits_of h1, h2⟩

/-- An ADPCM file. -/
example : ∃ o f file x, WaveWritten .little [.fileFormat 4, .compression 1001 519, .channels 1001 2, .rate 1001 8000]
      o f [.ev (.data (List.replicate 512 7) 505)] file x ∧
    WaveFits o f [.ev (.data (List.replicate 512 7) 505)] file x ∧ f.compression = IMA := by
  obtain ⟨o, f, file, x, hw, hp⟩ := waveDemo_written (h := .little)
    (ops := [.fileFormat 4, .compression 1001 519, .channels 1001 2, .rate 1001 8000])
    (evs := [.ev (.data (List.replicate 512 7) 505)])
    (P := fun r => waveFitsB r.1 r.2.1 [.ev (.data (List.replicate 512 7) 505)] r.2.2.1 r.2.2.2 = true ∧
      r.2.1.compression = IMA) (by decide) (by decide +kernel)
  obtain ⟨h1, h2⟩ := of_decide_eq_true hp
  exact ⟨o, f, file, x, hw, waveFits_of h1, h2⟩

end AF.Files
