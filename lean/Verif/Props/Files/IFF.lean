import Verif.Proof.Files.IFF
import Verif.Proof.Files.Marks
import Verif.Props.Files.AIFF
import Verif.Props.Virtual
/-!
# C54, C38, C40, C50, C51: IFF/8SVX files
-/
namespace AF.Files
open AF AF.Setup AF.Spec.Files AF.Meta AF.Spec AF.Convert

/-- What is known about an IFF file that was written. -/
theorem iff_known {h : Endian} {ops : List Setup.Op} {o : Opened} {f : AFmt} {evs : List MEv} {file : List Byte} {x : IffObj}
    (hw : IffWritten h ops o f evs file x) (hfit : IffFits o evs file) :
    (f.compression = 0 ∧ f.sampleFormat = 401 ∧ f.sampleWidth = 8 ∧ f.channels = 1 ∧ f.byteOrder = 501) ∧
    (dataOfM evs).length = framesOfM evs ∧ Over o.handle x.handle ∧ (∀ m ∈ o.handle.misc, Sized m) ∧
    file = iffStart (fieldBytes h .big .s4 ((file.length : Int) - 8)) ++ iffBody h (iffTrackOf f (dataOfM evs).length) x.handle ++
        (dataOfM evs ++ dataPad (dataOfM evs).length) := by
  obtain ⟨s', ho⟩ := hw.opened
  obtain ⟨tr, ht, hid, hl, hF, hlf, hc⟩ := opened ho hw.format
  have hi : Inv (Setup.run (newSetup h) ops) := foldl_inv (newSetup_inv h)
  obtain ⟨g1, g2⟩ := iff_format hi hw.fileFormat ho ht
  rw [hw.format] at g1
  obtain rfl := List.singleton_inj.1 g1
  obtain ⟨M, b, l, htr, hnm, hmisc⟩ := opened_meta ho hc
  have hsz : ∀ m ∈ o.handle.misc, Sized m := by
    intro m hm
    have hsz := (hfit.misc m hm).1
    rw [hmisc] at hm
    obtain ⟨a, ha, rfl⟩ := List.mem_map.1 hm
    exact ⟨hsz, fun b hb => by cases hb⟩
  obtain ⟨h1, h2, h3⟩ := iff_file h o.handle _ hsz evs hfit.whole hfit.frames hw.session
  rw [← h1] at h3
  exact ⟨⟨g2, rfl, rfl, rfl, rfl⟩, h1, h2, hsz, h3⟩

/-- What opening a file with this header and data gives, whatever follows. -/
theorem iff_behind {h : Endian} {ops : List Setup.Op} {o : Opened} {f : AFmt} {evs : List MEv} {closed file T : List Byte} {x : IffObj}
    (hw : IffWritten h ops o f evs closed x) (hfit : IffFits o evs closed)
    (hfile : file = iffStart (fieldBytes h .big .s4 ((closed.length : Int) - 8)) ++ iffBody h (iffTrackOf f (dataOfM evs).length) x.handle ++
        (dataOfM evs ++ T)) (h' : Endian) (fuel : Nat) (hfuel : 3 + x.handle.misc.length ≤ fuel) :
    ∃ s p, iffRead h' fuel file 0 = .ok (s, p) ∧ IffReport f x.handle (dataOfM evs) T file s := by
  obtain ⟨-, -, k3, k4, k5⟩ := iff_known hw hfit
  have hpad : (dataPad (dataOfM evs).length).length = (dataOfM evs).length % 2 := by
    unfold dataPad; split
    · rename_i hh; rw [hh]; rfl
    · show 0 = _; omega
  have hlen := congrArg List.length k5
  have hlen' := congrArg List.length hfile
  simp only [List.length_append, hpad] at hlen hlen'
  have hfl := hfit.length
  refine iff_report h h' ?_ (T := T) (by omega)
    (show file = _ by rw [show (file.length : Int) - T.length + ((dataOfM evs).length % 2 : Nat) - 8 = (closed.length : Int) - 8 by omega]; exact hfile) hfuel
  intro m hm
  obtain ⟨a, ha, hr⟩ := k3.misc.mem hm
  exact ⟨(k4 a ha).over hr, by rw [hr.size]; exact (hfit.misc a ha).2⟩

/-- What opening the file again gives. -/
theorem iff_again {h : Endian} {ops : List Setup.Op} {o : Opened} {f : AFmt} {evs : List MEv} {file : List Byte} {x : IffObj}
    (hw : IffWritten h ops o f evs file x) (hfit : IffFits o evs file) (h' : Endian) (fuel : Nat) (hfuel : 3 + x.handle.misc.length ≤ fuel) :
    ∃ s p, iffRead h' fuel file 0 = .ok (s, p) ∧ IffReport f x.handle (dataOfM evs) (dataPad (dataOfM evs).length) file s := by
  exact iff_behind hw hfit (iff_known hw hfit).2.2.2.2 h' fuel hfuel

/-! ## C54 -/

/-- What opening reports about the sound. -/
theorem iff_same {f : AFmt} {hd : Handle} {D T file : List Byte} {s : IffRead} {n : Nat}
    (k : f.compression = 0 ∧ f.sampleFormat = 401 ∧ f.sampleWidth = 8 ∧ f.channels = 1 ∧ f.byteOrder = 501) (k2 : D.length = n)
    (hr' : IffReport f hd D T file s) :
    SameSound { f with rate := ((f.rate.floor % 65536 : Int) : Rat) } D n file s.t ∧
      s.t.fpp = 1 ∧ s.t.bpp = bytesPerFrame f := by
  obtain ⟨c1, c2, c3, c4, c5⟩ := k
  have hf := hr'.f
  refine ⟨⟨?_, by rw [hf]; exact c4.symm, by rw [hf]; exact c1.symm, fun _ => ?_, fun hne => absurd c1 hne,
    by rw [hr'.frames, k2], hr'.first, hr'.size, ?_⟩, hr'.fpp, ?_⟩
  · rw [hf]
    show (((f.rate.floor % 256 ^ 2).toNat : Nat) : Rat) = _
    have : (((f.rate.floor % 256 ^ 2).toNat : Nat) : Int) = f.rate.floor % 65536 := by omega
    rw [← Rat.intCast_natCast, this]
  · rw [hf]
    exact ⟨c2.symm, c3.symm, fun _ => c5.symm⟩
  · unfold audio
    rw [hr'.audio, hr'.size, Int.toNat_natCast, List.take_left]
  · rw [hr'.bpp]
    unfold bytesPerFrame
    rw [if_pos c1, c3, c4]
    rfl

/-- C54: an IFF file reads back as it was written, with the rate rounded down to a whole number and reduced modulo 65536. -/
theorem C54_iff_roundtrip (h h' : Endian) (ops : List Setup.Op) (o : Opened) (f : AFmt) (evs : List MEv) (file : List Byte)
    (x : IffObj) (hw : IffWritten h ops o f evs file x) (hfit : IffFits o evs file)
    (fuel : Nat) (hfuel : 3 + x.handle.misc.length ≤ fuel) :
    ∃ s p, iffRead h' fuel file 0 = .ok (s, p) ∧
      SameSound { f with rate := ((f.rate.floor % 65536 : Int) : Rat) } (dataOfM evs) (framesOfM evs) file s.t ∧
      s.t.fpp = 1 ∧ s.t.bpp = bytesPerFrame f := by
  obtain ⟨s, p, hs, hr'⟩ := iff_again hw hfit h' fuel hfuel
  obtain ⟨k1, k2, -⟩ := iff_known hw hfit
  exact ⟨s, p, hs, iff_same k1 k2 hr'⟩

/-- C54: so whole rates below 65536 survive. -/
theorem C54_rate_kept (f : AFmt) (r : Nat) (hr : r < 2 ^ 16) (hrate : f.rate = r) :
    { f with rate := ((f.rate.floor % 65536 : Int) : Rat) } = f := by
  have : f.rate.floor = r := by rw [hrate, ← Rat.intCast_natCast, Rat.floor_intCast]
  have e : ((f.rate.floor % 65536 : Int) : Rat) = f.rate := by
    rw [this, hrate, ← Rat.intCast_natCast]
    congr 1
    omega
  rw [e]

/-- In particular a file written at 96000 Hz is reported as one at 30464 Hz. -/
theorem C54_rate_96000 (h h' : Endian) (ops : List Setup.Op) (o : Opened) (f : AFmt) (evs : List MEv) (file : List Byte)
    (x : IffObj) (hw : IffWritten h ops o f evs file x) (hfit : IffFits o evs file) (hr : f.rate = 96000)
    (fuel : Nat) (hfuel : 3 + x.handle.misc.length ≤ fuel) :
    ∃ s p, iffRead h' fuel file 0 = .ok (s, p) ∧ s.t.f.rate = 30464 := by
  obtain ⟨s, p, hs, h1, -⟩ := C54_iff_roundtrip h h' ops o f evs file x hw hfit fuel hfuel
  refine ⟨s, p, hs, h1.rate.trans ?_⟩
  show ((f.rate.floor % 65536 : Int) : Rat) = _
  rw [hr]
  rfl

/-! ## C50 -/

theorem foldl_iffMisc (ms : List Misc) : ∀ acc : List Misc,
    ms.foldl iffMiscRead1 acc = (ms.filter (fun m => decide (m.type ∈ iffTypes))).foldl miscRead1 acc := by
  induction ms with
  | nil => intro; rfl
  | cons m ms ih =>
    intro acc
    rw [List.foldl_cons, ih, List.filter_cons]
    unfold iffMiscRead1
    by_cases ht : m.type ∈ iffTypes
    · rw [if_pos ht, if_pos (by simpa using ht), List.foldl_cons]
    · rw [if_neg ht, if_neg (by simpa using ht)]

/-- C50: the miscellaneous data of an IFF file is what the program had stored when it closed it, in the same order; ids
are given anew from 1. Items of size 0 and items that are not a copyright, author, name or annotation text are not
there any more. -/
theorem C50_iff_misc (h h' : Endian) (ops : List Setup.Op) (o : Opened) (f : AFmt) (evs : List MEv) (file : List Byte)
    (x : IffObj) (hw : IffWritten h ops o f evs file x) (hfit : IffFits o evs file) (fuel : Nat) (hfuel : 3 + x.handle.misc.length ≤ fuel) :
    ∃ s p, iffRead h' fuel file 0 = .ok (s, p) ∧
      s.misc.map miscContent =
        (x.handle.misc.filter (fun m => decide (m.size ≠ 0) && decide (m.type ∈ iffTypes))).map miscContent ∧
      ∀ i (hi : i < s.misc.length), s.misc[i].id = i + 1 := by
  obtain ⟨s, p, hs, hr⟩ := iff_again hw hfit h' fuel hfuel
  obtain ⟨-, -, k3, k4, -⟩ := iff_known hw hfit
  obtain ⟨h1, h2⟩ := foldl_misc (x.handle.misc.filter (fun m => decide (m.type ∈ iffTypes)))
    (fun m hm => over_sized k3.misc k4 m (List.mem_filter.1 hm).1) [] (by
    intro i hi; exact absurd hi (by simp))
  have hm := hr.misc
  rw [foldl_iffMisc] at hm
  rw [List.map_nil, List.nil_append, ← hm, List.filter_filter] at h1
  refine ⟨s, p, hs, h1, ?_⟩
  intro i hi
  have h3 := h2 i (by rw [← hm]; exact hi)
  simpa only [← hm] using h3

/-! ## C40 -/

/-- C40: an IFF file is the FORM header with the length of what follows, and chunks, the audio data being the last; each
chunk says how long it is and is padded to even length. -/
theorem C40_iff_even (h : Endian) (ops : List Setup.Op) (o : Opened) (f : AFmt) (evs : List MEv)
    (file : List Byte) (x : IffObj) (hw : IffWritten h ops o f evs file x) (hfit : IffFits o evs file) :
    ∃ cs : List (List Byte × List Byte), (∀ c ∈ cs, c.1.length = 4) ∧
      file = tag "FORM" ++ (leBytes 4 ((file.length : Int) - 8)).reverse ++ tag "8SVX" ++ cs.flatMap chunkBE ++
        chunkBE (tag "BODY", dataOfM evs) ∧
      ∀ k, (12 + ((cs.take k).flatMap chunkBE).length) % 2 = 0 := by
  obtain ⟨-, -, k3, k4, k5⟩ := iff_known hw hfit
  have hv : Chunks (iffVHDR h (iffTrackOf f (dataOfM evs).length)) := by
    obtain ⟨B, hB⟩ : ∃ B, iffVHDR h (iffTrackOf f (dataOfM evs).length) = tag "VHDR" ++ (fieldBytes h .big .s4 20 ++ B) := by
      unfold iffVHDR
      simp only [List.append_assoc]
      exact ⟨_, rfl⟩
    have hl := iffVHDR_length h (iffTrackOf f (dataOfM evs).length)
    have q1 : (tag "VHDR").length = 4 := rfl
    rw [hB, List.length_append, List.length_append, fieldBytes_length, q1, b4] at hl
    have hBl : B.length = 20 := by omega
    have := Chunks.one (id := tag "VHDR") (pad := []) h (x := 20) (body := B) rfl (by rw [hBl]; rfl) (by rw [hBl]; rfl)
    rw [hB]
    simpa only [List.append_nil] using this
  obtain ⟨cs, c1, c2⟩ := hv.append (chunks_misc iffMiscTag_length h (over_sized k3.misc k4))
  refine ⟨cs, c1, ?_, fun k => by have := chunks_even cs c1 k; omega⟩
  rw [← c2]
  refine k5.trans ?_
  unfold iffStart iffBody bodyPart iffMiscPart dataPad
  rw [s4_beBytes, s4_beBytes]
  unfold chunkBE
  have e1 : (iffTrackOf f (dataOfM evs).length).frames = (dataOfM evs).length := rfl
  have e2 : (if (dataOfM evs).length % 2 = 1 then [0] else [] : List Byte) = if (dataOfM evs).length % 2 = 0 then [] else [0] := by
    by_cases hh : (dataOfM evs).length % 2 = 0
    · rw [if_pos hh, if_neg (by omega)]
    · rw [if_neg hh, if_pos (by omega)]
  rw [e1, e2]
  simp only [List.append_assoc]

/-! ## C38, C51 -/

/-- A file whose first chunk says it has 2^32 - 8 bytes. -/
def iffEndless : List Byte :=
  tag "FORM" ++ [0xff, 0xff, 0xff, 0xff] ++ tag "8SVX" ++ tag "junk" ++ [0xff, 0xff, 0xff, 0xf8]

/-- C38 is false for IFF: opening this file never ends, however long one waits. -/
theorem C38_iff_endless (h : Endian) (fuel : Nat) : iffRead h fuel iffEndless 0 = .error .running := by
  unfold iffRead
  have e0 : iffEndless.drop 0 = tag "FORM" ++ (fieldBytes h .big .s4 (-1) ++ (tag "8SVX" ++ (tag "junk" ++
      (fieldBytes h .big .s4 (-8) ++ [])))) := by
    rw [s4_beBytes, s4_beBytes]
    decide +kernel
  have e1 := drop_step e0 (n := 4) rfl
  have e2 := drop_step e1 (fieldBytes_length _ _ _ _)
  rw [b4] at e2
  rw [Rd.bind_ok (a := ()) (p' := 0) rfl, Rd.bind_ok (Rd.read_ok (n := 4) e0 rfl), Rd.bind_ok (Rd.field_ok e1).2, b4,
    Rd.bind_ok (Rd.read_ok (n := 4) e2 rfl)]
  rw [if_neg (by decide)]
  refine Rd.bind_error ?_
  refine loop_forever ?_ fuel
  cases h <;> rfl

/-- C51 is false for IFF: the library opens a file without a VHDR chunk, with a format that is whatever was in memory. -/
theorem C51_iff_none (h : Endian) (fuel : Nat) :
    iffRead h (fuel + 1) (tag "FORM" ++ [0, 0, 0, 4] ++ tag "8SVX") 0 = .error .undefined := by
  cases h <;> rfl

/-! ## Concrete files -/

/-- The file made with given calls. -/
def iffDemo (h : Endian) (ops : List Setup.Op) (evs : List MEv) : Option (Opened × AFmt × List Byte × IffObj) :=
  match (openWrite h (Setup.run (newSetup h) ops)).2 with
  | none => none
  | some o =>
    match o.f with
    | [f] =>
      match iffSession h o f evs with
      | .ok (file, x) => some (o, f, file, x)
      | .error _ => none
    | _ => none

theorem iffDemo_written {h : Endian} {ops : List Setup.Op} {evs : List MEv} {P : Opened × AFmt × List Byte × IffObj → Bool}
    (hf : (Setup.run (newSetup h) ops).fileFormat = .iff) (hd : (iffDemo h ops evs).any P = true) :
    ∃ o f file x, IffWritten h ops o f evs file x ∧ P (o, f, file, x) = true := by
  unfold iffDemo at hd
  match ho : (openWrite h (Setup.run (newSetup h) ops)).2 with
  | none => rw [ho] at hd; cases hd
  | some o =>
    rw [ho] at hd
    match hof : o.f with
    | [] => simp only [hof] at hd; cases hd
    | f :: g :: l => simp only [hof] at hd; cases hd
    | [f] =>
      simp only [hof] at hd
      match hs : iffSession h o f evs with
      | .error e => simp only [hs] at hd; cases hd
      | .ok (file, x) =>
        simp only [hs, Option.any_some] at hd
        exact ⟨o, f, file, x, ⟨hf, ⟨(openWrite h (Setup.run (newSetup h) ops)).1, by rw [← ho]⟩, hof, hs⟩, hd⟩

/-- `IffFits`, computed. -/
def iffFitsB (o : Opened) (evs : List MEv) (file : List Byte) : Bool :=
  (∀ e ∈ evs, e.bytes.length = e.frames) ∧ framesOfM evs < 2 ^ 32 ∧ file.length < 2 ^ 32 ∧
  (∀ m ∈ o.handle.misc, 0 ≤ m.size ∧ m.size < 2 ^ 31)

theorem iffFits_of {o : Opened} {evs : List MEv} {file : List Byte} (h : iffFitsB o evs file = true) : IffFits o evs file := by
  unfold iffFitsB at h
  obtain ⟨h1, h2, h3, h4⟩ := of_decide_eq_true h
  exact ⟨h1, h2, h3, h4⟩

def iffOps (r : Rat) : List Setup.Op :=
  [.fileFormat 10, .rate 1001 r, .miscIDs [1, 2, 3], .miscType 1 203, .miscSize 1 5, .miscType 2 206, .miscSize 2 2, .miscType 3 204, .miscSize 3 3]
def iffEvs : List MEv :=
  [.ev (.data [1, 2, 3] 3), .call (.writeMisc 1 (tag "title")), .ev .sync, .ev (.data [7, 8] 2), .call (.writeMisc 3 (tag "abc"))]

/-- A file that meets the hypotheses: an odd number of frames, a sync in the middle, and a text of a type that is lost. -/
example : ∃ o f file x, IffWritten .little (iffOps 22050) o f iffEvs file x ∧ IffFits o iffEvs file ∧ f.rate = (22050 : Nat) ∧
    dataOfM iffEvs = [1, 2, 3, 7, 8] ∧
    x.handle.misc.map miscContent = [(203, 5, tag "title"), (206, 2, [0, 0]), (204, 3, tag "abc")] := by
  obtain ⟨o, f, file, x, hw, hp⟩ := iffDemo_written (h := .little) (ops := iffOps 22050) (evs := iffEvs) (P := fun r =>
    iffFitsB r.1 iffEvs r.2.2.1 = true ∧ r.2.1.rate = (22050 : Nat) ∧
    r.2.2.2.handle.misc.map miscContent = [(203, 5, tag "title"), (206, 2, [0, 0]), (204, 3, tag "abc")]) (by decide) (by decide +kernel)
  obtain ⟨h1, h2, h3⟩ := of_decide_eq_true hp
  exact ⟨o, f, file, x, hw, iffFits_of h1, h2, rfl, h3⟩

/-- One at 96000 Hz. -/
example : ∃ o f file x, IffWritten .little (iffOps 96000) o f iffEvs file x ∧ IffFits o iffEvs file ∧ f.rate = 96000 := by
  obtain ⟨o, f, file, x, hw, hp⟩ := iffDemo_written (h := .little) (ops := iffOps 96000) (evs := iffEvs) (P := fun r =>
    iffFitsB r.1 iffEvs r.2.2.1 = true ∧ r.2.1.rate = 96000) (by decide) (by decide +kernel)
  obtain ⟨h1, h2⟩ := of_decide_eq_true hp
  exact ⟨o, f, file, x, hw, iffFits_of h1, h2⟩

end AF.Files
