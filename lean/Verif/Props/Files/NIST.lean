import Verif.Proof.Files.NIST
import Verif.Props.Files.Simple
/-!
# C61: NIST SPHERE files

A file is written by a program that made any calls `ops` on a new setup, opened a NIST file with it (which gave the
track the format `f`), wrote data and synced in any order (`evs`), and closed the file.
-/
namespace AF.Files
open AF AF.Setup AF.Spec.Files

/-- An accepted setup whose header is defined, the file it leads to, and what opening a file with that header gives. -/
theorem nist_session_any (h h' : Endian) (ops : List Op) (s' : Setup) (o : Opened) (f : AFmt)
    (hfmt : (run (newSetup h) ops).fileFormat = .nist)
    (ho : openWrite h (run (newSetup h) ops) = (s', some o)) (hf : o.f = [f])
    (hch : f.channels < 2 ^ 31) (hr : f.rate < 2 ^ 31) (hw : f.compression = NONE ∨ 9 ≤ f.sampleWidth) (evs : List Ev) :
    1 ≤ f.sampleWidth ∧ f.sampleWidth ≤ 16 ∧ f.sampleFormat = TWOSCOMP ∧ f.compression ∈ [0, 502, 503] ∧
    nistBytes f = (if f.compression = NONE ∧ 9 ≤ f.sampleWidth then 2 else 1) ∧ Legal f ∧
    ∃ (s : Disk × Trk × Unit) (t : Trk), nistInit f = some s ∧ t.f = f ∧ t.frames = framesOf evs ∧
      session nistUpdate s evs = nistHeader t ++ dataOf evs ∧ (nistHeader t).length = 1024 ∧
      ∀ D, NistOutcome h' t D (nistRead h' (nistHeader t ++ D) 0) := by
  obtain ⟨tr, ht, hid, hl, hF, hlf, hc⟩ := opened ho hf
  obtain ⟨h0, h1, h2, h3, h4⟩ := nist_accepted ht hid hF hfmt hl hc
  have hfr : 0 ≤ toUnsigned f.rate ∧ toUnsigned f.rate < 2 ^ 31 := by
    unfold toUnsigned
    constructor
    · exact Rat.le_floor_iff.2 (by have := hlf.rate; simpa using Rat.le_of_lt this)
    · have k := Rat.floor_lt_iff (a := f.rate) (x := 2 ^ 31)
      have e : (((2 ^ 31 : Int)) : Rat) = 2 ^ 31 := by decide +kernel
      rw [e] at k
      exact k.2 hr
  have hsz : sampleSizeUncompressed f false = if 9 ≤ f.sampleWidth then 2 else 1 := by
    unfold sampleSizeUncompressed
    rw [h1]
    have e : (f.sampleWidth + 7).tdiv 8 = (f.sampleWidth + 7) / 8 := Int.tdiv_eq_ediv_of_nonneg (by omega)
    simp only [FLOAT, DOUBLE, e]
    rw [if_neg (by decide), if_neg (by decide), if_neg (by simp)]
    split <;> omega
  have hb : nistBytes f = (if f.compression = NONE ∧ 9 ≤ f.sampleWidth then 2 else 1) := by
    unfold nistBytes
    rw [hsz]
    by_cases hz : f.compression = NONE
    · rw [if_pos hz]; simp [hz]
    · have hq : ¬ (f.compression = NONE ∧ 9 ≤ f.sampleWidth) := fun hq => hz hq.1
      rw [if_neg hz, if_neg hq, if_pos (hw.resolve_left hz)]; rfl
  have hb' : nistBytes f = 1 ∨ nistBytes f = 2 := by
    rw [hb]; split
    · exact .inr rfl
    · exact .inl rfl
  have hi : ∀ t : Trk, t.f = f → NistInts t := by
    intro t ht
    subst ht
    refine ⟨⟨?_, hch⟩, ⟨?_, hfr.2⟩, ?_, ?_⟩
    · have := hlf.channels; omega
    · omega
    · omega
    · omega
  have hdef : nistDefined f = true := by
    unfold nistDefined
    rw [Bool.and_eq_true, Bool.or_eq_true, decide_eq_true_eq, decide_eq_true_eq, decide_eq_true_eq]
    exact ⟨hb', hfr.2⟩
  obtain ⟨s, t, e1, e2, e3, e4⟩ := nist_file f hi hdef evs
  refine ⟨h2, h3, h1, h4, hb, hlf, s, t, e1, e2, e3, e4, nistHeader_length (hi t e2), fun D => ?_⟩
  exact nist_read h' t (hi t e2) (by rw [e2]; exact hb') (by rw [e2]; exact hlf.channels) (by rw [e2]; omega)
    (by rw [e2]; exact h4) D

/-- An accepted setup whose header is defined, the file it leads to, and what opening that file gives. -/
theorem nist_session (h h' : Endian) (ops : List Op) (s' : Setup) (o : Opened) (f : AFmt)
    (hfmt : (run (newSetup h) ops).fileFormat = .nist)
    (ho : openWrite h (run (newSetup h) ops) = (s', some o)) (hf : o.f = [f])
    (hch : f.channels < 2 ^ 31) (hr : f.rate < 2 ^ 31) (hw : f.compression = NONE ∨ 9 ≤ f.sampleWidth) (evs : List Ev) :
    1 ≤ f.sampleWidth ∧ f.sampleWidth ≤ 16 ∧ f.sampleFormat = TWOSCOMP ∧ f.compression ∈ [0, 502, 503] ∧
    nistBytes f = (if f.compression = NONE ∧ 9 ≤ f.sampleWidth then 2 else 1) ∧ Legal f ∧
    ∃ (s : Disk × Trk × Unit) (t : Trk), nistInit f = some s ∧ t.f = f ∧ t.frames = framesOf evs ∧
      session nistUpdate s evs = nistHeader t ++ dataOf evs ∧ (nistHeader t).length = 1024 ∧
      NistOutcome h' t (dataOf evs) (nistRead h' (session nistUpdate s evs) 0) := by
  obtain ⟨w1, w2, h1, h4, hb, hlf, s, t, e1, e2, e3, e4, e5, e6⟩ := nist_session_any h h' ops s' o f hfmt ho hf hch hr hw evs
  exact ⟨w1, w2, h1, h4, hb, hlf, s, t, e1, e2, e3, e4, e5, by rw [e4]; exact e6 _⟩

/-- What a file with the header of `n` frames and the data `D` reads back as. -/
theorem nist_sound {h' : Endian} {f : AFmt} {t : Trk} {D : List Byte} {n : Nat} (hr1 : 1 ≤ f.rate) (hw : 9 ≤ f.sampleWidth)
    (w2 : f.sampleWidth ≤ 16) (h1 : f.sampleFormat = TWOSCOMP)
    (hb : nistBytes f = (if f.compression = NONE ∧ 9 ≤ f.sampleWidth then 2 else 1)) (hlf : Legal f) (e2 : t.f = f)
    (e3 : t.frames = n) (hsz : n < 2 ^ 31) (e5 : (nistHeader t).length = 1024)
    (e6 : NistOutcome h' t D (nistRead h' (nistHeader t ++ D) 0)) :
    ∃ u p, nistRead h' (nistHeader t ++ D) 0 = .ok (u, p) ∧ SameSound (wholeRate f) D n (nistHeader t ++ D) u ∧
      (f.compression ≠ NONE → u.f.byteOrder = native h') := by
  have hpos : 0 < toUnsigned t.f.rate := by
    rw [e2]
    exact Int.lt_of_lt_of_le (by decide) (show (1 : Int) ≤ f.rate.floor from Rat.le_floor_iff.2 hr1)
  obtain ⟨u, p, e7, g⟩ := e6.1 hpos
  refine ⟨u, p, e7, ?_, fun hz => by
    have k := g.machine
    rw [e2, hb, if_neg (fun q => hz q.1)] at k
    exact k rfl⟩
  have q1 : ¬ (f.compression = NONE ∧ nistBytes f = 1) := by
    rintro ⟨q, q'⟩
    rw [hb, if_pos ⟨q, hw⟩] at q'
    omega
  refine ⟨by rw [g.rate, e2]; rfl, by rw [g.channels, e2]; rfl, by rw [g.compression, e2, if_neg q1]; rfl, ?_, ?_, ?_,
    by rw [g.first]; decide, g.size, ?_⟩
  · intro hz
    change f.compression = NONE at hz
    show u.f.sampleFormat = f.sampleFormat ∧ u.f.sampleWidth = f.sampleWidth ∧ (8 < f.sampleWidth → u.f.byteOrder = f.byteOrder)
    have hb2 : nistBytes f = 2 := by rw [hb, if_pos ⟨hz, hw⟩]
    refine ⟨by rw [g.format, h1], ?_, fun _ => by
      have k := g.order
      rw [e2] at k
      exact k hb2 hlf.order⟩
    have e : (f.sampleWidth + 7).tdiv 8 = 2 := by
      rw [Int.tdiv_eq_ediv_of_nonneg (by omega)]; omega
    rw [g.width, e2, if_pos ⟨hz, hb2, e⟩]
  · intro hz
    exact ⟨g.format, by rw [g.width, e2, if_neg (fun q => hz q.1)]⟩
  · rw [g.frames, e3]
    exact wrapS_id (by omega) (by omega)
  · unfold audio
    rw [g.first, g.size, show (1024 : Int).toNat = 1024 from rfl, List.drop_left' e5, Int.toNat_natCast, List.take_length]

/-- C61: files with samples of 9 to 16 bits (uncompressed, µ-law or A-law), a rate of at least 1 and fewer than 2^31 frames
read back as they were written, with the rate rounded down to a whole number. -/
theorem C61_nist_roundtrip (h h' : Endian) (ops : List Op) (s' : Setup) (o : Opened) (f : AFmt)
    (hfmt : (run (newSetup h) ops).fileFormat = .nist)
    (ho : openWrite h (run (newSetup h) ops) = (s', some o)) (hf : o.f = [f])
    (hch : f.channels < 2 ^ 31) (hr : f.rate < 2 ^ 31) (hr1 : 1 ≤ f.rate) (hw : 9 ≤ f.sampleWidth)
    (evs : List Ev) (hsz : framesOf evs < 2 ^ 31) :
    ∃ s t p, nistInit f = some s ∧ nistRead h' (session nistUpdate s evs) 0 = .ok (t, p) ∧
      SameSound (wholeRate f) (dataOf evs) (framesOf evs) (session nistUpdate s evs) t ∧
      (f.compression ≠ NONE → t.f.byteOrder = native h') := by
  obtain ⟨w1, w2, h1, h4, hb, hlf, s, t, e1, e2, e3, e4, e5, e6⟩ := nist_session h h' ops s' o f hfmt ho hf hch
    hr (.inr hw) evs
  rw [e4] at e6
  obtain ⟨u, p, g1, g2⟩ := nist_sound hr1 hw w2 h1 hb hlf e2 e3 hsz e5 e6
  exact ⟨s, u, p, e1, by rw [e4]; exact g1, by rw [e4]; exact g2⟩

/-- C61: uncompressed samples of 1 to 8 bits are written as they are, but the file opens as µ-law. -/
theorem C61_narrow_pcm_read_as_ulaw (h h' : Endian) (ops : List Op) (s' : Setup) (o : Opened) (f : AFmt)
    (hfmt : (run (newSetup h) ops).fileFormat = .nist)
    (ho : openWrite h (run (newSetup h) ops) = (s', some o)) (hf : o.f = [f])
    (hch : f.channels < 2 ^ 31) (hr : f.rate < 2 ^ 31) (hr1 : 1 ≤ f.rate) (hz : f.compression = NONE) (hw : f.sampleWidth ≤ 8)
    (evs : List Ev) :
    ∃ s t p, nistInit f = some s ∧ nistRead h' (session nistUpdate s evs) 0 = .ok (t, p) ∧
      t.f.compression = ULAW ∧ t.f.sampleWidth = 16 ∧ audio (session nistUpdate s evs) t = dataOf evs := by
  obtain ⟨w1, w2, h1, h4, hb, hlf, s, t, e1, e2, e3, e4, e5, e6⟩ := nist_session h h' ops s' o f hfmt ho hf hch hr (.inl hz) evs
  have hpos : 0 < toUnsigned t.f.rate := by
    rw [e2]
    exact Int.lt_of_lt_of_le (by decide) (show (1 : Int) ≤ f.rate.floor from Rat.le_floor_iff.2 hr1)
  obtain ⟨u, p, e7, g⟩ := e6.1 hpos
  have hb1 : nistBytes f = 1 := by rw [hb, if_neg (by omega)]
  refine ⟨s, u, p, e1, e7, by rw [g.compression, e2, if_pos ⟨hz, hb1⟩], by rw [g.width, e2, if_neg (by omega)], ?_⟩
  unfold audio
  rw [g.first, g.size, e4, show (1024 : Int).toNat = 1024 from rfl, List.drop_left' e5, Int.toNat_natCast, List.take_length]

/-- C61: µ-law or A-law with a declared sample width of 1 to 8 bits is accepted, and opening the file for writing passes a null
pointer to `snprintf`. -/
theorem C61_narrow_g711_undefined (h : Endian) (ops : List Op) (s' : Setup) (o : Opened) (f : AFmt)
    (hfmt : (run (newSetup h) ops).fileFormat = .nist)
    (ho : openWrite h (run (newSetup h) ops) = (s', some o)) (hf : o.f = [f])
    (hz : f.compression ≠ NONE) (hw : f.sampleWidth ≤ 8) : nistInit f = none := by
  obtain ⟨tr, ht, hid, hl, hF, hlf, hc⟩ := opened ho hf
  obtain ⟨h0, h1, h2, h3, h4⟩ := nist_accepted ht hid hF hfmt hl hc
  have hb : nistBytes f = 0 := by
    unfold nistBytes sampleSizeUncompressed
    rw [h1]
    have e : (f.sampleWidth + 7).tdiv 8 = 1 := by
      rw [Int.tdiv_eq_ediv_of_nonneg (by omega)]; omega
    simp only [FLOAT, DOUBLE, e]
    rw [if_neg hz, if_neg (by decide), if_neg (by decide), if_neg (by simp)]
    rfl
  unfold nistInit nistDefined
  rw [hb]
  rfl

/-- C61: a rate below one is accepted, written as zero, and the file cannot be opened any more. -/
theorem C61_small_rate_lost (h h' : Endian) (ops : List Op) (s' : Setup) (o : Opened) (f : AFmt)
    (hfmt : (run (newSetup h) ops).fileFormat = .nist)
    (ho : openWrite h (run (newSetup h) ops) = (s', some o)) (hf : o.f = [f])
    (hch : f.channels < 2 ^ 31) (hr : f.rate < 1) (hw : f.compression = NONE ∨ 9 ≤ f.sampleWidth) (evs : List Ev) :
    ∃ s, nistInit f = some s ∧ nistRead h' (session nistUpdate s evs) 0 = .error .fail := by
  obtain ⟨w1, w2, h1, h4, hb, hlf, s, t, e1, e2, e3, e4, e5, e6⟩ := nist_session h h' ops s' o f hfmt ho hf hch
    (Std.lt_trans hr (by decide +kernel)) hw evs
  refine ⟨s, e1, e6.2 ?_⟩
  rw [e2]
  have k := Rat.floor_lt_iff (a := f.rate) (x := 1)
  have := k.2 (by simpa using hr)
  unfold toUnsigned
  omega

/-- C61: from 2^31 frames on the file opens with another frame count. -/
theorem C61_count_wraps (h h' : Endian) (ops : List Op) (s' : Setup) (o : Opened) (f : AFmt)
    (hfmt : (run (newSetup h) ops).fileFormat = .nist)
    (ho : openWrite h (run (newSetup h) ops) = (s', some o)) (hf : o.f = [f])
    (hch : f.channels < 2 ^ 31) (hr : f.rate < 2 ^ 31) (hr1 : 1 ≤ f.rate) (hw : f.compression = NONE ∨ 9 ≤ f.sampleWidth)
    (evs : List Ev) (hsz : 2 ^ 31 ≤ framesOf evs) :
    ∃ s t p, nistInit f = some s ∧ nistRead h' (session nistUpdate s evs) 0 = .ok (t, p) ∧ t.frames < 2 ^ 31 ∧
      t.frames ≠ framesOf evs := by
  obtain ⟨w1, w2, h1, h4, hb, hlf, s, t, e1, e2, e3, e4, e5, e6⟩ := nist_session h h' ops s' o f hfmt ho hf hch hr hw evs
  have hpos : 0 < toUnsigned t.f.rate := by
    rw [e2]
    exact Int.lt_of_lt_of_le (by decide) (show (1 : Int) ≤ f.rate.floor from Rat.le_floor_iff.2 hr1)
  obtain ⟨u, p, e7, g⟩ := e6.1 hpos
  have k := wrap32_range t.frames
  exact ⟨s, u, p, e1, e7, by rw [g.frames]; exact k.2, by rw [g.frames]; omega⟩

/-- C61: opening a file with a key but no number behind it uses a variable that was never assigned. -/
theorem C61_missing_number_undefined (h : Endian) :
    nistRead h (nistMagic ++ tag "channel_count -i x\n" ++ List.replicate 989 32) 0 = .error .undefined := by
  cases h <;> decide +kernel

/-- Setups that are accepted. -/
def nistWide : List Op := [.fileFormat 13, .channels 1001 2, .rate 1001 16000, .sampleFormat 1001 401 12]
def nistNarrow : List Op := [.fileFormat 13, .channels 1001 1, .rate 1001 8000, .sampleFormat 1001 401 8]
def nistNarrowLaw : List Op := [.fileFormat 13, .channels 1001 1, .rate 1001 8000, .sampleFormat 1001 401 8, .compression 1001 502]
def nistSlow : List Op := [.fileFormat 13, .channels 1001 1, .rate 1001 ⟨1, 2, by decide, by decide⟩]

example : ∃ s' o f, openWrite .little (run (newSetup .little) nistWide) = (s', some o) ∧ o.f = [f] ∧
    (run (newSetup .little) nistWide).fileFormat = .nist ∧ f.rate = (16000 : Nat) ∧ f.channels < 2 ^ 31 ∧ 9 ≤ f.sampleWidth := by
  refine ⟨_, _, _, rfl, rfl, ?_⟩
  decide +kernel

example : ∃ s' o f, openWrite .big (run (newSetup .big) nistNarrow) = (s', some o) ∧ o.f = [f] ∧
    (run (newSetup .big) nistNarrow).fileFormat = .nist ∧ f.rate < 2 ^ 31 ∧ 1 ≤ f.rate ∧ f.channels < 2 ^ 31 ∧ f.sampleWidth ≤ 8 ∧
    f.compression = NONE := by
  refine ⟨_, _, _, rfl, rfl, ?_⟩
  decide +kernel

example : ∃ s' o f, openWrite .big (run (newSetup .big) nistNarrowLaw) = (s', some o) ∧ o.f = [f] ∧
    (run (newSetup .big) nistNarrowLaw).fileFormat = .nist ∧ f.sampleWidth ≤ 8 ∧ f.compression ≠ NONE := by
  refine ⟨_, _, _, rfl, rfl, ?_⟩
  decide +kernel

example : ∃ s' o f, openWrite .big (run (newSetup .big) nistSlow) = (s', some o) ∧ o.f = [f] ∧
    (run (newSetup .big) nistSlow).fileFormat = .nist ∧ f.rate < 1 ∧ f.channels < 2 ^ 31 := by
  refine ⟨_, _, _, rfl, rfl, ?_⟩
  decide +kernel

/-- The histories of `C61_count_wraps`. -/
example : 2 ^ 31 ≤ framesOf [.data [] (2 ^ 31), .sync] := by decide

end AF.Files
