import Verif.Proof.Program
import Verif.Props.Files.Formats
import Verif.Props.Files.Identify
import Verif.Props.Files.SampleVision
import Verif.Props.Files.NIST
/-!
# C67: what one program writes, another reads

From the calls of a program that writes a file, through the conversion chain, the codec and the file format, to the bytes of the
file; from these, on any machine, through the recognition of the format, the header, the codec and the chain, to the calls of a
program that reads it.
-/
namespace AF.Program
open AF AF.Setup AF.Files AF.Convert AF.Spec AF.Virtual AF.Spec.Setup AF.Spec.Formats AF.Spec.Files AF.Spec.Program

/-- The program's side: a track of format `f` (uncompressed, or G.711 with a format the codec accepts) in which sample values have
their usual meaning, a virtual format `v` that this is about, and frames that fit it. -/
structure Recorded (h : Endian) (f : AFmt) (v : Fmt) (calls : List Call) : Prop where
  codec : f.compression = NONE ∨ f.compression = ULAW ∨ f.compression = ALAW
  accepted : codecCheck h f = some f
  mapping : f.pcm = defaultMapping f.sampleFormat f.sampleWidth
  usable : Usable h f v
  fits : ∀ fr ∈ written calls, Fits f v fr

theorem Recorded.sixteen {h f v calls} (r : Recorded h f v calls) (hz : f.compression ≠ NONE) : f.sampleFormat = TWOSCOMP ∧ f.sampleWidth = 16 := by
  obtain ⟨-, h2, -⟩ := codecCheck_some r.accepted
  rcases h2 with h2 | h2
  · exact absurd h2 hz
  · have hc := r.codec
    cases h2 with
    | pcm c o => exact absurd c hz
    | sixteen c s w o => exact ⟨s, w⟩
    | alac c s w o => rw [c] at hc; simp only [NONE, ULAW, ALAW, ALAC] at hc; omega

theorem dataOfM_mevents (h : Endian) (fm : Module → List Byte → List Byte) (v : Fmt) (f : AFmt) (calls : List Call) :
    dataOfM (mevents h fm v f calls) = (written calls).flatMap (frameBytes h fm v f) ∧
    framesOfM (mevents h fm v f calls) = (written calls).length := by
  induction calls with
  | nil => exact ⟨rfl, rfl⟩
  | cons c calls ih =>
    obtain ⟨h1, h2⟩ := ih
    unfold dataOfM framesOfM mevents written at *
    rw [List.map_cons, List.flatMap_cons, List.flatMap_cons, List.map_cons, List.sum_cons, List.flatMap_append, List.length_append, h1, h2]
    cases c <;> exact ⟨rfl, rfl⟩

theorem dataOf_events (h : Endian) (fm : Module → List Byte → List Byte) (v : Fmt) (f : AFmt) (calls : List Call) :
    dataOf (events h fm v f calls) = (written calls).flatMap (frameBytes h fm v f) ∧
    framesOf (events h fm v f calls) = (written calls).length := by
  obtain ⟨h1, h2⟩ := dataOfM_mevents h fm v f calls
  rw [← h1, ← h2]
  unfold events dataOf framesOf dataOfM framesOfM
  generalize mevents h fm v f calls = ms
  induction ms with
  | nil => exact ⟨rfl, rfl⟩
  | cons m ms ih =>
    obtain ⟨i1, i2⟩ := ih
    cases m with
    | ev e =>
      rw [List.filterMap_cons]
      dsimp only
      rw [List.flatMap_cons, List.flatMap_cons, List.map_cons, List.map_cons, List.sum_cons, List.sum_cons, i1, i2]
      exact ⟨rfl, rfl⟩
    | call op =>
      rw [List.filterMap_cons]
      dsimp only
      rw [List.flatMap_cons, List.map_cons, List.sum_cons, i1, i2]
      exact ⟨rfl, (Nat.zero_add _).symm⟩

theorem packetSize_eq {f : AFmt} (hl : Legal f) : packetSize f = bytesPerFrame f := by
  have := width_bytes hl.sample
  have hc := hl.channels
  unfold packetSize bytesPerFrame
  rw [chain_bytes hl.sample]
  split
  · rw [Int.toNat_mul (by omega) (by omega)]
  · rfl

/-- Each frame takes the bytes that it should. -/
theorem recorded_size {h : Endian} {f : AFmt} {v : Fmt} {calls : List Call} (fm : Module → List Byte → List Byte)
    (r : Recorded h f v calls) (hl : Legal f) :
    ((written calls).flatMap (frameBytes h fm v f)).length = (written calls).length * bytesPerFrame f := by
  have hps := packetSize_eq hl
  have hf := r.fits
  generalize written calls = frames at hf
  induction frames with
  | nil => simp
  | cons a l ih =>
    rw [List.flatMap_cons, List.length_append, ih fun b hb => hf b (List.mem_cons_of_mem _ hb), List.length_cons, Nat.add_mul,
      (frame_back h h fm r.codec r.sixteen hl.sample r.mapping hl.sample r.mapping rfl rfl rfl rfl (fun _ _ => rfl) r.usable r.usable
        (hf a List.mem_cons_self)).1, hps]
    omega

/-- Opening a file that was recognised and whose header was read. -/
theorem openRead_same (F32 : Files.Float32) (F64 : Files.Float64) (rnd : Rat → Dbl) (h' : Endian) (fuel : Nat) {u : FileFormat} {file : List Byte}
    {t : Trk} {p : Nat} {F : AFmt} {D : List Byte} {n : Nat} (hid : identify file 0 = .ok (some u, 0))
    (hrd : readInit F32 F64 rnd h' fuel u file 0 = .ok (t, p)) (hs : SameSound F D n file t)
    (hc : F.compression = NONE ∨ F.compression = ULAW ∨ F.compression = ALAW)
    (ho : u = .nist → F.compression ≠ NONE → t.f.byteOrder = native h') :
    openRead F32 F64 rnd h' fuel file 0 = .ok (t, p) ∧ LegalWidth t.f.sampleFormat t.f.sampleWidth ∧
    t.f.pcm = defaultMapping t.f.sampleFormat t.f.sampleWidth := by
  obtain ⟨hwf, -, -, hl, -, hm⟩ := readInit_post F32 F64 rnd h' fuel u file 0 t p hrd
  refine ⟨?_, hl, hm⟩
  have hcheck : codecCheck h' t.f = some t.f := by
    unfold codecCheck
    by_cases hz : t.f.compression = NONE
    · rw [if_pos hz]
    · have hzF : F.compression ≠ NONE := by rw [← hs.compression]; exact hz
      obtain ⟨a, b⟩ := hs.decoded hzF
      have hg : t.f.compression = ULAW ∨ t.f.compression = ALAW := by
        rw [hs.compression]
        rcases hc with c | c
        · exact absurd c hzF
        · exact c
      have hord : t.f.byteOrder = native h' := by
        by_cases hu : u = .nist
        · exact ho hu hzF
        · cases (hwf hu).coded with
          | pcm c o => exact absurd c hz
          | sixteen c s w o => exact o
          | alac c s w o => exact o
      rw [if_neg hz, if_pos hg, if_neg (by omega), if_neg (by omega)]
  unfold openRead
  rw [Rd.bind_ok hid]
  dsimp only
  rw [Rd.bind_ok hrd, hcheck]
  rfl

/-- The common end of the proofs: a file that was recognised and whose header reads back plays back. -/
theorem open_plays (F32 : Files.Float32) (F64 : Files.Float64) (rnd : Rat → Dbl) (h h' : Endian) (fm : Module → List Byte → List Byte) (fuel : Nat)
    {u : FileFormat} {file : List Byte} {t : Trk} {p : Nat} {f F : AFmt} {v : Fmt} {calls : List Call} {D : List Byte} {n : Nat}
    (r : Recorded h f v calls) (hl : Legal f) (hF : Agrees F f)
    (hid : identify file 0 = .ok (some u, 0)) (hrd : readInit F32 F64 rnd h' fuel u file 0 = .ok (t, p)) (hs : SameSound F D n file t)
    (hD : D = (written calls).flatMap (frameBytes h fm v f)) (hn : n = (written calls).length)
    (ho : u = .nist → f.compression ≠ NONE → t.f.byteOrder = native h') :
    ∃ t p, openRead F32 F64 rnd h' fuel file 0 = .ok (t, p) ∧ t.f.rate = F.rate ∧ PlaysBack h' fm f v (written calls) file t := by
  obtain ⟨h1, h2, h3⟩ := openRead_same F32 F64 rnd h' fuel hid hrd hs (by rw [hF.compression]; exact r.codec)
    (by rw [hF.compression]; exact ho)
  subst hD
  exact ⟨t, p, h1, hs.rate, plays_back h h' fm r.codec r.sixteen hl.channels hl.sample r.mapping h2 h3 hF hs hn r.usable r.fits⟩

theorem agrees_rate (f : AFmt) (r : Rat) : Agrees { f with rate := r } f := ⟨rfl, rfl, rfl, rfl, fun _ => rfl⟩

theorem agrees_bytes {f : AFmt} : Agrees (wholeBytes (wholeRate f)) f := by
  unfold wholeBytes
  split
  · exact ⟨rfl, rfl, rfl, by show ((f.sampleWidth + 7) / 8 * 8 + 7) / 8 = (f.sampleWidth + 7) / 8; omega, fun _ => rfl⟩
  · exact ⟨rfl, rfl, rfl, rfl, fun _ => rfl⟩

variable (F32 : Files.Float32) (F64 : Files.Float64) (rnd : Rat → Dbl) (h h' : Endian) (fm : Module → List Byte → List Byte)

/-- C67, NeXT/Sun: a file with sound in it. -/
theorem C67_next (ops : List Op) (s' : Setup) (o : Opened) (f : AFmt) (v : Fmt) (calls : List Call)
    (hfmt : (run (newSetup h) ops).fileFormat = .next)
    (ho : openWrite h (run (newSetup h) ops) = (s', some o)) (hf : o.f = [f]) (hr : f.rate < 2 ^ 32) (hch : f.channels < 2 ^ 31)
    (r : Recorded h f v calls) (hne : written calls ≠ []) (hsz : (written calls).length * bytesPerFrame f < 2 ^ 32 - 1) (fuel : Nat) :
    ∃ t p, openRead F32 F64 rnd h' fuel (session (nextUpdate h) (nextInit h f) (events h fm v f calls)) 0 = .ok (t, p) ∧
      t.f.rate = (f.rate.floor : Rat) ∧
      PlaysBack h' fm f v (written calls) (session (nextUpdate h) (nextInit h f) (events h fm v f calls)) t := by
  obtain ⟨tr, -, -, -, -, hlf, -⟩ := opened ho hf
  obtain ⟨d1, d2⟩ := dataOf_events h fm v f calls
  have hlen := recorded_size fm r hlf
  have hb : 0 < bytesPerFrame f := by
    have := width_bytes hlf.sample
    have := hlf.channels
    unfold bytesPerFrame
    split
    · rw [Int.toNat_mul (by omega) (by omega)]
      exact Nat.mul_pos (by omega) (by omega)
    · omega
  obtain ⟨t, p, h1, h2⟩ := C32_next_roundtrip h h' ops s' o f hfmt ho hf hr hch (events h fm v f calls) (by rw [d1, d2, hlen])
    (by
      intro e
      rw [d1] at e
      rw [e] at hlen
      have : 0 < (written calls).length := List.length_pos_iff.2 hne
      have := Nat.mul_pos this hb
      rw [List.length_nil] at hlen
      omega) (by rw [d1, hlen]; exact hsz)
  exact open_plays F32 F64 rnd h h' fm fuel (u := .next) r hlf (agrees_rate f _) (C39_written_simple h f _ 0).1 h1 h2 d1 d2 (fun e => by cases e)

/-- C67, AVR: at most two channels and rates below 2^24. -/
theorem C67_avr (name : List Byte) (ops : List Op) (s' : Setup) (o : Opened) (f : AFmt) (v : Fmt) (calls : List Call)
    (hfmt : (run (newSetup h) ops).fileFormat = .avr)
    (ho : openWrite h (run (newSetup h) ops) = (s', some o)) (hf : o.f = [f]) (hr : f.rate < 2 ^ 24) (hch : f.channels ≤ 2)
    (r : Recorded h f v calls) (hsz : (written calls).length < 2 ^ 32) (fuel : Nat) :
    ∃ t p, openRead F32 F64 rnd h' fuel (session (avrUpdate h) (avrInit h name f) (events h fm v f calls)) 0 = .ok (t, p) ∧
      t.f.rate = (f.rate.floor : Rat) ∧
      PlaysBack h' fm f v (written calls) (session (avrUpdate h) (avrInit h name f) (events h fm v f calls)) t := by
  obtain ⟨tr, -, -, -, -, hlf, -⟩ := opened ho hf
  obtain ⟨d1, d2⟩ := dataOf_events h fm v f calls
  obtain ⟨t, p, h1, h2⟩ := C33_avr_roundtrip h h' name ops s' o f hfmt ho hf hr hch (events h fm v f calls)
    (by rw [d1, d2, recorded_size fm r hlf]) (by rw [d2]; exact hsz)
  exact open_plays F32 F64 rnd h h' fm fuel (u := .avr) r hlf (agrees_rate f _) ((C39_written_simple h f _ 0).2.1 name) h1 h2 d1 d2
    (fun e => by cases e)

/-- C67, IRCAM: in the byte order of the writing machine (the rate is rounded to single precision). -/
theorem C67_ircam (ops : List Op) (s' : Setup) (o : Opened) (f : AFmt) (v : Fmt) (calls : List Call)
    (hfmt : (run (newSetup h) ops).fileFormat = .ircam)
    (ho : openWrite h (run (newSetup h) ops) = (s', some o)) (hf : o.f = [f]) (hord : f.byteOrder = native h)
    (r : Recorded h f v calls) (hsz : (written calls).length * bytesPerFrame f < 2 ^ 63) (fuel : Nat) :
    ∃ s t p, ircamInit F32 h f = some s ∧
      openRead F32 F64 rnd h' fuel (session ircamUpdate s (events h fm v f calls)) 0 = .ok (t, p) ∧
      t.f.rate = F32.dec (F32.enc f.rate) ∧ PlaysBack h' fm f v (written calls) (session ircamUpdate s (events h fm v f calls)) t := by
  obtain ⟨tr, -, -, -, -, hlf, -⟩ := opened ho hf
  obtain ⟨d1, d2⟩ := dataOf_events h fm v f calls
  have hlen := recorded_size fm r hlf
  obtain ⟨s, t, p, h0, h1, h2⟩ := C49_ircam_roundtrip F32 h h' ops s' o f hfmt ho hf (events h fm v f calls)
    (by rw [d1, d2, hlen]) (by rw [d1, hlen]; exact hsz)
  obtain ⟨t', p', g⟩ := open_plays F32 F64 rnd h h' fm fuel (u := .ircam) r hlf (F := { f with byteOrder := native h, rate := F32.dec (F32.enc f.rate) })
    ⟨rfl, rfl, rfl, rfl, fun _ => hord.symm⟩ ((C39_written_simple h f _ 0).2.2.1 F32 s h0) h1 h2 d1 d2 (fun e => by cases e)
  exact ⟨s, t', p', h0, g⟩

/-- C67, SampleVision: one channel. -/
theorem C67_samplevision (ops : List Op) (s' : Setup) (o : Opened) (f : AFmt) (v : Fmt) (calls : List Call)
    (hfmt : (run (newSetup h) ops).fileFormat = .smp)
    (ho : openWrite h (run (newSetup h) ops) = (s', some o)) (hf : o.f = [f]) (hr : f.rate < 2 ^ 32) (hch : f.channels = 1)
    (r : Recorded h f v calls) (hsz : (written calls).length < 2 ^ 31) (fuel : Nat) :
    ∃ t p, openRead F32 F64 rnd h' fuel (session (smpUpdate h) (smpInit h f) (events h fm v f calls)) 0 = .ok (t, p) ∧
      t.f.rate = (f.rate.floor : Rat) ∧
      PlaysBack h' fm f v (written calls) (session (smpUpdate h) (smpInit h f) (events h fm v f calls)) t := by
  obtain ⟨tr, -, -, -, -, hlf, -⟩ := opened ho hf
  obtain ⟨d1, d2⟩ := dataOf_events h fm v f calls
  obtain ⟨t, m, p, h1, h2⟩ := C60_samplevision_roundtrip h h' ops s' o f hfmt ho hf hr hch (events h fm v f calls)
    (by rw [d1, d2, recorded_size fm r hlf]) (by rw [d2]; exact hsz)
  refine open_plays F32 F64 rnd h h' fm fuel (u := .smp) (t := t) (p := p) r hlf (agrees_rate f _) (C39_written_simple h f _ 0).2.2.2.1 ?_ h2 d1 d2
    (fun e => by cases e)
  dsimp only [readInit]
  rw [Rd.bind_ok h1]
  rfl

/-- C67, VOC: less than 16 MB. -/
theorem C67_voc (ops : List Op) (s' : Setup) (o : Opened) (f : AFmt) (v : Fmt) (calls : List Call)
    (hfmt : (run (newSetup h) ops).fileFormat = .voc)
    (ho : openWrite h (run (newSetup h) ops) = (s', some o)) (hf : o.f = [f]) (hr : f.rate < 2 ^ 32) (hch : f.channels < 256)
    (r : Recorded h f v calls) (hsz : (written calls).length * bytesPerFrame f + 12 < 2 ^ 24) (fuel : Nat) (hfuel : 2 ≤ fuel) :
    ∃ t p, openRead F32 F64 rnd h' fuel (session (vocUpdate h) (vocInit h f) (events h fm v f calls)) 0 = .ok (t, p) ∧
      t.f.rate = (f.rate.floor : Rat) ∧
      PlaysBack h' fm f v (written calls) (session (vocUpdate h) (vocInit h f) (events h fm v f calls)) t := by
  obtain ⟨tr, -, -, -, -, hlf, -⟩ := opened ho hf
  obtain ⟨d1, d2⟩ := dataOf_events h fm v f calls
  have hlen := recorded_size fm r hlf
  obtain ⟨t, p, h1, h2⟩ := C36_voc_roundtrip h h' ops s' o f hfmt ho hf hr hch (events h fm v f calls)
    (by rw [d1, d2, hlen]) (by rw [d1, hlen]; exact hsz) fuel hfuel
  exact open_plays F32 F64 rnd h h' fm fuel (u := .voc) r hlf (agrees_rate f _) (C39_written_simple h f _ 0).2.2.2.2.1 h1 h2 d1 d2
    (fun e => by cases e)

/-- C67, NIST SPHERE: samples of 9 to 16 bits. -/
theorem C67_nist (ops : List Op) (s' : Setup) (o : Opened) (f : AFmt) (v : Fmt) (calls : List Call)
    (hfmt : (run (newSetup h) ops).fileFormat = .nist)
    (ho : openWrite h (run (newSetup h) ops) = (s', some o)) (hf : o.f = [f])
    (hch : f.channels < 2 ^ 31) (hr : f.rate < 2 ^ 31) (hr1 : 1 ≤ f.rate) (hw : 9 ≤ f.sampleWidth)
    (r : Recorded h f v calls) (hsz : (written calls).length < 2 ^ 31) (fuel : Nat) :
    ∃ s t p, nistInit f = some s ∧ openRead F32 F64 rnd h' fuel (session nistUpdate s (events h fm v f calls)) 0 = .ok (t, p) ∧
      t.f.rate = (f.rate.floor : Rat) ∧ PlaysBack h' fm f v (written calls) (session nistUpdate s (events h fm v f calls)) t := by
  obtain ⟨tr, -, -, -, -, hlf, -⟩ := opened ho hf
  obtain ⟨d1, d2⟩ := dataOf_events h fm v f calls
  obtain ⟨s, t, p, h0, h1, h2, h3⟩ := C61_nist_roundtrip h h' ops s' o f hfmt ho hf hch hr hr1 hw (events h fm v f calls) (by rw [d2]; exact hsz)
  obtain ⟨t', p', g⟩ := open_plays F32 F64 rnd h h' fm fuel (u := .nist) r hlf (agrees_rate f _)
    ((C39_written_simple h f _ 0).2.2.2.2.2.1 s h0) h1 h2 d1 d2 (fun _ => h3)
  exact ⟨s, t', p', h0, g⟩

/-- C67, CAF: rates that are doubles. -/
theorem C67_caf (ops : List Op) (s' : Setup) (o : Opened) (f : AFmt) (v : Fmt) (calls : List Call)
    (hfmt : (run (newSetup h) ops).fileFormat = .caf)
    (ho : openWrite h (run (newSetup h) ops) = (s', some o)) (hf : o.f = [f]) (hr : F64.dec (F64.enc f.rate) = f.rate) (hch : f.channels < 2 ^ 31)
    (r : Recorded h f v calls) (hsz : (written calls).length * bytesPerFrame f < 2 ^ 63 - 68) (fuel : Nat) (hfuel : 3 ≤ fuel) :
    ∃ t p, openRead F32 F64 rnd h' fuel (session (cafUpdate h) (cafInit F64 h f) (events h fm v f calls)) 0 = .ok (t, p) ∧
      t.f.rate = f.rate ∧
      PlaysBack h' fm f v (written calls) (session (cafUpdate h) (cafInit F64 h f) (events h fm v f calls)) t := by
  obtain ⟨tr, -, -, -, -, hlf, -⟩ := opened ho hf
  obtain ⟨d1, d2⟩ := dataOf_events h fm v f calls
  have hlen := recorded_size fm r hlf
  have hcomp := r.codec
  obtain ⟨s, p, h1, h2, -⟩ := C37_caf_roundtrip F64 h h' ops s' o f hfmt ho hf (by
      simp only [List.mem_cons, List.not_mem_nil, or_false]; exact hcomp) hr hch (events h fm v f calls)
    (by rw [d1, d2, hlen]) (by rw [d1, hlen]; exact hsz) fuel hfuel
  refine open_plays F32 F64 rnd h h' fm fuel (u := .caf) (t := s.t) (p := p) r hlf ⟨rfl, rfl, rfl, rfl, fun _ => rfl⟩
    ((C39_written_simple h f _ 0).2.2.2.2.2.2 F64 (by simp only [NONE, ULAW, ALAW, ALAC] at *; omega)) ?_ h2 d1 d2 (fun e => by cases e)
  dsimp only [readInit]
  rw [Rd.bind_ok h1]
  rfl

/-- C67, WAVE, with any calls about markers and miscellaneous data between those that write. -/
theorem C67_wave (ops : List Op) (o : Opened) (f : AFmt) (v : Fmt) (calls : List Call) (file : List Byte) (x : WaveObj)
    (hw : WaveWritten h ops o f (mevents h fm v f calls) file x) (hfit : WaveFits o f (mevents h fm v f calls) file x)
    (r : Recorded h f v calls) (fuel : Nat) (hfuel : 8 + x.handle.misc.length + 2 * (marksOf x.handle o.names).length ≤ fuel) :
    ∃ t p, openRead F32 F64 rnd h' fuel file 0 = .ok (t, p) ∧ t.f.rate = (f.rate.floor : Rat) ∧
      PlaysBack h' fm f v (written calls) file t := by
  obtain ⟨s', ho⟩ := hw.opened
  obtain ⟨tr, -, -, -, -, hlf, -⟩ := opened ho hw.format
  obtain ⟨d1, d2⟩ := dataOfM_mevents h fm v f calls
  have hlen := recorded_size fm r hlf
  obtain ⟨s, p, h1, h2⟩ := C34_wave_roundtrip h h' ops o f _ file x hw hfit (fun _ => by rw [d1, d2, hlen]) fuel hfuel
  have e : (wholeBytes (wholeRate f)).rate = (f.rate.floor : Rat) := by unfold wholeBytes; split <;> rfl
  rw [← e]
  refine open_plays F32 F64 rnd h h' fm fuel (u := .wave) (t := s.t) (p := p) r hlf agrees_bytes
    (C39_written_wave h ops o f _ file x hw (fun m hm => (hfit.misc m hm).1) 0) ?_ h2 d1 d2 (fun e => by cases e)
  dsimp only [readInit]
  rw [Rd.bind_ok h1]
  rfl

/-- C67, AIFF and AIFF-C, with any calls about markers, instruments and miscellaneous data between those that write; the rate comes
back exactly. -/
theorem C67_aiff (hrnd : ExactOnDoubles rnd) (aifc : Bool) (ops : List Op) (o : Opened) (f : AFmt) (v : Fmt) (calls : List Call)
    (file : List Byte) (x : AiffObj)
    (hw : AiffWritten h aifc ops o f (mevents h fm v f calls) file x) (hfit : AiffFits o f (mevents h fm v f calls) file x)
    (r : Recorded h f v calls) (fuel : Nat) (hfuel : 7 + x.handle.misc.length ≤ fuel) :
    ∃ t p, openRead F32 F64 rnd h' fuel file 0 = .ok (t, p) ∧ t.f.rate = f.rate ∧ PlaysBack h' fm f v (written calls) file t := by
  obtain ⟨s', ho⟩ := hw.opened
  obtain ⟨tr, -, -, -, -, hlf, -⟩ := opened ho hw.format
  obtain ⟨d1, d2⟩ := dataOfM_mevents h fm v f calls
  have hcomp := r.codec
  obtain ⟨s, p, h1, h2, -⟩ := C35_aiff_roundtrip rnd hrnd h h' aifc ops o f _ file x hw hfit
    (by simp only [NONE, ULAW, ALAW, IMA] at *; omega) fuel hfuel
  have hid := C39_written_aiff h aifc ops o f _ file x hw (fun m hm => (hfit.misc m hm).1) 0
  cases aifc with
  | false =>
    refine open_plays F32 F64 rnd h h' fm fuel (u := .aiff) (t := s.t) (p := p) r hlf ⟨rfl, rfl, rfl, rfl, fun _ => rfl⟩
      hid ?_ h2 d1 d2 (fun e => by cases e)
    dsimp only [readInit]
    rw [Rd.bind_ok h1]
    rfl
  | true =>
    refine open_plays F32 F64 rnd h h' fm fuel (u := .aiffc) (t := s.t) (p := p) r hlf ⟨rfl, rfl, rfl, rfl, fun _ => rfl⟩
      hid ?_ h2 d1 d2 (fun e => by cases e)
    dsimp only [readInit]
    rw [Rd.bind_ok h1]
    rfl

/-- C67, IFF/8SVX (16 bits of the rate are kept). -/
theorem C67_iff (ops : List Op) (o : Opened) (f : AFmt) (v : Fmt) (calls : List Call) (file : List Byte) (x : IffObj)
    (hw : IffWritten h ops o f (mevents h fm v f calls) file x) (hlong : file.length < 2 ^ 32) (hcount : (written calls).length < 2 ^ 32)
    (hmisc : ∀ m ∈ o.handle.misc, 0 ≤ m.size ∧ m.size < 2 ^ 31)
    (r : Recorded h f v calls) (fuel : Nat) (hfuel : 3 + x.handle.misc.length ≤ fuel) :
    ∃ t p, openRead F32 F64 rnd h' fuel file 0 = .ok (t, p) ∧ t.f.rate = ((f.rate.floor % 65536 : Int) : Rat) ∧
      PlaysBack h' fm f v (written calls) file t := by
  obtain ⟨s', ho⟩ := hw.opened
  obtain ⟨tr, ht, -, -, -, hlf, -⟩ := opened ho hw.format
  obtain ⟨d1, d2⟩ := dataOfM_mevents h fm v f calls
  have hb : bytesPerFrame f = 1 := by
    have hi : Inv (Setup.run (newSetup h) ops) := foldl_inv (newSetup_inv h)
    obtain ⟨g1, g2⟩ := iff_format hi hw.fileFormat ho ht
    rw [hw.format] at g1
    obtain rfl := List.singleton_inj.1 g1
    unfold bytesPerFrame
    split <;> rfl
  have hfit : IffFits o (mevents h fm v f calls) file := by
    refine ⟨?_, by rw [d2]; exact hcount, hlong, hmisc⟩
    intro e he
    obtain ⟨c, hc, rfl⟩ := List.mem_map.1 he
    cases c with
    | write frames =>
      have := recorded_size (calls := [.write frames]) fm ⟨r.codec, r.accepted, r.mapping, r.usable, fun fr hfr => r.fits fr (by
        unfold written at hfr ⊢
        rw [List.mem_flatMap]
        exact ⟨_, hc, by simpa using hfr⟩)⟩ hlf
      rw [hb, Nat.mul_one] at this
      have e : written [.write frames] = frames := List.append_nil frames
      rw [e] at this
      exact this
    | sync => rfl
    | about op => rfl
  obtain ⟨s, p, h1, h2, -⟩ := C54_iff_roundtrip h h' ops o f _ file x hw hfit fuel hfuel
  refine open_plays F32 F64 rnd h h' fm fuel (u := .iff) (t := s.t) (p := p) r hlf (agrees_rate f _)
    (C39_written_iff h ops o f _ file x hw hfit 0) ?_ h2 d1 d2 (fun e => by cases e)
  dsimp only [readInit]
  rw [Rd.bind_ok h1]
  rfl
/-- C67: without compression, in a track with samples at least as wide as those given, a program that asks for samples of the type
that was written gets exactly the samples that were written. -/
theorem C67_exact {f : AFmt} {v : Fmt} {frames : List (List Int)} {file : List Byte} {t : Trk}
    (p : PlaysBack h' fm f v frames file t) (hz : f.compression = NONE) (hwide : (bytesOf v : Int) ≤ (f.sampleWidth + 7) / 8)
    (w : Fmt) (calls : List (Spec.Call Fmt)) (hu : Usable h' f w) (hok : ∀ c ∈ calls, CallOk h' f frames.length c)
    (hw : SameSamples v w) (hsame : ∀ c ∈ calls, ∀ w', c = .setFormat w' → SameSamples v w') :
    Reading.observe (trackReader h' fm file t p.size) w calls
      = .ok ((answers frames (fun w fr => userBytes w.byteOrder (bytesOf w) fr) ⟨0, w⟩ calls).map fun a => (a.1, a.2.map some)) := by
  rw [p.sound w calls hu hok]
  have := answers_map frames id (delivered f v) (fun w fr => userBytes w.byteOrder (bytesOf w) fr) (SameSamples v) (by
    intro w fr hs _
    unfold delivered
    have e : heard f v w = id := by
      funext x
      unfold heard
      split
      · rfl
      · dsimp only
        have hc : ∀ x, coded f x = x := by
          intro x
          unfold coded
          rw [if_neg (by rw [hz]; decide), if_neg (by rw [hz]; decide)]
        rw [hc, hs.1, hs.2]
        exact convertSample_roundtrip _ _ _ _ (by omega) x
    rw [e, List.map_id]
    rfl) calls ⟨0, w⟩ hw hsame
  rw [List.map_id] at this
  rw [this]

/-- The call as the model of the modules has it. -/
def Call.op : Call → Option (Writing.Op Fmt (List Int))
  | .write frames => some (.write frames)
  | .sync => some .sync
  | .about _ => none

theorem handed_calls {α : Type} (conv : Fmt → List Int → α) (v : Fmt) (calls : List Call) :
    Writing.handed conv v (calls.filterMap Call.op) = (written calls).map (conv v) := by
  induction calls with
  | nil => rfl
  | cons c calls ih =>
    unfold written at *
    cases c with
    | write frames =>
      rw [List.filterMap_cons]
      simp only [Call.op, Writing.handed, List.flatMap_cons, List.map_append]
      rw [ih]
    | sync =>
      rw [List.filterMap_cons]
      simp only [Call.op, Writing.handed, List.flatMap_cons, List.map_append]
      rw [ih]
      rfl
    | about op =>
      rw [List.filterMap_cons]
      simp only [Call.op, List.flatMap_cons, List.map_append]
      rw [ih]
      rfl

theorem packets_one {α : Type} (g : α → List Byte) (encode : Unit → List α → List Byte × Unit) :
    ∀ fs : List α, (∀ a ∈ fs, (encode () [a]).1 = g a) → (Spec.packets 1 encode fs.length () fs).1 = fs.flatMap g := by
  intro fs
  induction fs with
  | nil => intro _; rfl
  | cons a fs ih =>
    intro hg
    show (encode () [a]).1 ++ (Spec.packets 1 encode fs.length () fs).1 = _
    rw [hg a List.mem_cons_self, ih fun b hb => hg b (List.mem_cons_of_mem _ hb)]
    rfl

/-- C67: the bytes and the number of frames in the theorems above are those that the modules put into the file (data.cpp, PCM.cpp,
G711.cpp, the chunks of 1024 frames, the positions kept over `afSyncFile`). Without compression `afSyncFile` may be used below
2 GiB only (`C17_negation_large_pcm` says why). -/
theorem C67_modules (f : AFmt) (v : Fmt) (calls : List Call) (r : Recorded h f v calls) (hl : Legal f) (hb : 0 < packetSize f)
    (update : Option Int) (first : Nat)
    (hsync : f.compression = NONE → Call.sync ∈ calls → first + (written calls).length * bytesPerFrame f < 2 ^ 31) :
    Writing.session (trackWriter h fm f hb update first) () v (calls.filterMap Call.op)
      = .ok ⟨dataOf (events h fm v f calls), (dataOf (events h fm v f calls)).length, framesOf (events h fm v f calls)⟩ := by
  obtain ⟨d1, d2⟩ := dataOf_events h fm v f calls
  have hps := packetSize_eq hl
  rw [d1, d2]
  have hk : (trackWriter h fm f hb update first).kind ≠ .block := by unfold trackWriter; dsimp only; split <;> decide
  have hwf : Writing.WF (trackWriter h fm f hb update first) := by
    refine ⟨fun e fs _ => ?_, fun _ => rfl, rfl⟩
    show (((fs.flatMap (encodeFrame h f) ++ List.replicate (packetSize f) 0).take (packetSize f))).length = packetSize f
    rw [List.length_take, List.length_append, List.length_replicate]
    omega
  obtain ⟨pad, -, -, e⟩ := Writing.session_ok _ hwf () False v (calls.filterMap Call.op) (fun f => f.elim)
    (Writing.syncOK_one _ (trackWriter h fm f hb update first).conv (calls.filterMap Call.op) 0 v (by
      intro pre post e hp
      have hz : f.compression = NONE := by
        unfold trackWriter at hp
        dsimp only at hp
        split at hp
        · assumption
        · cases hp
      have hle := Writing.handed_prefix (trackWriter h fm f hb update first).conv pre (.sync :: post) v
      rw [← e, handed_calls, List.length_map] at hle
      have hmem : Call.sync ∈ calls := by
        have : Writing.Op.sync ∈ calls.filterMap Call.op := by rw [e]; simp
        obtain ⟨c, hc, e⟩ := List.mem_filterMap.1 this
        cases c with
        | sync => exact hc
        | write frames => cases e
        | about op => cases e
      have := hsync hz hmem
      show first + _ * packetSize f < _
      rw [hps, Nat.zero_add]
      have := Nat.mul_le_mul_right (bytesPerFrame f) hle
      omega))
  rw [e, handed_calls, List.length_map]
  have hdata : Spec.fileData (trackWriter h fm f hb update first).fpp (trackWriter h fm f hb update first).encode () pad
      ((written calls).map ((trackWriter h fm f hb update first).conv v)) = (written calls).flatMap (frameBytes h fm v f) := by
    unfold Spec.fileData
    have e1 : (trackWriter h fm f hb update first).fpp = 1 := rfl
    rw [e1, Nat.div_one]
    dsimp only
    rw [Nat.mul_one, List.drop_length, if_pos rfl]
    rw [packets_one (encodeFrame h f), List.flatMap_map]
    · rfl
    · intro a ha
      obtain ⟨fr, hfr, rfl⟩ := List.mem_map.1 ha
      have hlen := (frame_back h h fm r.codec r.sixteen hl.sample r.mapping hl.sample r.mapping rfl rfl rfl rfl (fun _ _ => rfl) r.usable
        r.usable (r.fits fr hfr)).1
      show ((frameBytes h fm v f fr ++ []) ++ List.replicate (packetSize f) 0).take (packetSize f) = frameBytes h fm v f fr
      rw [List.append_nil, ← hlen, List.take_left]
  rw [hdata]


end AF.Program
