import Verif.Proof.Files.Counts
import Verif.Props.Files.Formats
/-!
# C82: the numbers an opened file reports
-/
namespace AF.Files
open AF AF.Setup AF.Spec.Counts

/-- What opening a file makes of the track that the format's reader has found. -/
theorem openRead_inv {F32 : Float32} {F64 : Float64} {rnd : Rat → Convert.Dbl} {h : Endian} {fuel : Nat} {file : List Byte} {p q p' : Nat}
    {u : FileFormat} {t : Trk} (hi : identify file p = .ok (some u, q)) (ho : openRead F32 F64 rnd h fuel file p = .ok (t, p')) :
    ∃ t0, readInit F32 F64 rnd h fuel u file q = .ok (t0, p') ∧ t.first = t0.first ∧ t.frames = t0.frames ∧ t.dataSize = t0.dataSize := by
  unfold openRead at ho
  rw [Rd.bind_ok hi] at ho
  dsimp only at ho
  obtain ⟨t0, q', hm, hg⟩ := bind_inv ho
  cases hc : codecCheck h t0.f with
  | none => rw [hc] at hg; cases hg
  | some g =>
    rw [hc] at hg
    have e : (Except.ok ({ t0 with f := g }, q') : Except Err (Trk × Nat)) = .ok (t, p') := hg
    injection e with e
    injection e with e1 e2
    subst e2
    exact ⟨t0, hm, e1 ▸ rfl, e1 ▸ rfl, e1 ▸ rfl⟩

/-- C82: whatever a file contains, if it opens, its audio data begins at an offset that is not negative. Its number of frames is
not negative, and small enough to compute with, in every format but IRCAM, VOC, NIST and CAF; its number of bytes is not negative in
every format but IRCAM, VOC, CAF, AIFF and AIFF-C. -/
theorem C82_opened (F32 : Float32) (F64 : Float64) (rnd : Rat → Convert.Dbl) (h : Endian) (fuel : Nat) (file : List Byte) (p q p' : Nat)
    (u : FileFormat) (t : Trk) (hi : identify file p = .ok (some u, q)) (ho : openRead F32 F64 rnd h fuel file p = .ok (t, p')) :
    OffsetOK t ∧
    (u ≠ .ircam → u ≠ .voc → u ≠ .nist → u ≠ .caf → FrameCountOK t) ∧
    (u ≠ .ircam → u ≠ .voc → u ≠ .caf → u ≠ .aiff → u ≠ .aiffc → BytesOK t) := by
  obtain ⟨t0, hr, e1, e2, e3⟩ := openRead_inv hi ho
  unfold OffsetOK FrameCountOK BytesOK
  rw [e1, e2, e3]
  have all : Reported t0 → 0 ≤ t0.first ∧ (u ≠ .ircam → u ≠ .voc → u ≠ .nist → u ≠ .caf → 0 ≤ t0.frames ∧ t0.frames < 2 ^ 48) ∧
      (u ≠ .ircam → u ≠ .voc → u ≠ .caf → u ≠ .aiff → u ≠ .aiffc → 0 ≤ t0.dataSize) :=
    fun hR => ⟨hR.1, fun _ _ _ _ => hR.2, fun _ _ _ _ _ => hR.3⟩
  cases u with
  | aiff =>
    have := sub_post (aiff_counts rnd h fuel) hr
    exact ⟨this.1, fun _ _ _ _ => this.2, fun _ _ _ hn _ => absurd rfl hn⟩
  | aiffc =>
    have := sub_post (aiff_counts rnd h fuel) hr
    exact ⟨this.1, fun _ _ _ _ => this.2, fun _ _ _ _ hn => absurd rfl hn⟩
  | next => exact all (next_counts h _ _ _ _ hr)
  | wave => exact all (sub_post (wave_counts h fuel) hr)
  | avr => exact all (avr_counts h _ _ _ _ hr)
  | iff => exact all (sub_post (iff_counts h fuel) hr)
  | smp => exact all (sub_post (smp_counts h) hr)
  | ircam =>
    have := ircam_counts F32 h file q _ _ hr
    exact ⟨by omega, fun hn => absurd rfl hn, fun hn => absurd rfl hn⟩
  | voc =>
    have := voc_counts h fuel file q _ _ hr
    exact ⟨this.1, fun _ hn => absurd rfl hn, fun _ hn => absurd rfl hn⟩
  | nist =>
    have := nist_counts h file q _ _ hr
    exact ⟨by omega, fun _ _ hn => absurd rfl hn, fun _ _ _ _ _ => this.2.1⟩
  | caf =>
    have := sub_post (caf_offset F64 h fuel) hr
    exact ⟨this, fun _ _ _ hn => absurd rfl hn, fun _ _ hn => absurd rfl hn⟩
  | raw | flac | mpeg1 | sd1 | sd2 | sf2 => cases hr

/-- C82: the formats that take the size of the audio data from the size of the file. An IRCAM file of at least the 1024 bytes of its
header, and a VOC file whose size in bytes is not reported as negative, have a number of frames between 0 and the number of bytes; that of a NIST file's
bytes is what follows the header; a VOC file never reports less than −1 bytes. -/
theorem C82_measured (F32 : Float32) (F64 : Float64) (rnd : Rat → Convert.Dbl) (h : Endian) (fuel : Nat) (file : List Byte) (p q p' : Nat)
    (u : FileFormat) (t : Trk) (hi : identify file p = .ok (some u, q)) (ho : openRead F32 F64 rnd h fuel file p = .ok (t, p'))
    (hl : file.length < 2 ^ 63) :
    (u = .ircam → t.dataSize = (file.length : Int) - 1024 ∧ (1024 ≤ file.length → 0 ≤ t.frames ∧ t.frames ≤ t.dataSize)) ∧
    (u = .voc → -1 ≤ t.dataSize ∧ (0 ≤ t.dataSize → 0 ≤ t.frames ∧ t.frames ≤ t.dataSize)) ∧
    (u = .nist → 1024 ≤ file.length ∧ t.dataSize = (file.length : Int) - 1024) := by
  obtain ⟨t0, hr, e1, e2, e3⟩ := openRead_inv hi ho
  rw [e2, e3]
  refine ⟨?_, ?_, ?_⟩ <;> intro hu <;> subst hu
  · have := ircam_counts F32 h file q _ _ hr
    exact ⟨this.2.1, fun h1 => this.2.2 h1 hl⟩
  · have := voc_counts h fuel file q _ _ hr
    exact ⟨this.2, this.3 hl⟩
  · have := nist_counts h file q _ _ hr
    exact ⟨by omega, this.2.2⟩

/-! ## Files that report negative numbers -/

/-- An IRCAM header of one channel of 8 bits (rate 0), and nothing else: 16 bytes. -/
def shortIrcam : List Byte := [0x64, 0xa3, 1, 0, 0, 0, 0, 0, 1, 0, 0, 0, 1, 0, 0, 0]

/-- A VOC file that ends with the fields of its only sound block. -/
def shortVoc : List Byte := tag "Creative Voice File" ++ [0x1a, 26, 0, 0x0a, 1, 0x29, 0x11, 1, 2, 0, 0, 131, 0]

/-- A NIST header with a negative number of samples. -/
def minusNist : List Byte :=
  let text := tag "NIST_1A\n   1024\nchannel_count -i 1\nsample_count -i -5\nsample_rate -i 8000\nsample_n_bytes -i 2\nsample_byte_format -s2 10\nsample_sig_bits -i 16\nsample_coding -s3 pcm\nend_head\n"
  text ++ List.replicate (1024 - text.length) 32 ++ [1, 2, 3, 4]

/-- A CAF file of one channel of 8 bits at 44100 Hz whose data chunk has the length 0. -/
def emptyCaf : List Byte :=
  tag "caff" ++ [0, 1, 0, 0] ++ tag "desc" ++ [0, 0, 0, 0, 0, 0, 0, 32] ++ [0x40, 0xe5, 0x88, 0x80, 0, 0, 0, 0] ++ tag "lpcm" ++
  [0, 0, 0, 0, 0, 0, 0, 1, 0, 0, 0, 1, 0, 0, 0, 1, 0, 0, 0, 8] ++ tag "data" ++ [0, 0, 0, 0, 0, 0, 0, 0] ++ [0, 0, 0, 0] ++
  [0, 0, 0, 0, 0, 0, 0, 0]

/-- An AIFF file of one channel of 8 bits (rate 0) whose sound chunk has the length 0. -/
def emptyAiff : List Byte :=
  tag "FORM" ++ [0, 0, 0, 54] ++ tag "AIFF" ++ tag "COMM" ++ [0, 0, 0, 18] ++ [0, 1, 0, 0, 0, 1, 0, 8, 0, 0, 0, 0, 0, 0, 0, 0, 0, 0] ++
  tag "SSND" ++ [0, 0, 0, 0, 0, 0, 0, 0, 0, 0, 0, 0, 7, 7, 7, 7]

/-- Opening an uncompressed file. -/
theorem open_pcm {F32 : Float32} {F64 : Float64} {rnd : Rat → Convert.Dbl} {h : Endian} {fuel : Nat} {file : List Byte} {p q p' : Nat} {u : FileFormat} {t : Trk}
    (hi : identify file p = .ok (some u, q)) (hr : readInit F32 F64 rnd h fuel u file q = .ok (t, p')) (hc : t.f.compression = NONE) :
    openRead F32 F64 rnd h fuel file p = .ok (t, p') := by
  unfold openRead
  rw [Rd.bind_ok hi]
  dsimp only
  rw [Rd.bind_ok hr]
  have : codecCheck h t.f = some t.f := by unfold codecCheck; rw [if_pos hc]
  rw [this]
  rfl

/-- A computed result of a reader. -/
@[irreducible] def Gives (r : Except Err (Trk × Nat)) (Q : Trk → Prop) : Prop :=
  match r with
  | .ok (t, _) => t.f.compression = NONE ∧ Q t
  | .error _ => False

instance (r : Except Err (Trk × Nat)) (Q : Trk → Prop) [DecidablePred Q] : Decidable (Gives r Q) := by
  unfold Gives
  split
  · exact inferInstance
  · exact inferInstance

theorem Gives.elim {r : Except Err (Trk × Nat)} {Q : Trk → Prop} (h : Gives r Q) : ∃ t p, r = .ok (t, p) ∧ t.f.compression = NONE ∧ Q t := by
  unfold Gives at h
  split at h
  · exact ⟨_, _, rfl, h⟩
  · exact h.elim

theorem opens {F32 : Float32} {F64 : Float64} {rnd : Rat → Convert.Dbl} {h : Endian} {fuel : Nat} {file : List Byte} {u : FileFormat} {Q : Trk → Prop}
    (hi : identify file 0 = .ok (some u, 0)) (hr : Gives (readInit F32 F64 rnd h fuel u file 0) Q) :
    ∃ t p, openRead F32 F64 rnd h fuel file 0 = .ok (t, p) ∧ Q t := by
  obtain ⟨t, p, h1, h2, h3⟩ := hr.elim
  exact ⟨t, p, open_pcm hi h1 h2, h3⟩

theorem total_frames {t : Trk} {b d : Int} (hf : t.fpp = 1) (hb : t.bpp = b) (hd : t.dataSize = d) (h0 : b ≠ 0) :
    t.computeTotalFileFrames.frames = wrapS 64 (wrapU 64 d / wrapU 64 b * wrapU 64 1) := by
  unfold Trk.computeTotalFileFrames
  rw [if_pos (by rw [hf, hb]; exact ⟨h0, by decide⟩)]
  dsimp only
  rw [hf, hb, hd]

/-- The packing mode of 8-bit samples. -/
theorem ircam_pack8 (h : Endian) (f : AFmt) : ircamFormat h f 1 = some { f with byteOrder := native h, sampleFormat := TWOSCOMP, sampleWidth := 8 } := rfl
/-- Reading `shortIrcam`, whatever the machine's floating point. -/
theorem ircam_short_read (F : Float32) (h : Endian) : ∃ t p, ircamRead F h shortIrcam 0 = .ok (t, p) ∧ t.f.compression = NONE ∧
    t.frames = -1008 ∧ t.dataSize = -1008 ∧ t.first = 1024 := by
  have r : ∀ q v, (Rd.field .little .little .s4 shortIrcam q = .ok (v, q + 4) ∧ Rd.field .big .little .s4 shortIrcam q = .ok (v, q + 4)) →
      Rd.field h .little .s4 shortIrcam q = .ok (v, q + 4) := fun q v hv => by cases h; exact hv.1; exact hv.2
  unfold ircamRead
  rw [Rd.bind_ok (show Rd.seek 0 shortIrcam 0 = .ok ((), 0) from rfl),
    Rd.bind_ok (show Rd.read 4 shortIrcam 0 = .ok ([0x64, 0xa3, 1, 0], 4) by decide +kernel),
    show ircamMagics.find? (fun x => x.1 == [0x64, 0xa3, 1, 0]) = some ([0x64, 0xa3, 1, 0], Endian.little) by decide +kernel]
  dsimp only
  rw [Rd.bind_ok (r 4 0 (by decide +kernel)), Rd.bind_ok (r 8 1 (by decide +kernel)), Rd.bind_ok (r 12 1 (by decide +kernel)), if_neg (by decide)]
  rw [ircam_pack8]
  dsimp only
  rw [Rd.bind_ok (show Rd.length shortIrcam 16 = .ok (16, 12 + 4) by decide +kernel)]
  have hl : Spec.Setup.LegalWidth TWOSCOMP 8 := .inl ⟨.inl rfl, by decide, by decide⟩
  obtain ⟨m, hd, hm⟩ := set_legal ({ rate := F.dec (BitVec.ofNat 32 0), sampleFormat := TWOSCOMP, sampleWidth := 8, byteOrder := native h, pcm := ⟨0, 0, 0, 0⟩, channels := ((1 : Nat) : Int), compression := NONE } : AFmt) hl
  rw [hm]
  refine ⟨_, _, rfl, ?_, ?_, ?_, ?_⟩
  · rw [total_f]
  · rw [total_frames (b := 1) (d := -1008) rfl rfl rfl (by decide)]
    decide +kernel
  · rw [total_size]; rfl
  · rw [total_first]

/-- C82: an IRCAM file without the end of its header opens with a negative number of frames. -/
theorem C82_ircam_refuted (F32 : Float32) (F64 : Float64) (rnd : Rat → Convert.Dbl) (h : Endian) (fuel : Nat) :
    ∃ t p, openRead F32 F64 rnd h fuel shortIrcam 0 = .ok (t, p) ∧ t.frames = -1008 ∧ t.dataSize = -1008 ∧ t.first = 1024 := by
  obtain ⟨t, p, h1, h2, h3⟩ := ircam_short_read F32 h
  exact ⟨t, p, open_pcm (u := .ircam) (by decide +kernel) h1 h2, h3⟩

theorem voc_short_found : identify shortVoc 0 = .ok (some .voc, 0) := by decide +kernel

theorem voc_short_read (F32 : Float32) (F64 : Float64) (rnd : Rat → Convert.Dbl) (h : Endian) :
    Gives (readInit F32 F64 rnd h 9 .voc shortVoc 0) fun t => t.frames = -1 ∧ t.dataSize = -1 := by
  have e : Gives (vocRead h 9 shortVoc 0) fun t => t.frames = -1 ∧ t.dataSize = -1 := by
    cases h
    · decide +kernel
    · decide +kernel
  exact e

/-- C82: a VOC file that ends with the fields of its sound block opens with −1 frames, which elsewhere in the library means that the
number is not known. -/
theorem C82_voc_refuted (F32 : Float32) (F64 : Float64) (rnd : Rat → Convert.Dbl) (h : Endian) :
    ∃ t p, openRead F32 F64 rnd h 9 shortVoc 0 = .ok (t, p) ∧ t.frames = -1 ∧ t.dataSize = -1 :=
  opens voc_short_found (voc_short_read F32 F64 rnd h)

theorem nist_minus_found : identify minusNist 0 = .ok (some .nist, 0) := by decide +kernel

theorem nist_is {F32 : Float32} {F64 : Float64} {rnd : Rat → Convert.Dbl} {h : Endian} {fuel : Nat} :
    readInit F32 F64 rnd h fuel .nist = nistRead h := rfl

theorem nist_minus_little : Gives (nistRead .little minusNist 0) fun t => t.frames = -5 ∧ t.bpp = 2 ∧ t.first = 1024 := by decide +kernel
theorem nist_minus_big : Gives (nistRead .big minusNist 0) fun t => t.frames = -5 ∧ t.bpp = 2 ∧ t.first = 1024 := by decide +kernel

theorem nist_minus_read (F32 : Float32) (F64 : Float64) (rnd : Rat → Convert.Dbl) (h : Endian) (fuel : Nat) :
    Gives (readInit F32 F64 rnd h fuel .nist minusNist 0) fun t => t.frames = -5 ∧ t.bpp = 2 ∧ t.first = 1024 :=
  nist_is ▸ match h with
  | .little => nist_minus_little
  | .big => nist_minus_big

/-- C82: a NIST file opens with the negative number of samples that its header claims. -/
theorem C82_nist_refuted (F32 : Float32) (F64 : Float64) (rnd : Rat → Convert.Dbl) (h : Endian) (fuel : Nat) :
    ∃ t p, openRead F32 F64 rnd h fuel minusNist 0 = .ok (t, p) ∧ t.frames = -5 ∧ t.bpp = 2 ∧ t.first = 1024 :=
  opens nist_minus_found (nist_minus_read F32 F64 rnd h fuel)

/-- A machine that knows one number: the rate of `emptyCaf`. -/
def oneRate : Float64 := ⟨fun _ => 0x40e5888000000000, fun _ => 44100⟩

/-- C82: a CAF file whose data chunk is too short for its first field opens with a negative number of frames. -/
theorem C82_caf_refuted (F32 : Float32) (rnd : Rat → Convert.Dbl) (h : Endian) :
    ∃ t p, openRead F32 oneRate rnd h 9 emptyCaf 0 = .ok (t, p) ∧ t.frames = -4 ∧ t.dataSize = -4 := by
  have hr : Gives (readInit ⟨fun _ => 0, fun _ => 0⟩ oneRate (fun _ => .fin 0) h 9 .caf emptyCaf 0) fun t => t.frames = -4 ∧ t.dataSize = -4 := by
    cases h <;> decide +kernel
  obtain ⟨t, p, h1, h2, h3⟩ := hr.elim
  exact ⟨t, p, open_pcm (u := .caf) (by decide +kernel) h1 h2, h3⟩

/-- C82: an AIFF file whose sound chunk is too short for its fields opens with a negative number of bytes. -/
theorem C82_aiff_refuted (F32 : Float32) (F64 : Float64) (h : Endian) :
    ∃ t p, openRead F32 F64 (fun _ => .fin 0) h 9 emptyAiff 0 = .ok (t, p) ∧ t.frames = 1 ∧ t.dataSize = -8 := by
  have hr : Gives (readInit ⟨fun _ => 0, fun _ => 0⟩ oneRate (fun _ => .fin 0) h 9 .aiff emptyAiff 0) fun t => t.frames = 1 ∧ t.dataSize = -8 := by
    cases h <;> decide +kernel
  obtain ⟨t, p, h1, h2, h3⟩ := hr.elim
  exact ⟨t, p, open_pcm (u := .aiff) (by decide +kernel) h1 h2, h3⟩

theorem next_gives (F32 : Float32) (F64 : Float64) (rnd : Rat → Convert.Dbl) (h : Endian) (fuel : Nat) :
    Gives (readInit F32 F64 rnd h fuel .next twoChannels 0) fun t => t.frames = 1 := by
  have e : Gives (nextRead h twoChannels 0) fun t => t.frames = 1 := by
    cases h
    · decide +kernel
    · decide +kernel
  exact e

theorem next_found : identify twoChannels 0 = .ok (some .next, 0) := by decide +kernel

/-- The hypotheses of `C82_opened` are met by the NeXT file `twoChannels`. -/
example (F32 : Float32) (F64 : Float64) (rnd : Rat → Convert.Dbl) (h : Endian) (fuel : Nat) :
    ∃ t p, openRead F32 F64 rnd h fuel twoChannels 0 = .ok (t, p) ∧ OffsetOK t ∧ FrameCountOK t ∧ BytesOK t := by
  obtain ⟨t, p, ho, _⟩ := opens next_found (next_gives F32 F64 rnd h fuel)
  obtain ⟨h1, h2, h3⟩ := C82_opened F32 F64 rnd h fuel _ _ _ _ _ t next_found ho
  exact ⟨t, p, ho, h1, h2 (by decide) (by decide) (by decide) (by decide), h3 (by decide) (by decide) (by decide) (by decide) (by decide)⟩

end AF.Files
