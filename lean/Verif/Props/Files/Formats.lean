import Verif.Model.Codec
import Verif.Proof.Files.Formats
/-!
# C62: the format of a file that was opened is one the library can work with, whatever the file contains
-/
namespace AF.Files
open AF AF.Setup AF.Spec.Setup AF.Spec.Formats

/-- The codec's check lets a format through exactly if the codec can handle it. -/
theorem codecCheck_some {h : Endian} {f g : AFmt} (hg : codecCheck h f = some g) :
    (g = f ∨ f.compression = ALAC ∧ g = { f with byteOrder := native h }) ∧
    (f.compression = NONE ∨ Coded h g) ∧
    (f.compression = IMA ∨ f.compression = MSADPCM → f.channels = 1 ∨ f.channels = 2) ∧ (f.compression = ALAC → f.channels ≤ 8) := by
  unfold codecCheck at hg
  split at hg
  · rename_i hc
    cases hg
    refine ⟨.inl rfl, .inl hc, ?_, ?_⟩ <;> intro h' <;> rw [hc] at h'
    · rcases h' with h' | h' <;> cases h'
    · cases h'
  split at hg
  · rename_i hc
    split at hg
    · cases hg
    split at hg
    · cases hg
    rename_i h1 h2
    cases hg
    have h3 : f.sampleFormat = TWOSCOMP ∧ f.sampleWidth = 16 := by omega
    refine ⟨.inl rfl, .inr (.sixteen (by omega) h3.1 h3.2 (by omega)), ?_, ?_⟩ <;> intro h' <;> simp only [ULAW, ALAW, IMA, MSADPCM, ALAC] at * <;> omega
  split at hg
  · rename_i hc
    split at hg
    · cases hg
    split at hg
    · cases hg
    split at hg
    · cases hg
    rename_i h0 h1 h2
    cases hg
    have h3 : f.sampleFormat = TWOSCOMP ∧ f.sampleWidth = 16 := by omega
    refine ⟨.inl rfl, .inr (.sixteen (by omega) h3.1 h3.2 (by omega)), fun _ => by omega, ?_⟩
    intro h'
    simp only [IMA, MSADPCM, ALAC] at *
    omega
  split at hg
  · rename_i hc
    split at hg
    · cases hg
    split at hg
    · cases hg
    split at hg
    · cases hg
    rename_i h0 h1 h2
    have h3 : f.sampleFormat = TWOSCOMP := by omega
    have h4 : f.sampleWidth = 16 ∨ f.sampleWidth = 20 ∨ f.sampleWidth = 24 ∨ f.sampleWidth = 32 := by omega
    have h5 : f.compression = IMA ∨ f.compression = MSADPCM → f.channels = 1 ∨ f.channels = 2 := by
      intro h'; rw [hc] at h'; rcases h' with h' | h' <;> cases h'
    split at hg
    · cases hg
      exact ⟨.inr ⟨hc, rfl⟩, .inr (.alac hc h3 h4 rfl), h5, fun _ => by omega⟩
    · cases hg
      exact ⟨.inl rfl, .inr (.alac hc h3 h4 (by omega)), h5, fun _ => by omega⟩
  · cases hg

/-- The channels a codec can handle. -/
def FewChannels (f : AFmt) : Prop :=
  (f.compression = IMA ∨ f.compression = MSADPCM → f.channels = 1 ∨ f.channels = 2) ∧ (f.compression = ALAC → f.channels ≤ 8)

/-- C62: a well-formed track passes the codec's check exactly if the codec has enough channels. -/
theorem C62_check (h : Endian) (t : Trk) (hw : WellFormed h t) :
    (FewChannels t.f → codecCheck h t.f = some t.f) ∧ (¬ FewChannels t.f → codecCheck h t.f = none) := by
  have hc := hw.coded
  refine ⟨fun ⟨h1, h2⟩ => ?_, fun hn => ?_⟩
  · unfold codecCheck
    cases hc with
    | pcm c o => rw [if_pos c]
    | sixteen c s w o =>
      have e1 : ¬ (t.f.sampleFormat ≠ TWOSCOMP ∨ t.f.sampleWidth ≠ 16) := by omega
      have e2 : ¬ (t.f.byteOrder ≠ native h) := by omega
      have e0 : ¬ t.f.compression = NONE := by simp only [NONE, ULAW, ALAW, IMA, MSADPCM] at *; omega
      rw [if_neg e0]
      by_cases hu : t.f.compression = ULAW ∨ t.f.compression = ALAW
      · rw [if_pos hu, if_neg e1, if_neg e2]
      · have hi : t.f.compression = IMA ∨ t.f.compression = MSADPCM := by omega
        have := h1 hi
        rw [if_neg hu, if_pos hi, if_neg (by omega), if_neg e1, if_neg e2]
    | alac c s w o =>
      have e0 : t.f.compression ≠ NONE ∧ ¬ (t.f.compression = ULAW ∨ t.f.compression = ALAW) ∧ ¬ (t.f.compression = IMA ∨ t.f.compression = MSADPCM) := by
        simp only [NONE, ULAW, ALAW, IMA, MSADPCM, ALAC] at *; omega
      have := h2 c
      rw [if_neg e0.1, if_neg e0.2.1, if_neg e0.2.2, if_pos c, if_neg (by omega), if_neg (by omega), if_neg (by omega), if_neg (by omega)]
  · cases hg : codecCheck h t.f with
    | none => rfl
    | some g =>
      obtain ⟨-, -, h1, h2⟩ := codecCheck_some hg
      exact absurd ⟨h1, h2⟩ hn

theorem sub_t {α : Type} {m : Rd α} {g : α → Trk} {Q : Trk → Prop} (h : Post m fun a => Q (g a)) : Post (m >>= fun a => Pure.pure (g a)) Q :=
  .bind h fun _ ha => .pure ha

/-- What the readers together guarantee before the codec's check. -/
theorem readInit_post (F32 : Float32) (F64 : Float64) (rnd : Rat → Convert.Dbl) (h : Endian) (fuel : Nat) (u : FileFormat) :
    Post (readInit F32 F64 rnd h fuel u) fun t =>
      (u ≠ .nist → WellFormed h t) ∧ t.f.channels ≠ 0 ∧ (u ≠ .next → u ≠ .caf → 1 ≤ t.f.channels) ∧
      LegalWidth t.f.sampleFormat t.f.sampleWidth ∧
      (t.f.compression = NONE → (t.f.byteOrder = BIG ∨ t.f.byteOrder = LITTLE) ∧ t.fpp = 1 ∧
        t.bpp = sampleBytes t.f.sampleFormat t.f.sampleWidth * t.f.channels) ∧ t.f.pcm = defaultMapping t.f.sampleFormat t.f.sampleWidth := by
  have wf : ∀ t : Trk, WellFormed h t → LegalWidth t.f.sampleFormat t.f.sampleWidth ∧
      (t.f.compression = NONE → (t.f.byteOrder = BIG ∨ t.f.byteOrder = LITTLE) ∧ t.fpp = 1 ∧
        t.bpp = sampleBytes t.f.sampleFormat t.f.sampleWidth * t.f.channels) ∧ t.f.pcm = defaultMapping t.f.sampleFormat t.f.sampleWidth := by
    intro t ht
    refine ⟨ht.width, fun hc => ⟨?_, ht.pcm hc⟩, ht.mapping⟩
    cases ht.coded with
    | pcm c o => exact o
    | sixteen c s w o => rw [o]; exact native_order h
    | alac c s w o => rw [o]; exact native_order h
  have ge : ∀ (n : Int) (P : Prop), 1 ≤ n → n ≠ 0 ∧ (P → P → 1 ≤ n) := fun n P hn => ⟨by omega, fun _ _ => hn⟩
  have two : ∀ t : Trk, WellFormed h t ∧ 1 ≤ t.f.channels → (u ≠ .nist → WellFormed h t) ∧ t.f.channels ≠ 0 ∧ (u ≠ .next → u ≠ .caf → 1 ≤ t.f.channels) ∧
      LegalWidth t.f.sampleFormat t.f.sampleWidth ∧
      (t.f.compression = NONE → (t.f.byteOrder = BIG ∨ t.f.byteOrder = LITTLE) ∧ t.fpp = 1 ∧
        t.bpp = sampleBytes t.f.sampleFormat t.f.sampleWidth * t.f.channels) ∧ t.f.pcm = defaultMapping t.f.sampleFormat t.f.sampleWidth :=
    fun t ht => ⟨fun _ => ht.1, by have := ht.2; omega, fun _ _ => ht.2, wf t ht.1⟩
  cases u with
  | aiff | aiffc => exact sub_t ((aiff_post rnd h fuel).mono fun s hs => two _ hs)
  | next => exact (next_post h).mono fun t ht => ⟨fun _ => ht.1, ht.2, fun hne => absurd rfl hne, wf t ht.1⟩
  | wave => exact sub_t ((wave_post h fuel).mono fun s hs => two _ hs)
  | ircam => exact (ircam_post F32 h).mono two
  | avr => exact (avr_post h).mono two
  | iff => exact sub_t ((iff_post h fuel).mono fun s hs => two _ ⟨hs.1, by have := hs.2; omega⟩)
  | smp => exact sub_t ((smp_post h).mono fun s hs => two _ ⟨hs.1, by have := hs.2; omega⟩)
  | voc => exact (voc_post h fuel).mono two
  | nist =>
    refine (nist_post h).mono fun t ht => ⟨fun hne => absurd rfl hne, by have := ht.2.1; omega, fun _ _ => ht.2.1, ht.1.1, fun hc => ?_, ht.1.2⟩
    rcases ht.2.2.2 with ⟨-, h1, h2⟩ | ⟨h1, -⟩
    · exact ⟨h1, ht.2.2.1, h2.trans (pcm_bytes ht.1.1)⟩
    · simp only [NONE, ULAW, ALAW] at *; omega
  | caf => exact sub_t ((caf_post F64 h fuel).mono fun s hs => ⟨fun _ => hs.1, hs.2, fun _ hne => absurd rfl hne, wf _ hs.1⟩)
  | raw | flac | mpeg1 | sd1 | sd2 | sf2 => exact .fail

/-- C62: whatever a file contains, if it opens, then its samples have a legal width, a codec the library has, and the sample type
and byte order that codec needs; an uncompressed packet is one frame; the sample values have their usual meaning; and there are channels, not more than the codec can handle. -/
theorem C62_opened (F32 : Float32) (F64 : Float64) (rnd : Rat → Convert.Dbl) (h : Endian) (fuel : Nat) (file : List Byte) (p p' : Nat) (t : Trk)
    (ho : openRead F32 F64 rnd h fuel file p = .ok (t, p')) :
    LegalWidth t.f.sampleFormat t.f.sampleWidth ∧ Coded h t.f ∧ t.f.channels ≠ 0 ∧ FewChannels t.f ∧
    (t.f.compression = NONE → t.fpp = 1 ∧ t.bpp = sampleBytes t.f.sampleFormat t.f.sampleWidth * t.f.channels) ∧
    t.f.pcm = defaultMapping t.f.sampleFormat t.f.sampleWidth := by
  have key : Post (openRead F32 F64 rnd h fuel) fun t =>
      LegalWidth t.f.sampleFormat t.f.sampleWidth ∧ Coded h t.f ∧ t.f.channels ≠ 0 ∧ FewChannels t.f ∧
      (t.f.compression = NONE → t.fpp = 1 ∧ t.bpp = sampleBytes t.f.sampleFormat t.f.sampleWidth * t.f.channels) ∧
      t.f.pcm = defaultMapping t.f.sampleFormat t.f.sampleWidth := by
    unfold openRead
    refine .bind' fun u => ?_
    cases u with
    | none => exact .fail
    | some u =>
      refine .bind (readInit_post F32 F64 rnd h fuel u) fun t ht => ?_
      obtain ⟨-, h0, -, hw, hp, hmap⟩ := ht
      cases hg : codecCheck h t.f with
      | none => exact .fail
      | some g =>
        obtain ⟨h1, h2, h3, h4⟩ := codecCheck_some hg
        rcases h1 with rfl | ⟨hc, rfl⟩
        · refine .pure ⟨hw, ?_, h0, ⟨h3, h4⟩, fun hc => (hp hc).2, hmap⟩
          rcases h2 with h2 | h2
          · exact .pcm h2 (hp h2).1
          · exact h2
        · rcases h2 with h2 | h2
          · rw [hc] at h2; cases h2
          · refine .pure ⟨hw, h2, h0, ⟨h3, h4⟩, fun hc' => ?_, hmap⟩
            have : t.f.compression = NONE := hc'
            rw [hc] at this
            cases this
  exact key file p t p' ho

/-- C62: in all formats but NeXT/Sun and CAF the number of channels is positive. -/
theorem C62_channels (F32 : Float32) (F64 : Float64) (rnd : Rat → Convert.Dbl) (h : Endian) (fuel : Nat) (u : FileFormat) (hn : u ≠ .next) (hc : u ≠ .caf)
    (file : List Byte) (p p' : Nat) (t : Trk) (ho : readInit F32 F64 rnd h fuel u file p = .ok (t, p')) : 1 ≤ t.f.channels :=
  (readInit_post F32 F64 rnd h fuel u file p t p' ho).2.2.1 hn hc

/-- A NeXT header claiming 2^32 − 1 channels of 16 bits. -/
def manyChannels : List Byte := tag ".snd" ++ [0, 0, 0, 24, 0, 0, 0, 0, 0, 0, 0, 3, 0, 0, 0x1f, 0x40, 0xff, 0xff, 0xff, 0xff]

/-- C62: a NeXT file can open with a negative number of channels. -/
theorem C62_negative_channels (F32 : Float32) (F64 : Float64) (rnd : Rat → Convert.Dbl) (h : Endian) (fuel : Nat) :
    ∃ t p, openRead F32 F64 rnd h fuel manyChannels 0 = .ok (t, p) ∧ t.f.channels = -1 ∧ t.bpp = -2 := by
  have hid : identify manyChannels 0 = .ok (some .next, 0) := by decide +kernel
  have hrd : ∃ t p, nextRead h manyChannels 0 = .ok (t, p) ∧ t.f.channels = -1 ∧ t.bpp = -2 ∧ t.f.compression = NONE := by
    cases h
    · exact ⟨_, _, rfl, by decide +kernel⟩
    · exact ⟨_, _, rfl, by decide +kernel⟩
  obtain ⟨t, p, h1, h2, h3, h4⟩ := hrd
  refine ⟨t, p, ?_, h2, h3⟩
  unfold openRead
  rw [Rd.bind_ok hid]
  dsimp only [readInit]
  rw [Rd.bind_ok h1]
  have : codecCheck h t.f = some t.f := by unfold codecCheck; rw [if_pos h4]
  rw [this]
  rfl

/-- A NeXT header claiming two channels of 16 bits, and one frame. -/
def twoChannels : List Byte := tag ".snd" ++ [0, 0, 0, 24, 0, 0, 0, 4, 0, 0, 0, 3, 0, 0, 0x1f, 0x40, 0, 0, 0, 2, 1, 2, 3, 4]

/-- `C62_opened` is not vacuous: an ordinary file opens. -/
example (F32 : Float32) (F64 : Float64) (rnd : Rat → Convert.Dbl) (h : Endian) (fuel : Nat) :
    ∃ t p, openRead F32 F64 rnd h fuel twoChannels 0 = .ok (t, p) ∧ t.f.channels = 2 ∧ t.f.sampleWidth = 16 ∧ t.frames = 1 := by
  have hid : identify twoChannels 0 = .ok (some .next, 0) := by decide +kernel
  have hrd : ∃ t p, nextRead h twoChannels 0 = .ok (t, p) ∧ t.f.channels = 2 ∧ t.f.sampleWidth = 16 ∧ t.frames = 1 ∧ t.f.compression = NONE := by
    cases h
    · exact ⟨_, _, rfl, by decide +kernel⟩
    · exact ⟨_, _, rfl, by decide +kernel⟩
  obtain ⟨t, p, h1, h2, h3, h4, h5⟩ := hrd
  refine ⟨t, p, ?_, h2, h3, h4⟩
  unfold openRead
  rw [Rd.bind_ok hid]
  dsimp only [readInit]
  rw [Rd.bind_ok h1]
  have : codecCheck h t.f = some t.f := by unfold codecCheck; rw [if_pos h5]
  rw [this]
  rfl

end AF.Files
