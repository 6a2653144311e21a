import Verif.Props.Buffers
import Verif.Props.Files.Formats
import Verif.Model.Virtual
/-!
# Conversion buffers of opened files (C65)

The tracks of Verif/Props/Buffers.lean as `afOpenFile` makes them from the bytes of a file.
-/
namespace AF.Buffers
open AF AF.Convert AF.Files AF.Setup AF.Spec.Buffers AF.Spec.Setup

/-- The codec of a compression type (units.cpp:263-378). -/
def codecOf (c : Int) : Codec :=
  if c = ULAW ∨ c = ALAW then .g711 else if c = IMA ∨ c = MSADPCM then .block else if c = ALAC then .alac else .pcm

/-- The track of an opened file. `sizes`, `frames`: its packet table and what its packets decode to, if it is an ALAC file. -/
def trackOf (h : Endian) (t : Trk) (hp : 0 < t.fpp) (sizes : List Nat := []) (frames : Nat → Nat := fun _ => 0) : Cfg :=
  { h, codec := codecOf t.f.compression, f := Virtual.chainFormat t.f, fpp := t.fpp.toNat, bpp := t.bpp.toNat
    fpp_pos := by omega, total := if t.frames = -1 then none else some t.frames.toNat, sizes, frames }

/-- C65. The track of any file that opens can be read within the buffers in the format it is opened with, if it has fewer than
2^18 channels and its packets, if it has packets, are positive in size and no larger than the audio they stand for. -/
theorem C65_opened (F32 : Files.Float32) (F64 : Files.Float64) (rnd : Rat → Dbl) (h : Endian) (fuel : Nat) (file : List Byte) (p p' : Nat) (t : Trk)
    (ho : openRead F32 F64 rnd h fuel file p = .ok (t, p')) (hp : 0 < t.fpp) (h0 : 0 ≤ t.f.channels) (hc : t.f.channels < 2 ^ 18)
    (hl : t.f.compression = IMA ∨ t.f.compression = MSADPCM ∨ t.f.compression = ALAC → t.fpp < 2 ^ 25)
    (hb : t.f.compression = IMA ∨ t.f.compression = MSADPCM → 0 < t.bpp ∧ t.bpp ≤ 2 * t.f.channels * max 1024 t.fpp)
    (sizes : List Nat) (frames : Nat → Nat)
    (hs : t.f.compression = ALAC → (∀ q ∈ sizes, (q : Int) ≤ t.fpp * t.f.channels * ((10 + t.f.sampleWidth) / 8) + 1) ∧
      ∀ i, (frames i : Int) ≤ t.fpp)
    (answers : List Nat) (ops : List ROp) (hops : ∀ op ∈ ops, MayRead (trackOf h t hp sizes frames) op) :
    ∃ s', rrun (trackOf h t hp sizes frames) (ropen (asOpened (trackOf h t hp sizes frames)) answers) ops = .ok s' := by
  obtain ⟨hw, hcd, hn0, hfew, hpcm, -⟩ := C62_opened F32 F64 rnd h fuel file p p' t ho
  have hr : Readable (trackOf h t hp sizes frames) := by
    have hsf : t.f.sampleFormat = TWOSCOMP → (Virtual.chainFormat t.f).sampleFormat = .twos := by
      intro e
      show (if t.f.sampleFormat = UNSIGNED then SampleFormat.unsigned else if t.f.sampleFormat = FLOAT then .float
                    else if t.f.sampleFormat = DOUBLE then .double else .twos) = .twos
      rw [e]; rfl
    have cases5 : (codecOf t.f.compression = .pcm ∧ t.f.compression = NONE) ∨ (codecOf t.f.compression = .g711 ∧ t.f.compression ≠ NONE ∧
          t.f.sampleFormat = TWOSCOMP ∧ t.f.sampleWidth = 16) ∨
        (codecOf t.f.compression = .block ∧ t.f.compression ≠ NONE ∧ t.f.sampleFormat = TWOSCOMP ∧ t.f.sampleWidth = 16 ∧ t.f.channels ≤ 2 ∧
          (t.f.compression = IMA ∨ t.f.compression = MSADPCM)) ∨
        (codecOf t.f.compression = .alac ∧ t.f.compression = ALAC ∧ t.f.sampleFormat = TWOSCOMP ∧ t.f.sampleWidth ≤ 32 ∧ 0 ≤ t.f.sampleWidth ∧
          t.f.channels ≤ 8) := by
      obtain ⟨f1, f2⟩ := hfew
      cases hcd with
      | pcm c o => rw [c]; exact .inl ⟨by decide, rfl⟩
      | sixteen c s w o =>
        rcases c with c | c | c | c
        · rw [c]; exact .inr (.inl ⟨by decide, by decide, s, w⟩)
        · rw [c]; exact .inr (.inl ⟨by decide, by decide, s, w⟩)
        · have := f1 (.inl c)
          rw [c]; exact .inr (.inr (.inl ⟨by decide, by decide, s, w, by omega, .inl rfl⟩))
        · have := f1 (.inr c)
          rw [c]; exact .inr (.inr (.inl ⟨by decide, by decide, s, w, by omega, .inr rfl⟩))
      | alac c s w o =>
        have := f2 c
        rw [c]; exact .inr (.inr (.inr ⟨by decide, rfl, s, by omega, by omega, by omega⟩))
    have e18 : (2 ^ 18 : Int) = 262144 := by decide
    have hfw : t.f.channels.toNat < 2 ^ 18 := by
      have : (2 ^ 18 : Nat) = 262144 := by decide
      omega
    have hbig : ∀ k : Nat, k ≤ 8 → t.fpp < 2 ^ 25 → t.f.channels ≤ k → t.fpp.toNat * (8 * t.f.channels.toNat) < 2 ^ 31 := by
      intro k hk h1 h2
      have h1 : t.fpp.toNat < 2 ^ 25 := by
        have : (2 ^ 25 : Nat) = 33554432 := by decide
        have : (2 ^ 25 : Int) = 33554432 := by decide
        omega
      refine Nat.lt_of_le_of_lt (Nat.mul_le_mul_left _ (show 8 * t.f.channels.toNat ≤ 64 by omega)) ?_
      have : (2 ^ 31 : Nat) = 2147483648 := by decide
      have : (2 ^ 25 : Nat) = 33554432 := by decide
      omega
    have hcod : (trackOf h t hp sizes frames).codec = codecOf t.f.compression := rfl
    have hcomp : (trackOf h t hp sizes frames).f.compressed = decide (t.f.compression ≠ NONE) := rfl
    have hwd : (trackOf h t hp sizes frames).f.width = t.f.sampleWidth.toNat := rfl
    have hsf : t.f.sampleFormat = TWOSCOMP → (trackOf h t hp sizes frames).f.sampleFormat = .twos := hsf
    have hch : (trackOf h t hp sizes frames).f.channels = t.f.channels.toNat := rfl
    have hsz : (trackOf h t hp sizes frames).sizes = sizes := rfl
    have hfr : (trackOf h t hp sizes frames).frames = frames := rfl
    have hfp : (trackOf h t hp sizes frames).fpp = t.fpp.toNat := rfl
    have hbp : (trackOf h t hp sizes frames).bpp = t.bpp.toNat := rfl
    have hfrm : 0 < bytesPerFrame (trackOf h t hp sizes frames).f false := by
      have : 0 < (Virtual.chainFormat t.f).bytesPerSample false := by
        unfold Fmt.bytesPerSample
        rcases hw with ⟨e, h1, h2⟩ | ⟨e, h1⟩ | ⟨e, h1⟩
        · have : (Virtual.chainFormat t.f).sampleFormat = .unsigned ∨ (Virtual.chainFormat t.f).sampleFormat = .twos := by
            unfold Virtual.chainFormat
            dsimp only
            rcases e with e | e <;> rw [e]
            · exact .inr rfl
            · exact .inl rfl
          have h8 : 0 < ((Virtual.chainFormat t.f).width + 7) / 8 := by
            show 0 < (t.f.sampleWidth.toNat + 7) / 8
            omega
          rcases this with e | e <;> rw [e] <;> simpa using h8
        · have : (Virtual.chainFormat t.f).sampleFormat = .float := by unfold Virtual.chainFormat; dsimp only; rw [e]; rfl
          rw [this]; exact Nat.zero_lt_succ _
        · have : (Virtual.chainFormat t.f).sampleFormat = .double := by unfold Virtual.chainFormat; dsimp only; rw [e]; rfl
          rw [this]; exact Nat.zero_lt_succ _
      exact Nat.mul_pos this (by show 0 < t.f.channels.toNat; omega)
    generalize trackOf h t hp sizes frames = C at hcod hcomp hwd hsf hch hsz hfr hfp hbp hfrm ⊢
    rcases cases5 with ⟨k, c⟩ | ⟨k, c, s, w⟩ | ⟨k, c, s, w, ch, im⟩ | ⟨k, c, s, w1, w2, ch⟩ <;> rw [k] at hcod
    · have no : ∀ {x : Codec} {P : Prop}, x ≠ .pcm → C.codec = x → P := fun h1 h2 => absurd (h2.symm.trans hcod) h1
      exact ⟨⟨fun _ => by simp [hcomp, c], fun e => absurd hcod e, no (by decide), no (by decide), no (by decide)⟩, by unfold Few; rw [hch]; exact hfw,
        fun e => (by rw [hcod] at e; cases e), no (by decide), no (by decide), no (by decide), fun _ => hfrm, no (by decide)⟩
    · have no : ∀ {x : Codec} {P : Prop}, x ≠ .g711 → C.codec = x → P := fun h1 h2 => absurd (h2.symm.trans hcod) h1
      exact ⟨⟨no (by decide), fun _ => by simp [hcomp, c], fun _ => ⟨hsf s, by rw [hwd, w]; rfl⟩, no (by decide), no (by decide)⟩,
        by unfold Few; rw [hch]; exact hfw,
        fun e => (by rw [hcod] at e; cases e), no (by decide), no (by decide), no (by decide), no (by decide), fun _ => by rw [hch]; omega⟩
    · have no : ∀ {x : Codec} {P : Prop}, x ≠ .block → C.codec = x → P := fun h1 h2 => absurd (h2.symm.trans hcod) h1
      have hl := hl (by rcases im with e | e <;> simp [e])
      refine ⟨⟨no (by decide), fun _ => by simp [hcomp, c], no (by decide), fun _ => ⟨hsf s, by rw [hwd, w]; rfl⟩, no (by decide)⟩,
        by unfold Few; rw [hch]; exact hfw,
        fun e => by rw [hfp, hch]; exact hbig 2 (by omega) hl ch, fun _ => ?_, no (by decide), no (by decide), no (by decide), no (by decide)⟩
      obtain ⟨b1, b2⟩ := hb im
      rw [hbp, hch, hfp]
      refine ⟨by omega, ?_⟩
      have : ((2 * t.f.channels.toNat * max 1024 t.fpp.toNat : Nat) : Int) = 2 * t.f.channels * max 1024 t.fpp := by
        rw [Int.natCast_mul, Int.natCast_mul, Int.toNat_of_nonneg h0]
        congr 1
        omega
      omega
    · have no : ∀ {x : Codec} {P : Prop}, x ≠ .alac → C.codec = x → P := fun h1 h2 => absurd (h2.symm.trans hcod) h1
      have hl := hl (.inr (.inr c))
      obtain ⟨s1, s2⟩ := hs c
      refine ⟨⟨no (by decide), fun _ => by rw [hcomp, c]; decide, no (by decide), no (by decide), fun _ => ⟨hsf s, by rw [hwd]; omega⟩⟩,
        by unfold Few; rw [hch]; exact hfw,
        fun e => by rw [hfp, hch]; exact hbig 8 (by omega) hl ch, no (by decide), fun _ q hq => ?_, fun _ i => ?_, no (by decide), no (by decide)⟩
      · rw [hsz] at hq
        have := s1 q hq
        rw [hfp, hch, hwd]
        have e : ((t.fpp.toNat * t.f.channels.toNat * ((10 + t.f.sampleWidth.toNat) / 8) + 1 : Nat) : Int) =
            t.fpp * t.f.channels * ((10 + t.f.sampleWidth) / 8) + 1 := by
          rw [Int.natCast_add, Int.natCast_mul, Int.natCast_mul, Int.toNat_of_nonneg h0, Int.toNat_of_nonneg (by omega)]
          congr 2
          omega
        omega
      · have := s2 i
        rw [hfr, hfp]; omega
  exact C65_reading hr (C65_as_opened hr) answers ops hops

/-- The hypotheses are met: an IMA WAVE file with blocks of 505 frames in 256 bytes. -/
def goodBlocks : List Byte :=
  tag "RIFF" ++ [36, 0, 0, 0] ++ tag "WAVE" ++ tag "fmt " ++ [20, 0, 0, 0] ++
    [0x11, 0, 1, 0, 0x44, 0xac, 0, 0, 0x44, 0xac, 0, 0, 0, 1, 4, 0, 2, 0, 0xf9, 1] ++ tag "data" ++ [0, 1, 0, 0] ++ List.replicate 256 0

/-- The bytes of an opened file that its first `read` finds. -/
def bytesThere (file : List Byte) (t : Trk) : Nat := ((file.length : Int) - t.first).toNat

/-- An IMA WAVE file whose blocks hold one frame and take 65535 bytes. -/
def wideBlocks : List Byte :=
  tag "RIFF" ++ [36, 0, 0, 0] ++ tag "WAVE" ++ tag "fmt " ++ [20, 0, 0, 0] ++
    [0x11, 0, 1, 0, 0x44, 0xac, 0, 0, 0x44, 0xac, 0, 0, 0xff, 0xff, 4, 0, 2, 0, 1, 0] ++ tag "data" ++ [0xff, 0xff, 0, 0] ++ List.replicate 3000 0

/-- An IMA WAVE file with a frame count whose blocks take no bytes. -/
def emptyBlocks : List Byte :=
  tag "RIFF" ++ [48, 0, 0, 0] ++ tag "WAVE" ++ tag "fmt " ++ [20, 0, 0, 0] ++
    [0x11, 0, 1, 0, 0x44, 0xac, 0, 0, 0x44, 0xac, 0, 0, 0, 0, 4, 0, 2, 0, 1, 0] ++ tag "fact" ++ [4, 0, 0, 0] ++ [9, 0, 0, 0] ++
    tag "data" ++ [1, 0, 0, 0] ++ [0]

/-- What becomes of a program that opens a file and reads one frame. -/
def readOne (h : Endian) (file : List Byte) (r : Except Err (Trk × Nat)) : Option (Except Abort Unit) :=
  match r with
  | .ok (t, _) =>
    if hp : 0 < t.fpp then
      match rrun (trackOf h t hp) (ropen (asOpened (trackOf h t hp)) [bytesThere file t]) [.read 1] with
      | .ok _ => some (.ok ())
      | .error e => some (.error e)
    else none
  | .error _ => none

theorem open_wave (F32 : Files.Float32) (F64 : Files.Float64) (rnd : Rat → Dbl) (h : Endian) (fuel : Nat) (file : List Byte) (t : Trk) (p : Nat)
    (hid : identify file 0 = .ok (some .wave, 0)) (hrd : ∃ s, waveRead h fuel file 0 = .ok (s, p) ∧ s.t = t) (hk : codecCheck h t.f = some t.f) :
    openRead F32 F64 rnd h fuel file 0 = .ok (t, p) := by
  obtain ⟨s, h1, rfl⟩ := hrd
  unfold openRead
  rw [Rd.bind_ok hid]
  dsimp only [readInit]
  rw [Rd.bind_ok (by rw [Rd.bind_ok h1]; rfl)]
  rw [hk]
  rfl

def waveTrack (r : Except Err (WaveRead × Nat)) : Option (Trk × Nat) :=
  match r with
  | .ok (s, p) => some (s.t, p)
  | .error _ => none

theorem waveTrack_some {r : Except Err (WaveRead × Nat)} {t : Trk} {p : Nat} (h : waveTrack r = some (t, p)) : ∃ s, r = .ok (s, p) ∧ s.t = t := by
  unfold waveTrack at h
  split at h
  · rename_i s q
    cases h
    exact ⟨s, rfl, rfl⟩
  · cases h

theorem waveOpened (F32 : Files.Float32) (F64 : Files.Float64) (rnd : Rat → Dbl) (h : Endian) (file : List Byte) (hid : identify file 0 = .ok (some .wave, 0))
    {res : Except Abort Unit}
    (hrd : (match waveTrack (waveRead h 5 file 0) with
      | some (t, p) => decide (codecCheck h t.f = some t.f ∧ readOne h file (.ok (t, p)) = some res)
      | none => false) = true) :
    ∃ t p, openRead F32 F64 rnd h 5 file 0 = .ok (t, p) ∧ readOne h file (.ok (t, p)) = some res := by
  cases hw : waveTrack (waveRead h 5 file 0) with
  | none => rw [hw] at hrd; cases hrd
  | some r =>
    obtain ⟨t, p⟩ := r
    rw [hw] at hrd
    obtain ⟨h1, h2⟩ := of_decide_eq_true hrd
    exact ⟨t, p, open_wave F32 F64 rnd h 5 file t p hid (waveTrack_some hw) h1, h2⟩

/-- A sound file, for comparison. -/
theorem goodBlocks_read (F32 : Files.Float32) (F64 : Files.Float64) (rnd : Rat → Dbl) (h : Endian) :
    ∃ t p, openRead F32 F64 rnd h 5 goodBlocks 0 = .ok (t, p) ∧ readOne h goodBlocks (.ok (t, p)) = some (.ok ()) := by
  cases h <;> exact waveOpened F32 F64 rnd _ _ (by decide +kernel) (by decide +kernel)

/-- Its track meets the hypotheses of `C65_opened`. -/
example : ((waveTrack (waveRead .little 5 goodBlocks 0)).map fun r =>
    decide (0 < r.1.fpp ∧ r.1.fpp < 2 ^ 25 ∧ 0 ≤ r.1.f.channels ∧ r.1.f.channels < 2 ^ 18 ∧ r.1.f.compression = IMA ∧ 0 < r.1.bpp ∧
      r.1.bpp ≤ 2 * r.1.f.channels * max 1024 r.1.fpp)) = some true := by decide +kernel

/-- C65. Nothing compares the size of a block with the buffers: this WAVE file opens (the error that WAVE.cpp:331-336 reports does
not stop it, and its test passes), and reading one frame reads 3000 bytes of the file into a buffer of 2048 bytes on the heap. -/
theorem C65_wide_blocks (F32 : Files.Float32) (F64 : Files.Float64) (rnd : Rat → Dbl) (h : Endian) :
    ∃ t p, openRead F32 F64 rnd h 5 wideBlocks 0 = .ok (t, p) ∧ readOne h wideBlocks (.ok (t, p)) = some (.error .bufferOverflow) := by
  cases h <;> exact waveOpened F32 F64 rnd _ _ (by decide +kernel) (by decide +kernel)

/-- C65. A block of no bytes is accepted too, if the file tells its length in frames; reading divides by zero. -/
theorem C65_empty_blocks (F32 : Files.Float32) (F64 : Files.Float64) (rnd : Rat → Dbl) (h : Endian) :
    ∃ t p, openRead F32 F64 rnd h 5 emptyBlocks 0 = .ok (t, p) ∧ readOne h emptyBlocks (.ok (t, p)) = some (.error .divisionByZero) := by
  cases h <;> exact waveOpened F32 F64 rnd _ _ (by decide +kernel) (by decide +kernel)

/-- A track of 2^20 channels of 16 bits, as a NeXT, IRCAM, NIST or CAF header can tell. -/
def millionChannels : Cfg :=
  { h := .little, codec := .pcm, f := { be16 with channels := 2 ^ 20 }, fpp := 1, bpp := 2 ^ 21, fpp_pos := by decide, total := some 1 }

/-- C65. With 2^20 channels the size of 1024 frames does not fit `int`: the buffers get no bytes, and reading or writing one frame
whose byte order has to be changed leaves them. -/
theorem C65_many_channels :
    overflows (rrun millionChannels (ropen (asOpened millionChannels) [2 ^ 21]) [.read 1]) = true ∧
    overflows (wrun millionChannels (wopen (asOpened millionChannels) []) [.write 1]) = true :=
  ⟨by decide +kernel, by decide +kernel⟩

end AF.Buffers
