import Verif.Spec.Foreign
import Verif.Proof.Files.Post
import Verif.Proof.Files.WAVE
import Verif.Proof.Files.VOC
/-!
# Reading files of other programs: what the formats share
-/
namespace AF.Foreign
open AF AF.Setup AF.Files AF.Spec.Files AF.Spec.Formats AF.Spec.Setup AF.Spec.Foreign

theorem le_length (n x : Nat) : (le n x).length = n := leBytes_length n x
theorem be_length (n x : Nat) : (be n x).length = n := by unfold be; rw [List.length_reverse]; exact leBytes_length n x

/-- A number in some byte order. -/
def num (o : Endian) (n x : Nat) : List Byte := toBytes o n x

theorem le_num (n x : Nat) : le n x = num .little n x := rfl
theorem be_num (n x : Nat) : be n x = num .big n x := rfl
theorem num_length (o : Endian) (n x : Nat) : (num o n x).length = n := toBytes_length _ _ _

theorem toBytes_congr (o : Endian) (n : Nat) {x y : Int} (h : x % 256 ^ n = y % 256 ^ n) : toBytes o n x = toBytes o n y := by
  cases o
  · show leBytes n x = leBytes n y
    exact leBytes_congr n _ _ h
  · show (leBytes n x).reverse = (leBytes n y).reverse
    rw [leBytes_congr n _ _ h]

theorem num_field (h o : Endian) (k : FieldSize) (x : Nat) : num o k.bytes x = fieldBytes h o k x := by
  rw [fieldBytes, writeField_eq]
  apply toBytes_congr
  rw [BitVec.toNat_ofInt]
  have e : (2 ^ (8 * k.bytes) : Nat) = 256 ^ k.bytes := by rw [Nat.pow_mul]
  rw [e]
  have h1 : (0 : Int) < ((256 ^ k.bytes : Nat) : Int) := by
    have : 0 < 256 ^ k.bytes := Nat.pow_pos (by omega)
    omega
  rw [Int.toNat_of_nonneg (Int.emod_nonneg _ (by omega))]
  have e2 : ((256 : Int) ^ k.bytes) = ((256 ^ k.bytes : Nat) : Int) := by rw [Int.natCast_pow]; rfl
  rw [e2, Int.emod_emod]

/-- Reading a field. -/
theorem field_num {h o : Endian} {k : FieldSize} {file : List Byte} {p x : Nat} {rest : List Byte}
    (hf : file.drop p = num o k.bytes x ++ rest) (hx : x < 256 ^ k.bytes) :
    Rd.field? h o k file p = .ok (some x, p + k.bytes) ∧ Rd.field h o k file p = .ok (x, p + k.bytes) := by
  rw [num_field h o k x] at hf
  have := Rd.field_ok (h := h) hf
  have e2 : ((256 : Int) ^ k.bytes) = ((256 ^ k.bytes : Nat) : Int) := by rw [Int.natCast_pow]; rfl
  rw [e2, ← Int.natCast_emod, Int.toNat_natCast, Nat.mod_eq_of_lt hx] at this
  exact this

/-- Reading a field that may be too large. -/
theorem field_any {h o : Endian} {k : FieldSize} {file : List Byte} {p x : Nat} {rest : List Byte}
    (hf : file.drop p = num o k.bytes x ++ rest) :
    ∃ y, Rd.field? h o k file p = .ok (some y, p + k.bytes) ∧ Rd.field h o k file p = .ok (y, p + k.bytes) := by
  rw [num_field h o k x] at hf
  exact ⟨_, Rd.field_ok (h := h) hf⟩

theorem frames_floor {t : Trk} {k L : Nat} (hb : t.bpp = k) (hk : 0 < k) (hk2 : k < 2 ^ 64) (hf : t.fpp = 1) (hs : t.dataSize = L)
    (h : L < 2 ^ 63) : t.computeTotalFileFrames.frames = (L / k : Nat) := by
  unfold Trk.computeTotalFileFrames
  rw [if_pos (by rw [hb, hf]; omega)]
  dsimp only
  have hd : L / k ≤ L := Nat.div_le_self _ _
  rw [hb, hf, hs, wrapU_id (by omega) (by omega), wrapU_id (by omega) (by omega), wrapU_id (by omega) (by omega), Int.mul_one,
    ← Int.natCast_ediv]
  generalize L / k = q at *
  exact wrapS_id (by omega) (by omega)

/-- The kinds of samples of headers. -/
def Kind.Good (k : Kind) : Prop :=
  LegalWidth k.sampleFormat k.width ∧ (k.compression = NONE ∨ k.sampleFormat = TWOSCOMP ∧ k.width = 16 ∧
    (k.compression = ULAW ∨ k.compression = ALAW))

theorem good_bytes {k : Kind} (hk : Kind.Good k) : 1 ≤ k.bytes ∧ k.bytes ≤ 8 := by
  have := hk.1
  unfold LegalWidth at this
  unfold Kind.bytes
  split <;> omega

theorem frame_bytes (k : Kind) (rate : Rat) (channels : Nat) (order : Int) :
    bytesPerFrame (described rate channels order k) = k.bytes * channels := by
  unfold bytesPerFrame Kind.bytes described
  dsimp only
  split
  · have : ((k.width : Int) + 7) / 8 * (channels : Int) = (((k.width + 7) / 8 * channels : Nat) : Int) := by
      rw [Int.natCast_mul, Int.natCast_ediv]; rfl
    rw [this, Int.toNat_natCast]
  · rw [Nat.one_mul, Int.toNat_natCast]

/-- The reader's own format for what a header describes: the mapping is not set, the byte order is the machine's for G.711,
and may be for single bytes. -/
structure Found (h : Endian) (f g : AFmt) : Prop where
  rate : g.rate = f.rate
  sampleFormat : g.sampleFormat = f.sampleFormat
  width : g.sampleWidth = f.sampleWidth
  channels : g.channels = f.channels
  compression : g.compression = f.compression
  order : f.compression = NONE → 8 < f.sampleWidth → g.byteOrder = f.byteOrder

theorem found_bpp {h : Endian} {k : Kind} {rate : Rat} {channels : Nat} {order : Int} {g : AFmt}
    (hf : Found h (described rate channels order k) g) :
    (if g.isUncompressed then pcmBytesPerPacket g else g.channels) = ((k.bytes * channels : Nat) : Int) := by
  have hc := hf.compression
  have hch := hf.channels
  have hw := hf.width
  unfold described at hc hch hw
  dsimp only at hc hch hw
  unfold AFmt.isUncompressed pcmBytesPerPacket Kind.bytes
  rw [hc, hch, hw]
  by_cases hz : k.compression = NONE
  · rw [if_pos (by simp [hz]), if_pos hz, Int.natCast_mul, Int.natCast_ediv, Int.tdiv_eq_ediv_of_nonneg (by omega)]
    rfl
  · rw [if_neg (by simp [hz]), if_neg hz, Nat.one_mul]

/-- What is reported. -/
theorem found_same {h : Endian} {k : Kind} {rate : Rat} {channels : Nat} {order : Int} {g : AFmt} (hk : Kind.Good k)
    (hf : Found h (described rate channels order k) g) {file sound : List Byte} {n : Nat} {t : Trk}
    (h1 : t.f = (setSampleFormat g g.sampleFormat g.sampleWidth).2) (h2 : 0 ≤ t.first) (h3 : t.dataSize = sound.length)
    (h4 : (file.drop t.first.toNat).take sound.length = sound) (h5 : t.frames = n) :
    SameSound (described rate channels order k) sound n file t := by
  have hl : LegalWidth g.sampleFormat g.sampleWidth := by rw [hf.sampleFormat, hf.width]; exact hk.1
  obtain ⟨m, -, hm⟩ := set_self hl
  rw [hm] at h1
  refine ⟨by rw [h1]; exact hf.rate, by rw [h1]; exact hf.channels, by rw [h1]; exact hf.compression, fun hz => ?_, fun hz => ?_, h5, h2, h3, ?_⟩
  · rw [h1]
    exact ⟨hf.sampleFormat, hf.width, fun hw => hf.order hz hw⟩
  · rw [h1]
    rcases hk.2 with h | ⟨a, b, -⟩
    · exact absurd h hz
    · refine ⟨hf.sampleFormat.trans a, hf.width.trans ?_⟩
      show ((k.width : Nat) : Int) = 16
      rw [b]; rfl
  · unfold audio
    rw [h3, Int.toNat_natCast]
    exact h4

/-- The same when the frames are counted. -/
theorem found_counted' {h : Endian} {k : Kind} {rate : Rat} {channels : Nat} {order : Int} {g f : AFmt} (hk : Kind.Good k)
    (hf : Found h (described rate channels order k) g) {file sound : List Byte} {first : Nat} {ad fr size bpp : Int}
    (hset : f = (setSampleFormat g g.sampleFormat g.sampleWidth).2)
    (hc : 1 ≤ channels) (hc2 : channels < 2 ^ 32) (hl : sound.length < 2 ^ 63) (hsz : size = sound.length)
    (hb : bpp = ((k.bytes * channels : Nat) : Int)) (h4 : (file.drop first).take sound.length = sound) :
    SameSound (described rate channels order k) sound (sound.length / (k.bytes * channels)) file (Trk.computeTotalFileFrames
      { f := f, fpp := 1, bpp := bpp, first := (first : Int), afterData := ad, dataSize := size, frames := fr }) := by
  have hg := good_bytes hk
  have hp : 0 < k.bytes * channels := Nat.mul_pos (by omega) (by omega)
  have hp2 : k.bytes * channels ≤ 8 * channels := Nat.mul_le_mul_right _ (by omega)
  generalize ht : Trk.mk f 1 bpp (first : Int) ad size fr = t
  obtain ⟨r1, r2, r3⟩ := computeTotalFileFrames_rest t
  refine found_same hk hf (by rw [r1, ← ht]; exact hset) ?_ ?_ ?_ ?_
  · rw [r2, ← ht]; show (0 : Int) ≤ (first : Int); omega
  · rw [r3, ← ht]; exact hsz
  · rw [r2, ← ht]
    show (file.drop (first : Int).toNat).take _ = _
    rw [Int.toNat_natCast]; exact h4
  · exact frames_floor (by rw [← ht]; exact hb) hp (by omega) (by rw [← ht]) (by rw [← ht]; exact hsz) hl

theorem found_counted {h : Endian} {k : Kind} {rate : Rat} {channels : Nat} {order : Int} {g : AFmt} (hk : Kind.Good k)
    (hf : Found h (described rate channels order k) g) {file sound : List Byte} {first : Nat} {ad fr size : Int}
    (hc : 1 ≤ channels) (hc2 : channels < 2 ^ 32) (hl : sound.length < 2 ^ 63) (hsz : size = sound.length)
    (h4 : (file.drop first).take sound.length = sound) :
    SameSound (described rate channels order k) sound (sound.length / (k.bytes * channels)) file (Trk.computeTotalFileFrames
      { f := (setSampleFormat g g.sampleFormat g.sampleWidth).2, fpp := 1
        bpp := if g.isUncompressed then pcmBytesPerPacket g else g.channels
        first := (first : Int), afterData := ad, dataSize := size, frames := fr }) :=
  found_counted' hk hf rfl hc hc2 hl hsz (found_bpp hf) h4

end AF.Foreign
