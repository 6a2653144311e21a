import Verif.Spec.Samples
import Verif.Proof.Fields
namespace AF.Convert
open AF.Reading (packets packets_cons packets_short)
open AF.Spec

theorem packets_flatMap {β : Type} (k : Nat) (hk : 0 < k) (g : β → List Byte) (xs : List β)
    (hg : ∀ x ∈ xs, (g x).length = k) : packets k hk (xs.flatMap g) = xs.map g := by
  induction xs with
  | nil => simp; rw [packets_short]; simpa using hk
  | cons x xs ih =>
    have h1 := hg x List.mem_cons_self
    rw [List.flatMap_cons, packets_cons (by simp [h1]), List.take_left' h1, List.drop_left' h1,
      ih (fun y hy => hg y (List.mem_cons_of_mem _ hy)), List.map_cons]

theorem mapSamples_flatMap {β : Type} (k : Nat) (hk : 0 < k) (f : List Byte → List Byte) (g : β → List Byte)
    (xs : List β) (hg : ∀ x ∈ xs, (g x).length = k) :
    mapSamples k f (xs.flatMap g) = xs.flatMap fun x => f (g x) := by
  unfold mapSamples
  rw [dif_pos hk, packets_flatMap k hk g xs hg, List.flatMap_map]

theorem flatMap_congr' {β : Type} {f g : β → List Byte} {xs : List β} (h : ∀ x ∈ xs, f x = g x) :
    xs.flatMap f = xs.flatMap g := by
  induction xs with
  | nil => rfl
  | cons x xs ih =>
    rw [List.flatMap_cons, List.flatMap_cons, h x List.mem_cons_self,
      ih (fun y hy => h y (List.mem_cons_of_mem _ hy))]

def other : Endian → Endian
  | .little => .big
  | .big => .little

theorem reverse_toBytes (e : Endian) (n : Nat) (x : Int) : (toBytes e n x).reverse = toBytes (other e) n x := by
  cases e <;> simp [toBytes, other]

theorem bv_toNat_toBytes (h : Endian) (n : Nat) (g : List Byte) (hg : g.length = n) :
    toBytes h n (BitVec.ofInt (8 * n) (uintOf h g)).toNat = g := by
  have hb := toBytes_uintOf h g
  rw [hg] at hb
  have hbd := uintOf_bounds h g
  rw [hg] at hbd
  have e1 : ((256 : Int) ^ n) = ((2 ^ (8 * n) : Nat) : Int) := by
    rw [Nat.pow_mul]; simp
  rw [e1] at hbd
  rw [BitVec.toNat_ofInt, Int.toNat_of_nonneg (Int.emod_nonneg _ (by omega)),
    Int.emod_eq_of_lt hbd.1 hbd.2, hb]

/-- Swapping reverses the bytes of each sample. -/
theorem swapSample_eq (h : Endian) (n : Nat) (g : List Byte) (hg : g.length = n)
    (hn : n = 2 ∨ n = 3 ∨ n = 4 ∨ n = 8) : swapSample h n g = g.reverse := by
  rcases hn with rfl | rfl | rfl | rfl
  · have := toBytes_byteswap h .s2 (BitVec.ofInt 16 (uintOf h g))
    rw [show toBytes h FieldSize.s2.bytes (BitVec.ofInt 16 (uintOf h g)).toNat = g from bv_toNat_toBytes h 2 g hg] at this
    exact this
  · match g, hg with
    | [a, b, c], _ => rfl
  · have := toBytes_byteswap h .s4 (BitVec.ofInt 32 (uintOf h g))
    rw [show toBytes h FieldSize.s4.bytes (BitVec.ofInt 32 (uintOf h g)).toNat = g from bv_toNat_toBytes h 4 g hg] at this
    exact this
  · have := toBytes_byteswap h .s8 (BitVec.ofInt 64 (uintOf h g))
    rw [show toBytes h FieldSize.s8.bytes (BitVec.ofInt 64 (uintOf h g)).toNat = g from bv_toNat_toBytes h 8 g hg] at this
    exact this

theorem swap_run (h : Endian) (fm) (e : Endian) (n : Nat) (hn : n = 2 ∨ n = 3 ∨ n = 4 ∨ n = 8) (xs : List Int) :
    (Module.swap n).run h fm (xs.flatMap (toBytes e n)) = xs.flatMap (toBytes (other e) n) := by
  simp only [Module.run]
  rw [mapSamples_flatMap n (by omega) _ _ _ (fun x _ => toBytes_length e n x)]
  apply flatMap_congr'
  intro x _
  rw [swapSample_eq h n _ (toBytes_length e n x) hn, reverse_toBytes]

theorem pow256 (n : Nat) : (256 : Int) ^ n = 2 ^ (8 * n) := by
  rw [Int.pow_mul]; rfl

theorem sval_toBytes (h : Endian) (n : Nat) (x : Int) : sval h (toBytes h n x) = wrapS (8 * n) x := by
  unfold sval wrapS
  rw [toBytes_length, uintOf_toBytes, pow256]
  have := Int.emod_bmod (x := x) (n := 2 ^ (8 * n))
  simpa using this

theorem toBytes_wrapS (h : Endian) (n : Nat) (x : Int) : toBytes h n (wrapS (8 * n) x) = toBytes h n x := by
  apply toBytes_congr
  rw [pow256]
  unfold wrapS
  have := Int.bmod_emod (x := x) (m := 2 ^ (8 * n))
  simpa using this

theorem toBytes_wrapU (h : Endian) (n : Nat) (x : Int) : toBytes h n (wrapU (8 * n) x) = toBytes h n x := by
  apply toBytes_congr
  rw [pow256]
  unfold wrapU
  simp

theorem wrapS_of_range {n : Nat} (hn : 0 < n) {x : Int} (h1 : -2 ^ (n - 1) ≤ x) (h2 : x < 2 ^ (n - 1)) : wrapS n x = x := by
  unfold wrapS
  obtain ⟨m, rfl⟩ : ∃ m, n = m + 1 := ⟨n - 1, by omega⟩
  simp only [Nat.add_sub_cancel] at h1 h2
  have e : (2 ^ (m + 1) : Nat) = 2 * 2 ^ m := by rw [Nat.pow_succ]; omega
  have ec : ((2 ^ m : Nat) : Int) = 2 ^ m := by simp
  apply Int.bmod_eq_of_le <;> rw [e] <;> omega

/-- `fcOf B` is the format code of integer samples of `B` bytes. -/
def fcOf : Nat → FC
  | 1 => .int8 | 2 => .int16 | 3 => .int24 | _ => .int32

theorem toBytes3 (e : Endian) (x : Int) : toBytes e 3 x =
    match e with
    | .little => [BitVec.ofInt 8 x, BitVec.ofInt 8 (x / 256), BitVec.ofInt 8 (x / 256 / 256)]
    | .big => [BitVec.ofInt 8 (x / 256 / 256), BitVec.ofInt 8 (x / 256), BitVec.ofInt 8 x] := by
  cases e <;> rfl

theorem expandSample_eq (h : Endian) (u : Bool) (x : Int) (hx : SampleRange 3 u x) :
    expandSample h (!u) (toBytes h 3 x) = toBytes h 4 x := by
  have h0 := byte_ofInt x
  have h1 := byte_ofInt (x / 256)
  have h2 := byte_ofInt (x / 256 / 256)
  have e : ∀ t, t = (x % 16777216) * 256 →
      toBytes h 4 (if (!u) = true then sar (wrapS 32 t) 8 else wrapU 32 t / 2 ^ 8) = toBytes h 4 x := by
    intro t ht
    subst ht
    congr 1
    cases u
    · simp only [SampleRange, Bool.false_eq_true, if_false] at hx
      simp only [Bool.not_false, if_true, sar, wrapS]
      have : Int.bmod (x % 16777216 * 256) (2 ^ 32) = x * 256 := by
        rw [Int.bmod_def]
        simp only [Nat.reducePow, Nat.reduceMul, Nat.reduceSub] at hx ⊢
        split <;> omega
      rw [this]; simp
    · simp only [SampleRange, if_true] at hx
      simp only [Bool.not_true, Bool.false_eq_true, if_false, wrapU]
      simp only [Nat.reducePow, Nat.reduceMul, Nat.reduceSub] at hx ⊢
      omega
  rw [toBytes3]
  unfold expandSample
  cases h
  · apply e
    simp only [List.getD_cons_zero, List.getD_cons_succ, h0, h1, h2]
    omega
  · apply e
    simp only [List.getD_cons_zero, List.getD_cons_succ, h0, h1, h2]
    omega

theorem ofInt_congr {x y : Int} (h : x % 256 = y % 256) : BitVec.ofInt 8 x = BitVec.ofInt 8 y := by
  apply BitVec.eq_of_toNat_eq
  have h1 := byte_ofInt x
  have h2 := byte_ofInt y
  omega

theorem compressSample_eq (h : Endian) (s : Bool) (x : Int) :
    compressSample h s (toBytes h 4 x) = toBytes h 3 x := by
  rw [toBytes3]
  unfold compressSample
  rw [sval_toBytes, uintOf_toBytes]
  have key : ∀ y : Int, y % 4294967296 = x % 4294967296 → 
      BitVec.ofInt 8 (y / 2 ^ (8 * 0)) = BitVec.ofInt 8 x ∧
      BitVec.ofInt 8 (y / 2 ^ (8 * 1)) = BitVec.ofInt 8 (x / 256) ∧
      BitVec.ofInt 8 (y / 2 ^ (8 * 2)) = BitVec.ofInt 8 (x / 256 / 256) := by
    intro y hy
    refine ⟨ofInt_congr ?_, ofInt_congr ?_, ofInt_congr ?_⟩ <;> simp only [Nat.reduceMul, Nat.reducePow, Int.reducePow] <;> omega
  have hy : (if s = true then wrapS (8 * 4) x else x % 256 ^ 4) % 4294967296 = x % 4294967296 := by
    cases s
    · simp
    · simp only [if_true, wrapS]
      have := Int.bmod_emod (x := x) (m := 2 ^ 32)
      simpa using this
  obtain ⟨k0, k1, k2⟩ := key _ hy
  cases h <;> simp only [k0, k1, k2]

theorem fc_pos (B : Nat) (hB : 1 ≤ B ∧ B ≤ 4) : 0 < (fcOf B).storage := by
  have : B = 1 ∨ B = 2 ∨ B = 3 ∨ B = 4 := by omega
  rcases this with rfl | rfl | rfl | rfl <;> decide

theorem storage_user (B : Nat) (hB : 1 ≤ B ∧ B ≤ 4) : (fcOf B).storage = userSize B := by
  have : B = 1 ∨ B = 2 ∨ B = 3 ∨ B = 4 := by omega
  rcases this with rfl | rfl | rfl | rfl <;> decide

theorem fc_bytes (B : Nat) (hB : 1 ≤ B ∧ B ≤ 4) : (fcOf B).bytes = B := by
  have : B = 1 ∨ B = 2 ∨ B = 3 ∨ B = 4 := by omega
  rcases this with rfl | rfl | rfl | rfl <;> decide

/-- unsigned → signed -/
theorem signSample_toSigned (h : Endian) (B : Nat) (hB : 1 ≤ B ∧ B ≤ 4) (x : Int) (hx : SampleRange B true x) :
    signSample h (fcOf B) false (toBytes h (userSize B) x) = toBytes h (userSize B) (signedValue B true x) := by
  unfold signSample
  rw [storage_user B hB]
  simp only [Bool.false_eq_true, if_false]
  rw [toBytes_wrapS, uintOf_toBytes]
  congr 1
  simp only [SampleRange, if_true] at hx
  simp only [signedValue, if_true]
  have : B = 1 ∨ B = 2 ∨ B = 3 ∨ B = 4 := by omega
  rcases this with rfl | rfl | rfl | rfl <;>
    simp [fcOf, FC.minSigned, FC.bytes, userSize] at hx ⊢ <;> omega

/-- signed → unsigned -/
theorem signSample_toUnsigned (h : Endian) (B : Nat) (hB : 1 ≤ B ∧ B ≤ 4) (y : Int) (hy : SampleRange B false y) :
    signSample h (fcOf B) true (toBytes h (userSize B) y) = toBytes h (userSize B) (y + 2 ^ (8 * B - 1)) := by
  unfold signSample
  rw [storage_user B hB]
  simp only [if_true]
  rw [toBytes_wrapU, sval_toBytes]
  congr 1
  simp only [SampleRange, Bool.false_eq_true, if_false] at hy
  have : B = 1 ∨ B = 2 ∨ B = 3 ∨ B = 4 := by omega
  have hu : wrapS (8 * userSize B) y = y := by
    rcases this with rfl | rfl | rfl | rfl <;> apply wrapS_of_range <;> simp [userSize] at hy ⊢ <;> omega
  rw [hu]
  rcases this with rfl | rfl | rfl | rfl <;> simp [fcOf, FC.minSigned, FC.bytes] <;> omega

theorem convertIntSample_eq (h : Endian) (B B' : Nat) (hB : 1 ≤ B ∧ B ≤ 4) (hB' : 1 ≤ B' ∧ B' ≤ 4) (y : Int)
    (hy : SampleRange B false y) :
    convertIntSample h (fcOf B) (fcOf B') (toBytes h (userSize B) y) = toBytes h (userSize B') (rescale B B' y) := by
  unfold convertIntSample rescale
  rw [storage_user B' hB', fc_bytes B hB, fc_bytes B' hB', sval_toBytes]
  simp only [SampleRange, Bool.false_eq_true, if_false] at hy
  have hu : wrapS (8 * userSize B) y = y := by
    have : B = 1 ∨ B = 2 ∨ B = 3 ∨ B = 4 := by omega
    rcases this with rfl | rfl | rfl | rfl <;> apply wrapS_of_range <;> simp [userSize] at hy ⊢ <;> omega
  rw [hu]
  by_cases hle : B ≤ B'
  · rw [if_neg (by omega), if_pos hle, toBytes_wrapS, pow256, Nat.mul_comm]
  · rw [if_pos (by omega), if_neg hle, toBytes_wrapS, pow256, Nat.mul_comm]
    simp [sar]

theorem signedValue_range (B : Nat) (hB : 1 ≤ B ∧ B ≤ 4) (u : Bool) (x : Int) (hx : SampleRange B u x) :
    SampleRange B false (signedValue B u x) := by
  have : B = 1 ∨ B = 2 ∨ B = 3 ∨ B = 4 := by omega
  unfold SampleRange signedValue at *
  cases u <;> rcases this with rfl | rfl | rfl | rfl <;> simp at hx ⊢ <;> omega

theorem rescale_range (B B' : Nat) (hB : 1 ≤ B ∧ B ≤ 4) (hB' : 1 ≤ B' ∧ B' ≤ 4) (y : Int)
    (hy : SampleRange B false y) : SampleRange B' false (rescale B B' y) := by
  have h1 : B = 1 ∨ B = 2 ∨ B = 3 ∨ B = 4 := by omega
  have h2 : B' = 1 ∨ B' = 2 ∨ B' = 3 ∨ B' = 4 := by omega
  unfold SampleRange rescale at *
  rcases h1 with rfl | rfl | rfl | rfl <;> rcases h2 with rfl | rfl | rfl | rfl <;> simp at hy ⊢ <;> omega

/-! ## The chain -/

/-- An integer format of `B` significant bytes with its default PCM mapping (what `afInitSampleFormat` and
`afSetVirtualSampleFormat` set up). -/
structure IntFmt (f : Fmt) (B : Nat) (u : Bool) : Prop where
  fmt : f.sampleFormat = if u then .unsigned else .twos
  bytes : (f.width + 7) / 8 = B
  range : 1 ≤ B ∧ B ≤ 4
  pcm : f.pcm = if u then defaultUnsigned B else defaultSigned B

theorem IntFmt.code {f B u} (h : IntFmt f B u) : f.code = some (fcOf B) := by
  have := h.range
  have hB : B = 1 ∨ B = 2 ∨ B = 3 ∨ B = 4 := by omega
  unfold Fmt.code Fmt.bytesPerSample
  rw [h.fmt, h.bytes]
  cases u <;> rcases hB with rfl | rfl | rfl | rfl <;> simp [fcOf]

theorem bps_false {f : Fmt} {B : Nat} {u : Bool} (hf : f.sampleFormat = if u then .unsigned else .twos)
    (hw : (f.width + 7) / 8 = B) : f.bytesPerSample false = B := by
  unfold Fmt.bytesPerSample
  rw [hf, hw]
  cases u <;> simp

theorem bps_true {f : Fmt} {B : Nat} {u : Bool} (hf : f.sampleFormat = if u then .unsigned else .twos)
    (hw : (f.width + 7) / 8 = B) (hc : f.compressed = false) : f.bytesPerSample true = userSize B := by
  unfold Fmt.bytesPerSample userSize
  rw [hf, hw]
  cases u <;> simp [hc]

theorem runAll_add (h : Endian) (fm) (c : Chain) (m : Module) (bs : List Byte) :
    runAll h fm (c.add m).mods bs = m.run h fm (runAll h fm c.mods bs) := by
  simp [runAll, Chain.add, List.foldl_append]

theorem default_shift_in (B : Nat) (hB : 1 ≤ B ∧ B ≤ 4) :
    ({ defaultUnsigned B with
        intercept := (defaultUnsigned B).intercept + -((2 ^ (8 * B - 1) : Nat) : Rat)
        minClip := (defaultUnsigned B).minClip + -((2 ^ (8 * B - 1) : Nat) : Rat)
        maxClip := (defaultUnsigned B).maxClip + -((2 ^ (8 * B - 1) : Nat) : Rat) } : PCM) = defaultSigned B := by
  have hB : B = 1 ∨ B = 2 ∨ B = 3 ∨ B = 4 := by omega
  rcases hB with rfl | rfl | rfl | rfl <;> decide +kernel

theorem outPCM_default {o : Fmt} {B u} (h : IntFmt o B u) : outPCM o (fcOf B) = defaultSigned B := by
  unfold outPCM
  have hr := h.range
  have hB : B = 1 ∨ B = 2 ∨ B = 3 ∨ B = 4 := by omega
  cases u
  · simp [Fmt.isUnsigned, h.fmt, h.pcm]
  · simp only [Fmt.isUnsigned, h.fmt, h.pcm, if_true, decide_true]
    rw [← default_shift_in B hr]
    rcases hB with rfl | rfl | rfl | rfl <;> rfl

theorem intMapping_fcOf (B : Nat) (hr : 1 ≤ B ∧ B ≤ 4) : intMapping (fcOf B) = some (defaultSigned B) := by
  have hB : B = 1 ∨ B = 2 ∨ B = 3 ∨ B = 4 := by omega
  rcases hB with rfl | rfl | rfl | rfl <;> rfl

theorem fcOf_int (B : Nat) (hr : 1 ≤ B ∧ B ≤ 4) : (fcOf B).isInteger = true := by
  have hB : B = 1 ∨ B = 2 ∨ B = 3 ∨ B = 4 := by omega
  rcases hB with rfl | rfl | rfl | rfl <;> rfl

theorem middle_default (i o : Fmt) (B B' : Nat) (hr : 1 ≤ B ∧ B ≤ 4) (hr' : 1 ≤ B' ∧ B' ≤ 4)
    (hch : i.channels = o.channels) (c : Chain) :
    middle i o (defaultSigned B) (defaultSigned B') (fcOf B) (fcOf B') c
      = c.addIf (fcOf B ≠ fcOf B') (.convertInt (fcOf B) (fcOf B')) := by
  have t1 : isTrivialIntClip (defaultSigned B) (fcOf B) = true := by
    simp [isTrivialIntClip, intMapping_fcOf B hr]
  have t2 : isTrivialIntClip (defaultSigned B') (fcOf B') = true := by
    simp [isTrivialIntClip, intMapping_fcOf B' hr']
  have t3 : transforming (defaultSigned B) (defaultSigned B') (fcOf B) (fcOf B') = false := by
    simp [transforming, isTrivialIntMapping, intMapping_fcOf B hr, intMapping_fcOf B' hr']
  unfold middle
  simp [t1, t2, t3, fcOf_int B hr, fcOf_int B' hr', hch, Chain.addIf]

/-- A chunk format of known code, not unsigned. -/
structure Described (f : Fmt) (fc : FC) (ch : Nat) : Prop where
  notUnsigned : f.sampleFormat ≠ .unsigned
  code : f.code = some fc
  channels : f.channels = ch

theorem code_congr {f g : Fmt} (hs : f.sampleFormat = g.sampleFormat) (hw : f.width = g.width) : f.code = g.code := by
  unfold Fmt.code Fmt.bytesPerSample; rw [hs, hw]; cases g.sampleFormat <;> simp

theorem code_int {f g : Fmt} (hf : f.isInteger) (hg : g.isInteger) (hw : f.width = g.width) : f.code = g.code := by
  unfold Fmt.code Fmt.bytesPerSample
  rw [hw]
  cases h1 : f.sampleFormat <;> cases h2 : g.sampleFormat <;> simp_all [Fmt.isInteger]

theorem isInt_iff {f : Fmt} {fc : FC} (hc : f.code = some fc) : fc.isInteger = f.isInteger := by
  unfold Fmt.code at hc
  cases hs : f.sampleFormat <;> rw [hs] at hc <;> simp only [Fmt.isInteger, hs]
  · dsimp only at hc; split at hc <;> cases hc <;> rfl
  · dsimp only at hc; split at hc <;> cases hc <;> rfl
  · cases hc; rfl
  · cases hc; rfl

theorem float_iff {f : Fmt} {fc : FC} (hc : f.code = some fc) :
    (f.sampleFormat = .float ↔ fc = .float) ∧ (f.sampleFormat = .double ↔ fc = .double) := by
  unfold Fmt.code at hc
  cases hs : f.sampleFormat <;> rw [hs] at hc
  · dsimp only at hc; split at hc <;> cases hc <;> simp
  · dsimp only at hc; split at hc <;> cases hc <;> simp
  · cases hc; simp
  · cases hc; simp

theorem Described.addIf_keep {c : Chain} {fc ch} (h : Described c.f fc ch) (b : Bool) (m : Module)
    (hm : b = true → Described (m.describe c.f) fc ch) : Described (c.addIf b m).f fc ch := by
  unfold Chain.addIf
  split
  · next hb => exact hm hb
  · exact h

theorem Described.of {f : Fmt} {fc ch} (h : Described f fc ch) (g : Fmt) (h1 : g.sampleFormat = f.sampleFormat)
    (h2 : g.width = f.width) (h3 : g.channels = f.channels) : Described g fc ch :=
  ⟨by rw [h1]; exact h.notUnsigned, by rw [code_congr h1 h2]; exact h.code, by rw [h3]; exact h.channels⟩

theorem describe_toFloat {f : Fmt} {ch : Nat} (hch : f.channels = ch) (o : FC) (ho : o.isFloat) :
    Described { f with
        sampleFormat := if o = .double then .double else .float
        width := if o = .double then 64 else 32 } o ch := by
  refine ⟨?_, ?_, hch⟩
  · simp only; split <;> simp
  · cases o <;> simp_all [FC.isFloat, FC.isInteger, Fmt.code]

theorem describe_toInt {f : Fmt} {ch : Nat} (hch : f.channels = ch) (hf : f.sampleFormat = .twos) (o : FC)
    (ho : o.isInteger) (hw : f.width = 8 * o.bytes) : Described f o ch := by
  refine ⟨by rw [hf]; simp, ?_, hch⟩
  unfold Fmt.code Fmt.bytesPerSample
  rw [hf, hw]
  cases o <;> simp_all [FC.isInteger, FC.bytes]

theorem middle_describes (i o : Fmt) (ip op : PCM) (infc outfc : FC) (c : Chain)
    (hd : Described c.f infc i.channels) :
    Described (middle i o ip op infc outfc c).f outfc o.channels := by
  unfold middle
  extract_lets c1 tr fc' c2 c3
  have d1 : Described c1.f infc i.channels := hd.addIf_keep _ _ fun _ => hd.of _ rfl rfl rfl
  have d2 : Described c2.f fc' i.channels := by
    show Described (c1.addIf _ _).f fc' i.channels
    by_cases hc : infc.isInteger = true ∧ tr = true
    · simp only [hc, and_self, decide_true, Chain.addIf, if_true, Chain.add, Module.describe]
      refine describe_toFloat d1.channels fc' ?_
      show FC.isFloat (if infc.isInteger = true ∧ tr = true then _ else _) = true
      rw [if_pos hc]; split <;> rfl
    · have : fc' = infc := if_neg hc
      simp only [hc, decide_false, Chain.addIf, Bool.false_eq_true, if_false, this]
      exact d1
  have d3 : Described c3.f fc' i.channels := d2.addIf_keep _ _ fun _ => d2.of _ rfl rfl rfl
  clear_value c3 fc' tr
  have dint : fc'.isInteger = true → c3.f.sampleFormat = .twos := by
    intro hi
    have h1 := isInt_iff d3.code
    have := d3.notUnsigned
    rw [hi] at h1
    cases hs : c3.f.sampleFormat with
    | twos => rfl
    | unsigned => exact absurd hs this
    | float => rw [Fmt.isInteger, hs] at h1; exact absurd h1 (by decide)
    | double => rw [Fmt.isInteger, hs] at h1; exact absurd h1 (by decide)
  -- the format conversion
  have d4 : Described (if fc'.isInteger = true ∧ outfc.isInteger = true then
        (c3.addIf (decide (fc' ≠ outfc)) (.convertInt fc' outfc), false)
      else if fc'.isInteger = true then (c3.add (.intToFloat fc' outfc), false)
      else if outfc.isInteger = true then (c3.add (.floatToInt fc' outfc ip op), true)
      else (c3.addIf (decide (fc' ≠ outfc)) (.convertFloat fc' outfc), false)).1.f outfc i.channels := by
    split
    · next hc =>
      simp only [Chain.addIf]
      split
      · next hne =>
        exact describe_toInt (f := (Chain.add c3 (.convertInt fc' outfc)).f) d3.channels (dint hc.1) outfc hc.2 rfl
      · next hne =>
        have : fc' = outfc := by simpa using hne
        rw [← this]; exact d3
    · next hc =>
      split
      · next hi =>
        have ho : outfc.isFloat = true := by simp_all [FC.isFloat]
        exact describe_toFloat d3.channels outfc ho
      · next hi =>
        split
        · next ho => exact describe_toInt (f := (Chain.add c3 (.floatToInt fc' outfc ip op)).f) d3.channels rfl outfc ho rfl
        · next ho =>
          have ho : outfc.isFloat = true := by simp_all [FC.isFloat]
          simp only [Chain.addIf]
          split
          · exact describe_toFloat d3.channels outfc ho
          · next hne =>
            have : fc' = outfc := by simpa using hne
            rw [← this]; exact d3
  revert d4
  generalize (if fc'.isInteger = true ∧ outfc.isInteger = true then
        (c3.addIf (decide (fc' ≠ outfc)) (.convertInt fc' outfc), false)
      else if fc'.isInteger = true then (c3.add (.intToFloat fc' outfc), false)
      else if outfc.isInteger = true then (c3.add (.floatToInt fc' outfc ip op), true)
      else (c3.addIf (decide (fc' ≠ outfc)) (.convertFloat fc' outfc), false)) = p
  intro d4
  obtain ⟨c4, done⟩ := p
  have d5 : Described (c4.addIf (decide (tr = true ∧ (!done) = true ∧ fc' ≠ .double)) (.transform outfc ip op)).f
      outfc i.channels := d4.addIf_keep _ _ fun _ => d4.of _ rfl rfl rfl
  refine Described.addIf_keep ?_ _ _ fun _ => ?_
  all_goals
    have d6 : Described ((c4.addIf (decide (tr = true ∧ (!done) = true ∧ fc' ≠ .double)) (.transform outfc ip op)).addIf
        (decide (i.channels ≠ o.channels))
        (.channelMatrix outfc i.channels o.channels ip.minClip ip.maxClip)).f outfc o.channels := by
      unfold Chain.addIf at d5 ⊢
      split
      · exact ⟨d5.notUnsigned, by rw [← d5.code]; exact code_congr rfl rfl, rfl⟩
      · next hch =>
        have : i.channels = o.channels := by simpa using hch
        rw [← this]; exact d5
  · exact d6
  · exact d6.of _ rfl rfl rfl

theorem arrange_describes (h : Endian) (isReading : Bool) (i o : Fmt) (c : Chain)
    (hc : arrange h isReading i o = some c) :
    c.f.sampleFormat = o.sampleFormat ∧ c.f.code = o.code ∧ c.f.channels = o.channels := by
  unfold arrange at hc
  split at hc
  · next infc outfc hi ho =>
    simp only [Option.some.injEq] at hc
    subst hc
    have d0 : Described (toSigned isReading i infc (toNative h isReading i ⟨[], i⟩)).f infc i.channels := by
      unfold toSigned toNative
      extract_lets c1
      have k1 : c1.f.sampleFormat = i.sampleFormat ∧ c1.f.width = i.width ∧ c1.f.channels = i.channels := by
        simp only [c1, Chain.addIf]
        split <;> split <;> exact ⟨rfl, rfl, rfl⟩
      by_cases hu : i.isUnsigned = true
      · simp only [hu, Chain.addIf, if_true, Chain.add, Module.describe]
        refine ⟨by simp, ?_, k1.2.2⟩
        rw [← hi]
        refine code_int ?_ ?_ k1.2.1
        · simp [Fmt.isInteger]
        · simp_all [Fmt.isInteger, Fmt.isUnsigned]
      · simp only [hu, Chain.addIf, Bool.false_eq_true, if_false]
        refine ⟨by rw [k1.1]; simpa [Fmt.isUnsigned] using hu, ?_, k1.2.2⟩
        rw [← hi]; exact code_congr k1.1 k1.2.1
    have d1 := middle_describes i o (toSigned isReading i infc (toNative h isReading i ⟨[], i⟩)).f.pcm
      (outPCM o outfc) infc outfc _ d0
    revert d1
    generalize middle i o _ _ infc outfc _ = c2
    intro d1
    unfold toOutput
    have k1 := isInt_iff ho
    have k2 := isInt_iff d1.code
    have k3 := float_iff ho
    have k4 := float_iff d1.code
    have hs : ∀ b m, (b = true → m = Module.compress4to3 o.isSigned ∨ ∃ n, m = Module.swap n) → ∀ c : Chain,
        (c.addIf b m).f.sampleFormat = c.f.sampleFormat ∧ (c.addIf b m).f.width = c.f.width ∧
          (c.addIf b m).f.channels = c.f.channels := by
      intro b m hm c
      unfold Chain.addIf
      split
      · next hb =>
        rcases hm hb with rfl | ⟨n, rfl⟩ <;> exact ⟨rfl, rfl, rfl⟩
      · exact ⟨rfl, rfl, rfl⟩
    have s2 := hs (decide (o.isInteger ∧ o.bytesPerSample false = 3 ∧ ((!isReading) = true ∨ o.compressed = true)))
      (.compress4to3 o.isSigned) (fun _ => .inl rfl) (c2.addIf o.isUnsigned (.sign outfc true))
    extract_lets e1 e2
    have s3 := hs (decide (o.byteOrder ≠ h ∧ o.bytesPerSample isReading > 1 ∧ (!o.compressed) = true))
      (.swap (e2.f.bytesPerSample false)) (fun _ => .inr ⟨_, rfl⟩) e2
    have s1 : e1.f.sampleFormat = o.sampleFormat ∧ e1.f.code = some outfc ∧ e1.f.channels = o.channels := by
      by_cases hu : o.isUnsigned = true
      · simp only [e1, hu, Chain.addIf, if_true, Chain.add, Module.describe]
        have ho' : o.sampleFormat = .unsigned := by simpa [Fmt.isUnsigned] using hu
        refine ⟨ho'.symm, ?_, d1.channels⟩
        rw [← d1.code]
        refine code_int ?_ ?_ rfl
        · simp [Fmt.isInteger]
        · rw [← k2, k1]; simp [Fmt.isInteger, ho']
      · simp only [e1, hu, Chain.addIf, Bool.false_eq_true, if_false]
        refine ⟨?_, d1.code, d1.channels⟩
        have hn := d1.notUnsigned
        have hno : o.sampleFormat ≠ .unsigned := by simpa [Fmt.isUnsigned] using hu
        cases hs : o.sampleFormat <;> cases hs2 : c2.f.sampleFormat <;> simp_all [Fmt.isInteger]
    refine ⟨?_, ?_, ?_⟩
    · rw [s3.1]; exact s2.1.trans s1.1
    · rw [ho, ← s1.2.1]; exact code_congr (s3.1.trans s2.1) (s3.2.1.trans s2.2.1)
    · rw [s3.2.2]; exact s2.2.2.trans s1.2.2
  · cases hc

/-- Byte order of the samples the file module delivers or takes: codecs work in the host's order. -/
def fileOrder (h : Endian) (f : Fmt) : Endian := if f.compressed then h else f.byteOrder

theorem other_of_ne {a b : Endian} (h : a ≠ b) : other a = b := by cases a <;> cases b <;> simp_all [other]

theorem swap_size {B : Nat} (hr : 1 ≤ B ∧ B ≤ 4) (h1 : 1 < B) : B = 2 ∨ B = 3 ∨ B = 4 ∨ B = 8 := by omega

theorem one_byte (e e' : Endian) (x : Int) : toBytes e 1 x = toBytes e' 1 x := by
  cases e <;> cases e' <;> rfl

theorem input_sign (h : Endian) (fm) (B : Nat) (u : Bool) (hr : 1 ≤ B ∧ B ≤ 4) (i : Fmt) (hi : IntFmt i B u)
    (c : Chain) (hcw : c.f.width = i.width) (hcs : c.f.sampleFormat = i.sampleFormat) (hcp : c.f.pcm = i.pcm)
    (bs : List Byte) (xs : List Int) (hxs : ∀ x ∈ xs, SampleRange B u x)
    (hb : runAll h fm c.mods bs = xs.flatMap (toBytes h (userSize B))) :
    let c' := c.addIf i.isUnsigned (.sign (fcOf B) false)
    runAll h fm c'.mods bs = (xs.map (signedValue B u)).flatMap (toBytes h (userSize B)) ∧
      c'.f.pcm = defaultSigned B ∧ c'.f.sampleFormat = .twos ∧ c'.f.width = i.width := by
  cases u with
  | false =>
    have : i.isUnsigned = false := by simp [Fmt.isUnsigned, hi.fmt]
    simp only [this, Chain.addIf, Bool.false_eq_true, if_false]
    refine ⟨?_, ?_, ?_, hcw⟩
    · rw [hb, List.flatMap_map]; rfl
    · rw [hcp, hi.pcm]; rfl
    · rw [hcs, hi.fmt]; rfl
  | true =>
    have : i.isUnsigned = true := by simp [Fmt.isUnsigned, hi.fmt]
    simp only [this, Chain.addIf, if_true]
    refine ⟨?_, ?_, rfl, hcw⟩
    · rw [runAll_add, hb, List.flatMap_map]
      simp only [Module.run]
      rw [storage_user B hr]
      rw [mapSamples_flatMap _ (by rw [← storage_user B hr]; exact fc_pos B hr) _ _ _ (fun x _ => toBytes_length h _ x)]
      apply flatMap_congr'
      intro x hx
      exact signSample_toSigned h B hr x (hxs x hx)
    · have hbp : c.f.bytesPerSample false = B := bps_false (u := true) (by rw [hcs, hi.fmt]) (by rw [hcw, hi.bytes])
      simp only [Chain.add, Module.describe, hbp, hcp, hi.pcm, if_true, Bool.false_eq_true, if_false]
      exact default_shift_in B hr

theorem input_reading (h : Endian) (fm) (B : Nat) (u : Bool) (i : Fmt) (hi : IntFmt i B u)
    (xs : List Int) (hxs : ∀ x ∈ xs, SampleRange B u x) :
    let c' := toSigned true i (fcOf B) (toNative h true i ⟨[], i⟩)
    runAll h fm c'.mods (packedBytes (fileOrder h i) B xs)
        = (xs.map (signedValue B u)).flatMap (toBytes h (userSize B)) ∧
      c'.f.pcm = defaultSigned B ∧ c'.f.sampleFormat = .twos ∧ c'.f.width = i.width := by
  have hr := hi.range
  have hbp : i.bytesPerSample false = B := bps_false hi.fmt hi.bytes
  -- native byte order
  have s1 : ∃ c1, toNative h true i ⟨[], i⟩ = c1 ∧
      runAll h fm c1.mods (packedBytes (fileOrder h i) B xs) = xs.flatMap (toBytes h B) ∧
      c1.f.width = i.width ∧ c1.f.sampleFormat = i.sampleFormat ∧ c1.f.pcm = i.pcm := by
    refine ⟨_, rfl, ?_⟩
    unfold toNative Chain.addIf
    simp only [Bool.not_true, hbp]
    split
    · next hc =>
      simp only [decide_eq_true_eq, Bool.not_eq_true'] at hc
      obtain ⟨hne, hgt, hcomp⟩ := hc
      refine ⟨?_, rfl, rfl, rfl⟩
      rw [runAll_add]
      simp only [runAll, List.foldl_nil, packedBytes, fileOrder, hcomp, Bool.false_eq_true, if_false]
      rw [swap_run h fm _ B (swap_size hr hgt), other_of_ne hne]
    · next hc =>
      simp only [decide_eq_true_eq, Bool.not_eq_true'] at hc
      refine ⟨?_, rfl, rfl, rfl⟩
      simp only [runAll, List.foldl_nil, packedBytes, fileOrder]
      cases hcomp : i.compressed with
      | true => simp
      | false =>
        by_cases hB : B = 1
        · subst hB
          exact flatMap_congr' fun x _ => one_byte _ _ x
        · have : i.byteOrder = h := by
            refine Decidable.byContradiction fun hne => hc ⟨hne, by omega, hcomp⟩
          simp [this]
  obtain ⟨c1, e1, b1, w1, f1, p1⟩ := s1
  rw [e1]
  -- three bytes to four
  have s2 : ∃ c2, c1.addIf (i.isInteger ∧ i.bytesPerSample false = 3 ∧ (true = true ∨ i.compressed = true))
        (.expand3to4 i.isSigned) = c2 ∧
      runAll h fm c2.mods (packedBytes (fileOrder h i) B xs) = xs.flatMap (toBytes h (userSize B)) ∧
      c2.f.width = i.width ∧ c2.f.sampleFormat = i.sampleFormat ∧ c2.f.pcm = i.pcm := by
    refine ⟨_, rfl, ?_⟩
    have hint : i.isInteger = true := by cases u <;> simp [Fmt.isInteger, hi.fmt]
    by_cases hB : B = 3
    · subst hB
      simp only [hint, hbp, Chain.addIf, true_or, and_self, decide_true, if_true]
      refine ⟨?_, w1, f1, p1⟩
      rw [runAll_add, b1]
      simp only [Module.run]
      rw [mapSamples_flatMap 3 (by omega) _ _ _ (fun x _ => toBytes_length h _ x)]
      apply flatMap_congr'
      intro x hx
      have hs : i.isSigned = !u := by cases u <;> simp [Fmt.isSigned, hi.fmt]
      rw [hs]
      exact expandSample_eq h u x (hxs x hx)
    · have hu : userSize B = B := by simp [userSize, hB]
      simp only [hbp, Chain.addIf, hB, false_and, and_false, decide_false, Bool.false_eq_true, if_false]
      exact ⟨by rw [b1, hu], w1, f1, p1⟩
  obtain ⟨c2, e2, b2, w2, f2, p2⟩ := s2
  unfold toSigned
  rw [e2]
  exact input_sign h fm B u hr i hi c2 w2 f2 p2 _ xs hxs b2

theorem input_writing (h : Endian) (fm) (B : Nat) (u : Bool) (i : Fmt) (hi : IntFmt i B u)
    (hcomp : i.compressed = false) (hord : i.byteOrder = h ∨ B ≠ 3)
    (xs : List Int) (hxs : ∀ x ∈ xs, SampleRange B u x) :
    let c' := toSigned false i (fcOf B) (toNative h false i ⟨[], i⟩)
    runAll h fm c'.mods (userBytes i.byteOrder B xs)
        = (xs.map (signedValue B u)).flatMap (toBytes h (userSize B)) ∧
      c'.f.pcm = defaultSigned B ∧ c'.f.sampleFormat = .twos ∧ c'.f.width = i.width := by
  have hr := hi.range
  have hbp : i.bytesPerSample false = B := bps_false hi.fmt hi.bytes
  have hbt : i.bytesPerSample true = userSize B := bps_true hi.fmt hi.bytes hcomp
  have s1 : ∃ c1, toNative h false i ⟨[], i⟩ = c1 ∧
      runAll h fm c1.mods (userBytes i.byteOrder B xs) = xs.flatMap (toBytes h (userSize B)) ∧
      c1.f.width = i.width ∧ c1.f.sampleFormat = i.sampleFormat ∧ c1.f.pcm = i.pcm := by
    refine ⟨_, rfl, ?_⟩
    unfold toNative Chain.addIf
    simp only [Bool.not_false, hbp, hbt]
    split
    · next hc =>
      simp only [decide_eq_true_eq, Bool.not_eq_true'] at hc
      obtain ⟨hne, hgt, _⟩ := hc
      have hB : B ≠ 3 := hord.resolve_left hne
      have hu : userSize B = B := by simp [userSize, hB]
      rw [hu] at hgt ⊢
      refine ⟨?_, rfl, rfl, rfl⟩
      rw [runAll_add]
      simp only [runAll, List.foldl_nil, userBytes, hu]
      rw [swap_run h fm _ B (swap_size hr hgt), other_of_ne hne]
    · next hc =>
      simp only [decide_eq_true_eq, Bool.not_eq_true'] at hc
      refine ⟨?_, rfl, rfl, rfl⟩
      simp only [runAll, List.foldl_nil, userBytes]
      by_cases hB : B = 1
      · subst hB
        exact flatMap_congr' fun x _ => one_byte _ _ x
      · have : i.byteOrder = h := by
          refine Decidable.byContradiction fun hne => hc ⟨hne, by unfold userSize; split <;> omega, hcomp⟩
        simp [this]
  obtain ⟨c1, e1, b1, w1, f1, p1⟩ := s1
  rw [e1]
  unfold toSigned
  have hno : (decide (i.isInteger ∧ i.bytesPerSample false = 3 ∧ (false = true ∨ i.compressed = true))) = false := by
    simp [hcomp]
  simp only [hno]
  exact input_sign h fm B u hr i hi c1 w1 f1 p1 _ xs hxs b1

/-- A signed sample in the output format. -/
def outValue (B : Nat) (u : Bool) (y : Int) : Int := if u then y + 2 ^ (8 * B - 1) else y

theorem output_sign (h : Endian) (fm) (B : Nat) (u : Bool) (o : Fmt) (ho : IntFmt o B u)
    (c : Chain) (hcs : c.f.sampleFormat = .twos) (hcw : (c.f.width + 7) / 8 = B)
    (bs : List Byte) (ys : List Int) (hys : ∀ y ∈ ys, SampleRange B false y)
    (hb : runAll h fm c.mods bs = ys.flatMap (toBytes h (userSize B))) :
    let c' := c.addIf o.isUnsigned (.sign (fcOf B) true)
    runAll h fm c'.mods bs = (ys.map (outValue B u)).flatMap (toBytes h (userSize B)) ∧
      c'.f.bytesPerSample false = B := by
  have hr := ho.range
  cases u with
  | false =>
    have : o.isUnsigned = false := by simp [Fmt.isUnsigned, ho.fmt]
    simp only [this, Chain.addIf, Bool.false_eq_true, if_false]
    refine ⟨?_, bps_false (u := false) hcs hcw⟩
    rw [hb, List.flatMap_map]; rfl
  | true =>
    have : o.isUnsigned = true := by simp [Fmt.isUnsigned, ho.fmt]
    simp only [this, Chain.addIf, if_true]
    refine ⟨?_, bps_false (u := true) rfl hcw⟩
    rw [runAll_add, hb, List.flatMap_map]
    simp only [Module.run]
    rw [storage_user B hr]
    rw [mapSamples_flatMap _ (by rw [← storage_user B hr]; exact fc_pos B hr) _ _ _ (fun x _ => toBytes_length h _ x)]
    apply flatMap_congr'
    intro x hx
    exact signSample_toUnsigned h B hr x (hys x hx)

theorem output_reading (h : Endian) (fm) (B : Nat) (u : Bool) (o : Fmt) (ho : IntFmt o B u)
    (hcomp : o.compressed = false) (hord : o.byteOrder = h ∨ B ≠ 3)
    (c : Chain) (hcs : c.f.sampleFormat = .twos) (hcw : (c.f.width + 7) / 8 = B)
    (bs : List Byte) (ys : List Int) (hys : ∀ y ∈ ys, SampleRange B false y)
    (hb : runAll h fm c.mods bs = ys.flatMap (toBytes h (userSize B))) :
    runAll h fm (toOutput h true o (fcOf B) c).mods bs = userBytes o.byteOrder B (ys.map (outValue B u)) := by
  have hr := ho.range
  have hbt : o.bytesPerSample true = userSize B := bps_true ho.fmt ho.bytes hcomp
  obtain ⟨b1, w1⟩ := output_sign h fm B u o ho c hcs hcw bs ys hys hb
  unfold toOutput
  generalize c.addIf o.isUnsigned (.sign (fcOf B) true) = c1 at b1 w1
  have hno : (decide (o.isInteger ∧ o.bytesPerSample false = 3 ∧ ((!true) = true ∨ o.compressed = true))) = false := by
    simp [hcomp]
  simp only [hno]
  rw [show c1.addIf false (.compress4to3 o.isSigned) = c1 from rfl]
  rw [hbt, w1]
  unfold Chain.addIf
  split
  · next hc =>
    simp only [decide_eq_true_eq, Bool.not_eq_true'] at hc
    obtain ⟨hne, hgt, _⟩ := hc
    have hB : B ≠ 3 := hord.resolve_left hne
    have hu : userSize B = B := by simp [userSize, hB]
    rw [hu] at hgt b1
    rw [runAll_add, b1, swap_run h fm _ B (swap_size hr hgt), other_of_ne (Ne.symm hne)]
    simp only [userBytes, hu]
  · next hc =>
    simp only [decide_eq_true_eq, Bool.not_eq_true'] at hc
    rw [b1]
    unfold userBytes
    by_cases hB : B = 1
    · subst hB
      exact flatMap_congr' fun x _ => one_byte _ _ x
    · have : o.byteOrder = h := by
        refine Decidable.byContradiction fun hne => hc ⟨hne, by unfold userSize; split <;> omega, hcomp⟩
      rw [this]

theorem output_writing (h : Endian) (fm) (B : Nat) (u : Bool) (o : Fmt) (ho : IntFmt o B u)
    (c : Chain) (hcs : c.f.sampleFormat = .twos) (hcw : (c.f.width + 7) / 8 = B)
    (bs : List Byte) (ys : List Int) (hys : ∀ y ∈ ys, SampleRange B false y)
    (hb : runAll h fm c.mods bs = ys.flatMap (toBytes h (userSize B))) :
    runAll h fm (toOutput h false o (fcOf B) c).mods bs = packedBytes (fileOrder h o) B (ys.map (outValue B u)) := by
  have hr := ho.range
  have hbp : o.bytesPerSample false = B := bps_false ho.fmt ho.bytes
  obtain ⟨b1, w1⟩ := output_sign h fm B u o ho c hcs hcw bs ys hys hb
  unfold toOutput
  generalize c.addIf o.isUnsigned (.sign (fcOf B) true) = c1 at b1 w1
  have s2 : ∃ c2, c1.addIf (o.isInteger ∧ o.bytesPerSample false = 3 ∧ ((!false) = true ∨ o.compressed = true))
        (.compress4to3 o.isSigned) = c2 ∧
      runAll h fm c2.mods bs = (ys.map (outValue B u)).flatMap (toBytes h B) ∧ c2.f.bytesPerSample false = B := by
    refine ⟨_, rfl, ?_⟩
    have hint : o.isInteger = true := by cases u <;> simp [Fmt.isInteger, ho.fmt]
    by_cases hB : B = 3
    · subst hB
      simp only [hint, hbp, Chain.addIf, Bool.not_false, true_or, and_self, decide_true, if_true]
      refine ⟨?_, w1⟩
      rw [show userSize 3 = 4 from rfl] at b1
      rw [runAll_add, b1]
      simp only [Module.run]
      rw [mapSamples_flatMap 4 (by omega) _ _ _ (fun x _ => toBytes_length h _ x)]
      apply flatMap_congr'
      intro x _
      exact compressSample_eq h o.isSigned x
    · have hu : userSize B = B := by simp [userSize, hB]
      simp only [hbp, Chain.addIf, hB, false_and, and_false, decide_false, Bool.false_eq_true, if_false]
      exact ⟨by rw [b1, hu], w1⟩
  obtain ⟨c2, e2, b2, w2⟩ := s2
  show runAll h fm (Chain.addIf (Chain.addIf c1 _ _) _ _).mods bs = _
  rw [e2]
  simp only [hbp, w2]
  unfold Chain.addIf
  split
  · next hc =>
    simp only [decide_eq_true_eq, Bool.not_eq_true'] at hc
    obtain ⟨hne, hgt, hcomp⟩ := hc
    rw [runAll_add, b2, swap_run h fm _ B (swap_size hr hgt), other_of_ne (Ne.symm hne)]
    simp only [packedBytes, fileOrder, hcomp, Bool.false_eq_true, if_false]
  · next hc =>
    simp only [decide_eq_true_eq, Bool.not_eq_true'] at hc
    rw [b2]
    unfold packedBytes fileOrder
    cases hcomp : o.compressed with
    | true => simp
    | false =>
      by_cases hB : B = 1
      · subst hB
        exact flatMap_congr' fun x _ => one_byte _ _ x
      · have : o.byteOrder = h := by
          refine Decidable.byContradiction fun hne => hc ⟨hne, by omega, hcomp⟩
        simp [this]

theorem middle_stage (h : Endian) (fm) (i o : Fmt) (B B' : Nat) (hr : 1 ≤ B ∧ B ≤ 4) (hr' : 1 ≤ B' ∧ B' ≤ 4)
    (c : Chain) (hcs : c.f.sampleFormat = .twos) (hcw : (c.f.width + 7) / 8 = B)
    (bs : List Byte) (ys : List Int) (hys : ∀ y ∈ ys, SampleRange B false y)
    (hb : runAll h fm c.mods bs = ys.flatMap (toBytes h (userSize B)))
    (hch : i.channels = o.channels) :
    let c' := middle i o (defaultSigned B) (defaultSigned B') (fcOf B) (fcOf B') c
    runAll h fm c'.mods bs = (ys.map (rescale B B')).flatMap (toBytes h (userSize B')) ∧
      c'.f.sampleFormat = .twos ∧ (c'.f.width + 7) / 8 = B' := by
  rw [middle_default i o B B' hr hr' hch]
  by_cases hB : B = B'
  · subst hB
    simp only [Chain.addIf, ne_eq, not_true_eq_false, decide_false, Bool.false_eq_true, if_false]
    refine ⟨?_, hcs, hcw⟩
    rw [hb, List.flatMap_map]
    apply flatMap_congr'
    intro x _
    simp [rescale]
  · have hne : fcOf B ≠ fcOf B' := by
      intro e
      exact hB (by rw [← fc_bytes B hr, e, fc_bytes B' hr'])
    simp only [Chain.addIf, hne, ne_eq, not_false_eq_true, decide_true, if_true]
    refine ⟨?_, hcs, ?_⟩
    · rw [runAll_add, hb, List.flatMap_map]
      simp only [Module.run]
      rw [storage_user B hr]
      rw [mapSamples_flatMap _ (by rw [← storage_user B hr]; exact fc_pos B hr) _ _ _ (fun x _ => toBytes_length h _ x)]
      apply flatMap_congr'
      intro x hx
      exact convertIntSample_eq h B B' hr hr' x (hys x hx)
    · simp only [Chain.add, Module.describe, fc_bytes B' hr']; omega

theorem map_convert (B : Nat) (u : Bool) (B' : Nat) (u' : Bool) (xs : List Int) :
    ((xs.map (signedValue B u)).map (rescale B B')).map (outValue B' u') = xs.map (convertSample B u B' u') := by
  rw [List.map_map, List.map_map]; rfl

theorem chain_reading (h : Endian) (fm) (i o : Fmt) (B B' : Nat) (u u' : Bool) (hi : IntFmt i B u) (ho : IntFmt o B' u')
    (hcomp : o.compressed = false) (hord : o.byteOrder = h ∨ B' ≠ 3) (hch : i.channels = o.channels)
    (xs : List Int) (hxs : ∀ x ∈ xs, SampleRange B u x) :
    ∃ c, arrange h true i o = some c ∧
      runAll h fm c.mods (packedBytes (fileOrder h i) B xs)
        = userBytes o.byteOrder B' (xs.map (convertSample B u B' u')) := by
  refine ⟨_, by simp only [arrange, hi.code, ho.code]; rfl, ?_⟩
  obtain ⟨b1, p1, f1, w1⟩ := input_reading h fm B u i hi xs hxs
  rw [p1, outPCM_default ho]
  have hys : ∀ y ∈ xs.map (signedValue B u), SampleRange B false y := by
    intro y hy
    obtain ⟨x, hx, rfl⟩ := List.mem_map.1 hy
    exact signedValue_range B hi.range u x (hxs x hx)
  obtain ⟨b2, f2, w2⟩ := middle_stage h fm i o B B' hi.range ho.range _ f1 (by rw [w1, hi.bytes]) _ _ hys b1 hch
  have hzs : ∀ y ∈ (xs.map (signedValue B u)).map (rescale B B'), SampleRange B' false y := by
    intro y hy
    obtain ⟨x, hx, rfl⟩ := List.mem_map.1 hy
    exact rescale_range B B' hi.range ho.range x (hys x hx)
  rw [output_reading h fm B' u' o ho hcomp hord _ f2 w2 _ _ hzs b2, map_convert]

theorem chain_writing (h : Endian) (fm) (i o : Fmt) (B B' : Nat) (u u' : Bool) (hi : IntFmt i B u) (ho : IntFmt o B' u')
    (hcomp : i.compressed = false) (hord : i.byteOrder = h ∨ B ≠ 3) (hch : i.channels = o.channels)
    (xs : List Int) (hxs : ∀ x ∈ xs, SampleRange B u x) :
    ∃ c, arrange h false i o = some c ∧
      runAll h fm c.mods (userBytes i.byteOrder B xs)
        = packedBytes (fileOrder h o) B' (xs.map (convertSample B u B' u')) := by
  refine ⟨_, by simp only [arrange, hi.code, ho.code]; rfl, ?_⟩
  obtain ⟨b1, p1, f1, w1⟩ := input_writing h fm B u i hi hcomp hord xs hxs
  rw [p1, outPCM_default ho]
  have hys : ∀ y ∈ xs.map (signedValue B u), SampleRange B false y := by
    intro y hy
    obtain ⟨x, hx, rfl⟩ := List.mem_map.1 hy
    exact signedValue_range B hi.range u x (hxs x hx)
  obtain ⟨b2, f2, w2⟩ := middle_stage h fm i o B B' hi.range ho.range _ f1 (by rw [w1, hi.bytes]) _ _ hys b1 hch
  have hzs : ∀ y ∈ (xs.map (signedValue B u)).map (rescale B B'), SampleRange B' false y := by
    intro y hy
    obtain ⟨x, hx, rfl⟩ := List.mem_map.1 hy
    exact rescale_range B B' hi.range ho.range x (hys x hx)
  rw [output_writing h fm B' u' o ho _ f2 w2 _ _ hzs b2, map_convert]

end AF.Convert
