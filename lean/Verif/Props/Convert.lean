import Verif.Proof.Convert
import Verif.Props.Reading
import Verif.Props.Writing
/-! # C06, C07, C08, C09, C18, C48: sample conversion -/
namespace AF.Convert
open AF.Spec

variable (h : Endian) (fm : Module → List Byte → List Byte)

/-! ## C06 -/

/-- **C06** (local). Swapping turns every sample's bytes round and moves nothing from one sample to another. -/
theorem C06_swap_reverses_each_sample (n : Nat) (hn : n = 2 ∨ n = 3 ∨ n = 4 ∨ n = 8) (samples : List (List Byte))
    (hl : ∀ s ∈ samples, s.length = n) :
    (Module.swap n).run h fm samples.flatten = (samples.map List.reverse).flatten := by
  simp only [Module.run]
  have := mapSamples_flatMap n (by omega) (swapSample h n) id samples hl
  rw [List.flatMap_id] at this
  rw [this, ← List.flatMap_id (L := samples.map List.reverse), List.flatMap_map]
  exact flatMap_congr' fun s hs => swapSample_eq h n s (hl s hs) hn

/-- **C06** (involution). -/
theorem C06_swap_twice (n : Nat) (hn : n = 2 ∨ n = 3 ∨ n = 4 ∨ n = 8) (samples : List (List Byte))
    (hl : ∀ s ∈ samples, s.length = n) :
    (Module.swap n).run h fm ((Module.swap n).run h fm samples.flatten) = samples.flatten := by
  rw [C06_swap_reverses_each_sample h fm n hn samples hl, C06_swap_reverses_each_sample h fm n hn]
  · rw [List.map_map, show (List.reverse ∘ List.reverse : List Byte → List Byte) = id from
      funext fun l => List.reverse_reverse l, List.map_id]
  · intro s hs
    obtain ⟨t, ht, rfl⟩ := List.mem_map.1 hs
    simpa using hl t ht

example : (Module.swap 3).run .little fm [1, 2, 3, 4, 5, 6] = [3, 2, 1, 6, 5, 4] :=
  C06_swap_reverses_each_sample .little fm 3 (by decide) [[1, 2, 3], [4, 5, 6]] (by decide)

/-! ## C48 -/

/-- **C48** (integers, reading). For all integer formats and channel counts equal, the chain the library assembles
turns the samples in the file, in the file's byte order, width and signedness, into the same samples in the format
the user asked for. (A 24-bit virtual format must have the host's byte order; see the negation.) -/
theorem C48_reading_chain (i o : Fmt) (B B' : Nat) (u u' : Bool) (hi : IntFmt i B u) (ho : IntFmt o B' u')
    (hcomp : o.compressed = false) (hord : o.byteOrder = h ∨ B' ≠ 3) (hch : i.channels = o.channels)
    (xs : List Int) (hxs : ∀ x ∈ xs, SampleRange B u x) :
    ∃ c, arrange h true i o = some c ∧
      runAll h fm c.mods (packedBytes (fileOrder h i) B xs)
        = userBytes o.byteOrder B' (xs.map (convertSample B u B' u')) :=
  chain_reading h fm i o B B' u u' hi ho hcomp hord hch xs hxs

/-- **C48** (integers, writing). -/
theorem C48_writing_chain (i o : Fmt) (B B' : Nat) (u u' : Bool) (hi : IntFmt i B u) (ho : IntFmt o B' u')
    (hcomp : i.compressed = false) (hord : i.byteOrder = h ∨ B ≠ 3) (hch : i.channels = o.channels)
    (xs : List Int) (hxs : ∀ x ∈ xs, SampleRange B u x) :
    ∃ c, arrange h false i o = some c ∧
      runAll h fm c.mods (userBytes i.byteOrder B xs)
        = packedBytes (fileOrder h o) B' (xs.map (convertSample B u B' u')) :=
  chain_writing h fm i o B B' u u' hi ho hcomp hord hch xs hxs

/-- Formats for the examples. -/
def u8 : Fmt := ⟨.unsigned, 8, 2, .little, false, true, defaultUnsigned 1⟩
def be24 : Fmt := ⟨.twos, 24, 2, .big, false, true, defaultSigned 3⟩
def le24 : Fmt := ⟨.twos, 24, 2, .little, false, true, defaultSigned 3⟩
def le16 : Fmt := ⟨.twos, 16, 2, .little, false, true, defaultSigned 2⟩
def be16u : Fmt := ⟨.unsigned, 16, 2, .big, false, true, defaultUnsigned 2⟩

theorem int_u8 : IntFmt u8 1 true := ⟨rfl, rfl, by decide, rfl⟩
theorem int_be24 : IntFmt be24 3 false := ⟨rfl, rfl, by decide, rfl⟩
theorem int_le24 : IntFmt le24 3 false := ⟨rfl, rfl, by decide, rfl⟩
theorem int_le16 : IntFmt le16 2 false := ⟨rfl, rfl, by decide, rfl⟩
theorem int_be16u : IntFmt be16u 2 true := ⟨rfl, rfl, by decide, rfl⟩

example : ∃ c, arrange .little true be24 be16u = some c ∧
    runAll .little fm c.mods [0xff, 0xff, 0xfe, 0x01, 0x02, 0x03] = [0x7f, 0xff, 0x81, 0x02] := by
  have := C48_reading_chain .little fm be24 be16u 3 2 false true int_be24 int_be16u rfl (by decide) rfl [-2, 0x010203]
    (by simp [SampleRange])
  exact this

/-- **C48** (what the chain claims to produce). For every pair of formats the library can handle, integer, float or
double, the last chunk is described as having the requested sample format, sample size and channel count. -/
theorem C48_chain_format (isReading : Bool) (i o : Fmt) (c : Chain) (hc : arrange h isReading i o = some c) :
    c.f.sampleFormat = o.sampleFormat ∧ c.f.code = o.code ∧ c.f.channels = o.channels :=
  arrange_describes h isReading i o c hc

example : ∃ c, arrange .little true be24 be16u = some c ∧ c.f.sampleFormat = .unsigned ∧ c.f.code = some .int16 :=
  ⟨_, rfl, C48_chain_format .little true be24 be16u _ rfl |>.1, C48_chain_format .little true be24 be16u _ rfl |>.2.1⟩

/-- **C48** (no needless work). Native-order signed samples that are wanted as they are pass through no module at
all. -/
theorem C48_identity_chain (isReading : Bool) (f : Fmt) (B : Nat) (hf : IntFmt f B false) (hB : B ≠ 3) (hn : f.byteOrder = h) :
    ∃ c, arrange h isReading f f = some c ∧ c.mods = [] := by
  refine ⟨_, by simp only [arrange, hf.code]; rfl, ?_⟩
  have hbp : f.bytesPerSample false = B := bps_false hf.fmt hf.bytes
  have hun : f.isUnsigned = false := by simp [Fmt.isUnsigned, hf.fmt]
  have e : toSigned isReading f (fcOf B) (toNative h isReading f ⟨[], f⟩) = ⟨[], f⟩ := by
    simp [toSigned, toNative, Chain.addIf, hn, hbp, hB, hun]
  rw [e, outPCM_default hf, show (⟨[], f⟩ : Chain).f.pcm = defaultSigned B from hf.pcm,
    middle_default f f B B hf.range hf.range rfl]
  simp [toOutput, Chain.addIf, hn, hbp, hB, hun]

example : ∃ c, arrange .little true le16 le16 = some c ∧ c.mods = [] :=
  C48_identity_chain .little true le16 2 int_le16 (by decide) rfl

/-- **C48 is false for 24-bit virtual formats of the other byte order.** The samples occupy four bytes, the swap
module exchanges bytes in groups of three: reading 1 (`00 00 01` in the file) and asking for big-endian 24-bit samples
on a little-endian host delivers other numbers. (The module handles 3 bytes for each of the 3 samples; the rest of the
buffer is left as it was, so only 9 bytes are compared.) -/
theorem C48_negation_24bit_swapped : ∃ c, arrange .little true be24 be24 = some c ∧
    userBytes .big 3 [1, 2, 3] = [0, 0, 0, 1, 0, 0, 0, 2, 0, 0, 0, 3] ∧
    (runAll .little fm c.mods (packedBytes .big 3 [1, 2, 3])).take 9 = [0, 0, 1, 0, 2, 0, 3, 0, 0] := by
  refine ⟨⟨[.swap 3, .expand3to4 true, .swap 3], { be24 with packed := false }⟩, ?_, ?_, ?_⟩
  · have : (arrange .little true be24 be24).map (fun c => (c.mods, c.f))
        = some ([.swap 3, .expand3to4 true, .swap 3], { be24 with packed := false }) := by decide +kernel
    cases hc : arrange .little true be24 be24 with
    | none => rw [hc] at this; cases this
    | some c =>
      rw [hc] at this
      simp only [Option.map_some, Option.some.injEq, Prod.mk.injEq] at this
      cases c; simp_all
  · decide +kernel
  · have : ∀ fm', runAll .little fm' [.swap 3, .expand3to4 true, .swap 3] (packedBytes .big 3 [1, 2, 3])
        = runAll .little (fun _ b => b) [.swap 3, .expand3to4 true, .swap 3] (packedBytes .big 3 [1, 2, 3]) := by
      intro fm'; rfl
    rw [this]
    decide +kernel

/-- The same when writing: the file gets other numbers than the user wrote. -/
theorem C48_negation_24bit_swapped_writing : ∃ c, arrange .little false be24 le24 = some c ∧
    userBytes .big 3 [1, 2, 3] = [0, 0, 0, 1, 0, 0, 0, 2, 0, 0, 0, 3] ∧
    (runAll .little fm c.mods (userBytes .big 3 [1, 2, 3])).take 3 ≠ toBytes .little 3 1 := by
  refine ⟨⟨[.swap 3, .compress4to3 true], le24⟩, ?_, ?_, ?_⟩
  · have : (arrange .little false be24 le24).map (fun c => (c.mods, c.f))
        = some ([.swap 3, .compress4to3 true], le24) := by decide +kernel
    cases hc : arrange .little false be24 le24 with
    | none => rw [hc] at this; cases this
    | some c =>
      rw [hc] at this
      simp only [Option.map_some, Option.some.injEq, Prod.mk.injEq] at this
      cases c; simp_all
  · decide +kernel
  · have : ∀ fm', runAll .little fm' [.swap 3, .compress4to3 true] (userBytes .big 3 [1, 2, 3])
        = runAll .little (fun _ b => b) [.swap 3, .compress4to3 true] (userBytes .big 3 [1, 2, 3]) := by
      intro fm'; rfl
    rw [this]
    decide +kernel

/-- **C06** (values). The byte order of the file makes no difference to what is read: the same samples stored in
either order give the same bytes in the user's buffer. -/
theorem C06_file_order_irrelevant (i i' o : Fmt) (B B' : Nat) (u u' : Bool) (hi : IntFmt i B u) (hi' : IntFmt i' B u)
    (ho : IntFmt o B' u') (hcomp : o.compressed = false) (hord : o.byteOrder = h ∨ B' ≠ 3)
    (hch : i.channels = o.channels) (hch' : i'.channels = o.channels) (xs : List Int) (hxs : ∀ x ∈ xs, SampleRange B u x) :
    ∃ c c', arrange h true i o = some c ∧ arrange h true i' o = some c' ∧
      runAll h fm c.mods (packedBytes (fileOrder h i) B xs) = runAll h fm c'.mods (packedBytes (fileOrder h i') B xs) := by
  obtain ⟨c, e, b⟩ := chain_reading h fm i o B B' u u' hi ho hcomp hord hch xs hxs
  obtain ⟨c', e', b'⟩ := chain_reading h fm i' o B B' u u' hi' ho hcomp hord hch' xs hxs
  exact ⟨c, c', e, e', b.trans b'.symm⟩

example : ∃ c c', arrange .little true be24 le16 = some c ∧ arrange .little true le24 le16 = some c' ∧
    runAll .little fm c.mods (packedBytes .big 3 [-2]) = runAll .little fm c'.mods (packedBytes .little 3 [-2]) :=
  C06_file_order_irrelevant .little fm be24 le24 le16 3 2 false false int_be24 int_le24 int_le16 rfl (.inl rfl) rfl rfl
    [-2] (by simp [SampleRange])

/-! ## C07 -/

/-- **C07** (unpacking sign- or zero-extends). Every list of 24-bit samples stored in three bytes each becomes the same
list of numbers in four bytes each. -/
theorem C07_expand_extends (u : Bool) (xs : List Int) (hxs : ∀ x ∈ xs, SampleRange 3 u x) :
    (Module.expand3to4 (!u)).run h fm (xs.flatMap (toBytes h 3)) = xs.flatMap (toBytes h 4) := by
  simp only [Module.run]
  rw [mapSamples_flatMap 3 (by omega) _ _ _ (fun x _ => toBytes_length h 3 x)]
  exact flatMap_congr' fun x hx => expandSample_eq h u x (hxs x hx)

/-- **C07** (packing). -/
theorem C07_compress_packs (s : Bool) (xs : List Int) :
    (Module.compress4to3 s).run h fm (xs.flatMap (toBytes h 4)) = xs.flatMap (toBytes h 3) := by
  simp only [Module.run]
  rw [mapSamples_flatMap 4 (by omega) _ _ _ (fun x _ => toBytes_length h 4 x)]
  exact flatMap_congr' fun x _ => compressSample_eq h s x

/-- Any three bytes are a 24-bit sample. -/
theorem three_bytes (u : Bool) (g : List Byte) (hg : g.length = 3) :
    ∃ x, SampleRange 3 u x ∧ toBytes h 3 x = g := by
  have hb := toBytes_uintOf h g
  have hbd := uintOf_bounds h g
  rw [hg] at hb hbd
  cases u
  · refine ⟨wrapS (8 * 3) (uintOf h g), ?_, by rw [toBytes_wrapS]; exact hb⟩
    simp only [SampleRange, Bool.false_eq_true, if_false, wrapS]
    have h1 := Int.le_bmod (x := uintOf h g) (m := 2 ^ (8 * 3)) (by decide)
    have h2 := Int.bmod_lt (x := uintOf h g) (m := 2 ^ (8 * 3)) (by decide)
    simp at h1 h2 ⊢
    omega
  · refine ⟨uintOf h g, ?_, hb⟩
    simp only [SampleRange, if_true]
    simp at hbd ⊢
    omega

/-- **C07** (lossless). Unpacking and packing again returns the very bytes, signed or unsigned, whatever they are. -/
theorem C07_pack_unpack (u : Bool) (samples : List (List Byte)) (hl : ∀ s ∈ samples, s.length = 3) :
    (Module.compress4to3 (!u)).run h fm ((Module.expand3to4 (!u)).run h fm samples.flatten) = samples.flatten := by
  have : ∃ xs : List Int, (∀ x ∈ xs, SampleRange 3 u x) ∧ samples = xs.map (toBytes h 3) := by
    induction samples with
    | nil => exact ⟨[], by simp, rfl⟩
    | cons s l ih =>
      obtain ⟨xs, h1, h2⟩ := ih (fun s hs => hl s (List.mem_cons_of_mem _ hs))
      obtain ⟨x, hx, he⟩ := three_bytes h u s (hl s List.mem_cons_self)
      refine ⟨x :: xs, ?_, by simp [he, h2]⟩
      intro y hy
      rcases List.mem_cons.1 hy with rfl | hy
      · exact hx
      · exact h1 y hy
  obtain ⟨xs, hxs, rfl⟩ := this
  rw [← List.flatMap_def, C07_expand_extends h fm u xs hxs, C07_compress_packs]

example : (Module.expand3to4 true).run .little fm [0xfe, 0xff, 0xff, 3, 2, 1] = [0xfe, 0xff, 0xff, 0xff, 3, 2, 1, 0] := by
  have := C07_expand_extends .little fm false [-2, 0x010203] (by simp [SampleRange])
  rw [show List.flatMap (toBytes Endian.little 3) [-2, 0x010203] = [0xfe, 0xff, 0xff, 3, 2, 1] by decide +kernel,
    show List.flatMap (toBytes Endian.little 4) [-2, 0x010203] = [0xfe, 0xff, 0xff, 0xff, 3, 2, 1, 0] by decide +kernel]
    at this
  exact this
example : (Module.compress4to3 true).run .big fm ((Module.expand3to4 true).run .big fm [1, 2, 3, 0xff, 0, 9])
    = [1, 2, 3, 0xff, 0, 9] := C07_pack_unpack .big fm false [[1, 2, 3], [0xff, 0, 9]] (by decide)

/-! ## C08 -/

/-- **C08** (what the module computes). Changing the width of signed samples multiplies by a power of 256, or divides
and rounds towards minus infinity. -/
theorem C08_convertInt (B B' : Nat) (hB : 1 ≤ B ∧ B ≤ 4) (hB' : 1 ≤ B' ∧ B' ≤ 4) (xs : List Int)
    (hxs : ∀ x ∈ xs, SampleRange B false x) :
    (Module.convertInt (fcOf B) (fcOf B')).run h fm (userBytes h B xs)
      = userBytes h B' (xs.map fun x => if B ≤ B' then x * 256 ^ (B' - B) else x / 256 ^ (B - B')) := by
  simp only [Module.run, userBytes]
  rw [storage_user B hB, mapSamples_flatMap _ (by rw [← storage_user B hB]; exact fc_pos B hB) _ _ _
    (fun x _ => toBytes_length h _ x), List.flatMap_map]
  exact flatMap_congr' fun x hx => convertIntSample_eq h B B' hB hB' x (hxs x hx)

/-- **C08** (widen then narrow is the identity). -/
theorem C08_widen_narrow (B B' : Nat) (hB : 1 ≤ B ∧ B ≤ B' ∧ B' ≤ 4) (xs : List Int)
    (hxs : ∀ x ∈ xs, SampleRange B false x) :
    (Module.convertInt (fcOf B') (fcOf B)).run h fm ((Module.convertInt (fcOf B) (fcOf B')).run h fm (userBytes h B xs))
      = userBytes h B xs := by
  rw [C08_convertInt h fm B B' (by omega) (by omega) xs hxs]
  have hr : ∀ y ∈ xs.map (rescale B B'), SampleRange B' false y := by
    intro y hy
    obtain ⟨x, hx, rfl⟩ := List.mem_map.1 hy
    exact rescale_range B B' (by omega) (by omega) x (hxs x hx)
  have := C08_convertInt h fm B' B (by omega) (by omega) (xs.map (rescale B B')) hr
  rw [show (fun x : Int => if B ≤ B' then x * 256 ^ (B' - B) else x / 256 ^ (B - B')) = rescale B B' from rfl, this,
    List.map_map]
  congr 1
  conv => rhs; rw [← List.map_id xs]
  apply List.map_congr_left
  intro x _
  simp only [Function.comp, rescale, id]
  rw [if_pos hB.2.1]
  by_cases he : B' ≤ B
  · have : B' - B = 0 := by omega
    have : B - B' = 0 := by omega
    simp [*]
  · rw [if_neg he, Int.mul_ediv_cancel _ (by have : (0 : Int) < 256 ^ (B' - B) := Int.pow_pos (by decide); omega)]

/-- **C08** (range and monotony). The converted samples are legal samples of the new width, and a larger sample never
becomes a smaller one. -/
theorem C08_range_monotone (B B' : Nat) (hB : 1 ≤ B ∧ B ≤ 4) (hB' : 1 ≤ B' ∧ B' ≤ 4) (x y : Int)
    (hx : SampleRange B false x) (hxy : x ≤ y) :
    SampleRange B' false (rescale B B' x) ∧ rescale B B' x ≤ rescale B B' y := by
  refine ⟨rescale_range B B' hB hB' x hx, ?_⟩
  unfold rescale
  split
  · exact Int.mul_le_mul_of_nonneg_right hxy (Int.pow_nonneg (by decide))
  · exact Int.ediv_le_ediv (Int.pow_pos (by decide)) hxy

example : (Module.convertInt .int24 .int16).run .big fm (userBytes .big 3 [-2]) = userBytes .big 2 [-1] :=
  C08_convertInt .big fm 3 2 (by decide) (by decide) [-2] (by simp [SampleRange])

/-! ## C09 -/

/-- **C09** (offset). Making unsigned samples signed subtracts exactly half the range. -/
theorem C09_to_signed (B : Nat) (hB : 1 ≤ B ∧ B ≤ 4) (xs : List Int) (hxs : ∀ x ∈ xs, SampleRange B true x) :
    (Module.sign (fcOf B) false).run h fm (userBytes h B xs) = userBytes h B (xs.map fun x => x - 2 ^ (8 * B - 1)) := by
  simp only [Module.run, userBytes]
  rw [storage_user B hB, mapSamples_flatMap _ (by rw [← storage_user B hB]; exact fc_pos B hB) _ _ _
    (fun x _ => toBytes_length h _ x), List.flatMap_map]
  exact flatMap_congr' fun x hx => signSample_toSigned h B hB x (hxs x hx)

/-- **C09** (offset, other direction). -/
theorem C09_to_unsigned (B : Nat) (hB : 1 ≤ B ∧ B ≤ 4) (xs : List Int) (hxs : ∀ x ∈ xs, SampleRange B false x) :
    (Module.sign (fcOf B) true).run h fm (userBytes h B xs) = userBytes h B (xs.map fun x => x + 2 ^ (8 * B - 1)) := by
  simp only [Module.run, userBytes]
  rw [storage_user B hB, mapSamples_flatMap _ (by rw [← storage_user B hB]; exact fc_pos B hB) _ _ _
    (fun x _ => toBytes_length h _ x), List.flatMap_map]
  exact flatMap_congr' fun x hx => signSample_toUnsigned h B hB x (hxs x hx)

/-- **C09** (mutually inverse), both ways. -/
theorem C09_inverse (B : Nat) (hB : 1 ≤ B ∧ B ≤ 4) (fromSigned : Bool) (xs : List Int)
    (hxs : ∀ x ∈ xs, SampleRange B (!fromSigned) x) :
    (Module.sign (fcOf B) (!fromSigned)).run h fm ((Module.sign (fcOf B) fromSigned).run h fm (userBytes h B xs))
      = userBytes h B xs := by
  have hhalf : (2 : Int) ^ (8 * B) = 2 * 2 ^ (8 * B - 1) := by
    obtain ⟨k, hk⟩ : ∃ k, 8 * B = k + 1 := ⟨8 * B - 1, by omega⟩
    rw [hk, Int.pow_succ]; simp; omega
  cases fromSigned
  · rw [C09_to_signed h fm B hB xs hxs, Bool.not_false, C09_to_unsigned h fm B hB, List.map_map]
    · congr 1
      conv => rhs; rw [← List.map_id xs]
      apply List.map_congr_left
      intro x _; simp only [Function.comp, id]; omega
    · intro y hy
      obtain ⟨x, hx, rfl⟩ := List.mem_map.1 hy
      have := hxs x hx
      simp only [SampleRange, Bool.not_false, if_true, Bool.false_eq_true, if_false] at this ⊢
      omega
  · rw [C09_to_unsigned h fm B hB xs hxs, Bool.not_true, C09_to_signed h fm B hB, List.map_map]
    · congr 1
      conv => rhs; rw [← List.map_id xs]
      apply List.map_congr_left
      intro x _; simp only [Function.comp, id]; omega
    · intro y hy
      obtain ⟨x, hx, rfl⟩ := List.mem_map.1 hy
      have := hxs x hx
      simp only [SampleRange, Bool.not_true, if_true, Bool.false_eq_true, if_false] at this ⊢
      omega

example : (Module.sign .int8 false).run .little fm [0, 0x80, 0xff] = [0x80, 0, 0x7f] :=
  C09_to_signed .little fm 1 (by decide) [0, 128, 255] (by simp [SampleRange])

/-! ## C18 -/

/-- Samples of a format no wider than the file's survive the trip through the file format. -/
theorem convertSample_roundtrip (B : Nat) (u : Bool) (B' : Nat) (u' : Bool) (hB : B ≤ B') (x : Int) :
    convertSample B' u' B u (convertSample B u B' u' x) = x := by
  have e : ∀ y : Int, rescale B' B (rescale B B' y) = y := by
    intro y
    unfold rescale
    rw [if_pos hB]
    by_cases he : B' ≤ B
    · have h1 : B' - B = 0 := by omega
      have h2 : B - B' = 0 := by omega
      simp [h1, h2]
    · rw [if_neg he, Int.mul_ediv_cancel _ (by have : (0 : Int) < 256 ^ (B' - B) := Int.pow_pos (by decide); omega)]
  unfold convertSample signedValue
  cases u <;> cases u' <;> simp [e]

/-- One frame as it passes from the user's buffer to the file module (writing). -/
def toFile (v f : Fmt) (g : List Byte) : List Byte :=
  match arrange h false v f with
  | some c => runAll h fm c.mods g
  | none => []

/-- … and back (reading). -/
def fromFile (v f : Fmt) (g : List Byte) : List Byte :=
  match arrange h true f v with
  | some c => runAll h fm c.mods g
  | none => []

/-- A track of uncompressed frames of format `f`, `size` bytes each, opened for writing; the virtual format selects the
conversion chain. `PCM::runPush` (PCM.cpp:91-122) writes `size` bytes for each frame. -/
def writer (f : Fmt) (size : Nat) (hpos : 0 < size) (update : Option Int) (first : Nat) :
    Writing.Cfg Fmt (List Byte) (List Byte) Unit where
  kind := .pcm
  fpp := 1
  bpp := size
  fpp_pos := by decide
  bpp_pos := hpos
  first := first
  encode := fun e fs => ((fs.flatten ++ List.replicate size 0).take size, e)
  conv := fun v => toFile h fm v f
  afterUpdate := update
  junk := [[]]
  checks := false

/-- The file it leaves behind (after a header `hdr`) opened for reading. -/
def reader (f : Fmt) (size : Nat) (hpos : 0 < size) (hdr : List Byte) (w : Writing.Final) :
    Reading.Cfg Fmt (List Byte) (List Byte) where
  kind := .pcm
  fpp := 1
  bpp := size
  fpp_pos := by decide
  bpp_pos := hpos
  decode := fun p => [p]
  conv := fun v => fromFile h fm v f
  hasConv := fun _ => true
  file := hdr ++ w.data
  fposFirst := hdr.length
  totalf := w.frameCount
  seekok := true
  checks := false

theorem packets_one {α ε β : Type} (enc : ε → List α → List β × ε) (e : ε) (henc : ∀ fs, (enc e fs).2 = e) (fs : List α) :
    Spec.packets 1 enc fs.length e fs = (fs.flatMap fun a => (enc e [a]).1, e) := by
  induction fs with
  | nil => rfl
  | cons a l ih => simp [Spec.packets, henc, ih]

/-- The general round trip: if every frame becomes `size` bytes in the file and these become the wanted frame. -/
theorem pcm_roundtrip (h' : Endian) (f v v' : Fmt) (size : Nat) (hpos : 0 < size) (update : Option Int) (hdr : List Byte)
    (ps : List (List (List Byte))) (ns : List Int) (out : List Byte → List Byte)
    (hsize : ∀ g ∈ ps.flatten, (toFile h fm v f g).length = size)
    (hback : ∀ g ∈ ps.flatten, fromFile h' fm v' f (toFile h fm v f g) = out g) :
    ∃ w, Writing.session (writer h fm f size hpos update hdr.length) () v (Writing.writes ps) = .ok w ∧
      w.frameCount = ps.flatten.length ∧
      ∃ os, Reading.observe (reader h' fm f size hpos hdr w) v' (ns.map .read) = .ok os ∧
        (os.map Prod.snd).flatten = ((ps.flatten.take (ns.map Int.toNat).sum).map out).map some := by
  have hw : Writing.WF (writer h fm f size hpos update hdr.length) := by
    refine ⟨?_, fun _ => rfl, rfl⟩
    intro e fs _
    simp [writer]
  have hs := Writing.C13_written_file _ hw () v ps
  refine ⟨_, hs, rfl, ?_⟩
  let Fs := ps.flatten.map (toFile h fm v f)
  have hlen : ∀ g ∈ Fs, g.length = size := by
    intro g hg
    obtain ⟨x, hx, rfl⟩ := List.mem_map.1 hg
    exact hsize x hx
  have hD : ∀ pad, Spec.fileData (ε := Unit) 1 (writer h fm f size hpos update hdr.length).encode () pad Fs = Fs.flatten := by
    intro pad
    unfold Spec.fileData
    simp only [Nat.div_one, Nat.mul_one, List.drop_length, if_true]
    rw [packets_one _ _ (fun _ => rfl), ← List.flatMap_id (L := Fs)]
    exact flatMap_congr' fun g hg => by
      show List.take size ([g].flatten ++ List.replicate size 0) = g
      rw [List.flatten_singleton, ← hlen g hg, List.take_left]
  show ∃ os, Reading.observe (reader h' fm f size hpos hdr
    ⟨Spec.fileData 1 (writer h fm f size hpos update hdr.length).encode () _ Fs, _, _⟩) v' _ = _ ∧ _
  simp only [hD]
  generalize hwf : (⟨Fs.flatten, (Spec.fileData _ _ _ _ _).length, _⟩ : Writing.Final) = wf
  have hdata : wf.data = Fs.flatten := by rw [← hwf]
  have hcount : wf.frameCount = (ps.flatten.length : Int) := by rw [← hwf]
  have hflen : Fs.flatten.length = Fs.length * size := by
    have : ∀ (L : List (List Byte)), (∀ g ∈ L, g.length = size) → L.flatten.length = L.length * size := by
      intro L hL
      induction L with
      | nil => simp
      | cons a l ih =>
        rw [List.flatten_cons, List.length_append, hL a List.mem_cons_self,
          ih (fun g hg => hL g (List.mem_cons_of_mem _ hg)), List.length_cons, Nat.add_mul]
        omega
    exact this Fs hlen
  have hFl : Fs.length = ps.flatten.length := List.length_map _
  have hi : Reading.Intact (reader h' fm f size hpos hdr wf) := by
    refine ⟨fun _ _ => rfl, fun _ => rfl, Int.natCast_nonneg _, ?_, ?_, rfl⟩
    · show (0 : Int) ≤ wf.frameCount
      rw [hcount]; omega
    · show wf.frameCount ≤ (((hdr ++ wf.data).length - (hdr.length : Int).toNat) / size * 1 : Nat)
      rw [hcount, hdata, List.length_append, Int.toNat_natCast, Nat.add_sub_cancel_left, hflen,
        Nat.mul_div_cancel _ hpos, hFl]
      omega
  obtain ⟨os, ho, hfl, _, _⟩ := Reading.C12_read_partition_independent _ hi v' ns
  refine ⟨os, ho, ?_⟩
  rw [hfl, Reading.frames_eq hi]
  have hfr : Reading.frames (reader h' fm f size hpos hdr wf) = Fs := by
    unfold Reading.frames Reading.allFrames
    show List.take wf.frameCount.toNat ((Reading.packets size hpos ((hdr ++ wf.data).drop (hdr.length : Int).toNat)).flatMap
      fun p => [p]) = Fs
    have := packets_flatMap size hpos id Fs hlen
    rw [List.flatMap_id, List.map_id] at this
    rw [hdata, Int.toNat_natCast, List.drop_left, this, hcount, Int.toNat_natCast, ← hFl]
    simp
  rw [hfr]
  show ((Fs.take _).map fun a => some (fromFile h' fm v' f a)) = _
  rw [← List.map_take, List.map_map, List.map_map]
  apply List.map_congr_left
  intro g hg
  simp only [Function.comp]
  rw [hback g (List.mem_of_mem_take hg)]

/-- The samples of a frame in the user's buffer. -/
def userFrames (v : Fmt) (B : Nat) (frames : List (List Int)) : List (List Byte) := frames.map (userBytes v.byteOrder B)

theorem flatMap_toBytes_length (e : Endian) (n : Nat) (xs : List Int) : (xs.flatMap (toBytes e n)).length = xs.length * n := by
  induction xs with
  | nil => simp
  | cons x l ih => rw [List.flatMap_cons, List.length_append, toBytes_length, ih, List.length_cons, Nat.add_mul]; omega

/-- **C18** (integers). Write frames of integer samples in any pieces, close the file; on the same or another host open
it, with any byte order as virtual format, and read in any pieces: the frames come back exactly. This holds for every
channel count, every file width and byte order, signed or unsigned, provided the virtual width does not exceed the
file's (virtual format = file format being the ordinary case). -/
theorem C18_integer_roundtrip (h' : Endian) (v v' f : Fmt) (B B' : Nat) (u u' : Bool)
    (hv : IntFmt v B u) (hv' : IntFmt v' B u) (hf : IntFmt f B' u') (hB : B ≤ B')
    (hcv : v.compressed = false) (hcv' : v'.compressed = false) (hcf : f.compressed = false)
    (hov : v.byteOrder = h ∨ B ≠ 3) (hov' : v'.byteOrder = h' ∨ B ≠ 3)
    (hch : v.channels = f.channels) (hch' : v'.channels = f.channels) (hpos : 0 < f.channels * B')
    (update : Option Int) (hdr : List Byte) (calls : List (List (List Int))) (ns : List Int)
    (hframe : ∀ fr ∈ calls.flatten, fr.length = f.channels ∧ ∀ x ∈ fr, SampleRange B u x) :
    ∃ w, Writing.session (writer h fm f (f.channels * B') hpos update hdr.length) () v
          (Writing.writes (calls.map (userFrames v B))) = .ok w ∧
      w.frameCount = calls.flatten.length ∧
      ∃ os, Reading.observe (reader h' fm f (f.channels * B') hpos hdr w) v' (ns.map .read) = .ok os ∧
        (os.map Prod.snd).flatten = (userFrames v' B (calls.flatten.take (ns.map Int.toNat).sum)).map some := by
  have hflat : (calls.map (userFrames v B)).flatten = calls.flatten.map (userBytes v.byteOrder B) := by
    rw [List.map_flatten]; rfl
  have hwr : ∀ fr ∈ calls.flatten, toFile h fm v f (userBytes v.byteOrder B fr)
      = packedBytes f.byteOrder B' (fr.map (convertSample B u B' u')) := by
    intro fr hfr
    obtain ⟨c, e, b⟩ := chain_writing h fm v f B B' u u' hv hf hcv hov hch fr (hframe fr hfr).2
    unfold toFile
    rw [e]
    simpa [fileOrder, hcf] using b
  have hrd : ∀ fr ∈ calls.flatten, fromFile h' fm v' f (packedBytes f.byteOrder B' (fr.map (convertSample B u B' u')))
      = userBytes v'.byteOrder B fr := by
    intro fr hfr
    have hr : ∀ y ∈ fr.map (convertSample B u B' u'), SampleRange B' u' y := by
      intro y hy
      obtain ⟨x, hx, rfl⟩ := List.mem_map.1 hy
      have h1 := rescale_range B B' hv.range hf.range _ (signedValue_range B hv.range u x ((hframe fr hfr).2 x hx))
      unfold convertSample
      cases u' with
      | false => simpa using h1
      | true =>
        have hhalf : (2 : Int) ^ (8 * B') = 2 * 2 ^ (8 * B' - 1) := by
          have := hf.range
          obtain ⟨k, hk⟩ : ∃ k, 8 * B' = k + 1 := ⟨8 * B' - 1, by omega⟩
          rw [hk, Int.pow_succ]; simp; omega
        simp only [SampleRange, Bool.false_eq_true, if_false, if_true] at h1 ⊢
        omega
    obtain ⟨c, e, b⟩ := chain_reading h' fm f v' B' B u' u hf hv' hcv' hov' hch'.symm _ hr
    unfold fromFile
    rw [e]
    simp only [fileOrder, hcf, Bool.false_eq_true, if_false] at b
    refine b.trans ?_
    rw [List.map_map]
    congr 1
    conv => rhs; rw [← List.map_id fr]
    apply List.map_congr_left
    intro x _
    exact convertSample_roundtrip B u B' u' hB x
  -- the frame wanted back for a frame in the user's buffer
  obtain ⟨w, hw, hc, os, ho, hfl⟩ := pcm_roundtrip h fm h' f v v' (f.channels * B') hpos update hdr
    (calls.map (userFrames v B)) ns (fun g => fromFile h' fm v' f (toFile h fm v f g)) (by
      rw [hflat]
      intro g hg
      obtain ⟨fr, hfr, rfl⟩ := List.mem_map.1 hg
      rw [hwr fr hfr, packedBytes, flatMap_toBytes_length, List.length_map, (hframe fr hfr).1]) (fun _ _ => rfl)
  refine ⟨w, hw, by rw [hc, hflat, List.length_map], os, ho, ?_⟩
  rw [hfl, hflat, ← List.map_take, List.map_map, List.map_map, userFrames, List.map_map]
  apply List.map_congr_left
  intro fr hfr
  have hm := List.mem_of_mem_take hfr
  simp only [Function.comp]
  rw [hwr fr hm, hrd fr hm]

/-- Virtual format big-endian 16-bit unsigned, file format little-endian 24-bit signed, two channels. -/
example : ∃ w, Writing.session (writer .little fm le24 6 (by decide) (some (-24)) [(1 : Byte), 2, 3].length) () be16u
      (Writing.writes [[userBytes .big 2 [0, 65535]], [userBytes .big 2 [7, 32768], userBytes .big 2 [1, 2]]]) = .ok w ∧
    w.frameCount = 3 ∧
    ∃ os, Reading.observe (reader .big fm le24 6 (by decide) [1, 2, 3] w) be16u ([2, 5].map .read) = .ok os ∧
      (os.map Prod.snd).flatten
        = [some (userBytes .big 2 [0, 65535]), some (userBytes .big 2 [7, 32768]), some (userBytes .big 2 [1, 2])] :=
  C18_integer_roundtrip .little fm .big be16u be16u le24 2 3 true false int_be16u int_be16u int_le24 (by decide)
    rfl rfl rfl (by decide) (by decide) rfl rfl (by decide) _ _ [[[0, 65535]], [[7, 32768], [1, 2]]] [2, 5]
    (by simp [SampleRange, le24])

/-- A floating-point format of `B` = 4 or 8 bytes whose mapping does not clip (the default mapping, pcm.cpp:57-60). -/
structure FloatFmt (f : Fmt) (B : Nat) : Prop where
  fmt : f.sampleFormat = .float ∧ B = 4 ∨ f.sampleFormat = .double ∧ B = 8
  noClip : f.pcm.maxClip ≤ f.pcm.minClip

/-- Between equal floating-point formats the chain only swaps, whichever the direction. -/
theorem float_chain (isReading : Bool) (i o : Fmt) (B : Nat) (hi : FloatFmt i B) (ho : FloatFmt o B)
    (hp : i.pcm = o.pcm) (hci : i.compressed = false) (hco : o.compressed = false) (hch : i.channels = o.channels)
    (xs : List Int) :
    ∃ c, arrange h isReading i o = some c ∧
      runAll h fm c.mods (packedBytes i.byteOrder B xs) = packedBytes o.byteOrder B xs := by
  obtain ⟨fc, hic, hoc, hfl⟩ : ∃ fc, i.code = some fc ∧ o.code = some fc ∧ fc.isInteger = false := by
    rcases hi.fmt with ⟨h1, rfl⟩ | ⟨h1, rfl⟩ <;> rcases ho.fmt with ⟨h2, h3⟩ | ⟨h2, h3⟩
    · exact ⟨.float, by simp [Fmt.code, h1], by simp [Fmt.code, h2], rfl⟩
    · cases h3
    · cases h3
    · exact ⟨.double, by simp [Fmt.code, h1], by simp [Fmt.code, h2], rfl⟩
  have hB : B = 2 ∨ B = 3 ∨ B = 4 ∨ B = 8 := by rcases hi.fmt with ⟨_, h⟩ | ⟨_, h⟩ <;> omega
  have hbi : ∀ s f, FloatFmt f B → f.bytesPerSample s = B := by
    intro s f hf
    rcases hf.fmt with ⟨h1, h2⟩ | ⟨h1, h2⟩ <;> simp [Fmt.bytesPerSample, h1, h2]
  have hint : ∀ f, FloatFmt f B → f.isInteger = false ∧ f.isUnsigned = false := by
    intro f hf
    rcases hf.fmt with ⟨h1, h2⟩ | ⟨h1, h2⟩ <;> simp [Fmt.isInteger, Fmt.isUnsigned, h1]
  refine ⟨_, by simp only [arrange, hic, hoc]; rfl, ?_⟩
  have e1 : toSigned isReading i fc (toNative h isReading i ⟨[], i⟩) = toNative h isReading i ⟨[], i⟩ := by
    simp [toSigned, Chain.addIf, hint i hi]
  have e2 : (toNative h isReading i ⟨[], i⟩).f.pcm = i.pcm := by
    unfold toNative Chain.addIf; split <;> rfl
  have e3 : outPCM o fc = o.pcm := by simp [outPCM, hint o ho]
  have hnc : ¬ (o.pcm.minClip < o.pcm.maxClip) := Rat.not_lt.2 ho.noClip
  have e4 : ∀ c, middle i o i.pcm o.pcm fc fc c = c := by
    intro c
    unfold middle
    simp [hp, transforming, hfl, hch, hnc, Chain.addIf]
  rw [e1, e2, e3, e4]
  have b1 : runAll h fm (toNative h isReading i ⟨[], i⟩).mods (packedBytes i.byteOrder B xs) = xs.flatMap (toBytes h B) := by
    unfold toNative Chain.addIf
    rw [hbi _ i hi]
    by_cases hne : i.byteOrder = h
    · simp [hne, runAll, packedBytes]
    · have hb : B > 1 := by omega
      simp only [ne_eq, hne, not_false_eq_true, hb, hci, Bool.not_false, and_self, decide_true, if_true]
      rw [runAll_add, hbi _ i hi]
      simp only [runAll, List.foldl_nil]
      rw [packedBytes, swap_run h fm _ B hB, other_of_ne hne]
  have hf1 : (toNative h isReading i ⟨[], i⟩).f.bytesPerSample false = B := by
    have : (toNative h isReading i ⟨[], i⟩).f.sampleFormat = i.sampleFormat := by
      unfold toNative Chain.addIf; split <;> rfl
    rcases hi.fmt with ⟨h1, h2⟩ | ⟨h1, h2⟩ <;> simp [Fmt.bytesPerSample, this, h1, h2]
  generalize toNative h isReading i ⟨[], i⟩ = c1 at b1 hf1
  unfold toOutput
  simp only [hint o ho, Chain.addIf, Bool.false_eq_true, if_false, false_and, decide_false, hbi _ o ho]
  by_cases hne : o.byteOrder = h
  · simp only [hne, ne_eq, not_true_eq_false, false_and, decide_false, Bool.false_eq_true, if_false]; exact b1
  · have hb : B > 1 := by omega
    simp only [ne_eq, hne, not_false_eq_true, hb, hco, Bool.not_false, and_self, decide_true, if_true]
    rw [runAll_add, hf1, b1, swap_run h fm _ B hB, other_of_ne (Ne.symm hne), packedBytes]

/-- **C18** (floating point). The same for files of floats or doubles read and written as such: the frames come back
bit for bit (`Int`s stand for bit patterns, so this includes infinities and NaNs). -/
theorem C18_float_roundtrip (h' : Endian) (v v' f : Fmt) (B : Nat)
    (hv : FloatFmt v B) (hv' : FloatFmt v' B) (hf : FloatFmt f B) (hp : v.pcm = f.pcm) (hp' : v'.pcm = f.pcm)
    (hcv : v.compressed = false) (hcv' : v'.compressed = false) (hcf : f.compressed = false)
    (hch : v.channels = f.channels) (hch' : v'.channels = f.channels) (hpos : 0 < f.channels * B)
    (update : Option Int) (hdr : List Byte) (calls : List (List (List Int))) (ns : List Int)
    (hframe : ∀ fr ∈ calls.flatten, fr.length = f.channels) :
    ∃ w, Writing.session (writer h fm f (f.channels * B) hpos update hdr.length) () v
          (Writing.writes (calls.map (userFrames v B))) = .ok w ∧
      w.frameCount = calls.flatten.length ∧
      ∃ os, Reading.observe (reader h' fm f (f.channels * B) hpos hdr w) v' (ns.map .read) = .ok os ∧
        (os.map Prod.snd).flatten = (userFrames v' B (calls.flatten.take (ns.map Int.toNat).sum)).map some := by
  have hflat : (calls.map (userFrames v B)).flatten = calls.flatten.map (userBytes v.byteOrder B) := by
    rw [List.map_flatten]; rfl
  have hub : ∀ e fr, userBytes e B fr = packedBytes e B fr := by
    intro e fr
    have : B ≠ 3 := by rcases hf.fmt with ⟨_, h⟩ | ⟨_, h⟩ <;> omega
    simp [userBytes, packedBytes, userSize, this]
  have hwr : ∀ fr, toFile h fm v f (userBytes v.byteOrder B fr) = packedBytes f.byteOrder B fr := by
    intro fr
    obtain ⟨c, e, b⟩ := float_chain h fm false v f B hv hf hp hcv hcf hch fr
    unfold toFile
    rw [e, hub]
    exact b
  have hrd : ∀ fr, fromFile h' fm v' f (packedBytes f.byteOrder B fr) = userBytes v'.byteOrder B fr := by
    intro fr
    obtain ⟨c, e, b⟩ := float_chain h' fm true f v' B hf hv' hp'.symm hcf hcv' hch'.symm fr
    unfold fromFile
    rw [e, hub]
    exact b
  obtain ⟨w, hw, hc, os, ho, hfl⟩ := pcm_roundtrip h fm h' f v v' (f.channels * B) hpos update hdr
    (calls.map (userFrames v B)) ns (fun g => fromFile h' fm v' f (toFile h fm v f g)) (by
      rw [hflat]
      intro g hg
      obtain ⟨fr, hfr, rfl⟩ := List.mem_map.1 hg
      rw [hwr fr, packedBytes, flatMap_toBytes_length, hframe fr hfr]) (fun _ _ => rfl)
  refine ⟨w, hw, by rw [hc, hflat, List.length_map], os, ho, ?_⟩
  rw [hfl, hflat, ← List.map_take, List.map_map, List.map_map, userFrames, List.map_map]
  apply List.map_congr_left
  intro fr hfr
  simp only [Function.comp]
  rw [hwr fr, hrd fr]

/-- Big-endian doubles, native order as virtual format. -/
def beDouble : Fmt := ⟨.double, 64, 1, .big, false, true, ⟨1, 0, 0, 0⟩⟩
example : FloatFmt beDouble 8 := ⟨.inr ⟨rfl, rfl⟩, by decide +kernel⟩
example : ∃ w, Writing.session (writer .little fm beDouble 8 (by decide) none ([] : List Byte).length) () { beDouble with byteOrder := .little }
      (Writing.writes [[userBytes .little 8 [0x3ff0000000000000]]]) = .ok w ∧ w.frameCount = 1 ∧
    ∃ os, Reading.observe (reader .little fm beDouble 8 (by decide) [] w) { beDouble with byteOrder := .little }
        ([1].map .read) = .ok os ∧
      (os.map Prod.snd).flatten = [some (userBytes .little 8 [0x3ff0000000000000])] :=
  C18_float_roundtrip .little fm .little { beDouble with byteOrder := .little } { beDouble with byteOrder := .little }
    beDouble 8 ⟨.inr ⟨rfl, rfl⟩, by decide +kernel⟩ ⟨.inr ⟨rfl, rfl⟩, by decide +kernel⟩ ⟨.inr ⟨rfl, rfl⟩, by decide +kernel⟩
    rfl rfl rfl rfl rfl rfl rfl (by decide) none [] [[[0x3ff0000000000000]]] [1] (by simp [beDouble])

end AF.Convert
