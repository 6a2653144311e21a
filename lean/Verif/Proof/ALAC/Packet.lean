import Verif.Proof.ALAC.Golomb
import Verif.Proof.ALAC.Matrix
/-! # Elements of a packet: what the encoder writes, the decoder reads -/
namespace AF.ALAC

/-! ## Fields -/

/-- The bits of some fields. -/
def fieldBits (fs : List (Int × Nat)) : List Bool := fs.flatMap fun f => bitsOf f.2 (BitVec.ofInt 32 f.1).toNat

@[simp] theorem fieldBits_nil : fieldBits [] = [] := rfl

theorem fieldBits_cons (f : Int × Nat) (fs : List (Int × Nat)) :
    fieldBits (f :: fs) = bitsOf f.2 (BitVec.ofInt 32 f.1).toNat ++ fieldBits fs := by simp [fieldBits]

theorem fieldBits_append (a b : List (Int × Nat)) : fieldBits (a ++ b) = fieldBits a ++ fieldBits b := by
  simp [fieldBits]

theorem fieldBits_length (fs : List (Int × Nat)) : (fieldBits fs).length = (fs.map Prod.snd).sum := by
  induction fs with
  | nil => rfl
  | cons f fs ih => rw [fieldBits_cons, List.length_append, ih]; simp

theorem putAll_put : ∀ (fs : List (Int × Nat)), (∀ f ∈ fs, f.2 ≤ 32) → ∀ m pos,
    ∃ m', putAll m pos fs = .ok (m', pos + (fieldBits fs).length) ∧ Put m pos (fieldBits fs) m' := by
  intro fs
  induction fs with
  | nil => intro _ m pos; exact ⟨m, by simp [putAll], Put.nil m pos⟩
  | cons f fs ih =>
    intro h m pos
    obtain ⟨v, n⟩ := f
    obtain ⟨m1, e1, p1⟩ := bbWrite_put (m := m) (pos := pos) (v := BitVec.ofInt 32 v) (h (v, n) (List.mem_cons_self ..))
    obtain ⟨m2, e2, p2⟩ := ih (fun g hg => h g (List.mem_cons_of_mem _ hg)) m1 (pos + n)
    refine ⟨m2, ?_, ?_⟩
    · unfold putAll
      rw [e1]
      simp only [bind, Except.bind]
      rw [e2, fieldBits_cons, List.length_append]
      simp [Nat.add_assoc]
    · rw [fieldBits_cons]
      exact p1.append (by simpa using p2)

theorem bitsOf_int {n : Nat} (hn : n ≤ 32) (v : Int) :
    bitsOf n (BitVec.ofInt 32 v).toNat = bitsOf n (v % (2 ^ n : Nat)).toNat := by
  rw [bitsOf_mod]
  congr 1
  rw [BitVec.toNat_ofInt]
  have h0 : (0 : Int) ≤ v % ((2 ^ 32 : Nat) : Int) := Int.emod_nonneg _ (by decide)
  have h1 : (0 : Int) < ((2 ^ n : Nat) : Int) := by exact_mod_cast Nat.two_pow_pos n
  have h2 : (0 : Int) ≤ v % ((2 ^ n : Nat) : Int) := Int.emod_nonneg _ (by omega)
  have hdvd : ((2 ^ n : Nat) : Int) ∣ ((2 ^ 32 : Nat) : Int) := by
    exact_mod_cast Nat.pow_dvd_pow 2 hn
  apply Int.ofNat.inj
  show ((_ : Nat) : Int) = ((_ : Nat) : Int)
  rw [Int.natCast_emod, Int.toNat_of_nonneg h0, Int.toNat_of_nonneg h2, Int.emod_emod_of_dvd _ hdvd]

theorem bitsOf_natField {n : Nat} (hn : n ≤ 32) {v : Nat} : bitsOf n (BitVec.ofInt 32 (v : Int)).toNat = bitsOf n v := by
  rw [bitsOf_int hn, bitsOf_mod n v]
  congr 1

/-- Reading a field. -/
theorem rd_eq {mem : Mem} {p n v : Nat} (hn : n ≤ 16) (h : Holds mem p (bitsOf n v)) (hv : v < 2 ^ n) : rd mem p n = v :=
  (bbRead_read hn).eq h hv

/-- Reading a signed field. -/
theorem rd_signed {mem : Mem} {p n : Nat} {v : Int} (hn : n ≤ 16) (h : Holds mem p (bitsOf n (BitVec.ofInt 32 v).toNat)) :
    (rd mem p n : Int) = v % (2 ^ n : Nat) := by
  have hp : (0 : Int) < ((2 ^ n : Nat) : Int) := by exact_mod_cast Nat.two_pow_pos n
  have h0 : (0 : Int) ≤ v % ((2 ^ n : Nat) : Int) := Int.emod_nonneg _ (by omega)
  have h1 := Int.emod_lt_of_pos v hp
  rw [bitsOf_int (by omega)] at h
  rw [rd_eq hn h (by omega)]
  omega

/-- The fields of a list, all of the same size. -/
theorem Holds.nth {mem : Mem} {w : Nat} {α : Type} (f : α → Int) : ∀ (xs : List α) (p : Nat),
    Holds mem p (fieldBits (xs.map fun x => (f x, w))) → ∀ i (hi : i < xs.length),
      Holds mem (p + w * i) (bitsOf w (BitVec.ofInt 32 (f xs[i])).toNat) := by
  intro xs
  induction xs with
  | nil => intro p _ i hi; simp at hi
  | cons x xs ih =>
    intro p h i hi
    rw [List.map_cons, fieldBits_cons, Holds.append, bitsOf_length] at h
    cases i with
    | zero => simpa using h.1
    | succ i =>
      have := ih (p + w) h.2 i (by simpa using hi)
      rw [Nat.add_assoc, show w + w * i = w * (i + 1) by rw [Nat.mul_succ, Nat.add_comm]] at this
      simpa using this

theorem fieldBits_map_length {α : Type} (w : Nat) (f : α → Int) (xs : List α) :
    (fieldBits (xs.map fun x => (f x, w))).length = w * xs.length := by
  rw [fieldBits_length, List.map_map]
  induction xs with
  | nil => simp
  | cons x xs ih => simp only [List.map_cons, List.sum_cons, ih, List.length_cons, Function.comp]; rw [Nat.mul_succ]; omega

/-! ## Headers -/

theorem headerBits {fs n b e : Nat} : (fieldBits (headerFields fs n b e)).length = if n = fs then 16 else 48 := by
  rw [fieldBits_length]
  unfold headerFields
  split <;> rfl

theorem headerFields_le (fs n b e : Nat) : ∀ f ∈ headerFields fs n b e, f.2 ≤ 32 := by
  unfold headerFields
  intro f hf
  split at hf <;> simp at hf <;> rcases hf with rfl | rfl | rfl <;> simp

theorem decHeader_ok {mem : Mem} {pos fs n b e requested : Nat} (hn : n < 2 ^ 32) (hb : b < 3) (he : e < 2)
    (hreq : n = fs → requested = fs) (h : Holds mem (pos + 4) (fieldBits (headerFields fs n b e))) :
    decHeader mem pos requested = .ok (n, b, e, pos + 4 + (fieldBits (headerFields fs n b e)).length) := by
  rw [headerBits]
  unfold headerFields at h
  rw [List.cons_append, List.cons_append, List.nil_append, fieldBits_cons, fieldBits_cons, Holds.append, Holds.append] at h
  obtain ⟨h1, h2, h3⟩ := h
  dsimp only at h1 h2 h3
  rw [show ((0 : Int)) = ((0 : Nat) : Int) from rfl, bitsOf_natField (by omega)] at h1
  rw [bitsOf_natField (by omega)] at h2
  rw [bitsOf_length] at h2 h3
  rw [bitsOf_length] at h3
  have r1 := rd_eq (by omega) h1 (by omega)
  have r2 := rd_eq (by omega) h2 (by unfold partialFlag; split <;> omega)
  rw [show pos + 4 + 12 = pos + 16 by omega] at r2
  have hpf : (partialFlag fs n * 8 + b * 2 + e) / 2 % 4 = b ∧ (partialFlag fs n * 8 + b * 2 + e) % 2 = e ∧
      (partialFlag fs n * 8 + b * 2 + e) / 8 = partialFlag fs n := by
    unfold partialFlag; split <;> omega
  unfold decHeader
  simp only [bind, Except.bind, pure, Except.pure]
  rw [r1, if_neg (by omega)]
  simp only [r2, hpf.1, hpf.2.1, hpf.2.2]
  rw [if_neg (by omega)]
  by_cases hnf : n = fs
  · rw [if_pos hnf]
    unfold partialFlag
    rw [if_pos hnf, if_neg (by omega), hreq hnf, hnf]
  · rw [if_neg hnf]
    unfold partialFlag
    rw [if_neg hnf, if_pos (by omega)]
    rw [if_neg hnf, fieldBits_cons, fieldBits_nil, List.append_nil] at h3
    dsimp only at h3
    rw [bitsOf_natField (by omega), bitsOf_append 16 16, Holds.append, bitsOf_length] at h3
    have r3 := rd_eq (by omega) h3.1 (by omega)
    have r4 : rd mem (pos + 36) 16 = n % 2 ^ 16 := by
      apply rd_eq (by omega) _ (by omega)
      rw [← bitsOf_mod]
      have := h3.2
      rwa [show pos + 4 + 12 + 4 + 16 = pos + 36 by omega] at this
    rw [show pos + 4 + 12 + 4 = pos + 20 by omega] at r3
    rw [r3, r4]
    have : n / 2 ^ 16 * 2 ^ 16 + n % 2 ^ 16 = n := by omega
    rw [this]

theorem predBits (num : Nat) (coefs : List Int) (h : coefs.length = num) :
    (fieldBits (predFields num coefs)).length = 16 + 16 * num := by
  unfold predFields
  rw [fieldBits_append, List.length_append, fieldBits_map_length, h]
  simp [fieldBits_length]

theorem predFields_le (num : Nat) (coefs : List Int) : ∀ f ∈ predFields num coefs, f.2 ≤ 32 := by
  unfold predFields
  intro f hf
  simp at hf
  rcases hf with rfl | rfl | ⟨a, _, rfl⟩ <;> simp

theorem decPred_ok {mem : Mem} {p num : Nat} {coefs : List Int} (hn : num < 32) (hl : coefs.length = num)
    (hr : ∀ a ∈ coefs, -32768 ≤ a ∧ a < 32768) (h : Holds mem p (fieldBits (predFields num coefs))) :
    decPred mem p = (⟨0, 9, 4, num, coefs⟩, p + 16 + 16 * num) := by
  unfold predFields at h
  rw [List.cons_append, List.cons_append, List.nil_append, fieldBits_cons, fieldBits_cons, Holds.append, Holds.append] at h
  obtain ⟨h1, h2, h3⟩ := h
  dsimp only at h1 h2 h3
  rw [show ((9 : Int)) = ((9 : Nat) : Int) from rfl, bitsOf_natField (by omega)] at h1
  rw [bitsOf_natField (by omega)] at h2
  rw [bitsOf_length] at h2 h3
  rw [bitsOf_length] at h3
  have r1 := rd_eq (by omega) h1 (by omega)
  have r2 := rd_eq (by omega) h2 (by omega)
  unfold decPred
  dsimp only
  rw [r1, r2, show (4 * 32 + num) % 32 = num by omega, show (4 * 32 + num) / 32 = 4 by omega]
  congr 2
  apply List.ext_getElem
  · simp [hl]
  · intro i hi1 hi2
    simp only [List.getElem_map, List.getElem_range]
    have hh := Holds.nth (fun a => a) coefs _ h3 i hi2
    rw [show p + 8 + 8 + 16 * i = p + 16 + 16 * i by omega] at hh
    rw [rd_signed (by omega) hh]
    have := hr coefs[i] (List.getElem_mem hi2)
    have hw : wrapS 16 (coefs[i] % ((2 ^ 16 : Nat) : Int)) = wrapS 16 coefs[i] := by
      unfold wrapS; exact Int.emod_bmod _ _
    rw [hw, wrapS_eq (by omega) (by omega)]

/-! ## Samples in full -/

theorem decRaw_ok {mem : Mem} {p d : Nat} (hd : Depth d) {v : Int} (hv : -(2 ^ (d - 1) : Nat) ≤ v ∧ v < (2 ^ (d - 1) : Nat))
    (h : Holds mem p (bitsOf d (BitVec.ofInt 32 v).toNat)) : decRaw mem p d = v := by
  by_cases h16 : d = 16
  · subst h16
    unfold decRaw
    rw [if_pos (by omega), chop_eq (by omega) (by omega), rd_signed (by omega) h]
    have : wrapS 16 (v % ((2 ^ 16 : Nat) : Int)) = wrapS 16 v := by unfold wrapS; exact Int.emod_bmod _ _
    rw [this, wrapS_eq (by omega) hv]
  · have hd' : d = 20 ∨ d = 24 ∨ d = 32 := by rcases hd with rfl | rfl | rfl | rfl <;> simp_all
    have hle : d ≤ 32 := by omega
    rw [bitsOf_int hle] at h
    have hsplit : bitsOf d (v % ((2 ^ d : Nat) : Int)).toNat =
        bitsOf 16 ((v % ((2 ^ d : Nat) : Int)).toNat / 2 ^ (d - 16)) ++ bitsOf (d - 16) (v % ((2 ^ d : Nat) : Int)).toNat := by
      rw [← bitsOf_append]; congr 1; omega
    rw [hsplit, Holds.append, bitsOf_length] at h
    obtain ⟨h1, h2⟩ := h
    rw [bitsOf_mod] at h2
    have hp : (0 : Int) < ((2 ^ d : Nat) : Int) := by exact_mod_cast Nat.two_pow_pos d
    have b0 := Int.emod_nonneg v (show ((2 ^ d : Nat) : Int) ≠ 0 by omega)
    have b1 := Int.emod_lt_of_pos v hp
    unfold decRaw
    rw [if_neg (by omega)]
    rw [rd_eq (by omega) h2 (Nat.mod_lt _ (Nat.two_pow_pos _))]
    rw [rd_eq (by omega) h1 (by rcases hd' with rfl | rfl | rfl <;> omega)]
    unfold sar
    by_cases hpos : 0 ≤ v
    · have hw : wrapS 32 ((((v % ((2 ^ d : Nat) : Int)).toNat / 2 ^ (d - 16) : Nat) : Int) * 2 ^ 16) =
          (((v % ((2 ^ d : Nat) : Int)).toNat / 2 ^ (d - 16) : Nat) : Int) * 2 ^ 16 := by
        apply wrapS_eq (by omega)
        rcases hd' with rfl | rfl | rfl <;> omega
      rw [hw]
      rcases hd' with rfl | rfl | rfl <;> omega
    · have hw : wrapS 32 ((((v % ((2 ^ d : Nat) : Int)).toNat / 2 ^ (d - 16) : Nat) : Int) * 2 ^ 16) =
          (((v % ((2 ^ d : Nat) : Int)).toNat / 2 ^ (d - 16) : Nat) : Int) * 2 ^ 16 - ((2 ^ 32 : Nat) : Int) := by
        have := wrapS_add_mul 32 ((((v % ((2 ^ d : Nat) : Int)).toNat / 2 ^ (d - 16) : Nat) : Int) * 2 ^ 16) (-1)
        rw [← this, show ∀ a : Int, a + ((2 ^ 32 : Nat) : Int) * -1 = a - ((2 ^ 32 : Nat) : Int) by intro a; omega]
        apply wrapS_eq (by omega)
        rcases hd' with rfl | rfl | rfl <;> omega
      rw [hw]
      rcases hd' with rfl | rfl | rfl <;> omega

/-! ## Elements -/

/-- A writer that puts `bs` wherever it is started. -/
def Writes (f : Mem → Nat → Except Stop (Mem × Nat)) (bs : List Bool) : Prop :=
  ∀ m pos, ∃ m', f m pos = .ok (m', pos + bs.length) ∧ Put m pos bs m'

theorem Writes.fields {fs : List (Int × Nat)} (h : ∀ f ∈ fs, f.2 ≤ 32) : Writes (fun m pos => putAll m pos fs) (fieldBits fs) :=
  putAll_put fs h

/-- The common part of the two ways to write an element: the compressed form is dropped if it is not shorter. -/
theorem writes_choice {f g : Mem → Nat → Except Stop (Mem × Nat)} {bf bg : List Bool} (escape : Bool) (limit : Nat)
    (hf : Writes f bf) (hg : Writes g bg) :
    Writes (fun m pos => if escape then g m pos else do
        let (m, pos') ← f m pos
        if limit ≤ (pos' - pos) % 2 ^ 32 then g m pos else return (m, pos'))
      (if escape then bg else if limit ≤ bf.length % 2 ^ 32 then bg else bf) := by
  intro m pos
  by_cases he : escape
  · simp only [he, if_true]; exact hg m pos
  · obtain ⟨m1, e1, p1⟩ := hf m pos
    simp only [he, if_false, Bool.false_eq_true]
    rw [e1]
    simp only [bind, Except.bind]
    rw [show pos + bf.length - pos = bf.length by omega]
    by_cases hl : limit ≤ bf.length % 2 ^ 32
    · rw [if_pos hl, if_pos hl]
      obtain ⟨m2, e2, p2⟩ := hg m1 pos
      exact ⟨m2, e2, p2.1, fun p hp => by rw [p2.2 p hp, p1.2 p hp]⟩
    · rw [if_neg hl, if_neg hl]
      exact ⟨m1, rfl, p1⟩

theorem depth_ok {d : Nat} (hd : Depth d) : ¬(d ≠ 16 ∧ d ≠ 20 ∧ d ≠ 24 ∧ d ≠ 32) := by
  rcases hd with rfl | rfl | rfl | rfl <;> omega

theorem depth_le {d : Nat} (hd : Depth d) : 16 ≤ d ∧ d ≤ 32 := by rcases hd with rfl | rfl | rfl | rfl <;> omega

/-- An uncompressed mono element. -/
theorem monoEscape_roundtrip {d fs : Nat} (hd : Depth d) {xs : List Int} (hx : ∀ x ∈ xs, InRange d x)
    (hn : xs.length < 2 ^ 32) (hfs : xs.length ≤ fs) :
    Writes (monoEscape d fs xs) (fieldBits (headerFields fs xs.length 0 1 ++ xs.map fun x => (fetch d x, d))) ∧
    ∀ mem byteSize p requested capacity, (xs.length = fs → requested = fs) → xs.length ≤ capacity →
      Holds mem (p + 4) (fieldBits (headerFields fs xs.length 0 1 ++ xs.map fun x => (fetch d x, d))) →
      decodeMono (configOf fs d) byteSize mem p requested capacity = .ok (xs.length, xs.map (kept d),
        p + 4 + (fieldBits (headerFields fs xs.length 0 1 ++ xs.map fun x => (fetch d x, d))).length) := by
  have hdl := depth_le hd
  refine ⟨Writes.fields ?_, ?_⟩
  · intro f hf
    rcases List.mem_append.1 hf with h | h
    · exact headerFields_le _ _ _ _ f h
    · obtain ⟨x, _, rfl⟩ := List.mem_map.1 h; exact hdl.2
  · intro mem byteSize p requested capacity hreq hcap hh
    rw [fieldBits_append, Holds.append] at hh
    rw [fieldBits_append, List.length_append, fieldBits_map_length]
    unfold decodeMono
    rw [decHeader_ok hn (by omega) (by omega) hreq hh.1]
    simp only [bind, Except.bind, pure, Except.pure]
    rw [if_neg (by simp only [configOf]; omega)]
    rw [if_neg (show ¬ (configOf fs d).bitDepth ≤ 8 * 0 by simp only [configOf]; omega), if_neg (show ¬ 1 = 0 by omega),
      if_neg (show ¬ 32 < (configOf fs d).bitDepth - 8 * 0 by simp only [configOf]; omega)]
    simp only [Nat.mul_zero, Nat.sub_zero, configOf]
    have : (List.range xs.length).map (fun i => store d 0 (decRaw mem
        (p + 4 + (fieldBits (headerFields fs xs.length 0 1)).length + d * i) d) 0) = xs.map (kept d) := by
      apply List.ext_getElem
      · simp
      · intro i h1 h2
        have hi : i < xs.length := by simpa using h2
        simp only [List.getElem_map, List.getElem_range]
        have hxi := hx xs[i] (List.getElem_mem hi)
        rw [decRaw_ok hd (fetch_range hd hxi) (Holds.nth (fetch d) xs _ hh.2 i hi), store_raw hd hxi]
    rw [this, Nat.add_assoc]

/-- The bits before the residuals of a compressed mono element. -/
def monoFields (d fs : Nat) (c : Choice) (xs : List Int) : List (Int × Nat) :=
  headerFields fs xs.length (shiftBytes d) 0 ++ [(0, 16)] ++ predFields c.numU c.coefsU ++
    (if 8 * shiftBytes d = 0 then []
      else (xs.map (fetch d)).map fun x => ((shiftedOff (8 * shiftBytes d) x : Int), 8 * shiftBytes d))

theorem shiftBytes_lt (d : Nat) : shiftBytes d < 3 := by unfold shiftBytes; split <;> (try split) <;> omega

theorem shiftedOff_lt (s : Nat) (x : Int) : shiftedOff s x < 2 ^ s := by
  unfold shiftedOff lowBits
  have hp : (0 : Int) < ((2 ^ s : Nat) : Int) := by exact_mod_cast Nat.two_pow_pos s
  have b0 := Int.emod_nonneg x (show ((2 ^ s : Nat) : Int) ≠ 0 by omega)
  have b1 := Int.emod_lt_of_pos x hp
  omega

theorem encParams_ok : encParams.OK := ⟨by decide, by decide, by decide⟩

theorem advance_eq {p n : Nat} (h : n < 2 ^ 32 - 8) : advance p (n % 2 ^ 32) = p + n := by unfold advance; omega

theorem num_lt {c : Choice} (hc : c.OK) : 4 ≤ c.numU ∧ c.numU ≤ 8 ∧ 4 ≤ c.numV ∧ c.numV ≤ 8 := by
  have := hc.numU; have := hc.numV; omega

theorem fits_of {cb : Nat} (h1 : 1 ≤ cb) {xs : List Int} (h : ∀ x ∈ xs, -(2 ^ (cb - 1) : Nat) ≤ x ∧ x < (2 ^ (cb - 1) : Nat)) :
    Fits cb xs := fun x hx => wrapS_eq h1 (h x hx)

/-- One channel through predictor and coder. -/
theorem channel_roundtrip {cb num : Nat} (hb : 1 ≤ cb) (hb2 : cb ≤ 25) (hnum : 4 ≤ num ∧ num ≤ 8) {coefs us : List Int}
    (hlen : us.length < 2 ^ 32) (hu : ∀ x ∈ us, -(2 ^ (cb - 1) : Nat) ≤ x ∧ x < (2 ^ (cb - 1) : Nat)) :
    ∃ bs : List Bool, Writes (dynComp encParams (pcBlock num cb 9 coefs us).1 cb) bs ∧
      bs.length ≤ us.length * (max 25 (9 + cb) + 25) ∧
      ∀ fs d mem p byteSize, 9 ≤ fs → Holds mem p bs → p + bs.length ≤ 8 * byteSize →
        decChannel (configOf fs d) byteSize mem us.length cb ⟨0, 9, 4, num, coefs⟩ p = .ok (us, p + bs.length) := by
  have hfit := fits_of hb hu
  obtain ⟨bs, hlen2, w, r⟩ := comp_roundtrip encParams_ok hb hb2 (pcBlock num cb 9 coefs us).1
    (by rw [pc_length]; exact hlen) (pc_range hb (by omega) coefs us hfit)
  rw [pc_length] at hlen2 r
  refine ⟨bs, w, hlen2, ?_⟩
  intro fs d mem p byteSize hfs hh hs
  unfold decChannel
  simp only [bind, Except.bind, pure, Except.pure]
  rw [if_neg (by simp only [configOf]; omega), if_neg (by simp only [configOf]; omega)]
  have := r mem p byteSize hh hs
  rw [show (⟨(configOf fs d).mb, (configOf fs d).pb * 4 / 4, (configOf fs d).kb⟩ : Params) = encParams by simp [configOf, encParams], this]
  simp only [if_true]
  rw [pc_roundtrip hb (by omega) coefs us hfit]

/-- A compressed mono element. -/
theorem monoCompressed_roundtrip {d fs : Nat} (hd : Depth d) {c : Choice} (hc : c.OK) {xs : List Int}
    (hx : ∀ x ∈ xs, InRange d x) (hn : xs.length < 2 ^ 24) (hfs : xs.length ≤ fs) (hfs9 : 9 ≤ fs) :
    ∃ bs, Writes (monoCompressed d fs c xs) bs ∧ bs.length < 2 ^ 32 ∧
      ∀ mem byteSize p requested capacity, (xs.length = fs → requested = fs) → xs.length ≤ capacity →
        Holds mem (p + 4) bs → p + 4 + bs.length ≤ 8 * byteSize →
        decodeMono (configOf fs d) byteSize mem p requested capacity = .ok (xs.length, xs.map (kept d), p + 4 + bs.length) := by
  have hdl := depth_le hd
  have hnu := num_lt hc
  have hmb := monoBits_range hd
  have hsb := shiftBytes_lt d
  have hus : ∀ u ∈ (xs.map (fetch d)).map (sar · (8 * shiftBytes d)), -(2 ^ (monoBits d - 1) : Nat) ≤ u ∧
      u < (2 ^ (monoBits d - 1) : Nat) := by
    intro u hu
    simp only [List.map_map, List.mem_map] at hu
    obtain ⟨x, hx', rfl⟩ := hu
    exact upper_range hd (hx x hx')
  obtain ⟨rs, w, hrl, r⟩ := channel_roundtrip hmb.1 (by omega) ⟨hnu.1, hnu.2.1⟩ (coefs := c.coefsU)
    (us := (xs.map (fetch d)).map (sar · (8 * shiftBytes d))) (by simp; omega) hus
  simp only [List.length_map] at r hrl
  have hfl : ∀ f ∈ monoFields d fs c xs, f.2 ≤ 32 := by
    intro f hf
    unfold monoFields at hf
    simp only [List.mem_append] at hf
    rcases hf with ((h | h) | h) | h
    · exact headerFields_le _ _ _ _ f h
    · simp at h; rw [h]; simp
    · exact predFields_le _ _ f h
    · split at h
      · simp at h
      · obtain ⟨x, _, rfl⟩ := List.mem_map.1 h
        simp only; omega
  have hfl2 : (fieldBits (monoFields d fs c xs)).length ≤ 48 + 16 + (16 + 16 * 8) + 16 * xs.length := by
    unfold monoFields
    simp only [fieldBits_append, List.length_append, predBits _ _ hc.lenU, headerBits]
    have h1 : (fieldBits (if 8 * shiftBytes d = 0 then []
      else (xs.map (fetch d)).map fun x => ((shiftedOff (8 * shiftBytes d) x : Int), 8 * shiftBytes d))).length ≤
        16 * xs.length := by
      split
      · simp
      · rw [fieldBits_map_length, List.length_map]; exact Nat.mul_le_mul_right _ (by omega)
    have h2 : (fieldBits [((0 : Int), 16)]).length = 16 := by simp [fieldBits_length]
    rw [h2]
    split <;> omega
  have hrl : rs.length ≤ xs.length * 55 := Nat.le_trans hrl (Nat.mul_le_mul_left _ (by omega))
  refine ⟨fieldBits (monoFields d fs c xs) ++ rs, ?_, by rw [List.length_append]; omega, ?_⟩
  · intro m pos
    obtain ⟨m1, e1, p1⟩ := putAll_put _ hfl m pos
    obtain ⟨m2, e2, p2⟩ := w m1 (pos + (fieldBits (monoFields d fs c xs)).length)
    refine ⟨m2, ?_, p1.append p2⟩
    unfold monoCompressed
    unfold monoFields at e1
    simp only [bind, Except.bind]
    rw [e1]
    simp only
    unfold monoFields at e2
    unfold monoBits at e2
    rw [e2, List.length_append, ← Nat.add_assoc]
    rfl
  · intro mem byteSize p requested capacity hreq hcap hh hs
    rw [Holds.append] at hh
    obtain ⟨hf, hr⟩ := hh
    rw [List.length_append] at hs ⊢
    generalize hS : (if 8 * shiftBytes d = 0 then []
      else (xs.map (fetch d)).map fun x => ((shiftedOff (8 * shiftBytes d) x : Int), 8 * shiftBytes d)) = S at *
    have hlen : (fieldBits (monoFields d fs c xs)).length =
        (fieldBits (headerFields fs xs.length (shiftBytes d) 0)).length + 32 + 16 * c.numU + (fieldBits S).length := by
      unfold monoFields
      rw [hS]
      simp only [fieldBits_append, List.length_append, predBits _ _ hc.lenU]
      simp [fieldBits_length]; omega
    unfold monoFields at hf
    rw [hS] at hf
    simp only [fieldBits_append, Holds.append, List.length_append] at hf
    obtain ⟨⟨⟨hh1, hh2⟩, hh3⟩, hh4⟩ := hf
    rw [predBits _ _ hc.lenU] at hh4
    rw [show (fieldBits [((0 : Int), 16)]).length = 16 by simp [fieldBits_length]] at hh3 hh4
    generalize hH : (fieldBits (headerFields fs xs.length (shiftBytes d) 0)).length = H at *
    have hSl : (fieldBits S).length = 8 * shiftBytes d * xs.length := by
      rw [← hS]
      split
      · rename_i h0; rw [h0]; simp
      · rw [fieldBits_map_length]; simp
    unfold decodeMono
    rw [decHeader_ok (by omega) hsb (by omega) hreq hh1, hH]
    simp only [bind, Except.bind, pure, Except.pure]
    have hsd : 8 * shiftBytes d < d := by unfold monoBits at hmb; omega
    rw [if_neg (by simp only [configOf]; omega),
      if_neg (show ¬ (configOf fs d).bitDepth ≤ 8 * shiftBytes d by simp only [configOf]; omega), if_pos True.intro]
    rw [show p + 4 + (H + 16) = p + 4 + H + 16 by omega] at hh3
    rw [decPred_ok (by omega) hc.lenU hc.rangeU hh3]
    simp only
    have hmul : 8 * shiftBytes d * xs.length ≤ 16 * xs.length := Nat.mul_le_mul_right _ (by omega)
    have hpos : (if shiftBytes d = 0 then p + 4 + H + 16 + 16 + 16 * c.numU
        else advance (p + 4 + H + 16 + 16 + 16 * c.numU) (8 * shiftBytes d * xs.length % 2 ^ 32)) =
        p + 4 + (fieldBits (monoFields d fs c xs)).length := by
      rw [hlen, hSl]
      split
      · rename_i h0; rw [h0]; omega
      · rw [advance_eq (by omega)]; omega
    rw [hpos, show (configOf fs d).bitDepth - 8 * shiftBytes d = monoBits d from rfl,
      r fs d mem _ byteSize hfs9 hr (by omega)]
    simp only
    congr 2
    · congr 1
      · apply List.ext_getElem
        · simp
        · intro i h1 h2
          have hi : i < xs.length := by simpa using h2
          have hxi := hx xs[i] (List.getElem_mem hi)
          simp only [List.getElem_map, List.getElem_zipIdx, Nat.zero_add]
          have hs1 : (if shiftBytes d = 0 then 0 else rd mem (p + 4 + H + 16 + 16 + 16 * c.numU + 8 * shiftBytes d * i)
              (8 * shiftBytes d)) = shiftedOff (8 * shiftBytes d) (fetch d xs[i]) := by
            split
            · rename_i h0
              rw [h0]
              have := shiftedOff_lt 0 (fetch d xs[i])
              simp at this ⊢; omega
            · rename_i h0
              rw [if_neg (by omega)] at hS
              rw [← hS] at hh4
              have := Holds.nth (fun x => (shiftedOff (8 * shiftBytes d) x : Int)) (xs.map (fetch d)) _ hh4 i (by simpa using hi)
              rw [bitsOf_natField (by omega), List.getElem_map] at this
              rw [show p + 4 + H + 16 + 16 + 16 * c.numU + 8 * shiftBytes d * i =
                p + 4 + (H + 16 + (16 + 16 * c.numU)) + 8 * shiftBytes d * i by omega]
              exact rd_eq (by omega) this (shiftedOff_lt _ _)
          rw [hs1]
          exact store_back hd hxi
      · omega

/-- The bits a mono element can take. -/
def escapeSize (fs n d ch : Nat) : Nat := n * d * ch + (if n = fs then 0 else 32) + 16

/-- A mono element, whatever the search has decided. -/
theorem mono_roundtrip {d fs : Nat} (hd : Depth d) {c : Choice} (hc : c.OK) {xs : List Int} (hx : ∀ x ∈ xs, InRange d x)
    (hn : xs.length < 2 ^ 24) (hfs : xs.length ≤ fs) (hfs9 : 9 ≤ fs) :
    ∃ bs, Writes (encodeMono d fs c xs) bs ∧ bs.length ≤ escapeSize fs xs.length d 1 ∧
      ∀ mem byteSize p requested capacity, (xs.length = fs → requested = fs) → xs.length ≤ capacity →
        Holds mem (p + 4) bs → p + 4 + bs.length ≤ 8 * byteSize →
        decodeMono (configOf fs d) byteSize mem p requested capacity = .ok (xs.length, xs.map (kept d), p + 4 + bs.length) := by
  have hdl := depth_le hd
  obtain ⟨we, re⟩ := monoEscape_roundtrip hd hx (by omega) hfs
  obtain ⟨bs, wc, hl, rc⟩ := monoCompressed_roundtrip hd hc hx hn hfs hfs9
  have hmul : xs.length * d ≤ xs.length * 32 := Nat.mul_le_mul_left _ hdl.2
  have hel : (fieldBits (headerFields fs xs.length 0 1 ++ xs.map fun x => (fetch d x, d))).length =
      escapeSize fs xs.length d 1 := by
    rw [fieldBits_append, List.length_append, headerBits, fieldBits_map_length, Nat.mul_comm d]
    unfold escapeSize
    rw [Nat.mul_one]
    split <;> omega
  generalize fieldBits (headerFields fs xs.length 0 1 ++ xs.map fun x => (fetch d x, d)) = be at *
  have hlim : (xs.length * d + (if xs.length = fs then 0 else 32) + 16) % 2 ^ 32 = escapeSize fs xs.length d 1 := by
    unfold escapeSize; rw [Nat.mul_one]; split <;> omega
  have w := writes_choice c.escape (escapeSize fs xs.length d 1) wc we
  refine ⟨if c.escape then be else if escapeSize fs xs.length d 1 ≤ bs.length % 2 ^ 32 then be else bs, ?_, ?_, ?_⟩
  · intro m pos
    obtain ⟨m', e, hp⟩ := w m pos
    refine ⟨m', ?_, hp⟩
    unfold encodeMono
    simp only [bind, Except.bind]
    rw [if_neg (depth_ok hd)]
    simp only [hlim]
    exact e
  · split
    · omega
    · split <;> omega
  · intro mem byteSize p requested capacity hreq hcap hh hs
    split at hh
    · rename_i he; rw [if_pos he]; exact re mem byteSize p requested capacity hreq hcap hh
    · rename_i he
      split at hh
      · rename_i h2; rw [if_neg he, if_pos h2]; exact re mem byteSize p requested capacity hreq hcap hh
      · rename_i h2
        rw [if_neg he, if_neg h2] at hs ⊢
        exact rc mem byteSize p requested capacity hreq hcap hh hs

/-! ## Channel pairs -/

/-- Two fields per element. -/
def pairFields {α : Type} (w : Nat) (f g : α → Int) (xs : List α) : List (Int × Nat) :=
  xs.flatMap fun x => [(f x, w), (g x, w)]

theorem pairFields_length {α : Type} (w : Nat) (f g : α → Int) (xs : List α) :
    (fieldBits (pairFields w f g xs)).length = w * 2 * xs.length := by
  induction xs with
  | nil => rfl
  | cons x xs ih =>
    unfold pairFields at ih ⊢
    rw [List.flatMap_cons, fieldBits_append, List.length_append, ih, List.length_cons,
      show w * 2 * (xs.length + 1) = w * 2 * xs.length + w * 2 from Nat.mul_succ _ _]
    simp [fieldBits_length]; omega

theorem Holds.nth2 {mem : Mem} {w : Nat} {α : Type} (f g : α → Int) : ∀ (xs : List α) (p : Nat),
    Holds mem p (fieldBits (pairFields w f g xs)) → ∀ i (hi : i < xs.length),
      Holds mem (p + w * 2 * i) (bitsOf w (BitVec.ofInt 32 (f xs[i])).toNat) ∧
      Holds mem (p + w * 2 * i + w) (bitsOf w (BitVec.ofInt 32 (g xs[i])).toNat) := by
  intro xs
  induction xs with
  | nil => intro p _ i hi; simp at hi
  | cons x xs ih =>
    intro p h i hi
    unfold pairFields at h
    rw [List.flatMap_cons, List.cons_append, List.cons_append, List.nil_append, fieldBits_cons, fieldBits_cons, Holds.append,
      Holds.append, bitsOf_length, bitsOf_length] at h
    cases i with
    | zero => simpa using ⟨h.1, h.2.1⟩
    | succ i =>
      have := ih (p + w + w) h.2.2 i (by simpa using hi)
      rw [show p + w + w + w * 2 * i = p + w * 2 * (i + 1) by
        rw [show w * 2 * (i + 1) = w * 2 * i + w * 2 from Nat.mul_succ _ _]; omega] at this
      simpa using this

theorem stereoEscape_roundtrip {d fs : Nat} (hd : Depth d) {xs : List (Int × Int)}
    (hx : ∀ x ∈ xs, InRange d x.1 ∧ InRange d x.2) (hn : xs.length < 2 ^ 32) (hfs : xs.length ≤ fs) :
    Writes (stereoEscape d fs xs) (fieldBits (headerFields fs xs.length 0 1 ++
      pairFields d (fun x => fetch d x.1) (fun x => fetch d x.2) xs)) ∧
    ∀ mem byteSize p requested capacity, (xs.length = fs → requested = fs) → xs.length ≤ capacity →
      Holds mem (p + 4) (fieldBits (headerFields fs xs.length 0 1 ++
        pairFields d (fun x => fetch d x.1) (fun x => fetch d x.2) xs)) →
      decodeStereo (configOf fs d) byteSize mem p requested capacity =
        .ok (xs.length, xs.map fun x => (kept d x.1, kept d x.2),
          p + 4 + (fieldBits (headerFields fs xs.length 0 1 ++
            pairFields d (fun x => fetch d x.1) (fun x => fetch d x.2) xs)).length) := by
  have hdl := depth_le hd
  refine ⟨Writes.fields ?_, ?_⟩
  · intro f hf
    rcases List.mem_append.1 hf with h | h
    · exact headerFields_le _ _ _ _ f h
    · obtain ⟨x, _, h⟩ := List.mem_flatMap.1 h
      simp at h
      rcases h with rfl | rfl <;> exact hdl.2
  · intro mem byteSize p requested capacity hreq hcap hh
    rw [fieldBits_append, Holds.append] at hh
    rw [fieldBits_append, List.length_append, pairFields_length]
    unfold decodeStereo
    rw [decHeader_ok hn (by omega) (by omega) hreq hh.1]
    simp only [bind, Except.bind, pure, Except.pure]
    rw [if_neg (by simp only [configOf]; omega)]
    rw [if_neg (show ¬ (configOf fs d).bitDepth < 8 * 0 by simp only [configOf]; omega), if_neg (show ¬ 1 = 0 by omega),
      if_neg (show ¬ ((configOf fs d).bitDepth = 0 ∨ 32 < (configOf fs d).bitDepth) by simp only [configOf]; omega)]
    have : (List.range xs.length).map (fun i => (store d 0 (decRaw mem
        (p + 4 + (fieldBits (headerFields fs xs.length 0 1)).length + d * 2 * i) d) 0,
        store d 0 (decRaw mem
        (p + 4 + (fieldBits (headerFields fs xs.length 0 1)).length + d * 2 * i + d) d) 0)) =
        xs.map fun x => (kept d x.1, kept d x.2) := by
      apply List.ext_getElem
      · simp
      · intro i h1 h2
        have hi : i < xs.length := by simpa using h2
        simp only [List.getElem_map, List.getElem_range]
        have hxi := hx xs[i] (List.getElem_mem hi)
        have hb := Holds.nth2 (fun x : Int × Int => fetch d x.1) (fun x => fetch d x.2) xs _ hh.2 i hi
        rw [decRaw_ok hd (fetch_range hd hxi.1) hb.1, store_raw hd hxi.1,
          decRaw_ok hd (fetch_range hd hxi.2) hb.2, store_raw hd hxi.2]
    simp only [configOf]
    rw [this, Nat.add_assoc]

theorem bitsOf_two (s a b : Nat) (hb : b < 2 ^ s) : bitsOf (s * 2) (a * 2 ^ s + b) = bitsOf s a ++ bitsOf s b := by
  rw [show s * 2 = s + s by omega, bitsOf_append]
  congr 1
  · rw [Nat.mul_comm, Nat.mul_add_div (Nat.two_pow_pos s), Nat.div_eq_of_lt hb, Nat.add_zero]
  · rw [bitsOf_mod, Nat.mul_comm, Nat.mul_add_mod, Nat.mod_eq_of_lt hb]

/-- The shifted off bits of a pair are two fields. -/
theorem shiftFields_bits (d : Nat) (xs : List (Int × Int)) : fieldBits (shiftFields d xs) =
    if shiftBytes d = 0 then [] else fieldBits (pairFields (8 * shiftBytes d)
      (fun x : Int × Int => (shiftedOff (8 * shiftBytes d) (fetch d x.1) : Int))
      (fun x => (shiftedOff (8 * shiftBytes d) (fetch d x.2) : Int)) xs) := by
  have hsb := shiftBytes_lt d
  unfold shiftFields
  dsimp only
  by_cases h0 : shiftBytes d = 0
  · rw [if_pos (by omega), if_pos h0]; rfl
  · rw [if_neg (by omega), if_neg h0]
    induction xs with
    | nil => rfl
    | cons x xs ih =>
      rw [List.map_cons, fieldBits_cons, ih]
      unfold pairFields
      rw [List.flatMap_cons, fieldBits_append]
      congr 1
      dsimp only
      rw [bitsOf_natField (by omega), bitsOf_two _ _ _ (shiftedOff_lt _ _), fieldBits_cons, fieldBits_cons, fieldBits_nil,
        List.append_nil]
      dsimp only
      rw [bitsOf_natField (by omega), bitsOf_natField (by omega)]

/-- What the mixing makes of a pair, and back. -/
theorem mixPair_ok {d mixRes : Nat} (hd : Depth d) (hm : mixRes ≤ 4) {x : Int × Int} (h1 : InRange d x.1) (h2 : InRange d x.2) :
    (-(2 ^ (monoBits d + 1 - 1) : Nat) ≤ (mixPair d mixRes x).1 ∧ (mixPair d mixRes x).1 < (2 ^ (monoBits d + 1 - 1) : Nat)) ∧
    (-(2 ^ (monoBits d + 1 - 1) : Nat) ≤ (mixPair d mixRes x).2 ∧ (mixPair d mixRes x).2 < (2 ^ (monoBits d + 1 - 1) : Nat)) ∧
    unmix 2 mixRes (mixPair d mixRes x).1 (mixPair d mixRes x).2 =
      (sar (fetch d x.1) (8 * shiftBytes d), sar (fetch d x.2) (8 * shiftBytes d)) := by
  have hmb := monoBits_range hd
  have e : ((2 ^ (monoBits d + 1 - 1) : Nat) : Int) = 2 * ((2 ^ (monoBits d - 1) : Nat) : Int) := by
    rw [show monoBits d + 1 - 1 = (monoBits d - 1) + 1 by omega, Nat.pow_succ]; omega
  have hB : ((2 ^ (monoBits d - 1) : Nat) : Int) ≤ 2 ^ 28 := by
    have := pow_mono (a := monoBits d - 1) (b := 28) (by omega)
    omega
  rw [e]
  exact unmix_mix hB hm (upper_range hd h1) (upper_range hd h2)

/-- The bits before the residuals of a compressed pair. -/
def stereoFields (d fs : Nat) (c : Choice) (xs : List (Int × Int)) : List (Int × Nat) :=
  headerFields fs xs.length (shiftBytes d) 0 ++
    [(2, 8), ((c.mixRes : Int), 8)] ++ predFields c.numU c.coefsU ++ predFields c.numV c.coefsV ++ shiftFields d xs

theorem stereoCompressed_roundtrip {d fs : Nat} (hd : Depth d) {c : Choice} (hc : c.OK) {xs : List (Int × Int)}
    (hx : ∀ x ∈ xs, InRange d x.1 ∧ InRange d x.2) (hn : xs.length < 2 ^ 24) (hfs : xs.length ≤ fs) (hfs9 : 9 ≤ fs) :
    ∃ bs, Writes (stereoCompressed d fs c xs) bs ∧ bs.length < 2 ^ 32 ∧
      ∀ mem byteSize p requested capacity, (xs.length = fs → requested = fs) → xs.length ≤ capacity →
        Holds mem (p + 4) bs → p + 4 + bs.length ≤ 8 * byteSize →
        decodeStereo (configOf fs d) byteSize mem p requested capacity =
          .ok (xs.length, xs.map (fun x => (kept d x.1, kept d x.2)), p + 4 + bs.length) := by
  have hdl := depth_le hd
  have hnu := num_lt hc
  have hmb := monoBits_range hd
  have hsb := shiftBytes_lt d
  have hmr := hc.mixRes
  have hus : ∀ u ∈ (xs.map (mixPair d c.mixRes)).map Prod.fst, -(2 ^ (monoBits d + 1 - 1) : Nat) ≤ u ∧
      u < (2 ^ (monoBits d + 1 - 1) : Nat) := by
    intro u hu
    simp only [List.map_map, List.mem_map] at hu
    obtain ⟨x, hx', rfl⟩ := hu
    exact (mixPair_ok hd hmr (hx x hx').1 (hx x hx').2).1
  have hvs : ∀ u ∈ (xs.map (mixPair d c.mixRes)).map Prod.snd, -(2 ^ (monoBits d + 1 - 1) : Nat) ≤ u ∧
      u < (2 ^ (monoBits d + 1 - 1) : Nat) := by
    intro u hu
    simp only [List.map_map, List.mem_map] at hu
    obtain ⟨x, hx', rfl⟩ := hu
    exact (mixPair_ok hd hmr (hx x hx').1 (hx x hx').2).2.1
  obtain ⟨us, wu, hul, ru⟩ := channel_roundtrip (cb := monoBits d + 1) (by omega) (by omega) ⟨hnu.1, hnu.2.1⟩ (coefs := c.coefsU)
    (us := (xs.map (mixPair d c.mixRes)).map Prod.fst) (by simp; omega) hus
  obtain ⟨vs, wv, hvl, rv⟩ := channel_roundtrip (cb := monoBits d + 1) (by omega) (by omega) ⟨hnu.2.2.1, hnu.2.2.2⟩
    (coefs := c.coefsV) (us := (xs.map (mixPair d c.mixRes)).map Prod.snd) (by simp; omega) hvs
  simp only [List.length_map] at ru rv hul hvl
  have hul : us.length ≤ xs.length * 55 := Nat.le_trans hul (Nat.mul_le_mul_left _ (by omega))
  have hvl : vs.length ≤ xs.length * 55 := Nat.le_trans hvl (Nat.mul_le_mul_left _ (by omega))
  have hfl : ∀ f ∈ stereoFields d fs c xs, f.2 ≤ 32 := by
    intro f hf
    unfold stereoFields at hf
    simp only [List.mem_append] at hf
    rcases hf with (((h | h) | h) | h) | h
    · exact headerFields_le _ _ _ _ f h
    · simp at h; rcases h with rfl | rfl <;> simp
    · exact predFields_le _ _ f h
    · exact predFields_le _ _ f h
    · unfold shiftFields at h
      dsimp only at h
      split at h
      · simp at h
      · obtain ⟨x, _, rfl⟩ := List.mem_map.1 h
        simp only; omega
  have hSl : (fieldBits (shiftFields d xs)).length = 8 * shiftBytes d * 2 * xs.length := by
    rw [shiftFields_bits]
    split
    · rename_i h0; rw [h0]; simp
    · rw [pairFields_length]
  have hmul : 8 * shiftBytes d * 2 * xs.length ≤ 32 * xs.length := Nat.mul_le_mul_right _ (by omega)
  have hlen : (fieldBits (stereoFields d fs c xs)).length =
      (fieldBits (headerFields fs xs.length (shiftBytes d) 0)).length + 48 + 16 * c.numU + 16 * c.numV +
        8 * shiftBytes d * 2 * xs.length := by
    unfold stereoFields
    simp only [fieldBits_append, List.length_append, predBits _ _ hc.lenU, predBits _ _ hc.lenV, hSl]
    simp [fieldBits_length]; omega
  have hH48 : (fieldBits (headerFields fs xs.length (shiftBytes d) 0)).length ≤ 48 := by
    rw [headerBits]; split <;> omega
  refine ⟨fieldBits (stereoFields d fs c xs) ++ us ++ vs, ?_, by simp only [List.length_append]; omega, ?_⟩
  · intro m pos
    obtain ⟨m1, e1, p1⟩ := putAll_put _ hfl m pos
    obtain ⟨m2, e2, p2⟩ := wu m1 (pos + (fieldBits (stereoFields d fs c xs)).length)
    obtain ⟨m3, e3, p3⟩ := wv m2 (pos + (fieldBits (stereoFields d fs c xs)).length + us.length)
    refine ⟨m3, ?_, ?_⟩
    · unfold stereoCompressed
      unfold stereoFields at e1 e2 e3
      unfold monoBits at e2 e3
      simp only [bind, Except.bind]
      rw [e1]
      simp only
      rw [e2]
      simp only
      rw [e3]
      unfold stereoFields
      simp only [List.length_append, Nat.add_assoc]
    · exact (p1.append p2).append (by rw [List.length_append, ← Nat.add_assoc]; exact p3)
  · intro mem byteSize p requested capacity hreq hcap hh hs
    rw [Holds.append, Holds.append] at hh
    obtain ⟨⟨hf, hru⟩, hrv⟩ := hh
    rw [List.length_append, List.length_append] at hs ⊢
    rw [List.length_append] at hrv
    unfold stereoFields at hf
    simp only [fieldBits_append, Holds.append, List.length_append] at hf
    obtain ⟨⟨⟨⟨hh1, hh2⟩, hh3⟩, hh4⟩, hh5⟩ := hf
    rw [predBits _ _ hc.lenU] at hh4 hh5
    rw [predBits _ _ hc.lenV] at hh5
    rw [show (fieldBits [((2 : Int), 8), ((c.mixRes : Int), 8)]).length = 16 by simp [fieldBits_length]] at hh3 hh4 hh5
    rw [fieldBits_cons, fieldBits_cons, fieldBits_nil, List.append_nil, Holds.append, bitsOf_length] at hh2
    obtain ⟨hm1, hm2⟩ := hh2
    dsimp only at hm1 hm2
    rw [show ((2 : Int)) = ((2 : Nat) : Int) from rfl, bitsOf_natField (by omega)] at hm1
    rw [bitsOf_natField (by omega)] at hm2
    generalize hH : (fieldBits (headerFields fs xs.length (shiftBytes d) 0)).length = H at *
    unfold decodeStereo
    rw [decHeader_ok (by omega) hsb (by omega) hreq hh1, hH]
    simp only [bind, Except.bind, pure, Except.pure]
    have hsd : 8 * shiftBytes d < d := by unfold monoBits at hmb; omega
    rw [if_neg (by simp only [configOf]; omega),
      if_neg (show ¬ (configOf fs d).bitDepth < 8 * shiftBytes d by simp only [configOf]; omega), if_pos True.intro]
    have rm1 := rd_eq (by omega) hm1 (by omega)
    have rm2 := rd_eq (by omega) hm2 (by omega)
    have hw8 : wrapS 8 ((c.mixRes : Nat) : Int) = c.mixRes := wrapS_eq (by omega) (by omega)
    simp only [rm1, rm2, hw8]
    have h32 : ¬ (((c.mixRes : Int)) ≠ 0 ∧ (32 ≤ 2 ∨ ((configOf fs d).bitDepth = 32 ∧ shiftBytes d = 0))) := by
      rintro ⟨_, h | ⟨h1, h2⟩⟩
      · omega
      · simp only [configOf] at h1; subst h1; simp [shiftBytes] at h2
    rw [if_neg h32]
    rw [show p + 4 + (H + 16) = p + 4 + H + 16 by omega] at hh3
    rw [show p + 4 + (H + 16 + (16 + 16 * c.numU)) = p + 4 + H + 16 + 16 + 16 * c.numU by omega] at hh4
    rw [decPred_ok (by omega) hc.lenU hc.rangeU hh3]
    simp only
    rw [decPred_ok (by omega) hc.lenV hc.rangeV hh4]
    simp only
    have hpos : (if shiftBytes d = 0 then p + 4 + H + 16 + 16 + 16 * c.numU + 16 + 16 * c.numV
        else advance (p + 4 + H + 16 + 16 + 16 * c.numU + 16 + 16 * c.numV) (8 * shiftBytes d * 2 * xs.length % 2 ^ 32)) =
        p + 4 + (fieldBits (stereoFields d fs c xs)).length := by
      rw [hlen]
      split
      · rename_i h0; rw [h0]; omega
      · rw [advance_eq (by omega)]; omega
    rw [hpos, show (configOf fs d).bitDepth - 8 * shiftBytes d + 1 = monoBits d + 1 from rfl,
      ru fs d mem _ byteSize hfs9 hru (by omega)]
    simp only
    rw [show p + 4 + (fieldBits (stereoFields d fs c xs)).length + us.length =
      p + 4 + ((fieldBits (stereoFields d fs c xs)).length + us.length) by omega]
    rw [rv fs d mem _ byteSize hfs9 hrv (by omega)]
    simp only
    refine congrArg Except.ok (Prod.ext rfl (Prod.ext ?_ ?_))
    · dsimp only
      apply List.ext_getElem
      · simp
      · intro i h1 h2
        have hi : i < xs.length := by simpa using h2
        have hxi := hx xs[i] (List.getElem_mem hi)
        simp only [List.getElem_map, List.getElem_zipIdx, List.getElem_zip, Nat.zero_add]
        rw [(mixPair_ok hd hmr hxi.1 hxi.2).2.2]
        have hb : shiftBytes d ≠ 0 →
            rd mem (p + 4 + H + 16 + 16 + 16 * c.numU + 16 + 16 * c.numV + 8 * shiftBytes d * 2 * i) (8 * shiftBytes d) =
              shiftedOff (8 * shiftBytes d) (fetch d xs[i].1) ∧
            rd mem (p + 4 + H + 16 + 16 + 16 * c.numU + 16 + 16 * c.numV + 8 * shiftBytes d * 2 * i + 8 * shiftBytes d)
              (8 * shiftBytes d) = shiftedOff (8 * shiftBytes d) (fetch d xs[i].2) := by
          intro h0
          rw [shiftFields_bits, if_neg h0] at hh5
          have := Holds.nth2 _ _ xs _ hh5 i hi
          rw [bitsOf_natField (by omega), bitsOf_natField (by omega)] at this
          rw [show p + 4 + H + 16 + 16 + 16 * c.numU + 16 + 16 * c.numV =
            p + 4 + (H + 16 + (16 + 16 * c.numU) + (16 + 16 * c.numV)) by omega]
          exact ⟨rd_eq (by omega) this.1 (shiftedOff_lt _ _), rd_eq (by omega) this.2 (shiftedOff_lt _ _)⟩
        have hz : ∀ x, shiftBytes d = 0 → shiftedOff (8 * shiftBytes d) x = 0 := by
          intro x h0
          have := shiftedOff_lt (8 * shiftBytes d) x
          rw [h0] at this ⊢
          simp at this ⊢; omega
        have e1 := store_back hd hxi.1
        have e2 := store_back hd hxi.2
        by_cases h0 : shiftBytes d = 0
        · rw [if_pos h0, if_pos h0]
          rw [hz _ h0] at e1 e2
          exact Prod.ext e1 e2
        · rw [if_neg h0, if_neg h0, (hb h0).1, (hb h0).2]
          exact Prod.ext e1 e2
    · dsimp only; omega

/-- A channel pair, whatever the search has decided. -/
theorem stereo_roundtrip {d fs : Nat} (hd : Depth d) {c : Choice} (hc : c.OK) {xs : List (Int × Int)}
    (hx : ∀ x ∈ xs, InRange d x.1 ∧ InRange d x.2) (hn : xs.length < 2 ^ 24) (hfs : xs.length ≤ fs) (hfs9 : 9 ≤ fs) :
    ∃ bs, Writes (encodeStereo d fs c xs) bs ∧ bs.length ≤ escapeSize fs xs.length d 2 ∧
      ∀ mem byteSize p requested capacity, (xs.length = fs → requested = fs) → xs.length ≤ capacity →
        Holds mem (p + 4) bs → p + 4 + bs.length ≤ 8 * byteSize →
        decodeStereo (configOf fs d) byteSize mem p requested capacity =
          .ok (xs.length, xs.map (fun x => (kept d x.1, kept d x.2)), p + 4 + bs.length) := by
  have hdl := depth_le hd
  obtain ⟨we, re⟩ := stereoEscape_roundtrip hd hx (by omega) hfs
  obtain ⟨bs, wc, hl, rc⟩ := stereoCompressed_roundtrip hd hc hx hn hfs hfs9
  have hmul : xs.length * d ≤ xs.length * 32 := Nat.mul_le_mul_left _ hdl.2
  have hel : (fieldBits (headerFields fs xs.length 0 1 ++ pairFields d (fun x => fetch d x.1) (fun x => fetch d x.2) xs)).length =
      escapeSize fs xs.length d 2 := by
    rw [fieldBits_append, List.length_append, headerBits, pairFields_length, Nat.mul_comm (d * 2), ← Nat.mul_assoc]
    unfold escapeSize
    split <;> omega
  generalize fieldBits (headerFields fs xs.length 0 1 ++ pairFields d (fun x => fetch d x.1) (fun x => fetch d x.2) xs) = be at *
  have hlim : (xs.length * d * 2 + (if xs.length = fs then 0 else 32) + 16) % 2 ^ 32 = escapeSize fs xs.length d 2 := by
    unfold escapeSize; split <;> omega
  have w := writes_choice c.escape (escapeSize fs xs.length d 2) wc we
  refine ⟨if c.escape then be else if escapeSize fs xs.length d 2 ≤ bs.length % 2 ^ 32 then be else bs, ?_, ?_, ?_⟩
  · intro m pos
    obtain ⟨m', e, hp⟩ := w m pos
    refine ⟨m', ?_, hp⟩
    unfold encodeStereo
    simp only [bind, Except.bind]
    rw [if_neg (depth_ok hd)]
    simp only [hlim]
    exact e
  · split
    · omega
    · split <;> omega
  · intro mem byteSize p requested capacity hreq hcap hh hs
    split at hh
    · rename_i he; rw [if_pos he]; exact re mem byteSize p requested capacity hreq hcap hh
    · rename_i he
      split at hh
      · rename_i h2; rw [if_neg he, if_pos h2]; exact re mem byteSize p requested capacity hreq hcap hh
      · rename_i h2
        rw [if_neg he, if_neg h2] at hs ⊢
        exact rc mem byteSize p requested capacity hreq hcap hh hs

end AF.ALAC
