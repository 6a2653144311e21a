import Verif.Model.ALAC.Golomb
import Verif.Proof.ALAC.Bits
/-! # The code words of the Golomb coder are read back -/
namespace AF.ALAC

/-- The register the decoder works on: the bits from `pos` on, as far as they are in the four bytes loaded. -/
theorem stream_bit (m : Mem) (pos j : Nat) (hj : j < 32) :
    (read32 m (pos / 8) <<< (pos % 8)).getMsbD j = (decide (j + pos % 8 < 32) && bitAt m (pos + j)) := by
  rw [BitVec.getMsbD_shiftLeft]
  by_cases h : j + pos % 8 < 32
  · have d : decide (j + pos % 8 < 32) = true := by rw [decide_eq_true_iff]; exact h
    rw [read32_msb _ _ _ (by omega), d]
    simp only [Bool.true_and]
    congr 1; omega
  · have d : decide (j + pos % 8 < 32) = false := by rw [decide_eq_false_iff_not]; exact h
    rw [d, BitVec.getMsbD_of_ge _ _ (by omega)]; rfl

theorem lead_prefix {m : Mem} {pos d : Nat} (hd : d ≤ 24) (h1 : ∀ i, i < d → bitAt m (pos + i) = true)
    (h0 : bitAt m (pos + d) = false) : lead (~~~(read32 m (pos / 8) <<< (pos % 8))) = d := by
  apply lead_eq (by omega)
  · intro i hi
    rw [BitVec.getMsbD_not, stream_bit _ _ _ (by omega), h1 i hi]
    have : decide (i + pos % 8 < 32) = true := by rw [decide_eq_true_iff]; omega
    rw [this]; simp
  · rw [BitVec.getMsbD_not, stream_bit _ _ _ (by omega), h0]
    have : decide (d < 32) = true := by rw [decide_eq_true_iff]; omega
    simp [this]

theorem lead_escape {m : Mem} {pos : Nat} (h1 : ∀ i, i < 9 → bitAt m (pos + i) = true) :
    9 ≤ lead (~~~(read32 m (pos / 8) <<< (pos % 8))) := by
  apply lead_ge (by omega)
  intro i hi
  rw [BitVec.getMsbD_not, stream_bit _ _ _ (by omega), h1 i hi]
  have : decide (i + pos % 8 < 32) = true := by rw [decide_eq_true_iff]; omega
  rw [this]; simp

/-- The field behind the prefix. -/
theorem field_bit (m : Mem) (pos d k i : Nat) (hk : k ≤ 32) :
    ((read32 m (pos / 8) <<< (pos % 8)) <<< d >>> (32 - k)).getLsbD i =
      (decide (i < k) && decide (pos % 8 + d + (k - 1 - i) < 32) && bitAt m (pos + d + k - 1 - i)) := by
  by_cases hi : i < k
  · have e : ((read32 m (pos / 8) <<< (pos % 8)) <<< d >>> (32 - k)).getLsbD i =
        ((read32 m (pos / 8) <<< (pos % 8)) <<< d).getMsbD (k - 1 - i) := by
      rw [BitVec.getLsbD_ushiftRight, BitVec.getMsbD_eq_getLsbD]
      have : decide (k - 1 - i < 32) = true := by rw [decide_eq_true_iff]; omega
      rw [this, Bool.true_and]; congr 1; omega
    rw [e, BitVec.getMsbD_shiftLeft]
    have d1 : decide (i < k) = true := by rw [decide_eq_true_iff]; exact hi
    rw [d1]
    by_cases h : k - 1 - i + d < 32
    · rw [stream_bit _ _ _ h]
      have : (k - 1 - i + d + pos % 8 < 32) ↔ (pos % 8 + d + (k - 1 - i) < 32) := by omega
      simp only [this]
      rw [show pos + (k - 1 - i + d) = pos + d + k - 1 - i by omega]; simp
    · have d2 : decide (pos % 8 + d + (k - 1 - i) < 32) = false := by rw [decide_eq_false_iff_not]; omega
      rw [BitVec.getMsbD_of_ge _ _ (by omega), d2]; simp
  · have d1 : decide (i < k) = false := by rw [decide_eq_false_iff_not]; exact hi
    rw [d1, BitVec.getLsbD_ushiftRight, BitVec.getLsbD_of_ge _ _ (by omega)]; simp

theorem field_read {m : Mem} {pos d k : Nat} (h : pos % 8 + d + k ≤ 32) :
    IsRead m (pos + d) k ((read32 m (pos / 8) <<< (pos % 8)) <<< d >>> (32 - k)) := by
  intro i
  rw [field_bit _ _ _ _ _ (by omega)]
  by_cases hi : i < k
  · have : decide (pos % 8 + d + (k - 1 - i) < 32) = true := by rw [decide_eq_true_iff]; omega
    rw [this]; simp
  · simp [hi]

/-- Zeros in the first `k - 1` of the `k` bits make the field less than two, whatever follows. -/
theorem field_zero {m : Mem} {pos d k : Nat} (hk : k ≤ 32)
    (h0 : ∀ i, i + 1 < k → bitAt m (pos + d + i) = false) :
    ((read32 m (pos / 8) <<< (pos % 8)) <<< d >>> (32 - k)).toNat < 2 := by
  generalize hv : (read32 m (pos / 8) <<< (pos % 8)) <<< d >>> (32 - k) = v
  have hz : v.toNat / 2 = 0 := by
    apply Nat.eq_of_testBit_eq
    intro i
    rw [Nat.testBit_div_two, BitVec.testBit_toNat, ← hv, field_bit _ _ _ _ _ hk, Nat.zero_testBit]
    by_cases hi : i + 1 < k
    · have := h0 (k - 1 - (i + 1)) (by omega)
      rw [show pos + d + k - 1 - (i + 1) = pos + d + (k - 1 - (i + 1)) by omega, this]; simp
    · have : decide (i + 1 < k) = false := by rw [decide_eq_false_iff_not]; exact hi
      rw [this]; simp
  omega

theorem bitsOf_ones (d : Nat) : bitsOf d (2 ^ d - 1) = List.replicate d true := by
  apply List.ext_getElem?; intro i
  by_cases h : i < d
  · rw [bitsOf_get h, Nat.testBit_two_pow_sub_one]
    simp [h]; omega
  · rw [List.getElem?_eq_none (by simp; omega), List.getElem?_eq_none (by simp; omega)]

theorem bitsOf_mod (n v : Nat) : bitsOf n v = bitsOf n (v % 2 ^ n) := by
  apply List.ext_getElem?; intro i
  by_cases h : i < n
  · rw [bitsOf_get h, bitsOf_get h, Nat.testBit_mod_two_pow]
    simp; omega
  · rw [List.getElem?_eq_none (by simp; omega), List.getElem?_eq_none (by simp; omega)]

/-- A code word: ones, then the rest. -/
theorem bitsOf_code (d b r : Nat) (hr : r < 2 ^ b) :
    bitsOf (d + b) ((2 ^ d - 1) * 2 ^ b + r) = List.replicate d true ++ bitsOf b r := by
  rw [bitsOf_append]
  have h2 : 0 < 2 ^ b := Nat.two_pow_pos b
  have e1 : ((2 ^ d - 1) * 2 ^ b + r) / 2 ^ b = 2 ^ d - 1 := by
    rw [Nat.add_comm, Nat.add_mul_div_right _ _ h2, Nat.div_eq_of_lt hr]; omega
  have e2 : bitsOf b ((2 ^ d - 1) * 2 ^ b + r) = bitsOf b r := by
    rw [bitsOf_mod, Nat.add_comm, Nat.add_mul_mod_self_right, ← bitsOf_mod]
  rw [e1, e2, bitsOf_ones]

theorem bitsOf_zero_head (b r : Nat) (hr : r < 2 ^ b) : bitsOf (b + 1) r = false :: bitsOf b r := by
  rw [Nat.add_comm, bitsOf_append, Nat.div_eq_of_lt hr]
  rfl

theorem holds_cons {m : Mem} {pos : Nat} {b : Bool} {bs : List Bool} :
    Holds m pos (b :: bs) ↔ bitAt m pos = b ∧ Holds m (pos + 1) bs := by
  have := Holds.append (m := m) (pos := pos) (a := [b]) (b := bs)
  rw [List.singleton_append, List.length_singleton] at this
  rw [this]
  constructor
  · rintro ⟨h, h2⟩
    have := h 0 (by simp)
    simp at this
    exact ⟨this.symm, h2⟩
  · rintro ⟨h, h2⟩
    refine ⟨fun i hi => ?_, h2⟩
    have : i = 0 := by simpa using hi
    subst this; simp [h]

theorem holds_ones {m : Mem} {pos d : Nat} (h : Holds m pos (List.replicate d true)) :
    ∀ i, i < d → bitAt m (pos + i) = true := by
  intro i hi
  have := h i (by simpa using hi)
  rw [List.getElem?_replicate, if_pos hi] at this
  exact (Option.some.inj this).symm

theorem holds_zeros {m : Mem} {pos b : Nat} (h : Holds m pos (bitsOf b 0)) :
    ∀ i, i < b → bitAt m (pos + i) = false := by
  intro i hi
  have := h.bit hi
  rw [this]; simp

theorem bmod_id {x : Nat} (h : x < 2 ^ 32) : (BitVec.ofNat 32 x).toNat = x := by
  rw [BitVec.toNat_ofNat, Nat.mod_eq_of_lt h]

theorem pow_mono {a b : Nat} (h : a ≤ b) : 2 ^ a ≤ 2 ^ b := Nat.pow_le_pow_right (by omega) h

/-- The number of a residual, coded with `dyn_code_32bit`, is read back with `dyn_get_32bit`, which stops exactly at the
end of the code word. -/
theorem code32_roundtrip {maxbits k n : Nat} (hk : 0 < k) (hk2 : k ≤ 32) (hb : 0 < maxbits) (hb2 : maxbits ≤ 25)
    (hn : n < 2 ^ maxbits) :
    ∃ c bs, dynCode32 maxbits (2 ^ k - 1) k n = .ok c ∧ bs.length ≤ max 25 (9 + maxbits) ∧ 0 < bs.length ∧
      (∀ m pos, ∃ m', putCode c m pos = .ok (m', pos + bs.length) ∧ Put m pos bs m') ∧
      (∀ m pos, Holds m pos bs → dynGet32 m pos (2 ^ k - 1) k maxbits = .ok (n, pos + bs.length)) := by
  have h2k : 2 ≤ 2 ^ k := by
    have := pow_mono (a := 1) (b := k) hk; omega
  have hn32 : n < 2 ^ 25 := Nat.lt_of_lt_of_le hn (pow_mono hb2)
  -- the escape
  have esc : ∃ bs, bs.length ≤ max 25 (9 + maxbits) ∧ 0 < bs.length ∧
      (∀ m pos, ∃ m', putCode ⟨9, 2 ^ 9 - 1, some (n, maxbits)⟩ m pos = .ok (m', pos + bs.length) ∧ Put m pos bs m') ∧
      (∀ m pos, Holds m pos bs → dynGet32 m pos (2 ^ k - 1) k maxbits = .ok (n, pos + bs.length)) := by
    refine ⟨bitsOf 9 (2 ^ 9 - 1) ++ bitsOf maxbits n, by simp; omega, by simp; omega, ?_, ?_⟩
    · intro m pos
      obtain ⟨m1, e1, p1⟩ := jam_put (m := m) (pos := pos) (n := 9) (v := BitVec.ofNat 32 (2 ^ 9 - 1)) (by omega)
        (by omega)
      obtain ⟨m2, e2, p2⟩ := jamLarge_put (m := m1) (pos := pos + 9) (n := maxbits) (v := BitVec.ofNat 32 n) hb
        (.inl hb2)
      rw [bmod_id (by omega)] at p1 p2
      refine ⟨m2, ?_, p1.append (by simpa using p2)⟩
      simp only [putCode, e1, e2, bind, Except.bind, pure, Except.pure, List.length_append, bitsOf_length,
        Nat.add_assoc]
    · intro m pos h
      rw [Holds.append, bitsOf_length, bitsOf_ones] at h
      have hl := lead_escape (holds_ones h.1)
      obtain ⟨v, ev, hv⟩ := getstreambits_read (m := m) (pos := pos + 9) (n := maxbits) hb (by omega)
      have := hv.eq h.2 hn
      simp only [dynGet32, if_pos hl, ev, bind, Except.bind, pure, Except.pure, this, List.length_append,
        bitsOf_length, Nat.add_assoc]
  obtain ⟨be, l1, l2, w, r⟩ := esc
  unfold dynCode32
  rw [if_neg (by omega)]
  by_cases hd : n / (2 ^ k - 1) < 9
  · simp only [if_pos hd]
    generalize hdd : n / (2 ^ k - 1) = d at hd ⊢
    have hdiv := Nat.div_add_mod n (2 ^ k - 1)
    rw [hdd] at hdiv
    have hml : n % (2 ^ k - 1) < 2 ^ k - 1 := Nat.mod_lt _ (by omega)
    have hmod : n - (2 ^ k - 1) * d = n % (2 ^ k - 1) := by omega
    rw [hmod]
    generalize n % (2 ^ k - 1) = r0 at *
    by_cases h25 : 25 < d + k + 1 - (if r0 = 0 then 1 else 0)
    · rw [if_pos h25]
      exact ⟨_, be, rfl, l1, l2, w, r⟩
    · rw [if_neg h25]
      have hpk : 2 ^ 0 ≤ 2 ^ (k - 1) := pow_mono (Nat.zero_le _)
      by_cases hr : r0 = 0
      · -- no remainder: `k - 1` zeros
        subst hr
        rw [if_pos rfl] at h25 ⊢
        have hbits : bitsOf (d + k) ((2 ^ d - 1) * 2 ^ k + 0) = List.replicate d true ++ (false :: bitsOf (k - 1) 0) := by
          rw [bitsOf_code d k 0 (by omega)]
          congr 1
          obtain ⟨k', rfl⟩ : ∃ k', k = k' + 1 := ⟨k - 1, by omega⟩
          exact bitsOf_zero_head k' 0 (by have := Nat.two_pow_pos k'; omega)
        have hv : (2 ^ d - 1) * 2 ^ k + 0 < 2 ^ 32 := by
          have h9 : 2 ^ (d + k) ≤ 2 ^ 32 := pow_mono (by omega)
          rw [Nat.pow_add] at h9
          have := Nat.two_pow_pos k
          have : (2 ^ d - 1) * 2 ^ k < 2 ^ d * 2 ^ k := by
            apply Nat.mul_lt_mul_of_pos_right _ this
            have := Nat.two_pow_pos d; omega
          omega
        refine ⟨_, bitsOf (d + k) ((2 ^ d - 1) * 2 ^ k + 0), rfl, by simp; omega, by simp; omega, ?_, ?_⟩
        · intro m pos
          obtain ⟨m1, e1, p1⟩ := jam_put (m := m) (pos := pos) (n := d + k)
            (v := BitVec.ofNat 32 ((2 ^ d - 1) * 2 ^ k + 0)) (by omega) (by omega)
          rw [bmod_id hv] at p1
          refine ⟨m1, ?_, p1⟩
          simp only [putCode, show d + k + 1 - 1 = d + k by omega, show d + k - d = k by omega,
            show (2 ^ d - 1) * 2 ^ k + 0 + 1 - 1 = (2 ^ d - 1) * 2 ^ k + 0 by omega, e1, bind, Except.bind, pure,
            Except.pure, bitsOf_length]
        · intro m pos h
          rw [hbits, Holds.append, holds_cons] at h
          simp only [List.length_replicate] at h
          have hl := lead_prefix (by omega) (holds_ones h.1) h.2.1
          have hz := holds_zeros h.2.2
          have hf := field_zero (m := m) (pos := pos) (d := d + 1) (k := k) hk2 (by
            intro i hi
            rw [← hz i (by omega)]; congr 1)
          have hn : (2 ^ k - 1) * d = n := by omega
          simp only [dynGet32, hl, if_neg (show ¬ 9 ≤ d by omega), bitsOf_length]
          by_cases h1 : k = 1
          · rw [if_pos h1]
            subst h1
            simp only [pure, Except.pure]
            have : d = n := by omega
            rw [this]; congr 2
          · rw [if_neg h1, if_neg (by omega), if_neg (by omega)]
            simp only [pure, Except.pure]
            rw [Nat.mul_comm, hn, Nat.mod_eq_of_lt (by omega)]
            congr 2; omega
      · -- a remainder: `k` bits
        rw [if_neg hr] at h25 ⊢
        have hk1 : k ≠ 1 := by
          rintro rfl
          omega
        have hbits : bitsOf (d + (k + 1)) ((2 ^ d - 1) * 2 ^ (k + 1) + (r0 + 1)) =
            List.replicate d true ++ (false :: bitsOf k (r0 + 1)) := by
          rw [bitsOf_code d (k + 1) (r0 + 1) (by rw [Nat.pow_succ]; omega), bitsOf_zero_head k _ (by omega)]
        have hv : (2 ^ d - 1) * 2 ^ (k + 1) + (r0 + 1) < 2 ^ 32 := by
          have h9 : 2 ^ (d + (k + 1)) ≤ 2 ^ 32 := pow_mono (by omega)
          rw [Nat.pow_add] at h9
          have h3 := Nat.two_pow_pos d
          have : (2 ^ d - 1) * 2 ^ (k + 1) + 1 * 2 ^ (k + 1) = 2 ^ d * 2 ^ (k + 1) := by
            rw [← Nat.add_mul]; congr 1; omega
          have h4 : 2 ^ (k + 1) = 2 * 2 ^ k := by rw [Nat.pow_succ]; omega
          omega
        refine ⟨_, bitsOf (d + (k + 1)) ((2 ^ d - 1) * 2 ^ (k + 1) + (r0 + 1)), rfl, by simp; omega, by simp; omega,
          ?_, ?_⟩
        · intro m pos
          obtain ⟨m1, e1, p1⟩ := jam_put (m := m) (pos := pos) (n := d + (k + 1))
            (v := BitVec.ofNat 32 ((2 ^ d - 1) * 2 ^ (k + 1) + (r0 + 1))) (by omega) (by omega)
          rw [bmod_id hv] at p1
          refine ⟨m1, ?_, p1⟩
          simp only [putCode, show d + k + 1 - 0 = d + (k + 1) by omega, show d + (k + 1) - d = k + 1 by omega,
            show (2 ^ d - 1) * 2 ^ (k + 1) + r0 + 1 - 0 = (2 ^ d - 1) * 2 ^ (k + 1) + (r0 + 1) by omega, e1, bind,
            Except.bind, pure, Except.pure, bitsOf_length]
        · intro m pos h
          rw [hbits, Holds.append, holds_cons] at h
          simp only [List.length_replicate] at h
          have hl := lead_prefix (by omega) (holds_ones h.1) h.2.1
          have hf := (field_read (m := m) (pos := pos) (d := d + 1) (k := k) (by omega)).eq
            (x := r0 + 1) (by exact h.2.2) (by omega)
          simp only [dynGet32, hl, if_neg (show ¬ 9 ≤ d by omega), bitsOf_length]
          rw [if_neg hk1, if_neg (by omega)]
          simp only [hf]
          rw [if_pos (by omega)]
          simp only [pure, Except.pure]
          have hn : d * (2 ^ k - 1) + (r0 + 1 - 1) = n := by rw [Nat.mul_comm]; omega
          rw [hn, Nat.mod_eq_of_lt (by omega)]
          congr 2; omega
  · rw [if_neg hd]
    exact ⟨_, be, rfl, l1, l2, w, r⟩

/-- The same for the code words of zero runs (`dyn_code`, `dyn_get`). -/
theorem code_roundtrip {mz k n : Nat} (hk : 0 < k) (hk2 : k ≤ 16) (hm : 0 < mz) (hm2 : mz < 2 ^ k)
    (hn : n < 2 ^ 16) :
    ∃ nb v bs, dynCode mz k n = .ok (nb, v) ∧ bs.length ≤ 25 ∧ 0 < bs.length ∧
      (∀ m pos, ∃ m', jam m pos nb (BitVec.ofNat 32 v) = .ok m' ∧ nb = bs.length ∧ Put m pos bs m') ∧
      (∀ m pos, Holds m pos bs → dynGet m pos mz k = .ok (n, pos + bs.length)) := by
  have esc : ∃ bs, bs.length ≤ 25 ∧ 0 < bs.length ∧
      (∀ m pos, ∃ m', jam m pos (9 + 16) (BitVec.ofNat 32 ((2 ^ 9 - 1) * 2 ^ 16 + n)) = .ok m' ∧
        9 + 16 = bs.length ∧ Put m pos bs m') ∧
      (∀ m pos, Holds m pos bs → dynGet m pos mz k = .ok (n, pos + bs.length)) := by
    refine ⟨bitsOf (9 + 16) ((2 ^ 9 - 1) * 2 ^ 16 + n), by simp, by simp, ?_, ?_⟩
    · intro m pos
      obtain ⟨m1, e1, p1⟩ := jam_put (m := m) (pos := pos) (n := 9 + 16)
        (v := BitVec.ofNat 32 ((2 ^ 9 - 1) * 2 ^ 16 + n)) (by omega) (by omega)
      rw [bmod_id (by omega)] at p1
      exact ⟨m1, e1, by simp, p1⟩
    · intro m pos h
      rw [bitsOf_code 9 16 n (by omega), Holds.append] at h
      simp only [List.length_replicate] at h
      have hl := lead_escape (holds_ones h.1)
      have hf := (field_read (m := m) (pos := pos) (d := 9) (k := 16) (by omega)).eq h.2 hn
      simp only [dynGet, if_pos hl, bitsOf_length, hf, Nat.add_assoc]
  obtain ⟨be, l1, l2, w, r⟩ := esc
  unfold dynCode
  rw [if_neg (by omega)]
  by_cases hd : 9 ≤ n / mz
  · simp only [if_pos hd]
    exact ⟨_, _, be, rfl, l1, l2, w, r⟩
  · simp only [if_neg hd]
    generalize hdd : n / mz = d at hd ⊢
    have hdiv := Nat.div_add_mod n mz
    rw [hdd] at hdiv
    have hml : n % mz < mz := Nat.mod_lt _ hm
    generalize n % mz = r0 at *
    rw [if_neg (by split <;> omega)]
    by_cases hr : r0 = 0
    · subst hr
      rw [if_pos rfl]
      have hbits : bitsOf (d + k) ((2 ^ d - 1) * 2 ^ k + 0) = List.replicate d true ++ (false :: bitsOf (k - 1) 0) := by
        rw [bitsOf_code d k 0 (by omega)]
        congr 1
        obtain ⟨k', rfl⟩ : ∃ k', k = k' + 1 := ⟨k - 1, by omega⟩
        exact bitsOf_zero_head k' 0 (by have := Nat.two_pow_pos k'; omega)
      have hv : (2 ^ d - 1) * 2 ^ k + 0 < 2 ^ 32 := by
        have h9 : 2 ^ (d + k) ≤ 2 ^ 32 := pow_mono (by omega)
        rw [Nat.pow_add] at h9
        have := Nat.two_pow_pos k
        have : (2 ^ d - 1) * 2 ^ k < 2 ^ d * 2 ^ k := by
          apply Nat.mul_lt_mul_of_pos_right _ this
          have := Nat.two_pow_pos d; omega
        omega
      refine ⟨_, _, bitsOf (d + k) ((2 ^ d - 1) * 2 ^ k + 0), rfl, by simp; omega, by simp; omega, ?_, ?_⟩
      · intro m pos
        obtain ⟨m1, e1, p1⟩ := jam_put (m := m) (pos := pos) (n := d + k)
          (v := BitVec.ofNat 32 ((2 ^ d - 1) * 2 ^ k + 0)) (by omega) (by omega)
        rw [bmod_id hv] at p1
        refine ⟨m1, ?_, by simp, p1⟩
        simp only [show d + k + 1 - 1 = d + k by omega, show d + k - d = k by omega,
          show (2 ^ d - 1) * 2 ^ k + 0 + 1 - 1 = (2 ^ d - 1) * 2 ^ k + 0 by omega, e1]
      · intro m pos h
        rw [hbits, Holds.append, holds_cons] at h
        simp only [List.length_replicate] at h
        have hl := lead_prefix (by omega) (holds_ones h.1) h.2.1
        have hz := holds_zeros h.2.2
        have hf := field_zero (m := m) (pos := pos) (d := d + 1) (k := k) (by omega) (by
          intro i hi
          rw [← hz i (by omega)]; congr 1)
        have hn : mz * d = n := by omega
        simp only [dynGet, hl, if_neg (show ¬ 9 ≤ d by omega), bitsOf_length]
        rw [if_neg (by omega), if_pos hf]
        rw [Nat.mul_comm, hn, Nat.mod_eq_of_lt (by omega)]
        congr 2; omega
    · rw [if_neg hr]
      have hbits : bitsOf (d + (k + 1)) ((2 ^ d - 1) * 2 ^ (k + 1) + (r0 + 1)) =
          List.replicate d true ++ (false :: bitsOf k (r0 + 1)) := by
        rw [bitsOf_code d (k + 1) (r0 + 1) (by rw [Nat.pow_succ]; omega), bitsOf_zero_head k _ (by omega)]
      have hv : (2 ^ d - 1) * 2 ^ (k + 1) + (r0 + 1) < 2 ^ 32 := by
        have h9 : 2 ^ (d + (k + 1)) ≤ 2 ^ 32 := pow_mono (by omega)
        rw [Nat.pow_add] at h9
        have h3 := Nat.two_pow_pos d
        have : (2 ^ d - 1) * 2 ^ (k + 1) + 1 * 2 ^ (k + 1) = 2 ^ d * 2 ^ (k + 1) := by
          rw [← Nat.add_mul]; congr 1; omega
        have h4 : 2 ^ (k + 1) = 2 * 2 ^ k := by rw [Nat.pow_succ]; omega
        omega
      refine ⟨_, _, bitsOf (d + (k + 1)) ((2 ^ d - 1) * 2 ^ (k + 1) + (r0 + 1)), rfl, by simp; omega, by simp; omega,
        ?_, ?_⟩
      · intro m pos
        obtain ⟨m1, e1, p1⟩ := jam_put (m := m) (pos := pos) (n := d + (k + 1))
          (v := BitVec.ofNat 32 ((2 ^ d - 1) * 2 ^ (k + 1) + (r0 + 1))) (by omega) (by omega)
        rw [bmod_id hv] at p1
        refine ⟨m1, ?_, by simp; omega, p1⟩
        simp only [show d + k + 1 - 0 = d + (k + 1) by omega, show d + (k + 1) - d = k + 1 by omega,
          show (2 ^ d - 1) * 2 ^ (k + 1) + r0 + 1 - 0 = (2 ^ d - 1) * 2 ^ (k + 1) + (r0 + 1) by omega, e1]
      · intro m pos h
        rw [hbits, Holds.append, holds_cons] at h
        simp only [List.length_replicate] at h
        have hl := lead_prefix (by omega) (holds_ones h.1) h.2.1
        have hf := (field_read (m := m) (pos := pos) (d := d + 1) (k := k) (by omega)).eq
          (x := r0 + 1) (by exact h.2.2) (by omega)
        simp only [dynGet, hl, if_neg (show ¬ 9 ≤ d by omega), bitsOf_length]
        rw [if_neg (by omega)]
        simp only [hf]
        rw [if_neg (by omega)]
        have hn : d * mz + (r0 + 1) - 1 = n := by rw [Nat.mul_comm]; omega
        rw [hn, Nat.mod_eq_of_lt (by omega)]
        congr 2; omega

/-! ## The running mean -/

theorem lg3a_range {x : Nat} (hx : x ≤ 2 ^ 20) : 1 ≤ lg3a x ∧ lg3a x ≤ 31 := by
  have : lead (BitVec.ofNat 32 (x + 3)) ≤ 30 := by
    have h : (BitVec.ofNat 32 (x + 3)).toNat = x + 3 := bmod_id (by omega)
    rcases Nat.lt_or_ge 30 (lead (BitVec.ofNat 32 (x + 3))) with hl | hl
    · -- all bits but the last would be zero
      exfalso
      have key : ∀ r j, j + r = 32 → 30 < lead.go (BitVec.ofNat 32 (x + 3)) r j → ∀ i, j ≤ i → i ≤ 30 →
          (BitVec.ofNat 32 (x + 3)).getMsbD i = false := by
        intro r
        induction r with
        | zero => intro j hj _ i h1 h2; omega
        | succ r ih =>
          intro j hj hl i h1 h2
          unfold lead.go at hl
          by_cases hb : (BitVec.ofNat 32 (x + 3)).getMsbD j = true
          · rw [if_pos hb] at hl; omega
          · rw [if_neg hb] at hl
            by_cases hij : i = j
            · subst hij; simpa using hb
            · exact ih (j + 1) (by omega) hl i (by omega) h2
      have hz := key 32 0 rfl hl
      have : (x + 3) / 2 = 0 := by
        apply Nat.eq_of_testBit_eq
        intro i
        rw [Nat.testBit_div_two, Nat.zero_testBit]
        by_cases hi : i + 1 < 32
        · have := hz (30 - i) (by omega) (by omega)
          rw [BitVec.getMsbD_eq_getLsbD, ← BitVec.testBit_toNat, h, show 32 - 1 - (30 - i) = i + 1 by omega] at this
          have d : decide (30 - i < 32) = true := by rw [decide_eq_true_iff]; omega
          rw [d] at this
          simpa using this
        · exact Nat.testBit_lt_two_pow (Nat.lt_of_lt_of_le (show x + 3 < 2 ^ 32 by omega) (pow_mono (by omega)))
      omega
    · exact hl
  unfold lg3a; omega

theorem mean_eq {P : Params} {mb n z : Nat} (hn : n < 2 ^ 26) (hz : z ≤ 1) : decMean P mb n z = encMean P mb n z := by
  unfold decMean encMean
  rw [Nat.mod_eq_of_lt (a := n + z) (by omega)]

theorem mean_bound {P : Params} {mb n z : Nat} (hp : P.pb ≤ 127) (hm : mb ≤ 2 ^ 25) (hz : z ≤ 1) :
    encMean P mb n z ≤ 2 ^ 25 := by
  unfold encMean
  by_cases hn : 0xffff < n
  · simp only [if_pos hn]; omega
  · simp only [if_neg hn]
    have h1 : P.pb * mb ≤ 127 * 2 ^ 25 := Nat.mul_le_mul hp hm
    rw [Nat.mod_eq_of_lt (a := P.pb * mb) (by omega)]
    have h2 : P.pb * (n + z) ≤ P.pb * 2 ^ 16 := Nat.mul_le_mul_left _ (by omega)
    have h3 : P.pb * mb / 512 ≤ mb := by
      have : P.pb * mb ≤ 512 * mb := Nat.mul_le_mul_right _ (by omega)
      omega
    -- `mb + pb * 2^16 - pb * mb / 512 ≤ 2^25`
    have h4 : P.pb * 2 ^ 16 + mb - P.pb * mb / 512 ≤ 2 ^ 25 := by
      obtain ⟨e, he⟩ : ∃ e, mb + e = 2 ^ 25 := ⟨2 ^ 25 - mb, by omega⟩
      have h5 : P.pb * mb + P.pb * e = P.pb * 2 ^ 25 := by rw [← Nat.mul_add, he]
      have h6 : P.pb * e ≤ 127 * e := Nat.mul_le_mul_right _ hp
      omega
    have h7 : P.pb * 2 ^ 16 ≤ 127 * 2 ^ 16 := Nat.mul_le_mul_right _ hp
    have h8 : (P.pb * (n + z) + mb + 2 ^ 32 - P.pb * mb / 512) = (P.pb * (n + z) + mb - P.pb * mb / 512) + 2 ^ 32 := by
      omega
    rw [h8, Nat.add_mod_right, Nat.mod_eq_of_lt (by omega)]
    omega

theorem runK_range : ∀ mb, mb < 128 → 2 ≤ runK mb ∧ runK mb ≤ 8 := by decide

theorem and_wb {k kb : Nat} (hk : 0 < k) (hkb : 0 < kb) :
    0 < (2 ^ k - 1) &&& (2 ^ kb - 1) ∧ (2 ^ k - 1) &&& (2 ^ kb - 1) < 2 ^ k := by
  rw [Nat.and_two_pow_sub_one_eq_mod]
  have h1 := Nat.two_pow_pos k
  have h2 : 2 ^ 1 ≤ 2 ^ k := pow_mono hk
  have h3 : 2 ^ 1 ≤ 2 ^ kb := pow_mono hkb
  refine ⟨?_, Nat.lt_of_le_of_lt (Nat.mod_le _ _) (by omega)⟩
  rcases Nat.lt_or_ge k kb with h | h
  · have : 2 ^ k ≤ 2 ^ kb := pow_mono (by omega)
    rw [Nat.mod_eq_of_lt (by omega)]; omega
  · -- `2^k - 1` is odd and `2^kb` even
    obtain ⟨c, hc⟩ : ∃ c, 2 ^ k = 2 * c := ⟨2 ^ (k - 1), by rw [← Nat.pow_succ']; congr 1; omega⟩
    obtain ⟨c2, hc2⟩ : ∃ c, 2 ^ kb = 2 * c := ⟨2 ^ (kb - 1), by rw [← Nat.pow_succ']; congr 1; omega⟩
    have : (2 ^ k - 1) % 2 ^ kb % 2 = (2 ^ k - 1) % 2 := Nat.mod_mod_of_dvd _ ⟨c2, hc2⟩
    rw [hc] at this ⊢
    omega

/-! ## Residuals and their numbers -/

theorem encN_eq {del : Int} {z b : Nat} (hb : 1 ≤ b) (hb2 : b ≤ 25) (h1 : -(2 ^ (b - 1) : Nat) ≤ del)
    (h2 : del < (2 ^ (b - 1) : Nat)) (hz : z ≤ 1) (hz0 : z = 1 → del ≠ 0) :
    ∃ n, encN del z = .ok n ∧ n < 2 ^ b ∧ decDel n z = del ∧ (n + z = 0 ↔ del = 0) := by
  have hp : 2 ^ b = 2 * 2 ^ (b - 1) := by rw [← Nat.pow_succ']; congr 1; omega
  have hp2 : 2 ^ (b - 1) ≤ 2 ^ 24 := pow_mono (by omega)
  unfold encN
  rw [if_neg (by omega)]
  refine ⟨_, rfl, ?_, ?_, ?_⟩
  · unfold wrapU; split <;> omega
  · unfold decDel wrapU wrapS
    by_cases hn : del < 0
    · rw [if_pos hn]
      have e : ((2 * (del.natAbs : Int) - 1 - (z : Int)) % ((2 ^ 32 : Nat) : Int)).toNat + z = 2 * del.natAbs - 1 := by
        omega
      rw [e]
      dsimp only
      rw [if_pos (by omega)]
      have e2 : (((2 * del.natAbs - 1) % 2 ^ 32 + 1) % 2 ^ 32 / 2 : Nat) = del.natAbs := by omega
      rw [e2, show ((del.natAbs : Int) * -1) = del by omega]
      apply Int.bmod_eq_of_le <;> omega
    · rw [if_neg hn]
      have e : ((2 * (del.natAbs : Int) - 0 - (z : Int)) % ((2 ^ 32 : Nat) : Int)).toNat + z = 2 * del.natAbs := by
        omega
      rw [e]
      dsimp only
      rw [if_neg (by omega)]
      have e2 : ((2 * del.natAbs % 2 ^ 32 + 1) % 2 ^ 32 / 2 : Nat) = del.natAbs := by omega
      rw [e2, show ((del.natAbs : Int) * 1) = del by omega]
      apply Int.bmod_eq_of_le <;> omega
  · unfold wrapU; split <;> omega

theorem zeroRun_spec : ∀ (xs : List Int) (nz : Nat), nz < 65535 → ∃ n, (zeroRun nz xs).1 = nz + n ∧
    xs = List.replicate n 0 ++ (zeroRun nz xs).2 ∧ nz + n ≤ 65535 ∧
    (nz + n < 65535 → (zeroRun nz xs).2.head? ≠ some 0) := by
  intro xs
  induction xs with
  | nil => intro nz h; exact ⟨0, by simp [zeroRun], by simp [zeroRun], by omega, by simp [zeroRun]⟩
  | cons x xs ih =>
    intro nz h
    unfold zeroRun
    by_cases hx : x = 0
    · rw [if_pos hx]
      by_cases h6 : 65535 ≤ nz + 1
      · rw [if_pos h6]
        exact ⟨1, rfl, by simp [hx], by omega, by omega⟩
      · rw [if_neg h6]
        obtain ⟨n, e1, e2, e3, e4⟩ := ih (nz + 1) (by omega)
        refine ⟨n + 1, by omega, ?_, by omega, fun h => e4 (by omega)⟩
        rw [List.replicate_succ, List.cons_append, ← e2, hx]
    · rw [if_neg hx]
      refine ⟨0, rfl, rfl, by omega, ?_⟩
      simp [hx]

/-! ## The loop -/

theorem encK_range {P : Params} (hP : P.OK) {mb : Nat} (h : mb ≤ 2 ^ 25) : 0 < encK P mb ∧ encK P mb ≤ 32 := by
  have := lg3a_range (x := mb / 512) (by omega)
  have := hP.2.2
  unfold encK
  dsimp only
  split <;> omega

theorem decK_eq (P : Params) (mb : Nat) : decK P mb = encK P mb := by
  unfold decK encK
  dsimp only
  split <;> omega

theorem loop_roundtrip {P : Params} (hP : P.OK) {b : Nat} (hb : 1 ≤ b) (hb2 : b ≤ 25) :
    ∀ (r : Nat) (pc : List Int) (mb z : Nat), pc.length ≤ r →
      (∀ x ∈ pc, -(2 ^ (b - 1) : Nat) ≤ x ∧ x < (2 ^ (b - 1) : Nat)) → mb ≤ 2 ^ 25 → z ≤ 1 →
      (z = 1 → pc.head? ≠ some 0) →
      ∃ bs : List Bool, bs.length ≤ pc.length * (max 25 (9 + b) + 25) ∧
        (∀ m pos, ∃ m', compLoop P b r pc mb z m pos = .ok (m', pos + bs.length) ∧ Put m pos bs m') ∧
        ∀ m pos base maxPos c num r', num = c + pc.length → num < 2 ^ 32 → pc.length ≤ r' → Holds m pos bs →
          base ≤ pos → pos + bs.length ≤ base + maxPos →
          decompLoop P b maxPos base num m r' c mb z pos = .ok (pc, pos + bs.length) := by
  intro r
  induction r with
  | zero =>
    intro pc mb z hr hx hmb hz hz0
    have : pc = [] := List.eq_nil_of_length_eq_zero (by omega)
    subst this
    refine ⟨[], by simp, fun m pos => ⟨m, rfl, Put.nil m pos⟩, ?_⟩
    intro m pos base maxPos c num r' hn hnum hr' _ _ _
    cases r' with
    | zero => rfl
    | succ r' =>
      unfold decompLoop
      rw [if_pos (by simp at hn; omega)]; rfl
  | succ r ih =>
    intro pc mb z hr hx hmb hz hz0
    cases pc with
    | nil =>
      refine ⟨[], by simp, fun m pos => ⟨m, rfl, Put.nil m pos⟩, ?_⟩
      intro m pos base maxPos c num r' hn hnum hr' _ _ _
      cases r' with
      | zero => rfl
      | succ r' =>
        unfold decompLoop
        rw [if_pos (by simp at hn; omega)]; rfl
    | cons del rest =>
      have hlen : (del :: rest).length = rest.length + 1 := rfl
      have hd := hx del (List.mem_cons_self ..)
      have hxr : ∀ x ∈ rest, -(2 ^ (b - 1) : Nat) ≤ x ∧ x < (2 ^ (b - 1) : Nat) :=
        fun x h => hx x (List.mem_cons_of_mem _ h)
      obtain ⟨n, en, hn, hdel, _⟩ := encN_eq hb hb2 hd.1 hd.2 hz (fun h e => hz0 h (by simp [e]))
      obtain ⟨k1, k2⟩ := encK_range hP hmb
      obtain ⟨code, b1, ec, l1, l0, w1, r1⟩ := code32_roundtrip k1 k2 (show 0 < b by omega) hb2 hn
      have hn26 : n < 2 ^ 26 := Nat.lt_of_lt_of_le hn (pow_mono (by omega))
      have hmean := mean_eq (P := P) (mb := mb) hn26 hz
      have hmb' := mean_bound (P := P) (n := n) hP.2.1 hmb hz
      generalize hmm : encMean P mb n z = mb' at hmean hmb'
      by_cases hcond : mb' * 4 % 2 ^ 32 < 512 ∧ rest ≠ []
      · -- a zero run
        obtain ⟨nz, z1, z2, z3, z4⟩ := zeroRun_spec rest 0 (by omega)
        rw [Nat.zero_add] at z1
        generalize hrest' : (zeroRun 0 rest).2 = rest' at z2 z4
        have hzr : zeroRun 0 rest = (nz, rest') := by rw [← z1, ← hrest']
        have hsmall : mb' < 128 := by
          have := hcond.1
          rw [Nat.mod_eq_of_lt (by omega)] at this
          omega
        obtain ⟨rk1, rk2⟩ := runK_range mb' hsmall
        obtain ⟨a1, a2⟩ := and_wb (k := runK mb') (kb := P.kb) (by omega) (by have := hP.2.2; omega)
        obtain ⟨nb, v, b2, e2, l2, l2', w2, r2⟩ := code_roundtrip (n := nz) (show 0 < runK mb' by omega) (by omega)
          a1 a2 (by omega)
        have hrl : rest.length = nz + rest'.length := by rw [z2]; simp
        obtain ⟨b3, l3, w3, r3⟩ := ih rest' 0 (if 65535 ≤ nz then 0 else 1) (by omega)
          (fun x h => hxr x (by rw [z2]; exact List.mem_append_right _ h)) (by omega) (by split <;> omega) (by
            intro h
            apply z4
            by_cases h6 : 65535 ≤ nz
            · rw [if_pos h6] at h; omega
            · omega)
        refine ⟨b1 ++ (b2 ++ b3), ?_, ?_, ?_⟩
        · have h0 : rest'.length ≤ rest.length := by omega
          have h1 := Nat.mul_le_mul_right (max 25 (9 + b) + 25) h0
          rw [hlen, Nat.add_mul, List.length_append, List.length_append]
          omega
        · intro m pos
          obtain ⟨m1, x1, p1⟩ := w1 m pos
          obtain ⟨m2, x2, x2', p2⟩ := w2 m1 (pos + b1.length)
          obtain ⟨m3, x3, p3⟩ := w3 m2 (pos + b1.length + b2.length)
          refine ⟨m3, ?_, p1.append (p2.append p3)⟩
          unfold compLoop
          simp only [en, ec, x1, bind, Except.bind, hmm]
          rw [if_pos hcond]
          simp only [hzr]
          have e2' : dynCode ((2 ^ runK mb' - 1) &&& P.wb) (runK mb') nz = .ok (nb, v) := e2
          simp only [e2', x2]
          rw [x2', x3, List.length_append, List.length_append]
          congr 2; omega
        · intro m pos base maxPos c num r' hnum hnum2 hr' hh hbase hmax
          rw [Holds.append, Holds.append] at hh
          rw [List.length_append, List.length_append] at hmax ⊢
          rw [hlen] at hnum hr'
          cases r' with
          | zero => omega
          | succ r' =>
            unfold decompLoop
            have hne : rest.length ≠ 0 := fun h => hcond.2 (List.eq_nil_of_length_eq_zero h)
            rw [if_neg (by omega)]
            simp only [bind, Except.bind, pure, Except.pure]
            rw [if_neg (by omega)]
            simp only [decK_eq, r1 m pos hh.1, hmean, hdel]
            rw [if_pos ⟨hcond.1, by omega⟩]
            have r2' := r2 m (pos + b1.length) hh.2.1
            have r2'' : dynGet m (pos + b1.length) ((2 ^ runK mb' - 1) &&& P.wb) (runK mb') = .ok (nz, _) := r2'
            simp only [r2'']
            rw [if_neg (by rw [Nat.mod_eq_of_lt (by omega)]; omega)]
            rw [r3 m _ base maxPos (c + 1 + nz) num r' (by omega) hnum2 (by omega) hh.2.2 (by omega) (by omega)]
            simp only [← z2]
            congr 2; omega
      · -- the next residual
        obtain ⟨b3, l3, w3, r3⟩ := ih rest mb' 0 (by omega) hxr hmb' (by omega) (by omega)
        refine ⟨b1 ++ b3, ?_, ?_, ?_⟩
        · rw [hlen, Nat.add_mul, List.length_append]
          omega
        · intro m pos
          obtain ⟨m1, x1, p1⟩ := w1 m pos
          obtain ⟨m3, x3, p3⟩ := w3 m1 (pos + b1.length)
          refine ⟨m3, ?_, p1.append p3⟩
          unfold compLoop
          simp only [en, ec, x1, bind, Except.bind, hmm]
          rw [if_neg hcond, x3, List.length_append]
          congr 2; omega
        · intro m pos base maxPos c num r' hnum hnum2 hr' hh hbase hmax
          rw [Holds.append] at hh
          rw [List.length_append] at hmax ⊢
          rw [hlen] at hnum hr'
          cases r' with
          | zero => omega
          | succ r' =>
            unfold decompLoop
            rw [if_neg (by omega)]
            simp only [bind, Except.bind, pure, Except.pure]
            rw [if_neg (by omega)]
            simp only [decK_eq, r1 m pos hh.1, hmean, hdel]
            rw [if_neg (by
              rintro ⟨h1, h2⟩
              apply hcond
              refine ⟨h1, fun e => ?_⟩
              subst e
              simp at hnum; omega)]
            rw [r3 m _ base maxPos (c + 1) num r' (by omega) hnum2 (by omega) hh.2 (by omega) (by omega)]
            simp only []
            congr 2; omega

/-- What `dyn_comp` writes is one string of bits, from which `dyn_decomp` gets the residuals back. -/
theorem comp_roundtrip {P : Params} (hP : P.OK) {b : Nat} (hb : 1 ≤ b) (hb2 : b ≤ 25) (pc : List Int)
    (hlen : pc.length < 2 ^ 32) (hx : ∀ x ∈ pc, -(2 ^ (b - 1) : Nat) ≤ x ∧ x < (2 ^ (b - 1) : Nat)) :
    ∃ bs : List Bool, bs.length ≤ pc.length * (max 25 (9 + b) + 25) ∧
      (∀ m pos, ∃ m', dynComp P pc b m pos = .ok (m', pos + bs.length) ∧ Put m pos bs m') ∧
      ∀ m pos byteSize, Holds m pos bs → pos + bs.length ≤ 8 * byteSize →
        dynDecomp P pc.length b byteSize m pos = .ok (pc, pos + bs.length) := by
  obtain ⟨bs, l, w, r⟩ := loop_roundtrip hP hb hb2 pc.length pc P.mb0 0 (Nat.le_refl _) hx hP.1 (by omega) (by omega)
  refine ⟨bs, l, ?_, ?_⟩
  · intro m pos
    obtain ⟨m', e, p⟩ := w m pos
    refine ⟨m', ?_, p⟩
    unfold dynComp
    rw [if_neg (by omega), e]
  · intro m pos byteSize hh hs
    unfold dynDecomp
    rw [r m pos _ _ 0 pc.length pc.length (by omega) hlen (Nat.le_refl _) hh (by omega) (by omega)]
    simp only [bind, Except.bind, pure, Except.pure]
    rw [if_neg (by omega)]

end AF.ALAC
