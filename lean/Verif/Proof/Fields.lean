import Verif.Model.Fields
import Verif.Proof.Bytes
namespace AF

theorem leBytes_bv (n : Nat) : ∀ {w : Nat} (x : BitVec w),
    leBytes n x.toNat = (List.range n).map fun i => x.extractLsb' (8 * i) 8 := by
  induction n with
  | zero => intro w x; rfl
  | succ n ih =>
    intro w x
    rw [leBytes, List.range_succ_eq_map, List.map_cons, List.map_map]
    have e1 : ((x.toNat : Int) / (256 : Int)) = ((x >>> 8).toNat : Int) := by
      simp [Nat.shiftRight_eq_div_pow]
    rw [e1, ih]
    refine List.cons_eq_cons.2 ⟨?_, ?_⟩
    · apply BitVec.eq_of_toNat_eq
      have := byte_ofInt (x.toNat : Int)
      simp
    · apply List.map_congr_left
      intro i _
      apply BitVec.eq_of_toNat_eq
      simp only [Function.comp, BitVec.extractLsb'_toNat, BitVec.toNat_ushiftRight, ← Nat.shiftRight_add]
      rw [Nat.mul_succ, Nat.add_comm]

set_option maxRecDepth 4000 in
theorem byteswap64_bytes (x : BitVec 64) : leBytes 8 (byteswap64 x).toNat = (leBytes 8 x.toNat).reverse := by
  rw [leBytes_bv, leBytes_bv]
  have hr : List.range 8 = [0, 1, 2, 3, 4, 5, 6, 7] := by decide
  rw [hr]
  simp only [List.map_cons, List.map_nil, List.reverse_cons, List.reverse_nil, List.nil_append, List.cons_append,
    List.cons.injEq, and_true]
  refine ⟨?_, ?_, ?_, ?_, ?_, ?_, ?_, ?_⟩ <;>
  · ext j hj
    have : j = 0 ∨ j = 1 ∨ j = 2 ∨ j = 3 ∨ j = 4 ∨ j = 5 ∨ j = 6 ∨ j = 7 := by omega
    rcases this with rfl | rfl | rfl | rfl | rfl | rfl | rfl | rfl <;> simp [byteswap64]

theorem byteswap32_bytes (x : BitVec 32) : leBytes 4 (byteswap32 x).toNat = (leBytes 4 x.toNat).reverse := by
  rw [leBytes_bv, leBytes_bv]
  have hr : List.range 4 = [0, 1, 2, 3] := by decide
  rw [hr]
  simp only [List.map_cons, List.map_nil, List.reverse_cons, List.reverse_nil, List.nil_append, List.cons_append,
    List.cons.injEq, and_true]
  refine ⟨?_, ?_, ?_, ?_⟩ <;>
  · ext j hj
    have : j = 0 ∨ j = 1 ∨ j = 2 ∨ j = 3 ∨ j = 4 ∨ j = 5 ∨ j = 6 ∨ j = 7 := by omega
    rcases this with rfl | rfl | rfl | rfl | rfl | rfl | rfl | rfl <;> simp [byteswap32]

theorem byteswap16_bytes (x : BitVec 16) : leBytes 2 (byteswap16 x).toNat = (leBytes 2 x.toNat).reverse := by
  rw [leBytes_bv, leBytes_bv]
  have hr : List.range 2 = [0, 1] := by decide
  rw [hr]
  simp only [List.map_cons, List.map_nil, List.reverse_cons, List.reverse_nil, List.nil_append, List.cons_append,
    List.cons.injEq, and_true]
  refine ⟨?_, ?_⟩ <;>
  · ext j hj
    have : j = 0 ∨ j = 1 ∨ j = 2 ∨ j = 3 ∨ j = 4 ∨ j = 5 ∨ j = 6 ∨ j = 7 := by omega
    rcases this with rfl | rfl | rfl | rfl | rfl | rfl | rfl | rfl <;> simp [byteswap16]

theorem byteswap_bytes (k : FieldSize) (x : BitVec (8 * k.bytes)) :
    leBytes k.bytes (byteswap k x).toNat = (leBytes k.bytes x.toNat).reverse := by
  cases k
  · rfl
  · exact byteswap16_bytes x
  · exact byteswap32_bytes x
  · exact byteswap64_bytes x

theorem toBytes_byteswap (e : Endian) (k : FieldSize) (x : BitVec (8 * k.bytes)) :
    toBytes e k.bytes (byteswap k x).toNat = (toBytes e k.bytes x.toNat).reverse := by
  cases e <;> simp [toBytes, byteswap_bytes]

/-- The bytes of a written field do not depend on the host. -/
theorem writeField_eq (h order : Endian) (k : FieldSize) (x : BitVec (8 * k.bytes)) :
    writeField h order k x = toBytes order k.bytes x.toNat := by
  unfold writeField swapValue
  split
  · next e => rw [e]
  · next e =>
    rw [toBytes_byteswap]
    cases h <;> cases order <;> simp_all [toBytes]

theorem bv_of_bytes (n : Nat) (x : BitVec (8 * n)) (e : Endian) :
    BitVec.ofInt (8 * n) (uintOf e (toBytes e n x.toNat)) = x := by
  rw [uintOf_toBytes]
  apply BitVec.eq_of_toNat_eq
  rw [BitVec.toNat_ofInt]
  have hx := x.isLt
  have e1 : ((256 : Int) ^ n) = ((2 ^ (8 * n) : Nat) : Int) := by
    rw [Nat.pow_mul]; simp
  rw [e1, Int.emod_emod_of_dvd _ (Int.dvd_refl _), Int.emod_eq_of_lt (by omega) (by omega)]
  omega

theorem byteswap_byteswap (k : FieldSize) (x : BitVec (8 * k.bytes)) : byteswap k (byteswap k x) = x := by
  have h1 := byteswap_bytes k (byteswap k x)
  rw [byteswap_bytes k x, List.reverse_reverse] at h1
  have h2 := bv_of_bytes k.bytes (byteswap k (byteswap k x)) .little
  have h3 := bv_of_bytes k.bytes x .little
  simp only [toBytes] at h2 h3
  rw [← h2, h1, h3]

theorem readField_writeField (h order : Endian) (k : FieldSize) (x : BitVec (8 * k.bytes)) (rest : List Byte) :
    readField h order k (writeField h order k x ++ rest) = some (x, rest) := by
  have hl : (writeField h order k x).length = k.bytes := by simp [writeField, toBytes_length]
  unfold readField
  rw [if_pos (by simp [hl]), List.take_left' hl, List.drop_left' hl]
  simp only [writeField, bv_of_bytes]
  unfold swapValue
  split
  · rfl
  · rw [byteswap_byteswap]

/-- What a successful read returns, independent of the host. -/
theorem readField_eq (h order : Endian) (k : FieldSize) (bs : List Byte) :
    readField h order k bs = if k.bytes ≤ bs.length then
      some (BitVec.ofInt _ (uintOf order (bs.take k.bytes)), bs.drop k.bytes) else none := by
  by_cases hl : k.bytes ≤ bs.length
  · rw [if_pos hl]
    have hlen : (bs.take k.bytes).length = k.bytes := by simp; omega
    have hb := toBytes_uintOf order (bs.take k.bytes)
    rw [hlen] at hb
    have hw := writeField_eq h order k (BitVec.ofInt _ (uintOf order (bs.take k.bytes)))
    have hbd := uintOf_bounds order (bs.take k.bytes)
    rw [hlen] at hbd
    have hn : (((BitVec.ofInt (8 * k.bytes) (uintOf order (bs.take k.bytes))).toNat : Int))
        = uintOf order (bs.take k.bytes) := by
      rw [BitVec.toNat_ofInt]
      have e1 : ((256 : Int) ^ k.bytes) = ((2 ^ (8 * k.bytes) : Nat) : Int) := by
        rw [Nat.pow_mul]; simp
      rw [e1] at hbd
      rw [Int.emod_eq_of_lt hbd.1 hbd.2]
      omega
    rw [hn, hb] at hw
    have := readField_writeField h order k (BitVec.ofInt _ (uintOf order (bs.take k.bytes))) (bs.drop k.bytes)
    rw [hw, List.take_append_drop] at this
    exact this
  · rw [if_neg hl]; simp [readField, hl]

end AF
