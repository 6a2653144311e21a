import Verif.Proof.Fields
/-! # C05: header fields -/
namespace AF

/-- **C05** (bytes). The bytes of a header field are the field's bytes in the declared order (least significant first,
or last), whatever the byte order of the host. -/
theorem C05_field_bytes (h order : Endian) (k : FieldSize) (x : BitVec (8 * k.bytes)) :
    writeField h order k x =
      match order with
      | .little => (List.range k.bytes).map fun i => x.extractLsb' (8 * i) 8
      | .big => ((List.range k.bytes).map fun i => x.extractLsb' (8 * i) 8).reverse := by
  rw [writeField_eq]
  cases order <;> simp [toBytes, leBytes_bv]

example : writeField .little .big .s4 0x0A0B0C0D#32 = [0x0A, 0x0B, 0x0C, 0x0D] := by decide
example : writeField .big .big .s4 0x0A0B0C0D#32 = [0x0A, 0x0B, 0x0C, 0x0D] := by decide
example : writeField .big .little .s8 0x0102030405060708#64 = [8, 7, 6, 5, 4, 3, 2, 1] := by decide

/-- **C05** (round trip). A field written in some byte order on one host and read back in the same byte order on any
host is unchanged, and exactly its bytes are consumed. -/
theorem C05_field_roundtrip (h h' order : Endian) (k : FieldSize) (x : BitVec (8 * k.bytes)) (rest : List Byte) :
    readField h' order k (writeField h order k x ++ rest) = some (x, rest) := by
  rw [writeField_eq h, ← writeField_eq h', readField_writeField]

example : readField .big .little .s2 (writeField .little .little .s2 0xBEEF#16 ++ [1, 2])
    = some (0xBEEF#16, [1, 2]) := C05_field_roundtrip _ _ _ _ _ _

/-- **C05** (two fields). Whole headers: two consecutive fields of any sizes come back in order. -/
theorem C05_two_fields (h order : Endian) (k l : FieldSize) (x : BitVec (8 * k.bytes)) (y : BitVec (8 * l.bytes))
    (rest : List Byte) :
    (readField h order k (writeField h order k x ++ (writeField h order l y ++ rest))).bind
      (fun p => (readField h order l p.2).map fun q => (p.1, q.1, q.2)) = some (x, y, rest) := by
  simp [readField_writeField]

/-- **C05** (reading is faithful). A successful read determines the bytes: writing the value back gives them. -/
theorem C05_read_then_write (h order : Endian) (k : FieldSize) (bs rest : List Byte) (x : BitVec (8 * k.bytes))
    (hr : readField h order k bs = some (x, rest)) : writeField h order k x ++ rest = bs := by
  rw [readField_eq] at hr
  split at hr
  · next hl =>
    simp only [Option.some.injEq, Prod.mk.injEq] at hr
    obtain ⟨rfl, rfl⟩ := hr
    have hlen : (bs.take k.bytes).length = k.bytes := by simp; omega
    have hb := toBytes_uintOf order (bs.take k.bytes)
    rw [hlen] at hb
    rw [writeField_eq]
    have hbd := uintOf_bounds order (bs.take k.bytes)
    rw [hlen] at hbd
    have e1 : ((256 : Int) ^ k.bytes) = ((2 ^ (8 * k.bytes) : Nat) : Int) := by
      rw [Nat.pow_mul]; simp
    rw [e1] at hbd
    have hn : (((BitVec.ofInt (8 * k.bytes) (uintOf order (bs.take k.bytes))).toNat : Int))
        = uintOf order (bs.take k.bytes) := by
      rw [BitVec.toNat_ofInt, Int.emod_eq_of_lt hbd.1 hbd.2]
      omega
    rw [hn, hb, List.take_append_drop]
  · cases hr

example : readField .little .big .s2 [0x12, 0x34, 0x56] = some (0x1234#16, [0x56]) := by decide

end AF
