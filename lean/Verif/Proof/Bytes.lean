import Verif.Model.Bytes
import Verif.Model.CInt
import Verif.Proof.Packets
namespace AF

theorem leBytes_length (n : Nat) : ∀ x, (leBytes n x).length = n := by
  induction n with
  | zero => intro x; rfl
  | succ n ih => intro x; simp [leBytes, ih]

theorem toBytes_length (e : Endian) (n : Nat) (x : Int) : (toBytes e n x).length = n := by
  cases e <;> simp [toBytes, leBytes_length]

theorem byte_ofInt (x : Int) : ((BitVec.ofInt 8 x).toNat : Int) = x % 256 := by
  rw [BitVec.toNat_ofInt]
  have : 0 ≤ x % ((2 ^ 8 : Nat) : Int) := Int.emod_nonneg _ (by decide)
  rw [Int.toNat_of_nonneg this]; rfl

theorem ofLE_leBytes (n : Nat) : ∀ x, ofLE (leBytes n x) = x % 256 ^ n := by
  induction n with
  | zero => intro x; simp [leBytes, ofLE]
  | succ n ih =>
    intro x
    rw [leBytes, ofLE, ih, byte_ofInt, Int.pow_succ]
    have hp : (0 : Int) < 256 ^ n := Int.pow_pos (by decide)
    rw [Int.mul_comm (256 ^ n) 256]
    have e1 := Int.mul_ediv_add_emod x 256
    have e2 := Int.mul_ediv_add_emod (x / 256) (256 ^ n)
    have b1 := Int.emod_nonneg (x / 256) (Int.ne_of_gt hp)
    have b2 := Int.emod_lt_of_pos (x / 256) hp
    have c1 := Int.emod_nonneg x (show (256 : Int) ≠ 0 by decide)
    have c2 := Int.emod_lt_of_pos x (show (0 : Int) < 256 by decide)
    symm
    rw [Int.emod_eq_iff (by omega)]
    refine ⟨by omega, by omega, ?_⟩
    refine ⟨-(x / 256 / 256 ^ n), ?_⟩
    have e3 : x = 256 * (256 ^ n * (x / 256 / 256 ^ n)) + (x % 256 + 256 * (x / 256 % 256 ^ n)) := by omega
    rw [Int.mul_assoc, Int.mul_neg]; omega

theorem uintOf_toBytes (e : Endian) (n : Nat) (x : Int) : uintOf e (toBytes e n x) = x % 256 ^ n := by
  cases e <;> simp [toBytes, uintOf, ofLE_leBytes]

theorem ofLE_bounds (bs : List Byte) : 0 ≤ ofLE bs ∧ ofLE bs < 256 ^ bs.length := by
  induction bs with
  | nil => simp [ofLE]
  | cons b bs ih =>
    have := b.isLt
    simp only [ofLE, List.length_cons, Int.pow_succ]
    omega

theorem leBytes_ofLE (bs : List Byte) : leBytes bs.length (ofLE bs) = bs := by
  induction bs with
  | nil => rfl
  | cons b bs ih =>
    have := b.isLt
    simp only [List.length_cons, leBytes, ofLE]
    have e1 : ((b.toNat : Int) + 256 * ofLE bs) / 256 = ofLE bs := by omega
    rw [e1, ih]
    congr 1
    apply BitVec.eq_of_toNat_eq
    have := byte_ofInt ((b.toNat : Int) + 256 * ofLE bs)
    omega

theorem leBytes_congr (n : Nat) : ∀ x y : Int, x % 256 ^ n = y % 256 ^ n → leBytes n x = leBytes n y := by
  intro x y h
  rw [← ofLE_leBytes, ← ofLE_leBytes] at h
  have h1 := leBytes_ofLE (leBytes n x)
  have h2 := leBytes_ofLE (leBytes n y)
  rw [leBytes_length] at h1 h2
  rw [← h1, ← h2, h]

theorem toBytes_congr (e : Endian) (n : Nat) (x y : Int) (h : x % 256 ^ n = y % 256 ^ n) :
    toBytes e n x = toBytes e n y := by
  cases e <;> simp [toBytes, leBytes_congr n x y h]

theorem toBytes_uintOf (e : Endian) (bs : List Byte) : toBytes e bs.length (uintOf e bs) = bs := by
  cases e
  · exact leBytes_ofLE bs
  · have := leBytes_ofLE bs.reverse
    rw [List.length_reverse] at this
    simp [toBytes, uintOf, this]

theorem uintOf_bounds (e : Endian) (bs : List Byte) : 0 ≤ uintOf e bs ∧ uintOf e bs < 256 ^ bs.length := by
  cases e
  · exact ofLE_bounds bs
  · have := ofLE_bounds bs.reverse; simpa [uintOf] using this

theorem toBytes_inj (e : Endian) (n : Nat) (x y : Int) (h : toBytes e n x = toBytes e n y) :
    x % 256 ^ n = y % 256 ^ n := by
  rw [← uintOf_toBytes e n x, h, uintOf_toBytes]

end AF
