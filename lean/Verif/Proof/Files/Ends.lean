import Verif.Proof.Safe
import Verif.Proof.Chunks
import Verif.Spec.Walk
import Verif.Model.Files.AIFF
import Verif.Model.Files.IFF
import Verif.Model.Files.CAF
import Verif.Model.Files.WAVE
/-!
# Walks over chunks that come to an end
-/
namespace AF.Files
open AF AF.Setup AF.Spec.Walk

namespace Safe
variable {α β : Type} {file : List Byte}

theorem intro {m : Rd α} {Q : α → Prop} (h : ∀ p, (∀ a p', m file p = .ok (a, p') → Q a) ∧ m file p ≠ .error .running) :
    Safe file m Q := by unfold Safe; exact h

theorem skip (n : Nat) : Safe file (Rd.skip n) fun _ => True := intro fun p => ⟨fun _ _ _ => trivial, by simp [Rd.skip]⟩
theorem tag : Safe file Rd.tag fun _ => True := by
  unfold Rd.tag
  exact (read 4).bind' fun _ => pure trivial
theorem u32Init (h o : Endian) : Safe file (Rd.u32Init h o) fun _ => True := by
  refine intro fun p => ⟨fun _ _ _ => trivial, ?_⟩
  unfold Rd.u32Init
  split <;> simp
theorem uInit (h o : Endian) (k : FieldSize) : Safe file (Rd.uInit h o k) fun _ => True := by
  refine intro fun p => ⟨fun _ _ _ => trivial, ?_⟩
  unfold Rd.uInit
  split <;> simp
theorem times {m : Rd α} (hm : Safe file m fun _ => True) (n : Nat) : Safe file (Rd.times m n) fun _ => True := by
  induction n with
  | zero => exact pure trivial
  | succ n ih => unfold Rd.times; exact hm.bind' fun _ => ih.bind' fun _ => pure trivial
theorem tag4 : Safe file Rd.tag4 fun _ => True := by
  unfold Rd.tag4
  refine (read 4).bind' fun _ => ite (fun _ => fail) fun _ => pure trivial
theorem u32 (h : Endian) : Safe file (Rd.u32 h) fun _ => True := by
  unfold Rd.u32
  refine (field? _ _ _).bind' fun a => ?_
  split
  · exact pure trivial
  · exact fail
theorem s64 (h : Endian) : Safe file (Rd.s64 h) fun _ => True := by
  unfold Rd.s64
  refine (field? _ _ _).bind' fun a => ?_
  split
  · exact pure trivial
  · exact fail
end Safe

/-- Steps through a reader without loops. -/
macro "rd_ends" : tactic => `(tactic| repeat' first
  | with_reducible exact Safe.fail
  | with_reducible exact Safe.undefined
  | with_reducible refine Safe.pure ?_
  | with_reducible refine Safe.bind' (Safe.seek _) fun _ => ?_
  | with_reducible refine Safe.bind' Safe.tell fun _ => ?_
  | with_reducible refine Safe.bind Safe.length fun _ hlength => ?_
  | with_reducible refine Safe.bind' (Safe.read _) fun _ => ?_
  | with_reducible refine Safe.bind' (Safe.field _ _ _) fun _ => ?_
  | with_reducible refine Safe.bind' (Safe.field? _ _ _) fun _ => ?_
  | with_reducible refine Safe.bind' (Safe.skip _) fun _ => ?_
  | with_reducible refine Safe.bind' Safe.tag fun _ => ?_
  | with_reducible refine Safe.bind' Safe.tag4 fun _ => ?_
  | with_reducible refine Safe.bind' (Safe.u32 _) fun _ => ?_
  | with_reducible refine Safe.bind' (Safe.s64 _) fun _ => ?_
  | with_reducible refine Safe.bind' (Safe.u32Init _ _) fun _ => ?_
  | with_reducible refine Safe.bind' (Safe.uInit _ _ _) fun _ => ?_
  | with_reducible refine Safe.bind' (Safe.times ?_ _) fun _ => ?_
  | with_reducible refine Safe.ite (fun _ => ?_) (fun _ => ?_)
  | with_reducible refine Safe.bindPure ?_
  | with_reducible exact trivial
  | split
  | dsimp only; split)

/-! ## Bytes -/

theorem pow256_mono {a b : Nat} (h : a ≤ b) : (256 : Int) ^ a ≤ 256 ^ b := by
  obtain ⟨c, rfl⟩ := Nat.le.dest h
  rw [Int.pow_add]
  have h1 : (0 : Int) < 256 ^ a := Int.pow_pos (by decide)
  have h2 : (0 : Int) < 256 ^ c := Int.pow_pos (by decide)
  have := Int.mul_le_mul_of_nonneg_left (show (1 : Int) ≤ 256 ^ c by omega) (Int.le_of_lt h1)
  omega

theorem be32_lt (file : List Byte) (p : Nat) : be32 file p < 2 ^ 32 := by
  unfold be32
  have h := ofLE_bounds ((file.drop p).take 4).reverse
  have hl : ((file.drop p).take 4).reverse.length ≤ 4 := by simp; omega
  have : (256 : Int) ^ ((file.drop p).take 4).reverse.length ≤ 256 ^ 4 := pow256_mono (by omega)
  omega

theorem le32_lt (file : List Byte) (p : Nat) : le32 file p < 2 ^ 32 := by
  unfold le32
  have h := ofLE_bounds ((file.drop p).take 4)
  have hl : ((file.drop p).take 4).length ≤ 4 := by simp; omega
  have : (256 : Int) ^ ((file.drop p).take 4).length ≤ 256 ^ 4 := pow256_mono (by omega)
  omega

theorem field4_run (h o : Endian) (file : List Byte) (p : Nat) :
    (p + 4 ≤ file.length → readField h o .s4 (file.drop p) =
      some (BitVec.ofInt _ (uintOf o ((file.drop p).take 4)), (file.drop p).drop 4)) ∧
    (¬ p + 4 ≤ file.length → readField h o .s4 (file.drop p) = none) := by
  have hb : FieldSize.s4.bytes = 4 := rfl
  rw [readField_eq, hb, List.length_drop]
  refine ⟨fun hp => if_pos (by omega), fun hp => if_neg (by omega)⟩

theorem field4_pos {h o : Endian} {file : List Byte} {p x p' : Nat} (hx : Rd.field h o .s4 file p = .ok (x, p')) :
    p + 4 ≤ file.length ∧ p' = p + 4 := by
  unfold Rd.field Rd.field? at hx
  by_cases hp : p + 4 ≤ file.length
  · simp only [bind, (field4_run h o file p).1 hp] at hx
    cases hx
    exact ⟨hp, rfl⟩
  · simp only [bind, (field4_run h o file p).2 hp] at hx
    cases hx

theorem field_big {h : Endian} {file : List Byte} {p x p' : Nat} (hx : Rd.field h .big .s4 file p = .ok (x, p')) : x = be32 file p := by
  unfold Rd.field Rd.field? at hx
  by_cases hp : p + 4 ≤ file.length
  · have := be32_lt file p
    have := (ofLE_bounds ((file.drop p).take 4).reverse).1
    simp only [bind, (field4_run h .big file p).1 hp] at hx
    cases hx
    unfold be32 at *
    show (BitVec.ofInt (8 * FieldSize.s4.bytes) (ofLE ((file.drop p).take 4).reverse)).toNat = _
    rw [BitVec.toNat_ofInt]
    have e : (2 ^ (8 * FieldSize.s4.bytes) : Nat) = 4294967296 := rfl
    rw [e]
    omega
  · simp only [bind, (field4_run h .big file p).2 hp] at hx
    cases hx

theorem field_little {h : Endian} {file : List Byte} {p x p' : Nat} (hx : Rd.field h .little .s4 file p = .ok (x, p')) : x = le32 file p := by
  unfold Rd.field Rd.field? at hx
  by_cases hp : p + 4 ≤ file.length
  · have := le32_lt file p
    have := (ofLE_bounds ((file.drop p).take 4)).1
    simp only [bind, (field4_run h .little file p).1 hp] at hx
    cases hx
    unfold le32 at *
    show (BitVec.ofInt (8 * FieldSize.s4.bytes) (ofLE ((file.drop p).take 4))).toNat = _
    rw [BitVec.toNat_ofInt]
    have e : (2 ^ (8 * FieldSize.s4.bytes) : Nat) = 4294967296 := rfl
    rw [e]
    omega
  · simp only [bind, (field4_run h .little file p).2 hp] at hx
    cases hx

/-- The number a chunk header says: what was read, if it was all there. -/
theorem u32Init_big (h : Endian) (file : List Byte) (p : Nat) :
    ∃ p', Rd.u32Init h .big file p = .ok (if p + 4 ≤ file.length then be32 file p else
      (uintOf h (file.drop p ++ List.replicate (4 - (file.drop p).length) 0)).toNat, p') := by
  unfold Rd.u32Init
  by_cases hp : p + 4 ≤ file.length
  · have := be32_lt file p
    have := (ofLE_bounds ((file.drop p).take 4).reverse).1
    rw [(field4_run h .big file p).1 hp, if_pos hp]
    refine ⟨p + 4, ?_⟩
    unfold be32 at *
    show Except.ok ((BitVec.ofInt (8 * FieldSize.s4.bytes) (ofLE ((file.drop p).take 4).reverse)).toNat, p + 4) = _
    rw [BitVec.toNat_ofInt]
    have e : (2 ^ (8 * FieldSize.s4.bytes) : Nat) = 4294967296 := rfl
    rw [e]
    have : ((ofLE (List.take 4 (List.drop p file)).reverse) % (4294967296 : Nat)).toNat = (ofLE (List.take 4 (List.drop p file)).reverse).toNat := by omega
    rw [this]
  · rw [(field4_run h .big file p).2 hp, if_neg hp]
    exact ⟨_, rfl⟩

theorem u32Init_little (h : Endian) (file : List Byte) (p : Nat) :
    ∃ p', Rd.u32Init h .little file p = .ok (if p + 4 ≤ file.length then le32 file p else
      (uintOf h (file.drop p ++ List.replicate (4 - (file.drop p).length) 0)).toNat, p') := by
  unfold Rd.u32Init
  by_cases hp : p + 4 ≤ file.length
  · have := le32_lt file p
    have := (ofLE_bounds ((file.drop p).take 4)).1
    rw [(field4_run h .little file p).1 hp, if_pos hp]
    refine ⟨p + 4, ?_⟩
    unfold le32 at *
    show Except.ok ((BitVec.ofInt (8 * FieldSize.s4.bytes) (ofLE ((file.drop p).take 4))).toNat, p + 4) = _
    rw [BitVec.toNat_ofInt]
    have e : (2 ^ (8 * FieldSize.s4.bytes) : Nat) = 4294967296 := rfl
    rw [e]
    have : ((ofLE (List.take 4 (List.drop p file))) % (4294967296 : Nat)).toNat = (ofLE (List.take 4 (List.drop p file))).toNat := by omega
    rw [this]
  · rw [(field4_run h .little file p).2 hp, if_neg hp]
    exact ⟨_, rfl⟩

theorem ofLE_zeros (bs : List Byte) (n : Nat) : ofLE (bs ++ List.replicate n 0) = ofLE bs := by
  induction bs with
  | nil =>
    induction n with
    | zero => rfl
    | succ n ih =>
      rw [List.nil_append] at ih ⊢
      simp only [ofLE] at ih
      show ((0 : Byte).toNat : Int) + 256 * ofLE (List.replicate n 0) = 0
      rw [ih]
      rfl
  | cons b bs ih => rw [List.cons_append, ofLE, ih, ofLE]

/-- With a byte missing the number is not one of the largest. -/
theorem partial_small (h : Endian) (l : List Byte) (hl : l.length < 4) :
    (uintOf h (l ++ List.replicate (4 - l.length) 0)).toNat < 2 ^ 32 - 8 := by
  cases h with
  | little =>
    show (ofLE (l ++ List.replicate (4 - l.length) 0)).toNat < _
    rw [ofLE_zeros]
    have h := ofLE_bounds l
    have : (256 : Int) ^ l.length ≤ 256 ^ 3 := pow256_mono (by omega)
    omega
  | big =>
    show (ofLE (l ++ List.replicate (4 - l.length) 0).reverse).toNat < _
    rw [show 4 - l.length = (3 - l.length) + 1 by omega, List.replicate_succ', ← List.append_assoc, List.reverse_append]
    show ((0 : Byte).toNat + 256 * ofLE (l ++ List.replicate (3 - l.length) 0).reverse).toNat < _
    have h := ofLE_bounds (l ++ List.replicate (3 - l.length) 0).reverse
    have hlen : (l ++ List.replicate (3 - l.length) (0 : Byte)).reverse.length = 3 := by
      rw [List.length_reverse, List.length_append, List.length_replicate]; omega
    rw [hlen] at h
    have h0 : (0 : Byte).toNat = 0 := rfl
    rw [h0]
    omega

theorem tag_run (file : List Byte) (p : Nat) : ∃ b, Rd.tag file p = .ok (b, if p + 4 ≤ file.length then p + 4 else p + (file.drop p).length) := by
  unfold Rd.tag
  rw [Rd.bind_ok (a := (file.drop p).take 4) (p' := p + ((file.drop p).take 4).length) rfl]
  refine ⟨if ((file.drop p).take 4).length = 4 then (file.drop p).take 4 else [0, 0, 0, 0], ?_⟩
  show Except.ok _ = _
  have : p + ((file.drop p).take 4).length = if p + 4 ≤ file.length then p + 4 else p + (file.drop p).length := by
    simp only [List.length_take, List.length_drop]
    split <;> omega
  rw [this]

theorem loop_not_running {σ α : Type} {body : σ → Rd (σ ⊕ α)} {n : Nat} {s s' : σ} {file : List Byte} {p p' : Nat}
    (h : body s file p = .ok (.inl s', p')) : Rd.loop body (n + 1) s file p = Rd.loop body n s' file p' := by
  rw [Rd.loop, Rd.bind_ok h]

/-! ## FORM files -/

/-- A walk over the chunks of a FORM file ends. -/
theorem form_ends {σ : Type} {chunk : List Byte → Nat → σ → Rd σ} {h : Endian} {size : Nat} {file : List Byte}
    (hc : ∀ id n x, Safe file (chunk id n x) fun _ => True)
    (hyp : ∀ p, FormChunk file p → p + 8 ≤ file.length → be32 file (p + 4) < 2 ^ 32 - 8) (n : Nat) :
    ∀ (i : Nat) (x : σ), i % 2 = 0 → (FormChunk file (i + 8) ∨ file.length < i + 16) → size - i < n →
      Rd.loop (formRound chunk h size) n (i, x) file (i + 8) ≠ .error .running := by
  induction n with
  | zero => intro i x _ _ h; omega
  | succ n ih =>
    intro i x hi hch hn
    by_cases hlt : i < size
    · obtain ⟨b, hb⟩ := tag_run file (i + 8)
      have key : ∀ sz q r, Rd.u32Init h .big file q = .ok (sz, r) → Rd.tag file (i + 8) = .ok (b, q) →
          0 < (sz + 8) % 2 ^ 32 → (FormChunk file (formNext i sz + 8) ∨ file.length < formNext i sz + 16) →
          Rd.loop (formRound chunk h size) (n + 1) (i, x) file (i + 8) ≠ .error .running := by
        intro sz q r hr hq hpos hnext
        have hbody : formRound chunk h size (i, x) file (i + 8) =
            (chunk b sz x >>= fun x => Rd.seek (formNext i sz + 8) >>= fun _ => Pure.pure (.inl (formNext i sz, x))) file r := by
          unfold formRound
          rw [if_pos hlt, Rd.bind_ok hq, Rd.bind_ok hr]
        have hmod : (formNext i sz) % 2 = 0 := by unfold formNext; dsimp only; split <;> omega
        have hup : i < formNext i sz := by unfold formNext; dsimp only; split <;> omega
        match hm : chunk b sz x file r with
        | .error e =>
          rw [Rd.loop, Rd.bind_error (by rw [hbody, Rd.bind_error hm])]
          intro he
          cases he
          exact (hc b sz x).not_running r hm
        | .ok (y, r') =>
          rw [loop_not_running (s' := (formNext i sz, y)) (p' := formNext i sz + 8) (by rw [hbody, Rd.bind_ok hm]; rfl)]
          exact ih _ _ hmod hnext (by omega)
      by_cases hp : i + 8 + 8 ≤ file.length
      · rw [if_pos (by omega)] at hb
        obtain ⟨r, hr⟩ := u32Init_big h file (i + 8 + 4)
        rw [if_pos (by omega)] at hr
        have hF : FormChunk file (i + 8) := by
          rcases hch with h | h
          · exact h
          · omega
        have hs := hyp _ hF hp
        refine key _ _ _ hr hb (by omega) (.inl ?_)
        have := FormChunk.next hF hp
        have e : formNext i (be32 file (i + 8 + 4)) + 8 = i + 8 + 8 + be32 file (i + 8 + 4) + be32 file (i + 8 + 4) % 2 := by
          unfold formNext
          generalize be32 file (i + 8 + 4) = z at hs ⊢
          have : (z + 8) % 2 ^ 32 = z + 8 := Nat.mod_eq_of_lt (by omega)
          rw [this]
          dsimp only
          split <;> omega
        rw [e]
        exact this
      · have hq : ∃ q, Rd.tag file (i + 8) = .ok (b, q) ∧ ¬ q + 4 ≤ file.length := by
          refine ⟨_, hb, ?_⟩
          by_cases h4 : i + 8 + 4 ≤ file.length
          · rw [if_pos h4]; omega
          · rw [if_neg h4, List.length_drop]; omega
        obtain ⟨q, hq, hq4⟩ := hq
        obtain ⟨r, hr⟩ := u32Init_big h file q
        rw [if_neg hq4] at hr
        have hs := partial_small h (file.drop q) (by rw [List.length_drop]; omega)
        refine key _ _ _ hr hq (by omega) (.inr ?_)
        generalize (uintOf h (file.drop q ++ List.replicate (4 - (file.drop q).length) 0)).toNat = z at hs ⊢
        have : i + 8 ≤ formNext i z := by
          unfold formNext
          have : (z + 8) % 2 ^ 32 = z + 8 := Nat.mod_eq_of_lt (by omega)
          rw [this]
          dsimp only
          split <;> omega
        omega
    · rw [Rd.loop]
      have : formRound chunk h size (i, x) file (i + 8) = .ok (.inr x, i + 8) := by
        unfold formRound; rw [if_neg hlt]; rfl
      rw [Rd.bind_ok this]
      simp [Rd.pure_run]

end AF.Files
