import Verif.Spec.MsDecoder
import Verif.Proof.ImaDecoder
import Verif.Model.MSADPCM
/-!
# The decoder of Microsoft ADPCM follows the definition
-/
namespace AF.MSADPCM
open AF
open AF.IMA (column tableAt)

abbrev mconv (s : Spec.Ms.State) : St := ⟨s.delta, s.last, s.beforeLast⟩

theorem int32_val {x y : Int} (h : int32 x = .ok y) : y = x := by
  unfold int32 at h
  split at h
  · simp only [Except.ok.injEq] at h; exact h.symm
  · cases h

theorem signedCode_spec {c : Nat} (hc : c < 16) : signedCode c = Spec.Ms.signed4 c := by
  have key : ∀ n : Fin 16, signedCode n.val = Spec.Ms.signed4 n.val := by decide +kernel
  exact key ⟨c, hc⟩

theorem table_spec {c : Nat} (hc : c < 16) : tableAt adaptationTable c = .ok (Spec.Ms.adaptation.getD c 0) := by
  have key : ∀ n : Fin 16, tableAt adaptationTable (n.val : Nat) = .ok (Spec.Ms.adaptation.getD n.val 0) := by decide +kernel
  exact key ⟨c, hc⟩

theorem decode_spec {co : Coef} {s : Spec.Ms.State} {c : Nat} (hc : c < 16) {x : Int} {s' : St}
    (h : decodeSample (mconv s) c co = .ok (x, s')) : x = (Spec.Ms.next co s c).last ∧ s' = mconv (Spec.Ms.next co s c) := by
  unfold decodeSample predict adapt at h
  simp only [bind, Except.bind, pure, Except.pure, table_spec hc, signedCode_spec hc] at h
  cases h1 : int32 (s.last * co.1 + s.beforeLast * co.2) with
  | error e => rw [h1] at h; cases h
  | ok a =>
    rw [h1] at h
    simp only at h
    cases h2 : int32 (Spec.Ms.signed4 c * s.delta) with
    | error e => rw [h2] at h; cases h
    | ok b =>
      rw [h2] at h
      simp only at h
      cases h3 : int32 (sar a 8 + b) with
      | error e => rw [h3] at h; cases h
      | ok d =>
        rw [h3] at h
        simp only at h
        cases h4 : int32 (s.delta * Spec.Ms.adaptation.getD c 0) with
        | error e => rw [h4] at h; cases h
        | ok e =>
          rw [h4] at h
          simp only [Except.ok.injEq, Prod.mk.injEq] at h
          obtain ⟨rfl, rfl⟩ := h
          rw [int32_val h4, int32_val h3, int32_val h2, int32_val h1, IMA.clamp_limit _ _ _ (by decide)]
          refine ⟨rfl, ?_⟩
          unfold Spec.Ms.next mconv
          congr 1
          unfold sar
          rw [show ((2 ^ 8 : Nat) : Int) = 256 from rfl]
          dsimp only
          split <;> omega

theorem drop_byte {block : List Byte} {p : Nat} {b : Byte} {bs : List Byte} (h : block.drop p = b :: bs) :
    Spec.Ima.byteAt block p = b.toNat ∧ block.drop (p + 1) = bs := by
  have hp : p < block.length := by
    refine Decidable.byContradiction fun hn => ?_
    rw [List.drop_eq_nil_of_le (by omega)] at h
    cases h
  rw [List.drop_eq_getElem_cons hp] at h
  injection h with h1 h2
  refine ⟨?_, h2⟩
  unfold Spec.Ima.byteAt
  rw [IMA.getD_of_lt hp, h1]

theorem nib (b : Byte) : b.toNat &&& 0xf = b.toNat % 16 ∧ b.toNat >>> 4 = b.toNat / 16 :=
  ⟨Nat.and_two_pow_sub_one_eq_mod _ 4, Nat.shiftRight_eq_div_pow _ 4⟩

theorem mono_spec (block : List Byte) (co : Coef) (n : Nat) : ∀ (s : Spec.Ms.State) (p : Nat) (fs : List (List Int)),
    decodeMono co n (mconv s) (block.drop p) = .ok fs →
    fs = (Spec.Ms.samples co s ((List.range (2 * n)).map (Spec.Ms.nibble block p))).map ([·]) := by
  induction n with
  | zero => intro s p fs h; simp only [decodeMono, Except.ok.injEq] at h; subst h; rfl
  | succ n ih =>
    intro s p fs h
    match hd : block.drop p, h with
    | [], h => cases h
    | b :: bs, h =>
      obtain ⟨hb, hbs⟩ := drop_byte hd
      have hlt := b.isLt
      simp only [decodeMono, bind, Except.bind, pure, Except.pure, nib] at h
      cases h1 : decodeSample (mconv s) (b.toNat / 16) co with
      | error e => rw [h1] at h; cases h
      | ok r =>
        obtain ⟨x, s1⟩ := r
        rw [h1] at h
        simp only at h
        obtain ⟨rfl, rfl⟩ := decode_spec (by omega) h1
        cases h2 : decodeSample (mconv (Spec.Ms.next co s (b.toNat / 16))) (b.toNat % 16) co with
        | error e => rw [h2] at h; cases h
        | ok r =>
          obtain ⟨y, s2⟩ := r
          rw [h2] at h
          simp only at h
          obtain ⟨rfl, rfl⟩ := decode_spec (by omega) h2
          rw [← hbs] at h
          cases h3 : decodeMono co n (mconv (Spec.Ms.next co (Spec.Ms.next co s (b.toNat / 16)) (b.toNat % 16))) (block.drop (p + 1)) with
          | error e => rw [h3] at h; cases h
          | ok r =>
            rw [h3] at h
            simp only [Except.ok.injEq] at h
            subst h
            rw [ih _ _ _ h3, show 2 * (n + 1) = 2 + 2 * n by omega, List.range_add, List.map_append, List.map_map]
            have a0 : Spec.Ms.nibble block p 0 = b.toNat / 16 := by
              unfold Spec.Ms.nibble; rw [if_pos (by decide), Nat.zero_div, Nat.add_zero, hb]
            have a1 : Spec.Ms.nibble block p 1 = b.toNat % 16 := by
              unfold Spec.Ms.nibble; rw [if_neg (by decide), show (1 : Nat) / 2 = 0 from rfl, Nat.add_zero, hb]
            have hm : List.map (Spec.Ms.nibble block p ∘ fun x => 2 + x) (List.range (2 * n)) =
                List.map (Spec.Ms.nibble block (p + 1)) (List.range (2 * n)) := by
              refine List.map_congr_left fun i _ => ?_
              dsimp only [Function.comp]
              unfold Spec.Ms.nibble
              rw [show (2 + i) % 2 = i % 2 by omega, show p + (2 + i) / 2 = p + 1 + i / 2 by omega]
            rw [hm]
            show _ = (Spec.Ms.samples co s (Spec.Ms.nibble block p 0 :: Spec.Ms.nibble block p 1 :: _)).map _
            rw [a0, a1]
            rfl

theorem stereo_spec (block : List Byte) (co0 co1 : Coef) (n : Nat) : ∀ (s0 s1 : Spec.Ms.State) (p : Nat) (fs : List (List Int)),
    decodeStereo co0 co1 n (mconv s0) (mconv s1) (block.drop p) = .ok fs →
    fs.length = n ∧ (∀ f ∈ fs, f.length = 2) ∧
    column 0 fs = Spec.Ms.samples co0 s0 ((List.range n).map fun i => Spec.Ms.nibble block p (i * 2)) ∧
    column 1 fs = Spec.Ms.samples co1 s1 ((List.range n).map fun i => Spec.Ms.nibble block p (i * 2 + 1)) := by
  induction n with
  | zero =>
    intro s0 s1 p fs h
    simp only [decodeStereo, Except.ok.injEq] at h
    subst h
    exact ⟨rfl, (fun f hf => by cases hf), rfl, rfl⟩
  | succ n ih =>
    intro s0 s1 p fs h
    match hd : block.drop p, h with
    | [], h => cases h
    | b :: bs, h =>
      obtain ⟨hb, hbs⟩ := drop_byte hd
      have hlt := b.isLt
      simp only [decodeStereo, bind, Except.bind, pure, Except.pure, nib] at h
      cases h1 : decodeSample (mconv s0) (b.toNat / 16) co0 with
      | error e => rw [h1] at h; cases h
      | ok r =>
        obtain ⟨x, s0'⟩ := r
        rw [h1] at h
        simp only at h
        obtain ⟨rfl, rfl⟩ := decode_spec (by omega) h1
        cases h2 : decodeSample (mconv s1) (b.toNat % 16) co1 with
        | error e => rw [h2] at h; cases h
        | ok r =>
          obtain ⟨y, s1'⟩ := r
          rw [h2] at h
          simp only at h
          obtain ⟨rfl, rfl⟩ := decode_spec (by omega) h2
          rw [← hbs] at h
          cases h3 : decodeStereo co0 co1 n (mconv (Spec.Ms.next co0 s0 (b.toNat / 16))) (mconv (Spec.Ms.next co1 s1 (b.toNat % 16)))
              (block.drop (p + 1)) with
          | error e => rw [h3] at h; cases h
          | ok r =>
            rw [h3] at h
            simp only [Except.ok.injEq] at h
            subst h
            obtain ⟨r1, r2, r3, r4⟩ := ih _ _ _ _ h3
            have a0 : Spec.Ms.nibble block p (0 * 2) = b.toNat / 16 := by
              unfold Spec.Ms.nibble; rw [if_pos (by decide), Nat.zero_mul, Nat.zero_div, Nat.add_zero, hb]
            have a1 : Spec.Ms.nibble block p (0 * 2 + 1) = b.toNat % 16 := by
              unfold Spec.Ms.nibble; rw [if_neg (by decide), show (0 * 2 + 1) / 2 = 0 from rfl, Nat.add_zero, hb]
            have m0 : ∀ i, Spec.Ms.nibble block p ((i + 1) * 2) = Spec.Ms.nibble block (p + 1) (i * 2) := by
              intro i
              unfold Spec.Ms.nibble
              rw [show (i + 1) * 2 % 2 = i * 2 % 2 by omega, show p + (i + 1) * 2 / 2 = p + 1 + i * 2 / 2 by omega]
            have m1 : ∀ i, Spec.Ms.nibble block p ((i + 1) * 2 + 1) = Spec.Ms.nibble block (p + 1) (i * 2 + 1) := by
              intro i
              unfold Spec.Ms.nibble
              rw [show ((i + 1) * 2 + 1) % 2 = (i * 2 + 1) % 2 by omega, show p + ((i + 1) * 2 + 1) / 2 = p + 1 + (i * 2 + 1) / 2 by omega]
            refine ⟨by rw [List.length_cons, r1], ?_, ?_, ?_⟩
            · intro f hf
              rcases List.mem_cons.1 hf with rfl | hf
              · rfl
              · exact r2 f hf
            · rw [IMA.column_cons 0 _ _ (by simp), r3, List.range_succ_eq_map, List.map_cons, List.map_map, a0,
                show ((fun i => Spec.Ms.nibble block p (i * 2)) ∘ Nat.succ) = fun i => Spec.Ms.nibble block (p + 1) (i * 2) from funext m0]
              rfl
            · rw [IMA.column_cons 1 _ _ (by simp), r4, List.range_succ_eq_map, List.map_cons, List.map_map, a1,
                show ((fun i => Spec.Ms.nibble block p (i * 2 + 1)) ∘ Nat.succ) = fun i => Spec.Ms.nibble block (p + 1) (i * 2 + 1) from funext m1]
              rfl

theorem wrap_signed16 {x : Nat} (h : x < 65536) : wrapS 16 (x : Int) = Spec.Ima.signed16 x := by
  unfold wrapS Spec.Ima.signed16 Int.bmod
  rw [show ((2 ^ 16 : Nat) : Int) = 65536 from rfl]
  dsimp only
  repeat' split
  all_goals omega

theorem int32_eq {x : Int} (h1 : -2147483648 ≤ x) (h2 : x ≤ 2147483647) : int32 x = .ok x := if_pos ⟨h1, h2⟩

structure MValid (s : Spec.Ms.State) : Prop where
  l1 : -32768 ≤ s.last
  l2 : s.last ≤ 32767
  b1 : -32768 ≤ s.beforeLast
  b2 : s.beforeLast ≤ 32767
  d : 0 ≤ s.delta

def CValid (co : Coef) : Prop := co.1.natAbs + co.2.natAbs ≤ 65535

theorem natAbs_mul_le {a b : Int} {m : Nat} (ha : a.natAbs ≤ m) : (a * b).natAbs ≤ m * b.natAbs := by
  rw [Int.natAbs_mul]; exact Nat.mul_le_mul_right _ ha

theorem limit_range (x : Int) : -32768 ≤ Spec.Ima.limit (-32768) 32767 x ∧ Spec.Ima.limit (-32768) 32767 x ≤ 32767 := by
  unfold Spec.Ima.limit; omega

theorem next_valid {co : Coef} {s : Spec.Ms.State} (h : MValid s) (c : Nat) : MValid (Spec.Ms.next co s c) :=
  ⟨(limit_range _).1, (limit_range _).2, h.l1, h.l2, by unfold Spec.Ms.next; dsimp only; omega⟩

theorem decode_ok {co : Coef} {s : Spec.Ms.State} {c : Nat} (hc : c < 16) (hv : MValid s) (hco : CValid co) (hd : s.delta ≤ 2796202) :
    decodeSample (mconv s) c co = .ok ((Spec.Ms.next co s c).last, mconv (Spec.Ms.next co s c)) := by
  have key : ∃ x s', decodeSample (mconv s) c co = .ok (x, s') := by
    obtain ⟨l1, l2, b1, b2, d⟩ := hv
    unfold CValid at hco
    have m1 := natAbs_mul_le (a := s.last) (b := co.1) (m := 32768) (by omega)
    have m2 := natAbs_mul_le (a := s.beforeLast) (b := co.2) (m := 32768) (by omega)
    have hs : ∀ n : Fin 16, (Spec.Ms.signed4 n.val).natAbs ≤ 8 ∧ (Spec.Ms.adaptation.getD n.val 0).natAbs ≤ 768 := by decide +kernel
    have m3 := natAbs_mul_le (a := Spec.Ms.signed4 c) (b := s.delta) (hs ⟨c, hc⟩).1
    have m4 := natAbs_mul_le (a := Spec.Ms.adaptation.getD c 0) (b := s.delta) (hs ⟨c, hc⟩).2
    rw [Int.mul_comm] at m4
    unfold decodeSample predict adapt
    simp only [bind, Except.bind, pure, Except.pure, table_spec hc, signedCode_spec hc]
    rw [int32_eq (by omega) (by omega)]
    simp only
    rw [int32_eq (by omega) (by omega)]
    simp only
    rw [int32_eq (x := sar _ _ + _) (by unfold sar; rw [show ((2 ^ 8 : Nat) : Int) = 256 from rfl]; omega)
      (by unfold sar; rw [show ((2 ^ 8 : Nat) : Int) = 256 from rfl]; omega)]
    simp only
    rw [int32_eq (by omega) (by omega)]
    exact ⟨_, _, rfl⟩
  obtain ⟨x, s', h⟩ := key
  obtain ⟨rfl, rfl⟩ := decode_spec hc h
  exact h

theorem nibble16 (block : List Byte) (p i : Nat) : Spec.Ms.nibble block p i < 16 := by
  have := IMA.byteAt_lt block (p + i / 2)
  unfold Spec.Ms.nibble
  split <;> omega

theorem nibble_succ (block : List Byte) (p i : Nat) : Spec.Ms.nibble block p (2 + i) = Spec.Ms.nibble block (p + 1) i := by
  unfold Spec.Ms.nibble
  rw [show (2 + i) % 2 = i % 2 by omega, show p + (2 + i) / 2 = p + 1 + i / 2 by omega]

theorem drop_cons_of_lt {block : List Byte} {p : Nat} (h : p < block.length) : ∃ b, block.drop p = b :: block.drop (p + 1) :=
  ⟨_, List.drop_eq_getElem_cons h⟩

theorem mono_runs (block : List Byte) (co : Coef) (hco : CValid co) (n : Nat) : ∀ (s : Spec.Ms.State) (p : Nat), MValid s → p + n ≤ block.length →
    Spec.Ms.Steady co s ((List.range (2 * n)).map (Spec.Ms.nibble block p)) → ∃ fs, decodeMono co n (mconv s) (block.drop p) = .ok fs := by
  induction n with
  | zero => intro s p _ _ _; exact ⟨_, rfl⟩
  | succ n ih =>
    intro s p hv hl hs
    obtain ⟨b, hb⟩ := drop_cons_of_lt (block := block) (p := p) (by omega)
    have hlt := b.isLt
    have hx := (drop_byte hb).1
    rw [show 2 * (n + 1) = 2 + 2 * n by omega, List.range_add, List.map_append, List.map_map,
      show (Spec.Ms.nibble block p ∘ fun x => 2 + x) = Spec.Ms.nibble block (p + 1) from funext (nibble_succ block p)] at hs
    have a0 : Spec.Ms.nibble block p 0 = b.toNat / 16 := by
      unfold Spec.Ms.nibble; rw [if_pos (by decide), Nat.zero_div, Nat.add_zero, hx]
    have a1 : Spec.Ms.nibble block p 1 = b.toNat % 16 := by
      unfold Spec.Ms.nibble; rw [if_neg (by decide), show (1 : Nat) / 2 = 0 from rfl, Nat.add_zero, hx]
    obtain ⟨h1, h2, h3⟩ := (show Spec.Ms.Steady co s (Spec.Ms.nibble block p 0 :: Spec.Ms.nibble block p 1 :: _) from hs)
    rw [a0] at h2 h3
    rw [a1] at h3
    obtain ⟨fs, hfs⟩ := ih _ (p + 1) (next_valid (next_valid hv _) _) (by omega) h3
    rw [hb]
    simp only [decodeMono, bind, Except.bind, pure, Except.pure, nib]
    rw [decode_ok (by omega) hv hco h1]
    simp only
    rw [decode_ok (by omega) (next_valid hv _) hco h2]
    simp only
    rw [hfs]
    exact ⟨_, rfl⟩

theorem stereo_runs (block : List Byte) (co0 co1 : Coef) (hco0 : CValid co0) (hco1 : CValid co1) (n : Nat) :
    ∀ (s0 s1 : Spec.Ms.State) (p : Nat), MValid s0 → MValid s1 → p + n ≤ block.length →
    Spec.Ms.Steady co0 s0 ((List.range n).map fun i => Spec.Ms.nibble block p (i * 2)) →
    Spec.Ms.Steady co1 s1 ((List.range n).map fun i => Spec.Ms.nibble block p (i * 2 + 1)) →
    ∃ fs, decodeStereo co0 co1 n (mconv s0) (mconv s1) (block.drop p) = .ok fs := by
  induction n with
  | zero => intro s0 s1 p _ _ _ _ _; exact ⟨_, rfl⟩
  | succ n ih =>
    intro s0 s1 p hv0 hv1 hl hs0 hs1
    obtain ⟨b, hb⟩ := drop_cons_of_lt (block := block) (p := p) (by omega)
    have hlt := b.isLt
    have hx := (drop_byte hb).1
    have a0 : Spec.Ms.nibble block p (0 * 2) = b.toNat / 16 := by
      unfold Spec.Ms.nibble; rw [if_pos (by decide), Nat.zero_mul, Nat.zero_div, Nat.add_zero, hx]
    have a1 : Spec.Ms.nibble block p (0 * 2 + 1) = b.toNat % 16 := by
      unfold Spec.Ms.nibble; rw [if_neg (by decide), show (0 * 2 + 1) / 2 = 0 from rfl, Nat.add_zero, hx]
    have m0 : ((fun i => Spec.Ms.nibble block p (i * 2)) ∘ Nat.succ) = fun i => Spec.Ms.nibble block (p + 1) (i * 2) := by
      funext i
      show Spec.Ms.nibble block p ((i + 1) * 2) = _
      rw [show (i + 1) * 2 = 2 + i * 2 by omega, nibble_succ]
    have m1 : ((fun i => Spec.Ms.nibble block p (i * 2 + 1)) ∘ Nat.succ) = fun i => Spec.Ms.nibble block (p + 1) (i * 2 + 1) := by
      funext i
      show Spec.Ms.nibble block p ((i + 1) * 2 + 1) = _
      rw [show (i + 1) * 2 + 1 = 2 + (i * 2 + 1) by omega, nibble_succ]
    rw [List.range_succ_eq_map, List.map_cons, List.map_map, a0, m0] at hs0
    rw [List.range_succ_eq_map, List.map_cons, List.map_map, a1, m1] at hs1
    obtain ⟨h1, h2⟩ := hs0
    obtain ⟨h3, h4⟩ := hs1
    obtain ⟨fs, hfs⟩ := ih _ _ (p + 1) (next_valid hv0 _) (next_valid hv1 _) (by omega) h2 h4
    rw [hb]
    simp only [decodeStereo, bind, Except.bind, pure, Except.pure, nib]
    rw [decode_ok (by omega) hv0 hco0 h1]
    simp only
    rw [decode_ok (by omega) hv1 hco1 h3]
    simp only
    rw [hfs]
    exact ⟨_, rfl⟩

end AF.MSADPCM
