import Verif.Spec.MSADPCM
import Verif.Proof.IMA
namespace AF.MSADPCM
open AF.IMA (clamp column tableAt clamp_lo clamp_hi)

theorem int32_ok {x : Int} (h : -2147483648 ≤ x ∧ x ≤ 2147483647) : int32 x = .ok x := by simp [int32, h]

theorem tableAt_adapt (code : Nat) (h : code < 16) :
    tableAt adaptationTable code = .ok (adaptationTable.getD code 0) := by
  have key : ∀ n : Fin 16, tableAt adaptationTable (n.val : Int) = .ok (adaptationTable.getD n.val 0) := by decide +kernel
  exact key ⟨code, h⟩

theorem mul_bound (a b : Int) (A B : Nat) (ha : a.natAbs ≤ A) (hb : b.natAbs ≤ B) : -((A * B : Nat) : Int) ≤ a * b ∧ a * b ≤ ((A * B : Nat) : Int) := by
  have h : (a * b).natAbs ≤ A * B := by rw [Int.natAbs_mul]; exact Nat.mul_le_mul ha hb
  generalize a * b = p at *
  generalize A * B = q at *
  omega

theorem predict_ok (s : St) (hs : s.Valid) (co : Coef) (hc : Moderate co) :
    ∃ p, predict s co = .ok p ∧ -98304 ≤ p ∧ p ≤ 98304 := by
  obtain ⟨h1, h2, h3, h4, h5, h6⟩ := hs
  have a := mul_bound s.sample1 co.1 32768 co.1.natAbs (by omega) (Nat.le_refl _)
  have b := mul_bound s.sample2 co.2 32768 co.2.natAbs (by omega) (Nat.le_refl _)
  unfold Moderate at hc
  unfold predict
  generalize s.sample1 * co.1 = u at *
  generalize s.sample2 * co.2 = v at *
  rw [int32_ok (by omega)]
  refine ⟨_, rfl, ?_⟩
  simp only [sar]
  omega

theorem clamp_eq {x r lo hi : Int} (h : (x < lo ∧ r = lo) ∨ ((lo ≤ x ∧ hi < x) ∧ r = hi) ∨ ((lo ≤ x ∧ x ≤ hi) ∧ r = x)) :
    clamp x lo hi = r := by
  simp only [clamp]
  repeat' split
  all_goals omega

/-- The quantiser's division. -/
theorem quant (e delta : Int) (hd : 16 ≤ delta) :
    let k := clamp ((e + (if e < 0 then -(delta.tdiv 2) else delta.tdiv 2)).tdiv delta) (-8) 7
    (-8 : Int) ≤ k ∧ k ≤ 7 ∧
    (0 ≤ e → 0 ≤ k ∧ k * delta ≤ e + delta / 2 ∧ (k < 7 → e + delta / 2 < k * delta + delta)) ∧
    (e < 0 → k ≤ 0 ∧ -(k * delta) ≤ -e + delta / 2 ∧ (-8 < k → -e + delta / 2 < -(k * delta) + delta)) := by
  have hb : delta.tdiv 2 = delta / 2 := Int.tdiv_eq_ediv_of_nonneg (by omega)
  rw [hb]
  intro k
  refine ⟨clamp_lo _ _ _ (by decide), clamp_hi _ _ _ (by decide), ?_, ?_⟩
  · intro he
    have hk : k = clamp ((e + delta / 2) / delta) (-8) 7 := by
      show clamp _ _ _ = _
      rw [if_neg (by omega), Int.tdiv_eq_ediv_of_nonneg (by omega)]
    have ha : 0 ≤ e + delta / 2 := by omega
    generalize e + delta / 2 = a at *
    have q1 := Int.ediv_mul_le a (show delta ≠ 0 by omega)
    have q2 := Int.lt_ediv_add_one_mul_self a (show 0 < delta by omega)
    have q0 : 0 ≤ a / delta := Int.ediv_nonneg (by omega) (by omega)
    rw [Int.add_mul] at q2
    generalize hq : a / delta = q at *
    rw [hk]
    by_cases h7 : q > 7
    · have hc : clamp q (-8) 7 = 7 := clamp_eq (.inr (.inl ⟨by omega, rfl⟩))
      rw [hc]
      have : 8 * delta ≤ q * delta := Int.mul_le_mul_of_nonneg_right (by omega) (by omega)
      omega
    · have hc : clamp q (-8) 7 = q := clamp_eq (.inr (.inr ⟨by omega, rfl⟩))
      rw [hc]
      omega
  · intro he
    have hk : k = clamp (-((-e + delta / 2) / delta)) (-8) 7 := by
      show clamp _ _ _ = _
      rw [if_pos he, show e + -(delta / 2) = -(-e + delta / 2) by omega, Int.neg_tdiv, Int.tdiv_eq_ediv_of_nonneg (by omega)]
    have ha : 0 ≤ -e + delta / 2 := by omega
    generalize -e + delta / 2 = a at *
    have q1 := Int.ediv_mul_le a (show delta ≠ 0 by omega)
    have q2 := Int.lt_ediv_add_one_mul_self a (show 0 < delta by omega)
    have q0 : 0 ≤ a / delta := Int.ediv_nonneg (by omega) (by omega)
    rw [Int.add_mul] at q2
    generalize hq : a / delta = q at *
    rw [hk]
    by_cases h7 : q > 8
    · have hc : clamp (-q) (-8) 7 = -8 := clamp_eq (.inl ⟨by omega, rfl⟩)
      rw [hc]
      have : 9 * delta ≤ q * delta := Int.mul_le_mul_of_nonneg_right (by omega) (by omega)
      omega
    · have hc : clamp (-q) (-8) 7 = -q := clamp_eq (.inr (.inr ⟨by omega, rfl⟩))
      rw [hc, Int.neg_mul]
      omega

theorem code_ok (k : Int) (h : -8 ≤ k ∧ k ≤ 7) : lowBits k 4 < 16 ∧ signedCode (lowBits k 4) = k := by
  have : k = -8 ∨ k = -7 ∨ k = -6 ∨ k = -5 ∨ k = -4 ∨ k = -3 ∨ k = -2 ∨ k = -1 ∨ k = 0 ∨ k = 1 ∨ k = 2 ∨ k = 3 ∨ k = 4 ∨
    k = 5 ∨ k = 6 ∨ k = 7 := by omega
  rcases this with h | h | h | h | h | h | h | h | h | h | h | h | h | h | h | h <;> subst h <;> decide

/-- One sample: no overflow, the decoder follows the encoder, and the error is at most half a step unless the code is at its
limit. -/
theorem lockstep (s : St) (hs : s.Valid) (co : Coef) (hc : Moderate co) (x : Int) (hx : -32768 ≤ x ∧ x ≤ 32767) :
    ∃ code s', encodeSample s x co = .ok (code, s') ∧ code < 16 ∧ s'.Valid ∧
      decodeSample s code co = .ok (s'.sample1, s') ∧ s'.sample2 = s.sample1 ∧
      (2 * ((x - s'.sample1).natAbs : Int) ≤ s.delta ∨ code = 7 ∨ code = 8) := by
  obtain ⟨p, hp, p1, p2⟩ := predict_ok s hs co hc
  obtain ⟨h1, h2, h3, h4, h5, h6⟩ := hs
  have q := quant (x - p) s.delta h1
  dsimp only at q
  have hb : s.delta.tdiv 2 = s.delta / 2 := Int.tdiv_eq_ediv_of_nonneg (by omega)
  have e1 : int32 (x - p) = .ok (x - p) := int32_ok (by omega)
  have e2 : int32 (x - p + if x - p < 0 then -(s.delta.tdiv 2) else s.delta.tdiv 2) =
      .ok (x - p + if x - p < 0 then -(s.delta.tdiv 2) else s.delta.tdiv 2) := int32_ok (by rw [hb]; split <;> omega)
  simp only [encodeSample, decodeSample, hp, e1, e2, bind, Except.bind, pure, Except.pure]
  generalize clamp ((x - p + if x - p < 0 then -(s.delta.tdiv 2) else s.delta.tdiv 2).tdiv s.delta) (-8) 7 = k at *
  obtain ⟨k1, k2, q1, q2⟩ := q
  obtain ⟨c1, c2⟩ := code_ok k ⟨k1, k2⟩
  rw [c2]
  have fits : -2147483648 ≤ k * s.delta ∧ k * s.delta ≤ 2147483647 ∧ -2147483648 ≤ p + k * s.delta ∧ p + k * s.delta ≤ 2147483647 := by
    have := mul_bound k s.delta 8 65535 (by omega) (by omega)
    omega
  rw [int32_ok ⟨fits.1, fits.2.1⟩]
  dsimp only
  rw [int32_ok ⟨fits.2.2.1, fits.2.2.2⟩]
  dsimp only
  have had : ∃ d, adapt s.delta (lowBits k 4) = .ok d ∧ 16 ≤ d ∧ d ≤ 65535 := by
    unfold adapt
    rw [tableAt_adapt _ c1]
    dsimp only [bind, Except.bind, pure, Except.pure]
    have hA : ∃ A : Int, adaptationTable.getD (lowBits k 4) 0 = A ∧ 230 ≤ A ∧ A ≤ 768 ∧ A * s.delta < 65536 * 256 := by
      have : k = -8 ∨ k = -7 ∨ k = -6 ∨ k = -5 ∨ k = -4 ∨ k = -3 ∨ k = -2 ∨ k = -1 ∨ k = 0 ∨ k = 1 ∨ k = 2 ∨ k = 3 ∨ k = 4 ∨
        k = 5 ∨ k = 6 ∨ k = 7 := by omega
      clear hp e1 e2 c2 fits
      rcases this with h | h | h | h | h | h | h | h | h | h | h | h | h | h | h | h <;> subst h <;>
        exact ⟨_, rfl, by decide, by decide, by simp [adaptationTable, lowBits]; omega⟩
    obtain ⟨A, eA, A1, A2, hl⟩ := hA
    rw [eA]
    have : 0 ≤ s.delta * A := Int.mul_nonneg (by omega) (by omega)
    have hcomm : A * s.delta = s.delta * A := Int.mul_comm _ _
    rw [int32_ok (by omega)]
    refine ⟨if sar (s.delta * A) 8 < 16 then 16 else sar (s.delta * A) 8, rfl, ?_⟩
    have fin : ∀ v : Int, 0 ≤ v → v < 16777216 → 16 ≤ (if v / 256 < 16 then 16 else v / 256) ∧
        (if v / 256 < 16 then 16 else v / 256) ≤ 65535 := by
      intro v _ _
      constructor <;> split <;> omega
    exact fin (s.delta * A) (by omega) (by omega)
  obtain ⟨d, hd, d1, d2⟩ := had
  rw [hd]
  refine ⟨_, _, rfl, c1, ⟨d1, d2, clamp_lo _ _ _ (by decide), clamp_hi _ _ _ (by decide), h3, h4⟩, ?_, rfl, ?_⟩
  · rw [c2, int32_ok ⟨fits.1, fits.2.1⟩]
    dsimp only
    rw [int32_ok ⟨fits.2.2.1, fits.2.2.2⟩]
    dsimp only
    rw [hd]
  · by_cases hk7 : k = 7
    · subst hk7; exact .inr (.inl (by decide))
    · by_cases hk8 : k = -8
      · subst hk8; exact .inr (.inr (by decide))
      · left
        generalize k * s.delta = m at *
        have hcl : ∀ y : Int, y = clamp (p + m) (-32768) 32767 → 2 * ((x - y).natAbs : Int) ≤ s.delta := by
          intro y hy
          simp only [clamp] at hy
          split at hy
          · omega
          · split at hy <;> omega
        exact hcl _ rfl

/-- 16-bit samples. -/
def In16 (x : Int) : Prop := -32768 ≤ x ∧ x ≤ 32767

theorem run_ok (co : Coef) (hc : Moderate co) (xs : List Int) : ∀ s : St, s.Valid → (∀ x ∈ xs, In16 x) →
    decodeCodes co s (encoderCodes co s xs) = .ok (encoderValues co s xs, encoderState co s xs) ∧
    (encoderState co s xs).Valid ∧ (∀ c ∈ encoderCodes co s xs, c < 16) ∧
    (encoderCodes co s xs).length = xs.length ∧ (encoderValues co s xs).length = xs.length ∧
    (∀ v ∈ encoderValues co s xs, In16 v) := by
  induction xs with
  | nil => intro s hs _; exact ⟨rfl, hs, by simp [encoderCodes], rfl, rfl, by simp [encoderValues]⟩
  | cons x xs ih =>
    intro s hs hx
    obtain ⟨code, s', he, hcd, hv, hd, _, _⟩ := lockstep s hs co hc x (hx x List.mem_cons_self)
    obtain ⟨h1, h2, h3, h4, h5, h6⟩ := ih s' hv (fun y hy => hx y (List.mem_cons_of_mem _ hy))
    simp only [encoderCodes, encoderValues, encoderState, he, decodeCodes, hd, bind, Except.bind, h1, pure, Except.pure]
    refine ⟨trivial, h2, ?_, by simp [h4], by simp [h5], ?_⟩
    · intro c hc'
      rcases List.mem_cons.1 hc' with rfl | h
      · exact hcd
      · exact h3 _ h
    · intro v hv'
      rcases List.mem_cons.1 hv' with rfl | h
      · exact ⟨hv.lo1, hv.hi1⟩
      · exact h6 _ h

theorem nibbles (a b : Nat) (ha : a < 16) (hb : b < 16) :
    (BitVec.ofNat 8 ((a <<< 4) ||| b)).toNat >>> 4 = a ∧ (BitVec.ofNat 8 ((a <<< 4) ||| b)).toNat &&& 0xf = b := by
  have : ∀ a b : Fin 16, (BitVec.ofNat 8 ((a.val <<< 4) ||| b.val)).toNat >>> 4 = a.val ∧
      (BitVec.ofNat 8 ((a.val <<< 4) ||| b.val)).toNat &&& 0xf = b.val := by decide +kernel
  exact this ⟨a, ha⟩ ⟨b, hb⟩

theorem mono_ok (co : Coef) (hc : Moderate co) (n : Nat) : ∀ (s : St) (xs : List Int), s.Valid → (∀ x ∈ xs, In16 x) →
    xs.length = 2 * n →
    ∃ bs, encodeMono co n s (xs.map ([·])) = .ok bs ∧ bs.length = n ∧
      ∀ rest, decodeMono co n s (bs ++ rest) = .ok ((encoderValues co s xs).map ([·])) := by
  induction n with
  | zero =>
    intro s xs _ _ hl
    have : xs = [] := List.eq_nil_of_length_eq_zero (by omega)
    subst this
    exact ⟨[], rfl, rfl, fun _ => rfl⟩
  | succ n ih =>
    intro s xs hs hx hl
    match xs, hl with
    | x :: y :: xs, hl =>
      obtain ⟨a, s1, he1, hc1, hv1, hd1, _⟩ := lockstep s hs co hc x (hx x List.mem_cons_self)
      obtain ⟨b, s2, he2, hc2, hv2, hd2, _⟩ := lockstep s1 hv1 co hc y (hx y (List.mem_cons_of_mem _ List.mem_cons_self))
      obtain ⟨bs, h1, h2, h3⟩ := ih s2 xs hv2 (fun z hz => hx z (List.mem_cons_of_mem _ (List.mem_cons_of_mem _ hz)))
        (by simp at hl; omega)
      obtain ⟨n1, n2⟩ := nibbles a b hc1 hc2
      refine ⟨BitVec.ofNat 8 ((a <<< 4) ||| b) :: bs, ?_, by simp [h2], ?_⟩
      · simp only [List.map_cons, encodeMono, he1, he2, h1, bind, Except.bind, pure, Except.pure]
      · intro rest
        simp only [List.cons_append, decodeMono, n1, n2, hd1, hd2, h3, bind, Except.bind, pure, Except.pure,
          encoderValues, he1, he2, List.map_cons]

/-- Frames of two channels. -/
def zip2 (xs ys : List Int) : List (List Int) := List.zipWith (fun x y => [x, y]) xs ys

theorem stereo_ok (co0 co1 : Coef) (hc0 : Moderate co0) (hc1 : Moderate co1) (n : Nat) :
    ∀ (s0 s1 : St) (xs ys : List Int), s0.Valid → s1.Valid → (∀ x ∈ xs, In16 x) → (∀ y ∈ ys, In16 y) →
    xs.length = n → ys.length = n →
    ∃ bs, encodeStereo co0 co1 n s0 s1 (zip2 xs ys) = .ok bs ∧ bs.length = n ∧
      ∀ rest, decodeStereo co0 co1 n s0 s1 (bs ++ rest) = .ok (zip2 (encoderValues co0 s0 xs) (encoderValues co1 s1 ys)) := by
  induction n with
  | zero =>
    intro s0 s1 xs ys _ _ _ _ hl hl'
    have : xs = [] := List.eq_nil_of_length_eq_zero (by omega)
    subst this
    exact ⟨[], rfl, rfl, fun _ => rfl⟩
  | succ n ih =>
    intro s0 s1 xs ys h0 h1 hx hy hl hl'
    match xs, ys, hl, hl' with
    | x :: xs, y :: ys, hl, hl' =>
      obtain ⟨a, t0, he1, hcd1, hv1, hd1, _⟩ := lockstep s0 h0 co0 hc0 x (hx x List.mem_cons_self)
      obtain ⟨b, t1, he2, hcd2, hv2, hd2, _⟩ := lockstep s1 h1 co1 hc1 y (hy y List.mem_cons_self)
      obtain ⟨bs, e1, e2, e3⟩ := ih t0 t1 xs ys hv1 hv2 (fun z hz => hx z (List.mem_cons_of_mem _ hz))
        (fun z hz => hy z (List.mem_cons_of_mem _ hz)) (by simp at hl; omega) (by simp at hl'; omega)
      obtain ⟨n1, n2⟩ := nibbles a b hcd1 hcd2
      unfold zip2 at *
      refine ⟨BitVec.ofNat 8 ((a <<< 4) ||| b) :: bs, ?_, by simp [e2], ?_⟩
      · simp only [List.zipWith_cons_cons, encodeStereo, he1, he2, e1, bind, Except.bind, pure, Except.pure]
      · intro rest
        simp only [List.cons_append, decodeStereo, n1, n2, hd1, hd2, e3, bind, Except.bind, pure, Except.pure,
          encoderValues, he1, he2, List.zipWith_cons_cons]

/-! ### Header -/

theorem le16_u (x : Int) (h : 0 ≤ x ∧ x ≤ 65535) : u16 (BitVec.ofInt 8 x) (BitVec.ofInt 8 (sar x 8)) = x := by
  simp only [u16, BitVec.toNat_ofInt, sar]; omega

theorem le16_s (x : Int) (h : In16 x) : wrapS 16 (u16 (BitVec.ofInt 8 x) (BitVec.ofInt 8 (sar x 8))) = x := by
  unfold In16 at h
  simp only [u16, BitVec.toNat_ofInt, sar, wrapS, Int.bmod]; omega

theorem predictionError_ok (co : Coef) (hc : Moderate co) (xs : List Int) (hx : ∀ x ∈ xs, In16 x) (hl : 5 ≤ xs.length) :
    ∃ e, predictionError co xs = .ok e ∧ 0 ≤ e ∧ e ≤ 32768 := by
  match xs, hl with
  | x0 :: x1 :: x2 :: x3 :: x4 :: xs, _ =>
    have h0 := hx x0 (by simp); have h1 := hx x1 (by simp); have h2 := hx x2 (by simp)
    have h3 := hx x3 (by simp); have h4 := hx x4 (by simp)
    unfold In16 at h0 h1 h2 h3 h4
    unfold Moderate at hc
    have key : ∀ u v : Int, In16 u → In16 v → int32 (co.1 * u + co.2 * v) = .ok (co.1 * u + co.2 * v) ∧
        -25165824 ≤ co.1 * u + co.2 * v ∧ co.1 * u + co.2 * v ≤ 25165824 := by
      intro u v hu hv
      unfold In16 at hu hv
      have a := mul_bound co.1 u co.1.natAbs 32768 (Nat.le_refl _) (by omega)
      have b := mul_bound co.2 v co.2.natAbs 32768 (Nat.le_refl _) (by omega)
      generalize co.1 * u = m at *
      generalize co.2 * v = n at *
      exact ⟨int32_ok (by omega), by omega, by omega⟩
    obtain ⟨e2, l2, u2⟩ := key x1 x0 h1 h0
    obtain ⟨e3, l3, u3⟩ := key x2 x1 h2 h1
    obtain ⟨e4, l4, u4⟩ := key x3 x2 h3 h2
    simp only [predictionError, e2, e3, e4, bind, Except.bind, pure, Except.pure]
    refine ⟨_, rfl, ?_⟩
    simp only [sar]
    generalize co.1 * x1 + co.2 * x0 = p2 at *
    generalize co.1 * x2 + co.2 * x1 = p3 at *
    generalize co.1 * x3 + co.2 * x2 = p4 at *
    omega

theorem choose_ok (xs : List Int) (hx : ∀ x ∈ xs, In16 x) (hl : 5 ≤ xs.length) (total : Nat) : ∀ (cos : List Coef) (k : Nat) (best : Nat × Int),
    (∀ co ∈ cos, Moderate co) → k + cos.length ≤ total → best.1 < total → 0 ≤ best.2 → (best.2 ≤ 32768 ∨ cos ≠ []) →
    (best.2 = 2147483647 ∨ best.2 ≤ 32768) →
    ∃ r, choose xs k cos best = .ok r ∧ r.1 < total ∧ 0 ≤ r.2 ∧ r.2 ≤ 32768 := by
  intro cos
  induction cos with
  | nil => intro k best _ _ hb h0 h1 _; exact ⟨best, rfl, hb, h0, by simpa using h1⟩
  | cons co cos ih =>
    intro k best hm hk hb h0 _ h2
    obtain ⟨e, he, e0, e1⟩ := predictionError_ok co (hm co List.mem_cons_self) xs hx hl
    simp only [choose, he, bind, Except.bind, pure, Except.pure]
    have hb2 : (if e < best.2 then (k, e) else best).1 < total ∧ 0 ≤ (if e < best.2 then (k, e) else best).2 ∧
        (if e < best.2 then (k, e) else best).2 ≤ 32768 := by
      split
      · simp at hk ⊢; omega
      · omega
    split
    · exact ⟨_, rfl, hb2⟩
    · exact ih (k + 1) _ (fun c hc => hm c (List.mem_cons_of_mem _ hc)) (by simp at hk; omega) hb2.1 hb2.2.1 (.inl hb2.2.2) (.inr hb2.2.2)

theorem choosePredictor_ok (coefs : List Coef) (hm : ∀ co ∈ coefs, Moderate co) (hne : coefs ≠ []) (xs : List Int)
    (hx : ∀ x ∈ xs, In16 x) (hl : 5 ≤ xs.length) :
    ∃ k d, choosePredictor coefs xs = .ok (k, d) ∧ k < coefs.length ∧ 16 ≤ d ∧ d ≤ 32768 := by
  have : 0 < coefs.length := List.length_pos_iff.2 hne
  obtain ⟨r, h, h1, h2, h3⟩ := choose_ok xs hx hl coefs.length coefs 0 (0, 2147483647) hm (by omega) this (by decide) (.inr hne) (.inl rfl)
  simp only [choosePredictor, h, bind, Except.bind, pure, Except.pure]
  exact ⟨_, _, rfl, h1, by split <;> omega, by split <;> omega⟩

end AF.MSADPCM
