import Verif.Model.ALAC.Predictor
/-! # The decoder's predictor inverts the encoder's -/
namespace AF.ALAC

theorem wrapS_add_mul (n : Nat) (x q : Int) : wrapS n (x + (2 ^ n : Nat) * q) = wrapS n x := by
  unfold wrapS
  exact Int.add_mul_bmod_self_left x (2 ^ n) q

theorem wrapS_dec (n : Nat) (x : Int) : ∃ q, x = wrapS n x + (2 ^ n : Nat) * q :=
  ⟨x.bdiv (2 ^ n), by
    have := Int.bmod_add_bdiv x (2 ^ n)
    unfold wrapS; exact this.symm⟩

theorem wrapS_small {n : Nat} {x : Int} (hn : 1 ≤ n) (h1 : -(2 ^ (n - 1) : Nat) ≤ x) (h2 : x < (2 ^ (n - 1) : Nat)) :
    wrapS n x = x := by
  have hp : 2 ^ n = 2 * 2 ^ (n - 1) := by rw [← Nat.pow_succ']; congr 1; omega
  unfold wrapS
  apply Int.bmod_eq_of_le <;> rw [hp] <;> omega

theorem wrapS_range {n : Nat} (hn : 1 ≤ n) (x : Int) : -(2 ^ (n - 1) : Nat) ≤ wrapS n x ∧ wrapS n x < (2 ^ (n - 1) : Nat) := by
  have hp : 2 ^ n = 2 * 2 ^ (n - 1) := by rw [← Nat.pow_succ']; congr 1; omega
  have h0 : (0 : Nat) < 2 ^ n := Nat.two_pow_pos n
  have h1 := Int.le_bmod (x := x) h0
  have h2 := Int.bmod_lt (x := x) h0
  unfold wrapS
  rw [hp] at h1 h2 ⊢
  omega

/-- A narrower wrap forgets a wider one. -/
theorem wrapS_wrapS {a b : Nat} (h : a ≤ b) (x : Int) : wrapS a (wrapS b x) = wrapS a x := by
  obtain ⟨q, hq⟩ := wrapS_dec b x
  have : ((2 ^ b : Nat) : Int) = (2 ^ a : Nat) * (2 ^ (b - a) : Nat) := by
    rw [← Int.natCast_mul, ← Nat.pow_add]; congr 2; omega
  conv => rhs; rw [hq, this, Int.mul_assoc, wrapS_add_mul]

/-- `(del << chanshift) >> chanshift` is the reduction to `chanbits` bits. -/
theorem chop_eq {cb : Nat} (h1 : 1 ≤ cb) (h2 : cb ≤ 32) (x : Int) : chop cb x = wrapS cb x := by
  unfold chop sar
  generalize hy : wrapS cb (wrapS 32 x) = y
  have hxy : wrapS cb x = y := by rw [← hy, wrapS_wrapS h2]
  rw [hxy]
  obtain ⟨q, hq⟩ := wrapS_dec cb (wrapS 32 x)
  rw [hy] at hq
  have e32 : ((2 ^ cb : Nat) : Int) * (2 ^ (32 - cb) : Nat) = (2 ^ 32 : Nat) := by
    rw [← Int.natCast_mul, ← Nat.pow_add]; congr 2; omega
  have hmul : wrapS 32 x * (2 ^ (32 - cb) : Nat) = y * (2 ^ (32 - cb) : Nat) + (2 ^ 32 : Nat) * q := by
    rw [hq, Int.add_mul, ← e32]
    congr 1
    rw [Int.mul_assoc, Int.mul_assoc, Int.mul_comm q]
  rw [hmul, wrapS_add_mul]
  have hr := wrapS_range h1 (wrapS 32 x)
  rw [hy] at hr
  have hpos : (0 : Int) < (2 ^ (32 - cb) : Nat) := by exact_mod_cast Nat.two_pow_pos _
  have e31 : ((2 ^ (cb - 1) : Nat) : Int) * (2 ^ (32 - cb) : Nat) = (2 ^ 31 : Nat) := by
    rw [← Int.natCast_mul, ← Nat.pow_add]; congr 2; omega
  have hsm : wrapS 32 (y * (2 ^ (32 - cb) : Nat)) = y * (2 ^ (32 - cb) : Nat) := by
    apply wrapS_small (by omega)
    · have := Int.mul_le_mul_of_nonneg_right hr.1 (Int.le_of_lt hpos)
      rw [Int.neg_mul, e31] at this
      exact this
    · have := Int.mul_lt_mul_of_pos_right hr.2 hpos
      rw [e31] at this
      exact this
  rw [hsm, Int.mul_ediv_cancel _ (by omega)]

theorem wrapS_add_wrapS (n : Nat) (x y : Int) : wrapS n (wrapS n x + y) = wrapS n (x + y) := by
  unfold wrapS; exact Int.bmod_add_bmod

/-- The residual plus the prediction is the sample. -/
theorem chop_back {cb : Nat} (h1 : 1 ≤ cb) (h2 : cb ≤ 32) {x p : Int} (hx : wrapS cb x = x) :
    chop cb (chop cb (x - p) + p) = x := by
  rw [chop_eq h1 h2, chop_eq h1 h2, wrapS_add_wrapS, show x - p + p = x by omega, hx]

theorem decAdapt_eq (denshift : Nat) (pos : Bool) : ∀ ps w del0,
    decAdapt denshift pos w del0 ps = encAdapt denshift pos w del0 ps := by
  intro ps
  induction ps with
  | nil => intro w del0; rfl
  | cons p ps ih =>
    intro w del0
    obtain ⟨a, b⟩ := p
    unfold decAdapt encAdapt
    simp only [ih]

theorem decUpdate_eq (denshift : Nat) (coefs b : List Int) (del : Int) :
    decUpdate denshift coefs b del = encUpdate denshift coefs b del := by
  unfold decUpdate encUpdate
  simp only [decAdapt_eq]

theorem dot_neg : ∀ a b : List Int, dot a (b.map (- ·)) = - dot a b := by
  intro a
  induction a with
  | nil => intro b; simp [dot]
  | cons x xs ih =>
    intro b
    cases b with
    | nil => simp [dot]
    | cons y ys => simp only [List.map_cons, dot, ih, Int.mul_neg]; omega

theorem decSum_eq (numactive denshift : Nat) (coefs b : List Int) :
    decSum numactive denshift coefs b = encSum denshift coefs b := by
  unfold decSum encSum
  split
  · rfl
  · rw [wrapS_add_wrapS, dot_neg]
    congr 2; omega

/-- The samples fit in `chanbits` bits. -/
def Fits (cb : Nat) (xs : List Int) : Prop := ∀ x ∈ xs, wrapS cb x = x

theorem firstDiffs_back {cb : Nat} (h1 : 1 ≤ cb) (h2 : cb ≤ 32) : ∀ (xs : List Int) (p : Int), Fits cb xs →
    runningSums cb p (firstDiffs cb p xs) = xs := by
  intro xs
  induction xs with
  | nil => intro p _; rfl
  | cons x xs ih =>
    intro p hx
    unfold firstDiffs runningSums
    simp only [chop_back h1 h2 (hx x (List.mem_cons_self ..))]
    rw [ih x fun y hy => hx y (List.mem_cons_of_mem _ hy)]

theorem firstDiffs_length (cb : Nat) : ∀ (xs : List Int) (p : Int), (firstDiffs cb p xs).length = xs.length := by
  intro xs
  induction xs with
  | nil => intro p; rfl
  | cons x xs ih => intro p; simp [firstDiffs, ih]

theorem encLoop_length (na cb ds : Nat) : ∀ (xs coefs hist : List Int),
    (encLoop na cb ds coefs hist xs).1.length = xs.length := by
  intro xs
  induction xs with
  | nil => intro coefs hist; rfl
  | cons x xs ih => intro coefs hist; simp [encLoop, ih]

theorem loop_back {na cb ds : Nat} (h1 : 1 ≤ cb) (h2 : cb ≤ 32) : ∀ (xs coefs hist : List Int), Fits cb xs →
    decLoop na cb ds coefs hist (encLoop na cb ds coefs hist xs).1 = (xs, (encLoop na cb ds coefs hist xs).2) := by
  intro xs
  induction xs with
  | nil => intro coefs hist _; rfl
  | cons x xs ih =>
    intro coefs hist hx
    unfold encLoop
    simp only
    unfold decLoop
    simp only [decSum_eq, decUpdate_eq]
    have e := chop_back h1 h2 (p := hist.getD na 0 + encSum ds coefs (differences na hist))
      (hx x (List.mem_cons_self ..))
    rw [← Int.sub_sub] at e
    rw [e, ih _ _ fun y hy => hx y (List.mem_cons_of_mem _ hy)]

/-- The predictor of the decoder gives back the samples, and leaves the same coefficients. -/
theorem pc_roundtrip {na cb ds : Nat} (h1 : 1 ≤ cb) (h2 : cb ≤ 32) (coefs xs : List Int) (hx : Fits cb xs) :
    unpcBlock na cb ds coefs (pcBlock na cb ds coefs xs).1 = (xs, (pcBlock na cb ds coefs xs).2) := by
  cases xs with
  | nil => rfl
  | cons x xs =>
    have hxs : Fits cb xs := fun y hy => hx y (List.mem_cons_of_mem _ hy)
    unfold pcBlock unpcBlock
    by_cases h0 : na = 0
    · simp [h0]
    · by_cases h31 : na = 31
      · simp [h31, firstDiffs_back h1 h2 xs x hxs]
      · simp only [if_neg h0, if_neg h31]
        have hl : (firstDiffs cb x (xs.take na)).length = (xs.take na).length := firstDiffs_length cb _ x
        have ht : Fits cb (xs.take na) := fun y hy => hxs y (List.mem_of_mem_take hy)
        have hd : Fits cb (xs.drop na) := fun y hy => hxs y (List.mem_of_mem_drop hy)
        generalize ho : (encLoop na cb ds coefs (x :: xs.take na).reverse (xs.drop na)) = o
        have e1 : (firstDiffs cb x (xs.take na) ++ o.1).take na = firstDiffs cb x (xs.take na) := by
          by_cases hlen : na ≤ xs.length
          · rw [List.take_append_of_le_length (by rw [hl, List.length_take]; omega), List.take_of_length_le]
            rw [hl, List.length_take]; omega
          · have : o.1 = [] := by
              apply List.eq_nil_of_length_eq_zero
              rw [← ho, encLoop_length, List.length_drop]; omega
            rw [this, List.append_nil, List.take_of_length_le]
            rw [hl, List.length_take]; omega
        have e2 : (firstDiffs cb x (xs.take na) ++ o.1).drop na = o.1 := by
          by_cases hlen : na ≤ xs.length
          · rw [List.drop_append_of_le_length (by rw [hl, List.length_take]; omega), List.drop_of_length_le,
              List.nil_append]
            rw [hl, List.length_take]; omega
          · have : o.1 = [] := by
              apply List.eq_nil_of_length_eq_zero
              rw [← ho, encLoop_length, List.length_drop]; omega
            rw [this, List.append_nil, List.drop_of_length_le]
            rw [hl, List.length_take]; omega
        simp only [e1, e2, firstDiffs_back h1 h2 _ x ht]
        have := loop_back (na := na) (ds := ds) h1 h2 (xs.drop na) coefs (x :: xs.take na).reverse hd
        rw [ho] at this
        rw [this]
        simp only [List.take_append_drop]

/-- The residuals fit in `chanbits` bits. -/
theorem chop_range {cb : Nat} (h1 : 1 ≤ cb) (h2 : cb ≤ 32) (x : Int) :
    -(2 ^ (cb - 1) : Nat) ≤ chop cb x ∧ chop cb x < (2 ^ (cb - 1) : Nat) := by
  rw [chop_eq h1 h2]; exact wrapS_range h1 x

theorem firstDiffs_range {cb : Nat} (h1 : 1 ≤ cb) (h2 : cb ≤ 32) : ∀ (xs : List Int) (p : Int),
    ∀ d ∈ firstDiffs cb p xs, -(2 ^ (cb - 1) : Nat) ≤ d ∧ d < (2 ^ (cb - 1) : Nat) := by
  intro xs
  induction xs with
  | nil => intro p d hd; simp [firstDiffs] at hd
  | cons x xs ih =>
    intro p d hd
    unfold firstDiffs at hd
    rcases List.mem_cons.1 hd with rfl | h
    · exact chop_range h1 h2 _
    · exact ih x d h

theorem encLoop_range {na cb ds : Nat} (h1 : 1 ≤ cb) (h2 : cb ≤ 32) : ∀ (xs coefs hist : List Int),
    ∀ d ∈ (encLoop na cb ds coefs hist xs).1, -(2 ^ (cb - 1) : Nat) ≤ d ∧ d < (2 ^ (cb - 1) : Nat) := by
  intro xs
  induction xs with
  | nil => intro coefs hist d hd; simp [encLoop] at hd
  | cons x xs ih =>
    intro coefs hist d hd
    unfold encLoop at hd
    simp only at hd
    rcases List.mem_cons.1 hd with rfl | h
    · exact chop_range h1 h2 _
    · exact ih _ _ d h

theorem pc_range {na cb ds : Nat} (h1 : 1 ≤ cb) (h2 : cb ≤ 32) (coefs xs : List Int) (hx : Fits cb xs) :
    ∀ d ∈ (pcBlock na cb ds coefs xs).1, -(2 ^ (cb - 1) : Nat) ≤ d ∧ d < (2 ^ (cb - 1) : Nat) := by
  have hx' : ∀ x ∈ xs, -(2 ^ (cb - 1) : Nat) ≤ x ∧ x < (2 ^ (cb - 1) : Nat) := by
    intro x h
    have := wrapS_range h1 x
    rwa [hx x h] at this
  cases xs with
  | nil => intro d hd; simp [pcBlock] at hd
  | cons x xs =>
    intro d hd
    simp only [pcBlock] at hd
    by_cases h0 : na = 0
    · rw [if_pos h0] at hd; exact hx' d hd
    · rw [if_neg h0] at hd
      by_cases h31 : na = 31
      · rw [if_pos h31] at hd
        rcases List.mem_cons.1 hd with rfl | h
        · exact hx' _ (List.mem_cons_self ..)
        · exact firstDiffs_range h1 h2 _ _ d h
      · rw [if_neg h31] at hd
        rcases List.mem_cons.1 hd with rfl | h
        · exact hx' _ (List.mem_cons_self ..)
        · rcases List.mem_append.1 h with h | h
          · exact firstDiffs_range h1 h2 _ _ d h
          · exact encLoop_range h1 h2 _ _ _ d h

theorem pc_length (na cb ds : Nat) (coefs xs : List Int) : (pcBlock na cb ds coefs xs).1.length = xs.length := by
  cases xs with
  | nil => rfl
  | cons x xs =>
    simp only [pcBlock]
    split
    · rfl
    · split
      · simp [firstDiffs_length]
      · simp [firstDiffs_length, encLoop_length]; omega

end AF.ALAC
