import Verif.Spec.IMA
namespace AF.IMA

theorem tableAt_step (i : Int) (h0 : 0 ≤ i) (h1 : i ≤ 88) :
    tableAt stepTable i = .ok (stepTable.getD i.toNat 0) ∧
      7 ≤ stepTable.getD i.toNat 0 ∧ stepTable.getD i.toNat 0 ≤ 32767 := by
  have key : ∀ n : Fin 89, tableAt stepTable ((n.val : Nat) : Int) = .ok (stepTable.getD n.val 0) ∧
      7 ≤ stepTable.getD n.val 0 ∧ stepTable.getD n.val 0 ≤ 32767 := by decide +kernel
  have := key ⟨i.toNat, by omega⟩
  rw [show ((i.toNat : Nat) : Int) = i by omega] at this
  exact this

theorem tableAt_step_err (i : Int) (h : ¬ (0 ≤ i ∧ i ≤ 88)) : tableAt stepTable i = .error .bufferOverflow := by
  unfold tableAt
  split
  · rfl
  · have : stepTable.length ≤ i.toNat := by
      have : stepTable.length = 89 := rfl
      omega
    rw [List.getElem?_eq_none this]

theorem tableAt_index (code : Nat) (h : code < 16) :
    tableAt indexTable code = .ok (indexTable.getD code 0) := by
  have key : ∀ n : Fin 16, tableAt indexTable (n.val : Int) = .ok (indexTable.getD n.val 0) := by decide +kernel
  exact key ⟨code, h⟩

theorem clamp_lo (x lo hi : Int) (h : lo ≤ hi) : lo ≤ clamp x lo hi := by
  simp only [clamp]; repeat' split
  all_goals omega

theorem clamp_hi (x lo hi : Int) (h : lo ≤ hi) : clamp x lo hi ≤ hi := by
  simp only [clamp]; repeat' split
  all_goals omega

/-- One sample: the decoder follows the encoder. -/
theorem lockstep (s : St) (hs : s.Valid) (x : Int) : ∃ code s', encodeSample s x = .ok (code, s') ∧
    code < 16 ∧ s'.Valid ∧ decodeSample s code = .ok (s'.prev, s') := by
  obtain ⟨he, h7, hm⟩ := tableAt_step s.index hs.index_lo hs.index_hi
  unfold encodeSample decodeSample
  rw [he]
  generalize stepTable.getD s.index.toNat 0 = step at *
  have e2 : sar (sar step 1) 1 = sar step 2 := by simp only [sar]; omega
  have fin : ∀ code : Nat, code < 16 → ∀ v : Int, St.Valid ⟨clamp v (-32768) 32767, clamp (s.index + indexTable.getD code 0) 0 88⟩ :=
    fun _ _ _ => ⟨clamp_lo _ _ _ (by decide), clamp_hi _ _ _ (by decide), clamp_lo _ _ _ (by decide), clamp_hi _ _ _ (by decide)⟩
  have go : ∀ d : Int, ∀ n : Bool, (x - s.prev < 0 ↔ n = true) → d = (if n then -(x - s.prev) else x - s.prev) →
      (if x - s.prev < 0 then ((8 : Nat), -(x - s.prev)) else (0, x - s.prev)) = ((if n then 8 else 0), d) := by
    intro d n hn hd
    cases n <;> simp_all
  obtain ⟨n, hn⟩ : ∃ n : Bool, (x - s.prev < 0 ↔ n = true) := ⟨decide (x - s.prev < 0), by simp⟩
  obtain ⟨d, hd⟩ : ∃ d : Int, d = (if n then -(x - s.prev) else x - s.prev) := ⟨_, rfl⟩
  have h1 := Decidable.em (step ≤ d)
  have h2 := Decidable.em (sar step 1 ≤ (if step ≤ d then d - step else d))
  have h3 := Decidable.em (sar step 2 ≤ (if sar step 1 ≤ (if step ≤ d then d - step else d)
    then (if step ≤ d then d - step else d) - sar step 1 else (if step ≤ d then d - step else d)))
  simp only [bind, Except.bind, pure, Except.pure, e2, go d n hn hd]
  cases n
  all_goals
    rcases h1 with h1 | h1 <;> simp only [h1, if_true, if_false] at h2 h3 <;>
    rcases h2 with h2 | h2 <;> simp only [h2, if_true, if_false] at h3 <;>
    rcases h3 with h3 | h3 <;>
    simp only [h1, h2, h3, ge_iff_le, if_true, if_false, Bool.false_eq_true]
    all_goals
      simp only [Nat.reduceOr, Nat.reduceAnd, ne_eq, Nat.reduceEqDiff, not_true_eq_false, not_false_eq_true, if_true, if_false, reduceCtorEq]
      rw [tableAt_index _ (by decide)]
      refine ⟨_, _, rfl, by decide, fin _ (by decide) _, ?_⟩
      simp only [Nat.reduceOr, Nat.reduceAnd, ne_eq, Nat.reduceEqDiff, not_true_eq_false, not_false_eq_true, if_true, if_false, reduceCtorEq]
      rw [tableAt_index _ (by decide)]
      try simp only [Int.sub_eq_add_neg]

/-- One sample: how far the reconstruction is from the input. -/
theorem quantise (s : St) (hs : s.Valid) (x : Int) (hx : -32768 ≤ x ∧ x ≤ 32767) (code : Nat) (s' : St)
    (h : encodeSample s x = .ok (code, s')) :
    (((x - s.prev).natAbs : Int) < 2 * stepOf s → 8 * ((x - s'.prev).natAbs : Int) ≤ stepOf s + 9) ∧
    (2 * stepOf s ≤ ((x - s.prev).natAbs : Int) → 8 * ((x - s'.prev).natAbs : Int) ≤ 8 * ((x - s.prev).natAbs : Int) - 15 * stepOf s + 17 ∧
      s'.index = min 88 (s.index + 8)) := by
  obtain ⟨he, h7, hm⟩ := tableAt_step s.index hs.index_lo hs.index_hi
  unfold stepOf
  unfold encodeSample at h
  rw [he] at h
  generalize stepTable.getD s.index.toNat 0 = step at *
  have e2 : sar (sar step 1) 1 = sar step 2 := by simp only [sar]; omega
  have go : ∀ d : Int, ∀ n : Bool, (x - s.prev < 0 ↔ n = true) → d = (if n then -(x - s.prev) else x - s.prev) →
      (if x - s.prev < 0 then ((8 : Nat), -(x - s.prev)) else (0, x - s.prev)) = ((if n then 8 else 0), d) := by
    intro d n hn hd
    cases n <;> simp_all
  obtain ⟨n, hn⟩ : ∃ n : Bool, (x - s.prev < 0 ↔ n = true) := ⟨decide (x - s.prev < 0), by simp⟩
  obtain ⟨d, hd⟩ : ∃ d : Int, d = (if n then -(x - s.prev) else x - s.prev) := ⟨_, rfl⟩
  have h1 := Decidable.em (step ≤ d)
  have h2 := Decidable.em (sar step 1 ≤ (if step ≤ d then d - step else d))
  have h3 := Decidable.em (sar step 2 ≤ (if sar step 1 ≤ (if step ≤ d then d - step else d)
    then (if step ≤ d then d - step else d) - sar step 1 else (if step ≤ d then d - step else d)))
  have a1 : sar step 1 = step / 2 := by simp [sar]
  have a2 : sar step 2 = step / 4 := by simp [sar]
  have a3 : sar step 3 = step / 8 := by simp [sar]
  have hlo := hs.lo; have hhi := hs.hi; have hi0 := hs.index_lo; have hi1 := hs.index_hi
  simp only [bind, Except.bind, pure, Except.pure, e2, go d n hn hd] at h
  have hsg : if n = true then x - s.prev < 0 else 0 ≤ x - s.prev := by
    cases n <;> simp at hn ⊢ <;> omega
  clear hn
  cases n
  all_goals
    rcases h1 with h1 | h1 <;> simp only [h1, if_true, if_false] at h2 h3 <;>
    rcases h2 with h2 | h2 <;> simp only [h2, if_true, if_false] at h3 <;>
    rcases h3 with h3 | h3 <;>
    simp only [h1, h2, h3, ge_iff_le, if_true, if_false, Bool.false_eq_true] at h
    all_goals
      simp only [Nat.reduceOr, Nat.reduceAnd, ne_eq, Nat.reduceEqDiff, not_true_eq_false, not_false_eq_true, if_true, if_false, reduceCtorEq] at h
      rw [tableAt_index _ (by decide)] at h
      simp only [Except.ok.injEq, Prod.mk.injEq] at h
      obtain ⟨_, rfl⟩ := h
      simp only [a1, a2, a3] at *
      simp only [clamp, indexTable, if_true, if_false, Bool.false_eq_true] at *
      simp only [List.getD_cons_succ, List.getD_cons_zero]
      have ab : ∀ y : Int, (0 ≤ y ∧ (y.natAbs : Int) = y) ∨ (y < 0 ∧ (y.natAbs : Int) = -y) := by intro y; omega
      constructor
      · intro hA
        rcases ab (x - s.prev) with ⟨_, q⟩ | ⟨_, q⟩ <;> rw [q] at hA <;> repeat' split
        all_goals
          first
          | omega
          | (refine (?_ : ∀ y : Int, y = _ → 8 * (y.natAbs : Int) ≤ step + 9) _ rfl
             intro y hy
             rcases ab y with ⟨_, q'⟩ | ⟨_, q'⟩ <;> rw [q'] <;> omega)
      · intro hA
        rcases ab (x - s.prev) with ⟨_, q⟩ | ⟨_, q⟩ <;> rw [q] at hA ⊢
        all_goals
          refine ⟨?_, ?_⟩
          · repeat' split
            all_goals
              first
              | omega
              | (refine (?_ : ∀ y : Int, y = _ → 8 * (y.natAbs : Int) ≤ _) _ rfl
                 intro y hy
                 rcases ab y with ⟨_, q'⟩ | ⟨_, q'⟩ <;> rw [q'] <;> omega)
          · repeat' split
            all_goals omega

theorem run_ok (xs : List Int) : ∀ s : St, s.Valid →
    decodeCodes s (encoderCodes s xs) = .ok (encoderValues s xs, encoderState s xs) ∧
    (encoderState s xs).Valid ∧ (∀ c ∈ encoderCodes s xs, c < 16) ∧
    (encoderCodes s xs).length = xs.length ∧ (encoderValues s xs).length = xs.length ∧
    (∀ v ∈ encoderValues s xs, -32768 ≤ v ∧ v ≤ 32767) := by
  induction xs with
  | nil => intro s hs; exact ⟨rfl, hs, by simp [encoderCodes], rfl, rfl, by simp [encoderValues]⟩
  | cons x xs ih =>
    intro s hs
    obtain ⟨code, s', he, hc, hv, hd⟩ := lockstep s hs x
    obtain ⟨h1, h2, h3, h4, h5, h6⟩ := ih s' hv
    simp only [encoderCodes, encoderValues, encoderState, he, decodeCodes, hd, bind, Except.bind, h1, pure, Except.pure]
    refine ⟨trivial, h2, ?_, by simp [h4], by simp [h5], ?_⟩
    · intro c hc'
      rcases List.mem_cons.1 hc' with rfl | h
      · exact hc
      · exact h3 _ h
    · intro v hv'
      rcases List.mem_cons.1 hv' with rfl | h
      · exact ⟨hv.lo, hv.hi⟩
      · exact h6 _ h

theorem encoderValues_append (xs ys : List Int) : ∀ s : St, s.Valid →
    encoderValues s (xs ++ ys) = encoderValues s xs ++ encoderValues (encoderState s xs) ys ∧
    encoderState s (xs ++ ys) = encoderState (encoderState s xs) ys := by
  induction xs with
  | nil => intro s _; exact ⟨rfl, rfl⟩
  | cons x xs ih =>
    intro s hs
    obtain ⟨code, s', he, hc, hv, hd⟩ := lockstep s hs x
    obtain ⟨h1, h2⟩ := ih s' hv
    simp [encoderValues, encoderState, he, h1, h2]

theorem nibbles (a b : Nat) (ha : a < 16) (hb : b < 16) :
    (BitVec.ofNat 8 (a ||| (b <<< 4))).toNat &&& 0xf = a ∧ (BitVec.ofNat 8 (a ||| (b <<< 4))).toNat >>> 4 = b := by
  have : ∀ a b : Fin 16, (BitVec.ofNat 8 (a.val ||| (b.val <<< 4))).toNat &&& 0xf = a.val ∧
      (BitVec.ofNat 8 (a.val ||| (b.val <<< 4))).toNat >>> 4 = b.val := by decide +kernel
  exact this ⟨a, ha⟩ ⟨b, hb⟩

theorem pairs_ok (k : Nat) : ∀ (s : St) (xs : List Int), s.Valid → 2 * k ≤ xs.length →
    ∃ bs, encodePairs k s xs = .ok (bs, encoderState s (xs.take (2 * k))) ∧ bs.length = k ∧
      ∀ rest, decodePairs k s (bs ++ rest) = .ok (encoderValues s (xs.take (2 * k)), encoderState s (xs.take (2 * k)), rest) := by
  induction k with
  | zero => intro s xs _ _; exact ⟨[], rfl, rfl, fun _ => rfl⟩
  | succ k ih =>
    intro s xs hs hl
    match xs, hl with
    | x :: y :: xs, hl =>
      obtain ⟨a, s1, he1, hc1, hv1, hd1⟩ := lockstep s hs x
      obtain ⟨b, s2, he2, hc2, hv2, hd2⟩ := lockstep s1 hv1 y
      obtain ⟨bs, h1, h2, h3⟩ := ih s2 xs hv2 (by simp at hl; omega)
      obtain ⟨n1, n2⟩ := nibbles a b hc1 hc2
      have e : (x :: y :: xs).take (2 * (k + 1)) = x :: y :: xs.take (2 * k) := by
        rw [show 2 * (k + 1) = 2 * k + 1 + 1 by omega]; simp
      refine ⟨BitVec.ofNat 8 (a ||| (b <<< 4)) :: bs, ?_, by simp [h2], ?_⟩
      · simp only [encodePairs, he1, he2, h1, bind, Except.bind, pure, Except.pure, e, encoderState]
      · intro rest
        simp only [List.cons_append, decodePairs, n1, n2, hd1, hd2, h3, bind, Except.bind, pure, Except.pure, e, encoderState,
          encoderValues, he1, he2]

/-! ### Columns -/

theorem column_append (c : Nat) (a b : List (List Int)) : column c (a ++ b) = column c a ++ column c b := by
  simp [column]

theorem column_length (c : Nat) (fs : List (List Int)) (h : ∀ f ∈ fs, c < f.length) : (column c fs).length = fs.length := by
  induction fs with
  | nil => rfl
  | cons f fs ih =>
    have hf := h f List.mem_cons_self
    simp only [column, List.filterMap_cons] at ih ⊢
    rw [List.getElem?_eq_getElem hf]
    simp [ih (fun g hg => h g (List.mem_cons_of_mem _ hg))]

theorem column_take (c n : Nat) (fs : List (List Int)) (h : ∀ f ∈ fs, c < f.length) :
    column c (fs.take n) = (column c fs).take n := by
  induction fs generalizing n with
  | nil => simp [column]
  | cons f fs ih =>
    cases n with
    | zero => simp [column]
    | succ n =>
      have hf := h f List.mem_cons_self
      have ih := ih n (fun g hg => h g (List.mem_cons_of_mem _ hg))
      simp only [column, List.take_succ_cons, List.filterMap_cons, List.getElem?_eq_getElem hf] at ih ⊢
      simp [ih]

theorem column_interleave (n c : Nat) (cols : List (List Int)) (hc : c < cols.length) (hl : (cols[c]).length = n) :
    column c (interleave n cols) = cols[c] := by
  unfold column interleave
  rw [List.filterMap_map]
  apply List.ext_getElem?
  intro i
  have : ((fun f : List Int => f[c]?) ∘ fun k => cols.map fun col => col.getD k 0) = fun k => some ((cols[c]).getD k 0) := by
    funext k
    simp [List.getElem?_eq_getElem hc]
  rw [this]
  have e : ∀ (g : Nat → Int) (l : List Nat), l.filterMap (fun k => some (g k)) = l.map g := by
    intro g l; induction l with
    | nil => rfl
    | cons a l ih => simp
  rw [e]
  rw [List.getElem?_map]
  by_cases hi : i < n
  · rw [List.getElem?_range hi]
    simp only [Option.map_some]
    rw [List.getD_eq_getElem?_getD, List.getElem?_eq_getElem (by omega)]
    rfl
  · rw [List.getElem?_eq_none (by simp; omega), List.getElem?_eq_none (by omega)]
    rfl

/-! ### WAVE blocks -/

theorem group_ok (frames : List (List Int)) (h8 : frames.length = 8) : ∀ (sts : List St) (c : Nat),
    (∀ s ∈ sts, s.Valid) → (∀ f ∈ frames, c + sts.length ≤ f.length) →
    ∃ bs, encodeGroup frames c sts = .ok (bs, sts.mapIdx fun i s => encoderState s (column (c + i) frames)) ∧
      bs.length = 4 * sts.length ∧
      ∀ rest, waveGroup sts (bs ++ rest) =
        .ok (sts.mapIdx fun i s => encoderValues s (column (c + i) frames),
             sts.mapIdx fun i s => encoderState s (column (c + i) frames), rest) := by
  intro sts
  induction sts with
  | nil => intro c _ _; exact ⟨[], rfl, rfl, fun _ => rfl⟩
  | cons s sts ih =>
    intro c hv hf
    have hl : (column c frames).length = 8 := by
      rw [column_length _ _ (fun f h => by have := hf f h; simp at this; omega), h8]
    obtain ⟨b, e1, l1, d1⟩ := pairs_ok 4 s (column c frames) (hv s List.mem_cons_self) (by omega)
    rw [show (column c frames).take (2 * 4) = column c frames from List.take_of_length_le (by omega)] at e1 d1
    obtain ⟨bs, e2, l2, d2⟩ := ih (c + 1) (fun x hx => hv x (List.mem_cons_of_mem _ hx))
      (fun f h => by have := hf f h; simp at this; omega)
    refine ⟨b ++ bs, ?_, ?_, ?_⟩
    · simp only [encodeGroup, e1, e2, bind, Except.bind, pure, Except.pure, List.mapIdx_cons, Nat.add_zero]
      simp only [show ∀ i, c + 1 + i = c + (i + 1) by intro i; omega]
    · simp [l1, l2]; omega
    · intro rest
      simp only [waveGroup, List.append_assoc, d1, d2, bind, Except.bind, pure, Except.pure, List.mapIdx_cons, Nat.add_zero]
      simp only [show ∀ i, c + 1 + i = c + (i + 1) by intro i; omega]

theorem interleave_length (n : Nat) (cols : List (List Int)) : (interleave n cols).length = n := by simp [interleave]

theorem interleave_width (n : Nat) (cols : List (List Int)) : ∀ f ∈ interleave n cols, f.length = cols.length := by
  intro f hf
  simp only [interleave, List.mem_map] at hf
  obtain ⟨k, _, rfl⟩ := hf
  simp

theorem groups_ok (k : Nat) : ∀ (sts : List St) (frames : List (List Int)), (∀ s ∈ sts, s.Valid) →
    8 * k ≤ frames.length → (∀ f ∈ frames, sts.length ≤ f.length) →
    ∃ bs out, encodeGroups k sts frames = .ok (bs, sts.mapIdx fun i s => encoderState s (column i (frames.take (8 * k)))) ∧
      bs.length = 4 * k * sts.length ∧
      (∀ rest, waveGroups k sts (bs ++ rest) = .ok out) ∧
      out.length = 8 * k ∧ (∀ f ∈ out, f.length = sts.length) ∧
      ∀ i (hi : i < sts.length), column i out = encoderValues sts[i] (column i (frames.take (8 * k))) := by
  induction k with
  | zero =>
    intro sts frames _ _ _
    refine ⟨[], [], ?_, by simp, fun _ => rfl, rfl, by simp, ?_⟩
    · simp only [encodeGroups]
      congr 2
      apply List.ext_getElem
      · simp
      · intro i h1 h2
        simp [column, encoderState]
    · intro i hi; simp [column, encoderValues]
  | succ k ih =>
    intro sts frames hv hl hf
    obtain ⟨b, e1, l1, d1⟩ := group_ok (frames.take 8) (by simp; omega) sts 0 hv
      (fun f h => by have := hf f (List.mem_of_mem_take h); omega)
    simp only [Nat.zero_add] at e1 d1
    have hcol : ∀ i, i < sts.length → (column i (frames.take 8)).length = 8 := by
      intro i hi
      rw [column_length _ _ (fun f h => by have := hf f (List.mem_of_mem_take h); omega)]
      simp; omega
    have hv' : ∀ s ∈ (sts.mapIdx fun i s => encoderState s (column i (frames.take 8))), s.Valid := by
      intro s hs
      obtain ⟨i, hi, rfl⟩ := List.mem_mapIdx.1 hs
      exact (run_ok _ _ (hv _ (List.getElem_mem _))).2.1
    obtain ⟨bs, out, e2, l2, d2, o1, o2, o3⟩ := ih _ (frames.drop 8) hv' (by simp; omega)
      (fun f h => by have := hf f (List.mem_of_mem_drop h); simpa using this)
    have htk : frames.take (8 * (k + 1)) = frames.take 8 ++ (frames.drop 8).take (8 * k) := by
      rw [show 8 * (k + 1) = 8 + 8 * k by omega, List.take_add]
    have hst : ∀ i (hi : i < sts.length), encoderState (encoderState sts[i] (column i (frames.take 8)))
        (column i ((frames.drop 8).take (8 * k))) = encoderState sts[i] (column i (frames.take (8 * (k + 1)))) := by
      intro i hi
      rw [htk, column_append, (encoderValues_append _ _ _ (hv _ (List.getElem_mem hi))).2]
    refine ⟨b ++ bs, interleave 8 (sts.mapIdx fun i s => encoderValues s (column i (frames.take 8))) ++ out, ?_, ?_, ?_, ?_, ?_, ?_⟩
    · simp only [encodeGroups, e1, e2, bind, Except.bind, pure, Except.pure]
      congr 2
      apply List.ext_getElem
      · simp
      · intro i h1 h2
        simp only [List.getElem_mapIdx]
        exact hst i (by simpa using h2)
    · simp only [List.length_append, l1, l2, List.length_mapIdx, Nat.mul_add, Nat.add_mul]; omega
    · intro rest
      simp only [waveGroups, List.append_assoc, d1, d2, bind, Except.bind, pure, Except.pure]
    · rw [List.length_append, interleave_length, o1]; omega
    · intro f hf'
      rcases List.mem_append.1 hf' with h | h
      · rw [interleave_width _ _ f h]; simp
      · rw [o2 f h]; simp
    · intro i hi
      have hi' : i < (sts.mapIdx fun i s => encoderValues s (column i (frames.take 8))).length := by simpa using hi
      rw [column_append, column_interleave 8 i _ hi', o3 i (by simpa using hi)]
      · simp only [List.getElem_mapIdx]
        rw [htk, column_append, (encoderValues_append _ _ _ (hv _ (List.getElem_mem hi))).1]
      · simp only [List.getElem_mapIdx]
        rw [(run_ok _ _ (hv _ (List.getElem_mem hi))).2.2.2.2.1, hcol i hi]

theorem header_ok (s : St) (hs : s.Valid) (rest : List Byte) (ch : Nat) :
    waveHeaders (ch + 1) (waveHeader s ++ rest) = (do
      let (sts, bs) ← waveHeaders ch rest
      return (s :: sts, bs)) := by
  have hlo := hs.lo; have hhi := hs.hi; have h0 := hs.index_lo; have h1 := hs.index_hi
  simp only [waveHeader, List.cons_append, List.nil_append, waveHeaders, List.drop_succ_cons, List.drop_zero]
  have e1 : ((BitVec.ofInt 8 s.prev).toNat : Int) = s.prev % 256 := by
    rw [BitVec.toNat_ofInt]; omega
  have e2 : ((BitVec.ofInt 8 (sar s.prev 8)).toNat : Int) = s.prev / 256 % 256 := by
    rw [BitVec.toNat_ofInt]; simp only [sar]; omega
  have e3 : ((BitVec.ofInt 8 s.index).toNat : Int) = s.index := by
    rw [BitVec.toNat_ofInt]; omega
  have e4 : (BitVec.ofInt 8 (sar s.prev 8)).toNat &&& 0x80 ≠ 0 ↔ s.prev < 0 := by
    have key : ∀ n : Fin 256, n.val &&& 0x80 ≠ 0 ↔ 128 ≤ n.val := by decide +kernel
    rw [key ⟨_, (BitVec.ofInt 8 (sar s.prev 8)).isLt⟩]
    simp only
    omega
  have ev : (if (BitVec.ofInt 8 (sar s.prev 8)).toNat &&& 0x80 ≠ 0 then
      (((BitVec.ofInt 8 (sar s.prev 8)).toNat : Int) * 256 + ((BitVec.ofInt 8 s.prev).toNat : Int) - 0x10000)
      else (((BitVec.ofInt 8 (sar s.prev 8)).toNat : Int) * 256 + ((BitVec.ofInt 8 s.prev).toNat : Int))) = s.prev := by
    simp only [e4]
    split <;> omega
  simp only [ev, e3]

theorem headers_ok (sts : List St) (hv : ∀ s ∈ sts, s.Valid) (rest : List Byte) :
    waveHeaders sts.length (sts.flatMap waveHeader ++ rest) = .ok (sts, rest) := by
  induction sts with
  | nil => rfl
  | cons s sts ih =>
    simp only [List.flatMap_cons, List.append_assoc, List.length_cons]
    rw [header_ok s (hv s List.mem_cons_self), ih (fun x hx => hv x (List.mem_cons_of_mem _ hx))]
    rfl

theorem flatMap_header_length (sts : List St) : (sts.flatMap waveHeader).length = 4 * sts.length := by
  induction sts with
  | nil => rfl
  | cons s sts ih => simp only [List.flatMap_cons, List.length_append, List.length_cons, ih]; simp [waveHeader]; omega

theorem column_cons (c : Nat) (f : List Int) (fs : List (List Int)) (h : c < f.length) :
    column c (f :: fs) = f[c] :: column c fs := by
  simp [column, List.getElem?_eq_getElem h]

theorem wave_block_ok (k : Nat) (sts : List St) (input : List (List Int)) (hv : ∀ s ∈ sts, s.Valid)
    (hl : 8 * k + 1 ≤ input.length) (hf : ∀ f ∈ input, f.length = sts.length) :
    ∃ bytes sts' frames, encodeBlockWAVE (8 * k + 1) sts input = .ok (bytes, sts') ∧
      bytes.length = (4 + 4 * k) * sts.length ∧
      decodeBlockWAVE sts.length (8 * k + 1) bytes = .ok frames ∧
      frames.length = 8 * k + 1 ∧ (∀ f ∈ frames, f.length = sts.length) ∧
      sts' = (sts.mapIdx fun i s => encoderState s ((column i input).take (8 * k))) ∧
      ∀ i (hi : i < sts.length), column i frames = sts[i].prev :: encoderValues sts[i] ((column i input).take (8 * k)) := by
  obtain ⟨bs, out, e1, l1, d1, o1, o2, o3⟩ := groups_ok k sts input hv (by omega) (fun f h => by rw [hf f h]; omega)
  have hk : (8 * k + 1 - 1 + 7) / 8 = k := by omega
  have hct : ∀ i, i < sts.length → column i (input.take (8 * k)) = (column i input).take (8 * k) :=
    fun i hi => column_take _ _ _ (fun f h => by rw [hf f h]; omega)
  refine ⟨sts.flatMap waveHeader ++ bs, (sts.mapIdx fun i s => encoderState s ((column i input).take (8 * k))),
    sts.map (·.prev) :: out, ?_, ?_, ?_, by simp [o1], ?_, rfl, ?_⟩
  · simp only [encodeBlockWAVE, hk, e1, bind, Except.bind, pure, Except.pure]
    congr 2
    apply List.ext_getElem
    · simp
    · intro i h1 h2
      simp only [List.getElem_mapIdx]
      rw [hct i (by simpa using h2)]
  · rw [List.length_append, flatMap_header_length, l1, Nat.add_mul]
  · have d := d1 []
    rw [List.append_nil] at d
    simp only [decodeBlockWAVE, hk, headers_ok sts hv, d, bind, Except.bind, o1]
    rw [if_neg (by omega)]
    rfl
  · intro f hf'
    rcases List.mem_cons.1 hf' with rfl | h
    · simp
    · exact o2 f h
  · intro i hi
    rw [column_cons _ _ _ (by simpa using hi), o3 i hi, hct i hi]
    simp

/-! ### QuickTime blocks -/

theorem qtRound_valid (s : St) (hs : s.Valid) : (qtRound s).Valid := by
  have hlo := hs.lo; have hhi := hs.hi; have h0 := hs.index_lo; have h1 := hs.index_hi
  constructor <;> simp only [qtRound] <;> omega

theorem and80 (n : Nat) (h : n < 256) : n &&& 0x80 = n / 128 * 128 := by
  have key : ∀ n : Fin 256, n.val &&& 0x80 = n.val / 128 * 128 := by decide +kernel
  exact key ⟨n, h⟩

theorem or80 (a b : Nat) (ha : a < 2) (hb : b < 128) : (a * 128 ||| b) = a * 128 + b := by
  have key : ∀ (a : Fin 2) (b : Fin 128), (a.val * 128 ||| b.val) = a.val * 128 + b.val := by decide +kernel
  exact key ⟨a, ha⟩ ⟨b, hb⟩

theorem and7f (n : Nat) (h : n < 256) : n &&& 0x7f = n % 128 := by
  have key : ∀ n : Fin 256, n.val &&& 0x7f = n.val % 128 := by decide +kernel
  exact key ⟨n, h⟩

theorem qt_header_ok (s : St) (hs : s.Valid) (hp : s.prev % 128 = 0) :
    ∃ b0 b1, qtHeader s = [b0, b1] ∧
      (let p : Int := (b0 : Byte).toNat * 256 + ((b1 : Byte).toNat &&& 0x80 : Nat)
       clamp (if p ≥ 0x8000 then p - 0x10000 else p) (-32768) 32767 = s.prev) ∧
      ((b1.toNat &&& 0x7f : Nat) : Int) = s.index := by
  have hlo := hs.lo; have hhi := hs.hi; have h0 := hs.index_lo; have h1 := hs.index_hi
  refine ⟨_, _, rfl, ?_, ?_⟩
  all_goals
    have l8 : lowBits s.prev 8 < 256 := by simp only [lowBits]; omega
    have l7 : lowBits s.index 7 < 128 := by simp only [lowBits]; omega
    have e8 : (lowBits s.prev 8 : Int) = s.prev % 256 := by simp only [lowBits]; omega
    have e7 : (lowBits s.index 7 : Int) = s.index := by simp only [lowBits]; omega
    rw [and80 _ l8, or80 _ _ (by omega) l7, BitVec.toNat_ofNat]
    rw [Nat.mod_eq_of_lt (by omega)]
  · rw [and80 _ (by omega)]
    have e2 : ((BitVec.ofInt 8 (sar s.prev 8)).toNat : Int) = s.prev / 256 % 256 := by
      rw [BitVec.toNat_ofInt]; simp only [sar]; omega
    simp only [e2, clamp]
    repeat' split
    all_goals omega
  · rw [and7f _ (by omega)]; omega

theorem qt_from_ok (k : Nat) (input : List (List Int)) (hl : 2 * k ≤ input.length) : ∀ (sts : List St) (c : Nat),
    (∀ s ∈ sts, s.Valid) → (∀ f ∈ input, c + sts.length ≤ f.length) →
    ∃ bs, encodeQTFrom (2 * k) input c sts =
        .ok (bs, sts.mapIdx fun i s => encoderState (qtRound s) ((column (c + i) input).take (2 * k))) ∧
      bs.length = (2 + k) * sts.length ∧
      ∀ rest, qtChannels (2 * k) sts.length (bs ++ rest) =
        .ok (sts.mapIdx fun i s => encoderValues (qtRound s) ((column (c + i) input).take (2 * k))) := by
  intro sts
  induction sts with
  | nil => intro c _ _; exact ⟨[], rfl, rfl, fun _ => rfl⟩
  | cons s sts ih =>
    intro c hv hf
    have hk : (2 * k + 1) / 2 = k := by omega
    have hs := qtRound_valid s (hv s List.mem_cons_self)
    have hlen : (column c input).length = input.length :=
      column_length _ _ (fun f h => by have := hf f h; simp at this; omega)
    obtain ⟨b, e1, l1, d1⟩ := pairs_ok k (qtRound s) (column c input) hs (by omega)
    obtain ⟨b0, b1, eh, ep, ei⟩ := qt_header_ok (qtRound s) hs (by simp only [qtRound]; omega)
    obtain ⟨bs, e2, l2, d2⟩ := ih (c + 1) (fun x hx => hv x (List.mem_cons_of_mem _ hx))
      (fun f h => by have := hf f h; simp at this; omega)
    refine ⟨[b0, b1] ++ b ++ bs, ?_, ?_, ?_⟩
    · simp only [encodeQTFrom, hk, e1, e2, eh, bind, Except.bind, pure, Except.pure, List.mapIdx_cons, Nat.add_zero]
      simp only [show ∀ i, c + 1 + i = c + (i + 1) by intro i; omega]
    · simp only [List.length_append, List.length_cons, List.length_nil, l1, l2, Nat.mul_add, Nat.add_mul]; omega
    · intro rest
      simp only [List.cons_append, List.nil_append, List.append_assoc, List.length_cons, qtChannels, hk]
      dsimp only at ep
      simp only [ep, ei, d1, d2, bind, Except.bind, pure, Except.pure, List.mapIdx_cons, Nat.add_zero]
      simp only [show ∀ i, c + 1 + i = c + (i + 1) by intro i; omega]

theorem qt_block_ok (k : Nat) (sts : List St) (input : List (List Int)) (hv : ∀ s ∈ sts, s.Valid)
    (hl : 2 * k ≤ input.length) (hf : ∀ f ∈ input, f.length = sts.length) :
    ∃ bytes sts' frames, encodeBlockQT (2 * k) sts input = .ok (bytes, sts') ∧
      bytes.length = (2 + k) * sts.length ∧
      decodeBlockQT sts.length (2 * k) bytes = .ok frames ∧
      frames.length = 2 * k ∧ (∀ f ∈ frames, f.length = sts.length) ∧
      sts' = (sts.mapIdx fun i s => encoderState (qtRound s) ((column i input).take (2 * k))) ∧
      ∀ i (hi : i < sts.length), column i frames = encoderValues (qtRound sts[i]) ((column i input).take (2 * k)) := by
  obtain ⟨bs, e1, l1, d1⟩ := qt_from_ok k input hl sts 0 hv (fun f h => by rw [hf f h]; omega)
  simp only [Nat.zero_add] at e1 d1
  have d := d1 []
  rw [List.append_nil] at d
  refine ⟨bs, _, interleave (2 * k) (sts.mapIdx fun i s => encoderValues (qtRound s) ((column i input).take (2 * k))),
    e1, l1, ?_, ?_, ?_, rfl, ?_⟩
  · simp only [decodeBlockQT, d, bind, Except.bind]
    rw [if_neg (by omega)]
    rfl
  · exact interleave_length _ _
  · intro f h; rw [interleave_width _ _ f h]; simp
  · intro i hi
    have hi' : i < (sts.mapIdx fun i s => encoderValues (qtRound s) ((column i input).take (2 * k))).length := by simpa using hi
    rw [column_interleave _ i _ hi']
    · simp
    · simp only [List.getElem_mapIdx]
      rw [(run_ok _ _ (qtRound_valid _ (hv _ (List.getElem_mem hi)))).2.2.2.2.1]
      have : (column i input).length = input.length := column_length _ _ (fun f h => by rw [hf f h]; omega)
      simp; omega

/-! ### Arbitrary blocks -/

theorem decodeSample_any (s : St) (code : Nat) (hc : code < 16) :
    if 0 ≤ s.index ∧ s.index ≤ 88 then
      ∃ x s', decodeSample s code = .ok (x, s') ∧ 0 ≤ s'.index ∧ s'.index ≤ 88 ∧ -32768 ≤ x ∧ x ≤ 32767
    else decodeSample s code = .error .bufferOverflow := by
  split
  · rename_i h
    obtain ⟨he, _, _⟩ := tableAt_step s.index h.1 h.2
    simp only [decodeSample, he, tableAt_index _ hc, bind, Except.bind, pure, Except.pure]
    exact ⟨_, _, rfl, clamp_lo _ _ _ (by decide), clamp_hi _ _ _ (by decide), clamp_lo _ _ _ (by decide), clamp_hi _ _ _ (by decide)⟩
  · rename_i h
    simp only [decodeSample, tableAt_step_err _ h, bind, Except.bind]

theorem pairs_any (k : Nat) : ∀ (s : St) (bs : List Byte), 0 ≤ s.index ∧ s.index ≤ 88 → k ≤ bs.length →
    ∃ xs s', decodePairs k s bs = .ok (xs, s', bs.drop k) ∧ xs.length = 2 * k ∧ 0 ≤ s'.index ∧ s'.index ≤ 88 ∧
      ∀ x ∈ xs, -32768 ≤ x ∧ x ≤ 32767 := by
  induction k with
  | zero => intro s bs h _; exact ⟨[], s, rfl, rfl, h.1, h.2, by simp⟩
  | succ k ih =>
    intro s bs h hl
    match bs, hl with
    | b :: bs, hl =>
      have hb := b.isLt
      have n1 : b.toNat &&& 0xf < 16 := by
        have key : ∀ n : Fin 256, n.val &&& 0xf < 16 := by decide +kernel
        exact key ⟨_, hb⟩
      have n2 : b.toNat >>> 4 < 16 := by rw [Nat.shiftRight_eq_div_pow]; omega
      have a1 := decodeSample_any s _ n1
      rw [if_pos h] at a1
      obtain ⟨x, s1, d1, i1, j1, r1⟩ := a1
      have a2 := decodeSample_any s1 _ n2
      rw [if_pos ⟨i1, j1⟩] at a2
      obtain ⟨y, s2, d2, i2, j2, r2⟩ := a2
      obtain ⟨xs, s3, d3, l3, i3, j3, r3⟩ := ih s2 bs ⟨i2, j2⟩ (by simp at hl; omega)
      refine ⟨x :: y :: xs, s3, ?_, by simp [l3]; omega, i3, j3, ?_⟩
      · simp only [decodePairs, d1, d2, d3, bind, Except.bind, pure, Except.pure, List.drop_succ_cons]
      · intro z hz
        simp only [List.mem_cons] at hz
        rcases hz with rfl | rfl | hz
        · exact r1
        · exact r2
        · exact r3 z hz

theorem pairs_bad (k : Nat) (s : St) (bs : List Byte) (h : ¬ (0 ≤ s.index ∧ s.index ≤ 88)) :
    decodePairs (k + 1) s bs = .error .bufferOverflow := by
  match bs with
  | [] => rfl
  | b :: bs =>
    have n1 : b.toNat &&& 0xf < 16 := by
      have key : ∀ n : Fin 256, n.val &&& 0xf < 16 := by decide +kernel
      exact key ⟨_, b.isLt⟩
    have a1 := decodeSample_any s _ n1
    rw [if_neg h] at a1
    simp only [decodePairs, a1, bind, Except.bind]

theorem group_any (sts : List St) : ∀ bs : List Byte, (∀ s ∈ sts, 0 ≤ s.index ∧ s.index ≤ 88) → 4 * sts.length ≤ bs.length →
    ∃ cols sts', waveGroup sts bs = .ok (cols, sts', bs.drop (4 * sts.length)) ∧ sts'.length = sts.length ∧
      cols.length = sts.length ∧ (∀ s ∈ sts', 0 ≤ s.index ∧ s.index ≤ 88) ∧
      ∀ col ∈ cols, ∀ x ∈ col, -32768 ≤ x ∧ x ≤ 32767 := by
  induction sts with
  | nil => intro bs _ _; exact ⟨[], [], rfl, rfl, rfl, by simp, by simp⟩
  | cons s sts ih =>
    intro bs hv hl
    obtain ⟨xs, s', d, _, i0, i1, r⟩ := pairs_any 4 s bs (hv s List.mem_cons_self) (by simp at hl; omega)
    obtain ⟨cols, sts', d2, l2, l3, v2, r2⟩ := ih (bs.drop 4) (fun x hx => hv x (List.mem_cons_of_mem _ hx)) (by simp at hl ⊢; omega)
    refine ⟨xs :: cols, s' :: sts', ?_, by simp [l2], by simp [l3], ?_, ?_⟩
    · simp only [waveGroup, d, d2, bind, Except.bind, pure, Except.pure, List.drop_drop, List.length_cons]
      rw [show 4 + 4 * sts.length = 4 * (sts.length + 1) by omega]
    · intro x hx
      rcases List.mem_cons.1 hx with rfl | h
      · exact ⟨i0, i1⟩
      · exact v2 x h
    · intro x hx
      rcases List.mem_cons.1 hx with rfl | h
      · exact r
      · exact r2 x h

theorem group_bad (sts : List St) : ∀ bs : List Byte, (∃ s ∈ sts, ¬ (0 ≤ s.index ∧ s.index ≤ 88)) → 4 * sts.length ≤ bs.length →
    waveGroup sts bs = .error .bufferOverflow := by
  induction sts with
  | nil => intro bs h _; simp at h
  | cons s sts ih =>
    intro bs hv hl
    by_cases hs : 0 ≤ s.index ∧ s.index ≤ 88
    · obtain ⟨xs, s', d, _, i0, i1, r⟩ := pairs_any 4 s bs hs (by simp at hl; omega)
      obtain ⟨t, ht, hb⟩ := hv
      have ht' : t ∈ sts := by
        rcases List.mem_cons.1 ht with rfl | h
        · exact absurd hs hb
        · exact h
      have d2 := ih (bs.drop 4) ⟨t, ht', hb⟩ (by simp at hl ⊢; omega)
      simp only [waveGroup, d, d2, bind, Except.bind]
    · simp only [waveGroup, pairs_bad 3 s bs hs, bind, Except.bind]

theorem interleave_range (n : Nat) (cols : List (List Int)) (h : ∀ col ∈ cols, ∀ x ∈ col, -32768 ≤ x ∧ x ≤ 32767) :
    ∀ f ∈ interleave n cols, ∀ x ∈ f, -32768 ≤ x ∧ x ≤ 32767 := by
  intro f hf x hx
  simp only [interleave, List.mem_map] at hf
  obtain ⟨k, _, rfl⟩ := hf
  obtain ⟨col, hc, rfl⟩ := List.mem_map.1 hx
  rw [List.getD_eq_getElem?_getD]
  cases e : col[k]? with
  | none => simp
  | some y => exact h col hc y (List.mem_of_getElem? e)

theorem groups_any (k : Nat) : ∀ (sts : List St) (bs : List Byte), (∀ s ∈ sts, 0 ≤ s.index ∧ s.index ≤ 88) →
    4 * k * sts.length ≤ bs.length →
    ∃ out, waveGroups k sts bs = .ok out ∧ out.length = 8 * k ∧
      (∀ f ∈ out, f.length = sts.length) ∧ ∀ f ∈ out, ∀ x ∈ f, -32768 ≤ x ∧ x ≤ 32767 := by
  induction k with
  | zero => intro sts bs _ _; exact ⟨[], rfl, rfl, by simp, by simp⟩
  | succ k ih =>
    intro sts bs hv hl
    have hl' : 4 * k * sts.length + 4 * sts.length ≤ bs.length := by
      rw [Nat.mul_add, Nat.add_mul] at hl; omega
    obtain ⟨cols, sts', d, l1, l2, v1, r1⟩ := group_any sts bs hv (by omega)
    obtain ⟨out, d2, l3, w2, r2⟩ := ih sts' (bs.drop (4 * sts.length)) v1 (by rw [l1]; simp; omega)
    refine ⟨interleave 8 cols ++ out, ?_, ?_, ?_, ?_⟩
    · simp only [waveGroups, d, d2, bind, Except.bind, pure, Except.pure]
    · rw [List.length_append, interleave_length, l3]; omega
    · intro f hf
      rcases List.mem_append.1 hf with h | h
      · rw [interleave_width _ _ f h, l2]
      · rw [w2 f h, l1]
    · intro f hf
      rcases List.mem_append.1 hf with h | h
      · exact interleave_range 8 cols r1 f h
      · exact r2 f h

theorem headers_any (ch : Nat) : ∀ bs : List Byte, 4 * ch ≤ bs.length →
    ∃ sts, waveHeaders ch bs = .ok (sts, bs.drop (4 * ch)) ∧ sts.length = ch ∧
      (∀ c, c < ch → ∃ b s, bs[4 * c + 2]? = some b ∧ sts[c]? = some s ∧ s.index = (b.toNat : Int)) ∧
      ∀ s ∈ sts, -32768 ≤ s.prev ∧ s.prev ≤ 32767 := by
  induction ch with
  | zero => intro bs _; exact ⟨[], rfl, rfl, by simp, by simp⟩
  | succ ch ih =>
    intro bs hl
    match bs, hl with
    | b0 :: b1 :: b2 :: b3 :: bs, hl =>
      obtain ⟨sts, d, l, h, r⟩ := ih bs (by simp at hl; omega)
      simp only [waveHeaders, List.drop_succ_cons, List.drop_zero, d, bind, Except.bind, pure, Except.pure]
      refine ⟨_, by rw [show 4 * (ch + 1) = 4 * ch + 1 + 1 + 1 + 1 by omega]; rfl, by simp [l], ?_, ?_⟩
      · intro c hc
        cases c with
        | zero => exact ⟨b2, _, rfl, rfl, rfl⟩
        | succ c =>
          obtain ⟨b, s, e1, e2, e3⟩ := h c (by omega)
          refine ⟨b, s, ?_, ?_, e3⟩
          · rw [show 4 * (c + 1) + 2 = 4 * c + 2 + 1 + 1 + 1 + 1 by omega]; simpa using e1
          · simpa using e2
      · intro s hs
        rcases List.mem_cons.1 hs with rfl | h'
        · have key : ∀ n : Fin 256, n.val &&& 0x80 ≠ 0 ↔ 128 ≤ n.val := by decide +kernel
          have := key ⟨_, b1.isLt⟩
          simp only at this
          simp only [this]
          have := b0.isLt; have := b1.isLt
          split <;> constructor <;> omega
        · exact r s h'

theorem clamp_range (x : Int) : -32768 ≤ clamp x (-32768) 32767 ∧ clamp x (-32768) 32767 ≤ 32767 :=
  ⟨clamp_lo _ _ _ (by decide), clamp_hi _ _ _ (by decide)⟩

theorem qt_any (k : Nat) (ch : Nat) : ∀ bs : List Byte, (2 + k) * ch ≤ bs.length →
    (∀ c, c < ch → ∀ b, bs[(2 + k) * c + 1]? = some b → b.toNat % 128 ≤ 88) →
    ∃ cols, qtChannels (2 * k) ch bs = .ok cols ∧ cols.length = ch ∧ ∀ col ∈ cols, ∀ x ∈ col, -32768 ≤ x ∧ x ≤ 32767 := by
  induction ch with
  | zero => intro bs _ _; exact ⟨[], rfl, rfl, by simp⟩
  | succ ch ih =>
    intro bs hl hb
    have hl' : (2 + k) * ch + (2 + k) ≤ bs.length := by rw [Nat.mul_add] at hl; omega
    match bs, hl' with
    | [], hl' => exact absurd hl' (by simp)
    | [_], hl' => exact absurd hl' (by simp only [List.length_cons, List.length_nil]; omega)
    | b0 :: b1 :: bs, hl' =>
      have h1 := hb 0 (by omega) b1 (by simp)
      have e7 := and7f _ b1.isLt
      simp only [qtChannels, show (2 * k + 1) / 2 = k by omega]
      obtain ⟨xs, s', d, l, _, _, r⟩ := pairs_any k
        ⟨clamp (if ((b0.toNat : Int) * 256 + (b1.toNat &&& 0x80 : Nat)) ≥ 0x8000 then
            ((b0.toNat : Int) * 256 + (b1.toNat &&& 0x80 : Nat)) - 0x10000 else ((b0.toNat : Int) * 256 + (b1.toNat &&& 0x80 : Nat)))
            (-32768) 32767, (b1.toNat &&& 0x7f : Nat)⟩ bs (by simp only [e7]; omega) (by simp at hl'; omega)
      obtain ⟨cols, d2, l2, r2⟩ := ih (bs.drop k) (by simp at hl' ⊢; omega) (by
        intro c hc b e
        apply hb (c + 1) (by omega)
        rw [← e, show (2 + k) * (c + 1) + 1 = (k + ((2 + k) * c + 1)) + 1 + 1 by rw [Nat.mul_add]; omega]
        simp)
      refine ⟨xs :: cols, ?_, by simp [l2], ?_⟩
      · simp only [d, d2, bind, Except.bind, pure, Except.pure]
      · intro x hx
        rcases List.mem_cons.1 hx with rfl | h
        · exact r
        · exact r2 x h

theorem qt_bad (k : Nat) (ch : Nat) : ∀ bs : List Byte, (2 + (k + 1)) * ch ≤ bs.length →
    (∃ c, c < ch ∧ ∃ b, bs[(2 + (k + 1)) * c + 1]? = some b ∧ 88 < b.toNat % 128) →
    qtChannels (2 * (k + 1)) ch bs = .error .bufferOverflow := by
  induction ch with
  | zero => intro bs _ h; obtain ⟨c, hc, _⟩ := h; omega
  | succ ch ih =>
    intro bs hl hb
    have hl' : (2 + (k + 1)) * ch + (2 + (k + 1)) ≤ bs.length := by rw [Nat.mul_add] at hl; omega
    match bs, hl' with
    | [], hl' => exact absurd hl' (by simp)
    | [_], hl' => exact absurd hl' (by simp only [List.length_cons, List.length_nil]; omega)
    | b0 :: b1 :: bs, hl' =>
      have e7 := and7f _ b1.isLt
      simp only [qtChannels, show (2 * (k + 1) + 1) / 2 = k + 1 by omega]
      by_cases h1 : b1.toNat % 128 ≤ 88
      · obtain ⟨xs, s', d, l, _, _, r⟩ := pairs_any (k + 1)
          ⟨clamp (if ((b0.toNat : Int) * 256 + (b1.toNat &&& 0x80 : Nat)) ≥ 0x8000 then
              ((b0.toNat : Int) * 256 + (b1.toNat &&& 0x80 : Nat)) - 0x10000 else ((b0.toNat : Int) * 256 + (b1.toNat &&& 0x80 : Nat)))
              (-32768) 32767, (b1.toNat &&& 0x7f : Nat)⟩ bs (by simp only [e7]; omega) (by simp at hl'; omega)
        have d2 := ih (bs.drop (k + 1)) (by simp at hl' ⊢; omega) (by
          obtain ⟨c, hc, b, e, hb⟩ := hb
          cases c with
          | zero =>
            simp at e
            subst e
            omega
          | succ c =>
            refine ⟨c, by omega, b, ?_, hb⟩
            rw [← e, show (2 + (k + 1)) * (c + 1) + 1 = ((k + 1) + ((2 + (k + 1)) * c + 1)) + 1 + 1 by rw [Nat.mul_add]; omega]
            simp)
        simp only [d, d2, bind, Except.bind]
      · rw [pairs_bad k _ bs (by simp only [e7]; omega)]
        rfl

theorem wave_any (k ch : Nat) (bs : List Byte) (hl : (4 + 4 * k) * ch ≤ bs.length)
    (hb : ∀ c, c < ch → ∀ b, bs[4 * c + 2]? = some b → b.toNat ≤ 88) :
    ∃ frames, decodeBlockWAVE ch (8 * k + 1) bs = .ok frames ∧ frames.length = 8 * k + 1 ∧
      (∀ f ∈ frames, f.length = ch) ∧ ∀ f ∈ frames, ∀ x ∈ f, -32768 ≤ x ∧ x ≤ 32767 := by
  have hl' : 4 * ch + 4 * k * ch ≤ bs.length := by rw [Nat.add_mul] at hl; omega
  obtain ⟨sts, d, l, hi, r⟩ := headers_any ch bs (by omega)
  have hv : ∀ s ∈ sts, 0 ≤ s.index ∧ s.index ≤ 88 := by
    intro s hs
    obtain ⟨c, hc, e⟩ := List.getElem_of_mem hs
    obtain ⟨b, s', e1, e2, e3⟩ := hi c (by omega)
    rw [List.getElem?_eq_getElem hc, e] at e2
    cases e2
    have := hb c (by omega) b e1
    omega
  obtain ⟨out, d2, l2, w2, r2⟩ := groups_any k sts (bs.drop (4 * ch)) hv (by rw [l]; simp; omega)
  refine ⟨sts.map (·.prev) :: out, ?_, by simp [l2], ?_, ?_⟩
  · simp only [decodeBlockWAVE, d, show (8 * k + 1 - 1 + 7) / 8 = k by omega, d2, bind, Except.bind, l2]
    rw [if_neg (by omega)]; rfl
  · intro f hf
    rcases List.mem_cons.1 hf with rfl | h
    · simp [l]
    · rw [w2 f h, l]
  · intro f hf
    rcases List.mem_cons.1 hf with rfl | h
    · intro x hx
      obtain ⟨s, hs, rfl⟩ := List.mem_map.1 hx
      exact r s hs
    · exact r2 f h

theorem wave_bad (k ch : Nat) (bs : List Byte) (hl : (4 + 4 * (k + 1)) * ch ≤ bs.length)
    (hb : ∃ c, c < ch ∧ ∃ b, bs[4 * c + 2]? = some b ∧ 88 < b.toNat) :
    decodeBlockWAVE ch (8 * (k + 1) + 1) bs = .error .bufferOverflow := by
  have hl' : 4 * ch + (4 * k * ch + 4 * ch) ≤ bs.length := by
    rw [Nat.add_mul, Nat.mul_add, Nat.add_mul] at hl; omega
  obtain ⟨sts, d, l, hi, r⟩ := headers_any ch bs (by omega)
  obtain ⟨c, hc, b, e, hb⟩ := hb
  obtain ⟨b', s, e1, e2, e3⟩ := hi c hc
  rw [e] at e1; cases e1
  have g := group_bad sts (bs.drop (4 * ch)) ⟨s, List.mem_of_getElem? e2, by omega⟩ (by rw [l]; simp; omega)
  simp only [decodeBlockWAVE, d, show (8 * (k + 1) + 1 - 1 + 7) / 8 = k + 1 by omega, waveGroups, g, bind, Except.bind]

theorem waveGroups_length (k : Nat) : ∀ (sts : List St) (bs : List Byte) (out : List (List Int)),
    waveGroups k sts bs = .ok out → out.length = 8 * k := by
  induction k with
  | zero => intro sts bs out h; cases h; rfl
  | succ k ih =>
    intro sts bs out h
    simp only [waveGroups, bind, Except.bind] at h
    split at h
    · cases h
    split at h
    · cases h
    rename_i o eo
    simp only [pure, Except.pure, Except.ok.injEq] at h
    subst h
    have := ih _ _ _ eo
    simp [interleave, this]
    omega

end AF.IMA
