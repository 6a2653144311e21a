import Verif.Model.PvList
/-!
# C29: parameter/value lists behave as arrays
-/
namespace AF.Pv

/-! ## Specification: what a history of calls leaves at an index -/

/-- The parameter last set at index `i` (0 if none). -/
def lastParam (i : Int) (h : List Op) : Int :=
  h.foldl (fun acc op => match op with | .setParam j p => if j = i then p else acc | _ => acc) 0

/-- The type last set at index `i` (`AU_PVTYPE_LONG` if none). -/
def lastType (i : Int) (h : List Op) : Int :=
  h.foldl (fun acc op => match op with | .setValType j t => if j = i then t else acc | _ => acc) LONG

/-- The three types that exist. -/
def KnownType (t : Int) : Prop := t = LONG ∨ t = DOUBLE ∨ t = PTR
instance (t : Int) : Decidable (KnownType t) := inferInstanceAs (Decidable (_ ∨ _))

/-- The value last set at index `i` while the item's type was one of the three (0 if none). -/
def lastVal (i : Int) : List Op → BitVec 64 := fun h => go [] h 0
where
  /-- `done` is the history so far. -/
  go (done : List Op) : List Op → BitVec 64 → BitVec 64
    | [], acc => acc
    | op :: rest, acc =>
      go (done ++ [op]) rest
        (match op with | .setVal j v => if j = i ∧ KnownType (lastType i done) then v else acc | _ => acc)

/-- Items left by a history. -/
def itemAfter (h : List Op) (i : Int) : Item :=
  { type := lastType i h, param := lastParam i h, value := lastVal i h }

theorem go_append (i : Int) (a b done : List Op) (acc : BitVec 64) :
    lastVal.go i done (a ++ b) acc = lastVal.go i (done ++ a) b (lastVal.go i done a acc) := by
  induction a generalizing done acc with
  | nil => simp [lastVal.go]
  | cons op a ih => simp [lastVal.go, ih]

theorem lastVal_snoc (i : Int) (h : List Op) (op : Op) :
    lastVal i (h ++ [op]) =
      match op with | .setVal j v => if j = i ∧ KnownType (lastType i h) then v else lastVal i h | _ => lastVal i h := by
  simp only [lastVal, go_append, List.nil_append, lastVal.go]

theorem lastParam_snoc (i : Int) (h : List Op) (op : Op) :
    lastParam i (h ++ [op]) =
      match op with | .setParam j p => if j = i then p else lastParam i h | _ => lastParam i h := by
  simp only [lastParam, List.foldl_append, List.foldl_cons, List.foldl_nil]

theorem lastType_snoc (i : Int) (h : List Op) (op : Op) :
    lastType i (h ++ [op]) =
      match op with | .setValType j t => if j = i then t else lastType i h | _ => lastType i h := by
  simp only [lastType, List.foldl_append, List.foldl_cons, List.foldl_nil]

theorem run_snoc (l : PvList) (h : List Op) (op : Op) : run l (h ++ [op]) = (step (run l h) op).2 := by
  induction h generalizing l with
  | nil => rfl
  | cons o h ih => simp [run, ih]

/-- The list after a history, entry by entry. -/
theorem run_new (n : Int) (hn : 0 < n) (h : List Op) :
    run (new n) h = some ((List.range n.toNat).map fun i : Nat => itemAfter h i) := by
  rw [← List.reverse_reverse h]
  induction h.reverse with
  | nil =>
    simp only [List.reverse_nil, run, new]
    rw [if_neg (by omega)]
    congr 1
    apply List.ext_getElem?; intro k
    by_cases hk : k < n.toNat
    · simp [hk, itemAfter, lastType, lastParam, lastVal, lastVal.go]
    · simp [hk]
  | cons op r ih =>
    rw [List.reverse_cons, run_snoc, ih]
    generalize r.reverse = g
    have hlen : ((List.range n.toNat).map fun i : Nat => itemAfter g i).length = n.toNat := by simp
    have hchk : ∀ i : Int, check (some ((List.range n.toNat).map fun i : Nat => itemAfter g i)) i =
        if i < 0 ∨ i ≥ n then .error BAD_PVITEM else .ok ((List.range n.toNat).map fun i : Nat => itemAfter g i, i.toNat) := by
      intro i
      simp only [check, hlen]
      by_cases hi : i < 0 ∨ i ≥ n
      · rw [if_pos hi, if_pos (by omega)]
      · rw [if_neg hi, if_neg (by omega)]
    cases op with
    | setParam i p =>
      simp only [step, setParam, hchk]
      by_cases hi : i < 0 ∨ i ≥ n
      · rw [if_pos hi]
        simp only [Option.some.injEq]
        apply List.map_congr_left
        intro k hk
        simp only [List.mem_range] at hk
        have : ¬ i = (k : Int) := by omega
        simp [itemAfter, lastParam_snoc, lastType_snoc, lastVal_snoc, this]
      · rw [if_neg hi]
        simp only [Option.some.injEq]
        apply List.ext_getElem?; intro k
        by_cases hk : k < n.toNat
        · by_cases hik : i.toNat = k
          · have : i = (k : Int) := by omega
            subst this
            simp [hk, itemAfter, lastParam_snoc, lastType_snoc, lastVal_snoc]
          · have : ¬ i = (k : Int) := by omega
            simp [hk, hik, List.getElem?_modify, itemAfter, lastParam_snoc, lastType_snoc, lastVal_snoc, this]
        · simp [hk, List.getElem?_modify]
    | setValType i t =>
      simp only [step, setValType, hchk]
      by_cases hi : i < 0 ∨ i ≥ n
      · rw [if_pos hi]
        simp only [Option.some.injEq]
        apply List.map_congr_left
        intro k hk
        simp only [List.mem_range] at hk
        have : ¬ i = (k : Int) := by omega
        simp [itemAfter, lastParam_snoc, lastType_snoc, lastVal_snoc, this]
      · rw [if_neg hi]
        simp only [Option.some.injEq]
        apply List.ext_getElem?; intro k
        by_cases hk : k < n.toNat
        · by_cases hik : i.toNat = k
          · have : i = (k : Int) := by omega
            subst this
            simp [hk, itemAfter, lastParam_snoc, lastType_snoc, lastVal_snoc]
          · have : ¬ i = (k : Int) := by omega
            simp [hk, hik, List.getElem?_modify, itemAfter, lastParam_snoc, lastType_snoc, lastVal_snoc, this]
        · simp [hk, List.getElem?_modify]
    | setVal i v =>
      simp only [step, setVal, hchk]
      by_cases hi : i < 0 ∨ i ≥ n
      · rw [if_pos hi]
        simp only [Option.some.injEq]
        apply List.map_congr_left
        intro k hk
        simp only [List.mem_range] at hk
        have : ¬ i = (k : Int) := by omega
        simp [itemAfter, lastParam_snoc, lastType_snoc, lastVal_snoc, this]
      · rw [if_neg hi]
        have hiN : i.toNat < n.toNat := by omega
        have hii : ((i.toNat : Nat) : Int) = i := by omega
        simp only [List.getElem?_map, List.getElem?_range hiN, Option.map_some, hii]
        by_cases hty : KnownType (lastType i g)
        · rw [if_pos (by simpa [itemAfter, KnownType] using hty)]
          simp only [Option.some.injEq]
          apply List.ext_getElem?; intro k
          by_cases hk : k < n.toNat
          · by_cases hik : i.toNat = k
            · have : i = (k : Int) := by omega
              subst this
              simp [hk, itemAfter, lastParam_snoc, lastType_snoc, lastVal_snoc, hty]
            · have : ¬ i = (k : Int) := by omega
              simp [hk, hik, List.getElem?_modify, itemAfter, lastParam_snoc, lastType_snoc, lastVal_snoc, this]
          · simp [hk, List.getElem?_modify]
        · rw [if_neg (by simpa [itemAfter, KnownType] using hty)]
          simp only [Option.some.injEq]
          apply List.map_congr_left
          intro k hk
          have : ¬ (i = (k : Int) ∧ KnownType (lastType (k : Int) g)) := by
            rintro ⟨e, h2⟩; rw [← e] at h2; exact hty h2
          simp only [itemAfter, lastParam_snoc, lastType_snoc, lastVal_snoc, this, if_false]

/-! ## The property -/

/-- **C29.** After any history of `AUpvset…` calls on a list made by `AUpvnew(n)`, the `AUpvget…` calls at an index
in range succeed and return what was last set there. -/
theorem C29_last_set_wins (n : Int) (h : List Op) (i : Int) (hi : 0 ≤ i ∧ i < n) :
    getParam (run (new n) h) i = (0, some (lastParam i h)) ∧
    getValType (run (new n) h) i = (0, some (lastType i h)) ∧
    getVal (run (new n) h) i = (0, if KnownType (lastType i h) then some (lastVal i h) else none) := by
  have hN : i.toNat < n.toNat := by omega
  have hii : ((i.toNat : Nat) : Int) = i := by omega
  have hc : check (some ((List.range n.toNat).map fun i : Nat => itemAfter h i)) i =
      .ok ((List.range n.toNat).map fun i : Nat => itemAfter h i, i.toNat) := by
    simp only [check, List.length_map, List.length_range]
    rw [if_neg (by omega)]
  rw [run_new n (by omega)]
  simp only [getParam, getValType, getVal, hc, List.getElem?_map, List.getElem?_range hN, Option.map_some, hii, SUCCESS]
  refine ⟨rfl, rfl, ?_⟩
  by_cases hk : KnownType (lastType i h)
  · rw [if_pos hk, if_pos (by simpa [itemAfter, KnownType] using hk)]; rfl
  · rw [if_neg hk, if_neg (by simpa [itemAfter, KnownType] using hk)]

example : getVal (run (new 3) [.setParam 1 301, .setVal 1 60, .setVal 2 7, .setValType 0 9, .setVal 0 5]) 1 =
    (0, some 60) := by decide
example : lastVal 1 [.setParam 1 301, .setVal 1 60, .setVal 2 7, .setValType 0 9, .setVal 0 5] = 60 := by decide

/-- Indices out of range are refused with `AU_BAD_PVITEM` (−6) without any effect. -/
theorem C29_out_of_range (n : Int) (hn : 0 < n) (h : List Op) (i : Int) (hi : i < 0 ∨ n ≤ i) (p t : Int) (v : BitVec 64) :
    let l := run (new n) h
    setParam l i p = (-6, l) ∧ setValType l i t = (-6, l) ∧ setVal l i v = (-6, l) ∧
      getParam l i = (-6, none) ∧ getValType l i = (-6, none) ∧ getVal l i = (-6, none) := by
  have hc : check (some ((List.range n.toNat).map fun i : Nat => itemAfter h i)) i = .error BAD_PVITEM := by
    simp only [check, List.length_map, List.length_range]
    rw [if_pos (by omega)]
  rw [run_new n hn]
  simp [setParam, setValType, setVal, getParam, getValType, getVal, hc, BAD_PVITEM]

/-- A value for an item whose type is not one of the three is refused with `AU_BAD_PVLIST` (−5) without effect. -/
theorem C29_unknown_type_refused (n : Int) (h : List Op) (i : Int) (hi : 0 ≤ i ∧ i < n) (v : BitVec 64)
    (ht : ¬ KnownType (lastType i h)) :
    setVal (run (new n) h) i v = (-5, run (new n) h) := by
  have hN : i.toNat < n.toNat := by omega
  have hii : ((i.toNat : Nat) : Int) = i := by omega
  have hc : check (some ((List.range n.toNat).map fun i : Nat => itemAfter h i)) i =
      .ok ((List.range n.toNat).map fun i : Nat => itemAfter h i, i.toNat) := by
    simp only [check, List.length_map, List.length_range]
    rw [if_neg (by omega)]
  rw [run_new n (by omega)]
  simp only [setVal, hc, List.getElem?_map, List.getElem?_range hN, Option.map_some, hii]
  rw [if_neg (by simpa [itemAfter, KnownType] using ht)]
  rfl

example : ¬ KnownType (lastType 0 [.setValType 0 9]) := by decide

/-- `AUpvnew` refuses sizes below 1, and calls on the null list fail with `AU_BAD_PVLIST`. -/
theorem C29_null (n : Int) (hn : n ≤ 0) (i p : Int) (v : BitVec 64) :
    new n = none ∧ setParam none i p = (-5, none) ∧ setVal none i v = (-5, none) ∧ getVal none i = (-5, none) ∧
      getMaxItems none = -5 := by
  simp [new, hn, setParam, setVal, getVal, check, getMaxItems, BAD_PVLIST]

/-- The list's size is fixed. -/
theorem C29_size (n : Int) (hn : 0 < n) (h : List Op) : getMaxItems (run (new n) h) = n := by
  rw [run_new n hn]; simp [getMaxItems]; omega

/-- The part of the English property that does not hold: types are not compared between setting and getting. A value
stored as a `double` is returned as a `long` (the same 8 bytes) once the item's type is changed. -/
theorem C29_type_mismatch_not_refused (n : Int) (i : Int) (hi : 0 ≤ i ∧ i < n) (bits : BitVec 64) :
    getVal (run (new n) [.setValType i DOUBLE, .setVal i bits, .setValType i LONG]) i = (0, some bits) := by
  have := (C29_last_set_wins n [.setValType i DOUBLE, .setVal i bits, .setValType i LONG] i hi).2.2
  rw [this]
  simp [lastType, lastVal, lastVal.go, KnownType]

end AF.Pv
