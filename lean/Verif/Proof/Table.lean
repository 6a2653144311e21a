/-! Complete tables: a balanced check of a Boolean predicate on `[lo, lo + 2^k)`, evaluated by the kernel. -/
namespace AF

/-- Balanced conjunction of `f lo, …, f (lo + 2^k - 1)`. -/
def checkRange (f : Nat → Bool) : Nat → Nat → Bool
  | 0, lo => f lo
  | k + 1, lo => checkRange f k lo && checkRange f k (lo + 2 ^ k)

theorem checkRange_spec (f : Nat → Bool) : ∀ (k lo : Nat), checkRange f k lo = true →
    ∀ i, i < 2 ^ k → f (lo + i) = true
  | 0, lo, h, i, hi => by
      have : i = 0 := by simpa using hi
      subst this; simpa [checkRange] using h
  | k + 1, lo, h, i, hi => by
      simp only [checkRange, Bool.and_eq_true] at h
      by_cases hik : i < 2 ^ k
      · exact checkRange_spec f k lo h.1 i hik
      · have h2 := checkRange_spec f k (lo + 2 ^ k) h.2 (i - 2 ^ k) (by rw [Nat.pow_succ] at hi; omega)
        have e : lo + 2 ^ k + (i - 2 ^ k) = lo + i := by omega
        rwa [e] at h2

/-- A predicate checked on the whole table of `2^k` naturals holds for each of them. -/
theorem forall_lt_of_check (k : Nat) (p : Nat → Prop) [DecidablePred p]
    (h : checkRange (fun i => decide (p i)) k 0 = true) : ∀ i, i < 2 ^ k → p i := by
  intro i hi
  have := checkRange_spec _ k 0 h i hi
  simpa using this

end AF
