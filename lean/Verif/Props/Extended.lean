import Verif.Proof.Extended
/-!
# C24: sample rates survive the 80-bit encoding of AIFF files
-/
namespace AF.Props
open AF AF.Convert AF.Spec AF.Extended

/-- C24: ten bytes are written for every rate, and for every finite double - normal or subnormal, of either sign -
reading them back gives exactly that number, on every machine whose rounding keeps representable numbers. -/
theorem C24_rate_roundtrip (rnd : Rat → Dbl) (hr : ExactOnDoubles rnd) (q : Rat) (hq : IsDouble q) :
    (encode (.fin q)).length = 10 ∧ decode rnd (byteAt (encode (.fin q))) = .fin q := by
  refine ⟨?_, roundtrip rnd hr hq⟩
  have key : ∀ (r : Rat) (sg : Int), (if r = 0 then store 0 0 0
      else if (frexp r).2 > 16384 then store (sg + 0x7fff) 0 0
      else store (finiteWords sg r).1 (finiteWords sg r).2.1 (finiteWords sg r).2.2).length = 10 := by
    intro r sg
    by_cases h1 : r = 0
    · rw [if_pos h1]; rfl
    · rw [if_neg h1]
      by_cases h2 : (frexp r).2 > 16384
      · rw [if_pos h2]; rfl
      · rw [if_neg h2]; rfl
  exact key _ _

/-- C24: different rates are written differently. -/
theorem C24_rate_injective (q r : Rat) (hq : IsDouble q) (hr : IsDouble r)
    (h : encode (.fin q) = encode (.fin r)) : q = r := by
  have h1 := roundtrip (fun x => .fin x) (fun _ _ => rfl) hq
  have h2 := roundtrip (fun x => .fin x) (fun _ _ => rfl) hr
  rw [h, h2] at h1
  injection h1 with h1
  exact h1.symm

/-- C24: infinities also survive; a NaN rate does not (it becomes positive infinity). -/
theorem C24_non_finite (rnd : Rat → Dbl) :
    (∀ s, decode rnd (byteAt (encode (.inf s))) = .inf s) ∧ decode rnd (byteAt (encode .nan)) = .inf false := by
  refine ⟨?_, ?_⟩
  · intro s
    have := decode_store rnd 0x7fff s 0 0 (by decide) (by decide) (by decide) (by decide)
    simp only [encode]
    rw [this]
    cases s <;> simp [neg]
  · have := decode_store rnd 0x7fff false 0 0 (by decide) (by decide) (by decide) (by decide)
    simp only [encode]
    simpa using this

/-- A usual rate is a double, and these are its bytes. -/
example : IsDouble 44100 := ⟨44100, 0, by decide, by decide, by decide, by decide +kernel⟩
example : encode (.fin 44100) = [0x40, 0x0e, 0xac, 0x44, 0, 0, 0, 0, 0, 0] := by decide +kernel
example : encode (.fin (-(3 / 2))) = [0xbf, 0xff, 0xc0, 0, 0, 0, 0, 0, 0, 0] := by decide +kernel
/-- The smallest positive double. -/
example : IsDouble ((2 : Rat) ^ (-1074 : Int)) := ⟨1, -1074, by decide, by decide, by decide, by rw [show ((1 : Int) : Rat) = 1 from rfl, Rat.one_mul]⟩
example : ExactOnDoubles (fun q => .fin q) := fun _ _ => rfl

end AF.Props
