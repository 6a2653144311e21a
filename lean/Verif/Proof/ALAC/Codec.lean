import Verif.Proof.ALAC.Loop
/-! # ALAC: a whole packet -/
namespace AF.ALAC

theorem Put.mono {m m' : Mem} {pos : Nat} {a b : List Bool} (h : Put m pos (a ++ b) m') : Holds m' pos a :=
  (Holds.append.1 (show Holds m' pos (a ++ b) from h.1)).1

/-- A packet is one string of bits: written anywhere in memory, the decoder reads the samples back. -/
theorem packet_ok {d fs ch n : Nat} (hd : Depth d) (h1 : 1 ≤ ch) (h8 : ch ≤ 8) {choice : Nat → Choice}
    (hc : ∀ i, (choice i).OK) {buf : Nat → Int} (hb : ∀ k, k < n * ch → InRange d (buf k)) (hn : n < 2 ^ 24) (hfs : n ≤ fs)
    (hfs9 : 9 ≤ fs) (m : Mem) :
    ∃ m' size, encode d fs ch n choice buf m = .ok (m', size) ∧ 1 ≤ size ∧ 8 * size ≤ ch * (n * d + 55) + 10 ∧
      ∀ mem out, SameBits m' mem 0 (8 * size) →
        decode (configOf fs d) size mem ch fs out =
          .ok ⟨fun k => if k / ch < n then kept d (buf k) else out k, n, false⟩ := by
  obtain ⟨bs, wr, hl, hl2, dec⟩ := loop_packets hd h1 hc hb hn hfs hfs9 ch 0 0 0 0 (maps_cover h1 h8)
  obtain ⟨m1, e1, p1⟩ := wr m 0
  have hsmall : ∀ f ∈ ([((END : Int), 3)] ++ (if (bs.length + 3) % 8 = 0 then [] else [((0 : Int), 8 - (bs.length + 3) % 8)])),
      f.2 ≤ 32 := by
    intro f hf
    rcases List.mem_append.1 hf with hf | hf
    · simp at hf; subst hf; simp
    · split at hf
      · simp at hf
      · simp at hf; subst hf; dsimp only; omega
  obtain ⟨m2, e2, p2⟩ := putAll_put _ hsmall m1 bs.length
  have hlen : (fieldBits ([((END : Int), 3)] ++ (if (bs.length + 3) % 8 = 0 then [] else
      [((0 : Int), 8 - (bs.length + 3) % 8)]))).length = 3 + (if (bs.length + 3) % 8 = 0 then 0 else 8 - (bs.length + 3) % 8) := by
    rw [fieldBits_length]
    split <;> simp
  generalize fieldBits ([((END : Int), 3)] ++ (if (bs.length + 3) % 8 = 0 then [] else
      [((0 : Int), 8 - (bs.length + 3) % 8)])) = tl at e2 p2 hlen
  have h8s : 8 * ((bs.length + tl.length) / 8) = bs.length + tl.length := by
    rw [hlen]; split <;> omega
  have hput := p1.append (by rw [Nat.zero_add]; exact p2)
  refine ⟨m2, (bs.length + tl.length) / 8, ?_, by rw [hlen] at h8s ⊢; omega, ?_, ?_⟩
  · unfold encode
    simp only [bind, Except.bind, e1, Nat.zero_add]
    rw [e2]
    rfl
  · rw [h8s, hlen]; simp only [Nat.sub_zero] at hl; split <;> omega
  · intro mem out hs
    have hh : Holds mem 0 bs := by
      have h0 := hput.mono
      intro i hi
      have := h0 i hi
      rw [← hs (0 + i) (by omega) (by omega)]
      exact this
    unfold decode
    rw [if_neg (by omega)]
    rw [dec mem _ 0 fs fs out fs _ hh (by rw [h8s, hlen]; omega) (by rw [show 8 * ((bs.length + tl.length) / 8) + 1 = bs.length + tl.length + 1 by rw [h8s]]; omega) (fun _ => rfl) hfs (by omega)]
    congr 2
    funext k
    unfold filled
    simp

end AF.ALAC
