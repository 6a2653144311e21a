import Verif.Proof.ALAC.Packet
/-! # Whole packets -/
namespace AF.ALAC

/-- From channel `ci` on the map of a number of channels has mono elements and pairs that fill the channels exactly. -/
def covers (ch : Nat) : Nat → Nat → Bool
  | 0, ci => decide (ch ≤ ci)
  | r + 1, ci => decide (ch ≤ ci) || (tagOf ch ci == SCE && covers ch r (ci + 1)) ||
      (tagOf ch ci == CPE && decide (ci + 2 ≤ ch) && covers ch r (ci + 2))

theorem maps_cover {ch : Nat} (h1 : 1 ≤ ch) (h8 : ch ≤ 8) : covers ch ch 0 = true := by
  have : ch = 1 ∨ ch = 2 ∨ ch = 3 ∨ ch = 4 ∨ ch = 5 ∨ ch = 6 ∨ ch = 7 ∨ ch = 8 := by omega
  rcases this with rfl | rfl | rfl | rfl | rfl | rfl | rfl | rfl <;> decide

theorem channel_length (buf : Nat → Int) (ch n c : Nat) : (channel buf ch n c).length = n := by simp [channel]

theorem channelPair_length (buf : Nat → Int) (ch n c : Nat) : (channelPair buf ch n c).length = n := by simp [channelPair]

theorem index_lt {i n c ch : Nat} (hi : i < n) (hc : c < ch) : i * ch + c < n * ch := by
  have : (i + 1) * ch ≤ n * ch := Nat.mul_le_mul_right _ hi
  rw [Nat.succ_mul] at this
  omega

theorem channel_range {d : Nat} {buf : Nat → Int} {ch n c : Nat} (hb : ∀ k, k < n * ch → InRange d (buf k)) (hc : c < ch) :
    ∀ x ∈ channel buf ch n c, InRange d x := by
  intro x hx
  unfold channel at hx
  obtain ⟨i, hi, rfl⟩ := List.mem_map.1 hx
  exact hb _ (index_lt (List.mem_range.1 hi) hc)

theorem channelPair_range {d : Nat} {buf : Nat → Int} {ch n c : Nat} (hb : ∀ k, k < n * ch → InRange d (buf k))
    (hc : c + 2 ≤ ch) : ∀ x ∈ channelPair buf ch n c, InRange d x.1 ∧ InRange d x.2 := by
  intro x hx
  unfold channelPair at hx
  obtain ⟨i, hi, rfl⟩ := List.mem_map.1 hx
  have hi := List.mem_range.1 hi
  exact ⟨hb _ (index_lt hi (by omega)), by
    rw [Nat.add_assoc]; exact hb _ (index_lt hi (by omega))⟩

/-- The output buffer once the channels from `ci` on are decoded. -/
def filled (d ch n ci : Nat) (buf out : Nat → Int) : Nat → Int := fun k =>
  if k / ch < n ∧ ci ≤ k % ch then kept d (buf k) else out k

theorem put_channel {d ch n ci : Nat} (hch : 0 < ch) (hci : ci < ch) (buf out : Nat → Int) (j : Nat) (hj : j = ci) :
    filled d ch n (ci + 1) buf (putChannel ch j ((channel buf ch n ci).map (kept d)) out) = filled d ch n ci buf out := by
  subst hj
  funext k
  unfold filled putChannel
  have hk : k / ch * ch + k % ch = k := by rw [Nat.mul_comm]; exact Nat.div_add_mod k ch
  have hm := Nat.mod_lt k hch
  simp only [List.length_map, channel_length]
  by_cases hn : k / ch < n
  · by_cases hc : k % ch = j
    · rw [if_neg (by omega), if_pos ⟨hc, hn⟩, if_pos ⟨hn, by omega⟩]
      unfold channel
      rw [List.getD_eq_getElem?_getD, List.map_map, List.getElem?_map, List.getElem?_range hn]
      simp only [Option.map_some, Option.getD_some, Function.comp]
      rw [← hc, hk]
    · by_cases hlt : j ≤ k % ch
      · rw [if_pos ⟨hn, by omega⟩, if_pos ⟨hn, hlt⟩]
      · rw [if_neg (by omega), if_neg (by omega), if_neg (by omega)]
  · rw [if_neg (by omega), if_neg (by omega), if_neg (by omega)]

theorem filled_all {d ch n ci : Nat} (hch : 0 < ch) (h : ch ≤ ci) (buf out : Nat → Int) : filled d ch n ci buf out = out := by
  funext k
  unfold filled
  have := Nat.mod_lt k hch
  rw [if_neg (by omega)]

theorem pair_fst (d : Nat) (buf : Nat → Int) (ch n c : Nat) :
    ((channelPair buf ch n c).map fun x => (kept d x.1, kept d x.2)).map Prod.fst = (channel buf ch n c).map (kept d) := by
  simp [channelPair, channel]

theorem pair_snd (d : Nat) (buf : Nat → Int) (ch n c : Nat) :
    ((channelPair buf ch n c).map fun x => (kept d x.1, kept d x.2)).map Prod.snd = (channel buf ch n (c + 1)).map (kept d) := by
  simp [channelPair, channel, Nat.add_assoc]

theorem tagBits (a b : Nat) : (fieldBits [((a : Int), 3), ((b : Int), 4)]).length = 7 := by simp [fieldBits_length]

theorem tag_read {mem : Mem} {pos a b : Nat} (ha : a < 8) (h : Holds mem pos (fieldBits [((a : Int), 3), ((b : Int), 4)])) :
    (bbReadSmall mem pos 3).toNat = a := by
  rw [fieldBits_cons, Holds.append] at h
  have h1 := h.1
  dsimp only at h1
  rw [bitsOf_natField (by omega)] at h1
  exact (bbReadSmall_read (by omega)).eq h1 (by omega)

theorem loop_packets {d fs ch n : Nat} (hd : Depth d) (hch : 0 < ch) {choice : Nat → Choice} (hc : ∀ i, (choice i).OK)
    {buf : Nat → Int} (hb : ∀ k, k < n * ch → InRange d (buf k)) (hn : n < 2 ^ 24) (hfs : n ≤ fs) (hfs9 : 9 ≤ fs) :
    ∀ r ci mono stereo lfe, covers ch r ci = true → ∃ bs,
      Writes (encodeLoop d fs ch n choice buf r ci mono stereo lfe) bs ∧
      bs.length ≤ (ch - ci) * (n * d + 55) ∧ ch - ci ≤ bs.length ∧
      ∀ mem byteSize pos capacity requested out frames r', Holds mem pos bs → pos + bs.length + 3 ≤ 8 * byteSize →
        ch - ci ≤ r' → (n = fs → requested = fs) → n ≤ capacity → ci < ch →
        decodeLoop (configOf fs d) byteSize mem ch capacity r' pos ci requested out frames =
          .ok ⟨filled d ch n ci buf out, n, false⟩ := by
  intro r
  induction r with
  | zero =>
    intro ci mono stereo lfe hcov
    have hle : ch ≤ ci := by simpa [covers] using hcov
    refine ⟨[], fun m pos => ⟨m, by simp [encodeLoop], Put.nil m pos⟩, by simp, by simp; omega, ?_⟩
    intros; omega
  | succ r ih =>
    intro ci mono stereo lfe hcov
    by_cases hle : ch ≤ ci
    · refine ⟨[], fun m pos => ⟨m, by simp [encodeLoop, hle, pure, Except.pure], Put.nil m pos⟩, by simp,
        by simp; omega, ?_⟩
      intros; omega
    · have hcov' : (tagOf ch ci = SCE ∧ covers ch r (ci + 1) = true) ∨
          (tagOf ch ci = CPE ∧ ci + 2 ≤ ch ∧ covers ch r (ci + 2) = true) := by
        simp only [covers, Bool.or_eq_true, Bool.and_eq_true, beq_iff_eq, decide_eq_true_eq] at hcov
        rcases hcov with (h | h) | h
        · omega
        · exact Or.inl h
        · exact Or.inr ⟨h.1.1, h.1.2, h.2⟩
      have hel1 : escapeSize fs n d 1 ≤ n * d + 48 := by unfold escapeSize; rw [Nat.mul_one]; split <;> omega
      have hel2 : escapeSize fs n d 2 ≤ 2 * (n * d) + 48 := by unfold escapeSize; split <;> omega
      rcases hcov' with ⟨ht, hr⟩ | ⟨ht, h2, hr⟩
      · obtain ⟨e, we, hsz, re⟩ := mono_roundtrip hd (hc ci) (channel_range hb (by omega : ci < ch))
          (fs := fs) (by rw [channel_length]; exact hn) (by rw [channel_length]; exact hfs) hfs9
        rw [channel_length] at hsz re
        obtain ⟨rest, wr, hsr, hsr2, rr⟩ := ih (ci + 1) (mono + 1) stereo lfe hr
        have ht7 := tagBits SCE mono
        have wt := putAll_put [((SCE : Int), 3), ((mono : Int), 4)] (by simp)
        generalize hT : fieldBits [((SCE : Int), 3), ((mono : Int), 4)] = T at wt ht7
        have hmul : (ch - ci) * (n * d + 55) = (ch - (ci + 1)) * (n * d + 55) + (n * d + 55) := by
          rw [show ch - ci = (ch - (ci + 1)) + 1 by omega, Nat.succ_mul]
        refine ⟨T ++ e ++ rest, ?_, ?_, ?_, ?_⟩
        · intro m pos
          obtain ⟨m1, e1, p1⟩ := wt m pos
          obtain ⟨m2, e2, p2⟩ := we m1 (pos + T.length)
          obtain ⟨m3, e3, p3⟩ := wr m2 (pos + T.length + e.length)
          refine ⟨m3, ?_, (p1.append p2).append (by rw [List.length_append, ← Nat.add_assoc]; exact p3)⟩
          unfold encodeLoop
          simp only [bind, Except.bind, ht]
          rw [if_neg hle, if_pos True.intro, e1]
          simp only
          rw [e2]
          simp only
          rw [e3]
          simp only [List.length_append, Nat.add_assoc]
        · simp only [List.length_append]; omega
        · simp only [List.length_append]; omega
        · intro mem byteSize pos capacity requested out frames r' hh hs hr' hreq hcap hci
          simp only [List.length_append] at hs
          rw [Holds.append, Holds.append, List.length_append] at hh
          obtain ⟨⟨h1, h2⟩, h3⟩ := hh
          obtain ⟨r', rfl⟩ : ∃ q, r' = q + 1 := ⟨r' - 1, by omega⟩
          unfold decodeLoop
          rw [if_neg (by omega)]
          rw [← hT] at h1
          have htag := tag_read (by decide) h1
          simp only [htag]
          rw [if_pos (Or.inl True.intro)]
          rw [ht7, show pos + 7 = pos + 3 + 4 by omega] at h2
          rw [re mem byteSize (pos + 3) requested capacity hreq hcap h2 (by omega)]
          simp only
          have hput := put_channel (d := d) (n := n) hch hci buf out ci rfl
          by_cases hlast : ch ≤ ci + 1
          · rw [if_pos hlast, ← hput, filled_all hch hlast]
          · rw [if_neg hlast, ← hput]
            rw [show pos + 3 + 4 + e.length = pos + (T.length + e.length) by omega]
            exact rr mem byteSize _ capacity n _ n r' h3 (by omega) (by omega) (fun h => h) hcap (by omega)
      · obtain ⟨e, we, hsz, re⟩ := stereo_roundtrip hd (hc ci) (channelPair_range hb h2)
          (fs := fs) (by rw [channelPair_length]; exact hn) (by rw [channelPair_length]; exact hfs) hfs9
        rw [channelPair_length] at hsz re
        obtain ⟨rest, wr, hsr, hsr2, rr⟩ := ih (ci + 2) mono (stereo + 1) lfe hr
        have ht7 := tagBits CPE stereo
        have wt := putAll_put [((CPE : Int), 3), ((stereo : Int), 4)] (by simp)
        generalize hT : fieldBits [((CPE : Int), 3), ((stereo : Int), 4)] = T at wt ht7
        have hmul : (ch - ci) * (n * d + 55) = (ch - (ci + 2)) * (n * d + 55) + (n * d + 55) + (n * d + 55) := by
          rw [show ch - ci = (ch - (ci + 2)) + 1 + 1 by omega, Nat.succ_mul, Nat.succ_mul]
        refine ⟨T ++ e ++ rest, ?_, ?_, ?_, ?_⟩
        · intro m pos
          obtain ⟨m1, e1, p1⟩ := wt m pos
          obtain ⟨m2, e2, p2⟩ := we m1 (pos + T.length)
          obtain ⟨m3, e3, p3⟩ := wr m2 (pos + T.length + e.length)
          refine ⟨m3, ?_, (p1.append p2).append (by rw [List.length_append, ← Nat.add_assoc]; exact p3)⟩
          unfold encodeLoop
          simp only [bind, Except.bind, ht]
          rw [if_neg hle, if_neg (by decide), if_pos True.intro, e1]
          simp only
          rw [e2]
          simp only
          rw [e3]
          simp only [List.length_append, Nat.add_assoc]
        · simp only [List.length_append]; omega
        · simp only [List.length_append]; omega
        · intro mem byteSize pos capacity requested out frames r' hh hs hr' hreq hcap hci
          simp only [List.length_append] at hs
          rw [Holds.append, Holds.append, List.length_append] at hh
          obtain ⟨⟨h1, h2'⟩, h3⟩ := hh
          obtain ⟨r', rfl⟩ : ∃ q, r' = q + 1 := ⟨r' - 1, by omega⟩
          unfold decodeLoop
          rw [if_neg (by omega)]
          rw [← hT] at h1
          have htag := tag_read (by decide) h1
          simp only [htag]
          rw [if_neg (by decide), if_pos True.intro, if_neg (by omega)]
          rw [ht7, show pos + 7 = pos + 3 + 4 by omega] at h2'
          rw [re mem byteSize (pos + 3) requested capacity hreq hcap h2' (by omega)]
          simp only [pair_fst, pair_snd]
          have hput1 := put_channel (d := d) (n := n) hch hci buf out ci rfl
          have hput2 := put_channel (d := d) (n := n) hch (by omega : ci + 1 < ch) buf
            (putChannel ch ci ((channel buf ch n ci).map (kept d)) out) (ci + 1) rfl
          by_cases hlast : ch ≤ ci + 2
          · rw [if_pos hlast, ← hput1, ← hput2, filled_all hch hlast]
          · rw [if_neg hlast, ← hput1, ← hput2]
            rw [show pos + 3 + 4 + e.length = pos + (T.length + e.length) by omega]
            exact rr mem byteSize _ capacity n _ n r' h3 (by omega) (by omega) (fun h => h) hcap (by omega)

end AF.ALAC
