import Verif.Model.Faults
import Verif.Proof.Writing
import Verif.Spec.Faults
namespace AF.Faults
open AF AF.Writing
variable {V α γ ε : Type} {taken : Nat → Nat → Nat}

theorem fwrite_spec (taken : Nat → Nat → Nat) (bs : List Byte) (x : FSt V α ε) :
    ∃ k, k ≤ bs.length ∧ fwrite taken bs x = (k, ⟨Writing.fwrite (bs.take k) x.s, x.happy, x.tick + 1⟩) :=
  ⟨_, Nat.min_le_right _ _, rfl⟩

/-- A push after which the file module is happy wrote everything: it is the push of `Verif.Model.Writing`. -/
theorem filePush_sim (c : Cfg V α γ ε) (h : WF c) (hc : c.checks = false) (buf : List α) (n : Nat) (x : FSt V α ε)
    (hx : (filePush taken c buf n x).happy = true) :
    x.happy = true ∧ Writing.filePush c buf n x.s = .ok (filePush taken c buf n x).s := by
  have hb := c.bpp_pos
  have hf := c.fpp_pos
  unfold filePush at hx ⊢
  unfold Writing.filePush
  cases hk : c.kind with
  | block =>
    simp only [hk] at hx ⊢
    have hlen : (encodePackets c x.s.enc (buf.take ((n + c.fpp - 1) / c.fpp * c.fpp))).1.length ≤ (n + c.fpp - 1) / c.fpp * c.bpp := by
      rw [encodePackets_eq, sp_len h _ _ _ (Nat.div_mul_le_self _ _)]
      refine Nat.mul_le_mul_right _ ?_
      rw [List.length_take]
      refine Nat.div_le_of_le_mul ?_
      rw [Nat.mul_comm c.fpp]
      omega
    generalize encodePackets c x.s.enc (buf.take ((n + c.fpp - 1) / c.fpp * c.fpp)) = p at hx hlen ⊢
    obtain ⟨bs, e⟩ := p
    obtain ⟨k, hkl, hfw⟩ := fwrite_spec taken bs { x with s := { x.s with enc := e } }
    dsimp only at hx hlen ⊢
    rw [hfw] at hx ⊢
    dsimp only at hx ⊢
    by_cases hw : min (k / c.bpp * c.fpp) n < n
    · rw [if_pos hw] at hx
      cases hx
    · rw [if_neg hw] at hx ⊢
      have h1 : n ≤ k / c.bpp * c.fpp := by omega
      have h2 : (n + c.fpp - 1) / c.fpp ≤ k / c.bpp := by
        rw [Nat.div_le_iff_le_mul_add_pred hf]
        rw [Nat.mul_comm]
        omega
      have h3 : (n + c.fpp - 1) / c.fpp * c.bpp ≤ k := (Nat.le_div_iff_mul_le hb).1 h2
      have h4 : k = bs.length := by omega
      subst h4
      rw [List.take_length]
      refine ⟨hx, ?_⟩
      simp [hc, Reading.cAssert, bind, Except.bind, pure, Except.pure]
  | pcm =>
    have h1 := h.one (by rw [hk]; simp)
    simp only [hk] at hx ⊢
    have hlen : (encodePackets c x.s.enc (buf.take n)).1.length ≤ n * c.bpp := by
      rw [encodePackets_eq, sp_len h _ _ _ (Nat.div_mul_le_self _ _), h1, Nat.div_one, List.length_take]
      exact Nat.mul_le_mul_right _ (by omega)
    generalize encodePackets c x.s.enc (buf.take n) = p at hx hlen ⊢
    obtain ⟨bs, e⟩ := p
    obtain ⟨k, hkl, hfw⟩ := fwrite_spec taken bs { x with s := { x.s with enc := e } }
    dsimp only at hx hlen ⊢
    rw [hfw] at hx ⊢
    dsimp only at hx ⊢
    by_cases hw : k / c.bpp = n
    · have h3 : n * c.bpp ≤ k := by rw [← hw]; exact Nat.div_mul_le_self _ _
      have h4 : k = bs.length := by omega
      subst h4
      simp only [hw, ne_eq, not_true_eq_false, if_false] at hx ⊢
      rw [List.take_length]
      refine ⟨hx, ?_⟩
      simp [hc, Reading.cAssert, bind, Except.bind, pure, Except.pure]
    · simp [hw] at hx
  | g711 =>
    have h1 := h.one (by rw [hk]; simp)
    simp only [hk] at hx ⊢
    have hlen : (encodePackets c x.s.enc (buf.take n)).1.length ≤ n * c.bpp := by
      rw [encodePackets_eq, sp_len h _ _ _ (Nat.div_mul_le_self _ _), h1, Nat.div_one, List.length_take]
      exact Nat.mul_le_mul_right _ (by omega)
    generalize encodePackets c x.s.enc (buf.take n) = p at hx hlen ⊢
    obtain ⟨bs, e⟩ := p
    obtain ⟨k, hkl, hfw⟩ := fwrite_spec taken bs { x with s := { x.s with enc := e } }
    dsimp only at hx hlen ⊢
    rw [hfw] at hx ⊢
    dsimp only at hx ⊢
    by_cases hw : k / c.bpp = n
    · have h3 : n * c.bpp ≤ k := by rw [← hw]; exact Nat.div_mul_le_self _ _
      have h4 : k = bs.length := by omega
      subst h4
      simp only [hw, ne_eq, not_true_eq_false, if_false] at hx ⊢
      rw [List.take_length]
      refine ⟨hx, ?_⟩
      simp [hc, Reading.cAssert, bind, Except.bind, pure, Except.pure]
    · simp [hw] at hx

theorem pushLoop_sim (c : Cfg V α γ ε) (h : WF c) (hc : c.checks = false) (n : Nat) : ∀ (fs held : List α) (x : FSt V α ε), fs.length = n →
    (pushLoop taken c held fs x).2.2.happy = true →
    x.happy = true ∧ Writing.pushLoop c held fs x.s
      = .ok ((pushLoop taken c held fs x).1, (pushLoop taken c held fs x).2.1, (pushLoop taken c held fs x).2.2.s) := by
  induction n using Nat.strongRecOn with
  | _ n ih =>
  intro fs held x hn hx
  unfold pushLoop at hx ⊢
  unfold Writing.pushLoop
  by_cases hcond : held.length < c.fpp ∧ c.fpp ≤ held.length + fs.length
  · simp only [hcond, and_self, dite_true] at hx ⊢
    obtain ⟨h1, h2⟩ := ih _ (by have := c.fpp_pos; simp; omega) (fs.drop (c.fpp - held.length)) [] _ rfl hx
    obtain ⟨h3, h4⟩ := filePush_sim c h hc _ _ _ h1
    refine ⟨h3, ?_⟩
    simp only [bind, Except.bind]
    dsimp only at h4
    rw [h4]
    dsimp only
    rw [h2]
  · simp only [hcond, dite_false] at hx ⊢
    exact ⟨hx, rfl⟩

theorem chainPush_sim (c : Cfg V α γ ε) (h : WF c) (hc : c.checks = false) (xs : List γ) (x : FSt V α ε)
    (hx : (chainPush taken c xs x).happy = true) :
    x.happy = true ∧ Writing.chainPush c xs x.s = .ok (chainPush taken c xs x).s := by
  unfold chainPush at hx ⊢
  unfold Writing.chainPush
  cases hk : c.kind with
  | block =>
    simp only [hk] at hx ⊢
    unfold rebufPush at hx ⊢
    unfold Writing.rebufPush
    have := pushLoop_sim (taken := taken) c h hc _ (xs.map (c.conv x.s.v)) x.s.held x rfl
    generalize hp : pushLoop taken c x.s.held (xs.map (c.conv x.s.v)) x = p at this hx
    obtain ⟨hd, fs, y⟩ := p
    obtain ⟨h1, h2⟩ := this hx
    refine ⟨h1, ?_⟩
    simp only [bind, Except.bind, Reading.cAssert, hc]
    simp only [Bool.not_false, Bool.true_or, if_true, h2, pure, Except.pure]
  | pcm =>
    simp only [hk] at hx ⊢
    exact filePush_sim c h hc _ _ _ hx
  | g711 =>
    simp only [hk] at hx ⊢
    exact filePush_sim c h hc _ _ _ hx

theorem writeLoop_le (c : Cfg V α γ ε) (n : Nat) : ∀ (xs : List γ) (x : FSt V α ε), xs.length = n →
    (writeLoop taken c xs x).1 ≤ xs.length := by
  induction n using Nat.strongRecOn with
  | _ n ih =>
  intro xs x hn
  unfold writeLoop
  by_cases h0 : xs.length = 0
  · simp [h0]
  · simp only [h0, dite_false]
    split
    · have := ih (xs.drop 1024).length (by simp; omega) (xs.drop 1024) (chainPush taken c (xs.take 1024) x) rfl
      simp only [List.length_drop, List.length_take] at this ⊢
      omega
    · simp

/-- If all frames are counted, all have been written. -/
theorem writeLoop_sim (c : Cfg V α γ ε) (h : WF c) (hc : c.checks = false) (n : Nat) : ∀ (xs : List γ) (x : FSt V α ε), xs.length = n →
    (writeLoop taken c xs x).1 = xs.length → Writing.writeLoop c xs x.s = .ok (writeLoop taken c xs x).2.s := by
  induction n using Nat.strongRecOn with
  | _ n ih =>
  intro xs x hn hx
  unfold writeLoop at hx ⊢
  unfold Writing.writeLoop
  by_cases h0 : xs.length = 0
  · simp only [h0, dite_true]
    rfl
  · simp only [h0, dite_false] at hx ⊢
    by_cases hh : (chainPush taken c (xs.take 1024) x).happy = true
    · rw [if_pos hh] at hx ⊢
      obtain ⟨-, h2⟩ := chainPush_sim c h hc _ _ hh
      have h3 := ih (xs.drop 1024).length (by simp; omega) (xs.drop 1024) (chainPush taken c (xs.take 1024) x) rfl
        (by simp only [List.length_drop, List.length_take] at hx ⊢; omega)
      simp only [bind, Except.bind, h2, h3]
    · rw [if_neg hh] at hx
      exact absurd hx.symm h0

theorem writeFrames_sim (c : Cfg V α γ ε) (h : WF c) (hc : c.checks = false) (xs : List γ) (x : FSt V α ε)
    (hx : (writeFrames taken c xs x).1 = xs.length) :
    Writing.writeFrames c xs x.s = .ok (xs.length, (writeFrames taken c xs x).2.s) := by
  unfold writeFrames at hx ⊢
  unfold Writing.writeFrames
  have e : (if x.s.dirty then { x with s := setup c x.s } else x).s = if x.s.dirty then setup c x.s else x.s := by split <;> rfl
  dsimp only at hx ⊢
  rw [← e]
  generalize (if x.s.dirty then { x with s := setup c x.s } else x) = y at hx ⊢
  by_cases hneg : (c.first : Int) + y.s.fposNext < 0
  · rw [if_pos hneg] at hx
    dsimp only at hx
    omega
  · rw [if_neg hneg] at hx ⊢
    rw [if_neg hneg]
    dsimp only at hx ⊢
    have hk : (writeLoop taken c xs { s := { y.s with filePos := y.s.fposNext }, happy := true, tick := y.tick }).1 = xs.length := by
      exact_mod_cast hx
    have := writeLoop_sim c h hc _ xs _ rfl hk
    simp only [bind, Except.bind]
    dsimp only at this
    rw [this, hk]
    rfl

/-- Without packets, `afSyncFile` writes nothing to the data. -/
theorem syncFile_sim (c : Cfg V α γ ε) (hk : c.kind ≠ .block) (hc : c.checks = false) (x : FSt V α ε) :
    (syncFile taken c x).1 = 0 ∧ Writing.syncFile c x.s = .ok (syncFile taken c x).2.s := by
  unfold syncFile Writing.syncFile
  have e : (if x.s.dirty then { x with s := setup c x.s } else x).s = if x.s.dirty then setup c x.s else x.s := by split <;> rfl
  dsimp only
  rw [← e]
  generalize (if x.s.dirty then { x with s := setup c x.s } else x) = y
  unfold syncModules Writing.syncModules
  cases hkk : c.kind with
  | block => exact absurd hkk hk
  | pcm => exact ⟨rfl, by simp [hc, hkk, Reading.cAssert, bind, Except.bind, pure, Except.pure]⟩
  | g711 => exact ⟨rfl, by simp [hc, hkk, Reading.cAssert, bind, Except.bind, pure, Except.pure]⟩

/-- `m` bytes of the stream of the frames `X` are in the file. -/
structure Part (c : Cfg V α γ ε) (e0 : ε) (s : St V α ε) (X : List α) (m : Nat) : Prop where
  data : s.data = (sp c X.length e0 X).1.take m
  most : m ≤ X.length * c.bpp
  size : s.dataSize = m
  totalf : s.totalf = (m / c.bpp : Nat)

theorem inv_part {c : Cfg V α γ ε} (h : WF c) (hk : c.kind ≠ .block) {e0 : ε} {E : Prop} {s : St V α ε} {X : List α}
    (hi : Inv c e0 E s X) : Part c e0 s X (X.length * c.bpp) := by
  obtain ⟨⟨Y, k, hc, hX, -, -⟩, -, hnb⟩ := hi
  have h1 := h.one hk
  rw [hnb hk, List.append_nil] at hX
  have hl := hc.len
  rw [h1, Nat.mul_one, ← hX] at hl
  have hlen : (sp c X.length e0 X).1.length = X.length * c.bpp := sp_len h _ _ _ (by rw [h1]; omega)
  refine ⟨?_, by omega, ?_, ?_⟩
  · rw [List.take_of_length_le (by omega), hc.data, hl, hX]
  · rw [hc.size, hc.data, ← hX, ← hl, hlen]
  · rw [hc.totalf, hc.nextf, Nat.mul_div_cancel _ c.bpp_pos, h1, Nat.mul_one, hl]

/-- A push that may have stopped within the chunk. -/
theorem filePush_part (c : Cfg V α γ ε) (h : WF c) (hk : c.kind ≠ .block) (e0 : ε) (x : FSt V α ε) (Y B : List α)
    (hc : Core c e0 x.s Y Y.length) (hpos : x.s.filePos = x.s.fposNext) (hh : (filePush taken c B B.length x).happy = false)
    (hx : x.happy = true) :
    ∃ m, Part c e0 (filePush taken c B B.length x).s (Y ++ B) m ∧ Y.length * c.bpp ≤ m ∧ m < (Y.length + B.length) * c.bpp := by
  have h1 := h.one hk
  have hb := c.bpp_pos
  have hlen0 : (sp c B.length x.s.enc B).1.length = B.length * c.bpp := sp_len h _ _ _ (by rw [h1]; omega)
  have hdata : x.s.data.length = Y.length * c.bpp := by rw [hc.data]; exact sp_len h _ _ _ (by rw [h1]; omega)
  have hnext := hc.nextf
  rw [h1, Nat.mul_one] at hnext
  have hsp : (sp c (Y ++ B).length e0 (Y ++ B)).1 = x.s.data ++ (sp c B.length x.s.enc B).1 := by
    rw [List.length_append, sp_add, sp_prefix _ _ _ _ _ (by rw [h1]; omega), h1, Nat.mul_one, List.drop_left, ← hc.enc, ← hc.data]
  have hrun : ∃ k, k ≤ B.length * c.bpp ∧ (k / c.bpp ≠ B.length) ∧ (filePush taken c B B.length x).s =
      { Writing.fwrite ((sp c B.length x.s.enc B).1.take k) { x.s with enc := (sp c B.length x.s.enc B).2 } with
        nextf := x.s.nextf + (k / c.bpp : Nat), totalf := x.s.nextf + (k / c.bpp : Nat) } := by
    unfold filePush at hh ⊢
    have he : encodePackets c x.s.enc (B.take B.length) = sp c B.length x.s.enc B := by
      rw [List.take_length, encodePackets_eq, h1, Nat.div_one]
    cases hkk : c.kind with
    | block => exact absurd hkk hk
    | pcm =>
      simp only [hkk] at hh ⊢
      rw [he] at hh ⊢
      obtain ⟨k, hkl, hfw⟩ := fwrite_spec taken (sp c B.length x.s.enc B).1 { x with s := { x.s with enc := (sp c B.length x.s.enc B).2 } }
      rw [hfw] at hh ⊢
      dsimp only at hh ⊢
      by_cases hw : k / c.bpp = B.length
      · rw [if_neg (by omega)] at hh
        dsimp only at hh
        rw [hx] at hh
        cases hh
      · rw [if_pos hw]
        exact ⟨k, by omega, hw, rfl⟩
    | g711 =>
      simp only [hkk] at hh ⊢
      rw [he] at hh ⊢
      obtain ⟨k, hkl, hfw⟩ := fwrite_spec taken (sp c B.length x.s.enc B).1 { x with s := { x.s with enc := (sp c B.length x.s.enc B).2 } }
      rw [hfw] at hh ⊢
      dsimp only at hh ⊢
      by_cases hw : k / c.bpp = B.length
      · rw [if_neg (by omega)] at hh
        dsimp only at hh
        rw [hx] at hh
        cases hh
      · rw [if_pos hw]
        exact ⟨k, by omega, hw, rfl⟩
  obtain ⟨k, hkl, hne, hs⟩ := hrun
  have hlt : k < B.length * c.bpp := by
    rcases Nat.lt_or_ge k (B.length * c.bpp) with g | g
    · exact g
    · exfalso
      apply hne
      have : k = B.length * c.bpp := by omega
      rw [this, Nat.mul_div_cancel _ hb]
  rw [hs]
  have hoff : x.s.filePos.toNat = x.s.data.length := by rw [hpos, hc.fpos]; simp
  have hneg : (-x.s.filePos).toNat = 0 := by rw [hpos, hc.fpos]; omega
  have htake : ((sp c B.length x.s.enc B).1.take k).length = k := by rw [List.length_take]; omega
  refine ⟨Y.length * c.bpp + k, ⟨?_, ?_, ?_, ?_⟩, by omega, by rw [Nat.add_mul]; omega⟩
  · dsimp only [Writing.fwrite]
    rw [hoff, hneg, List.drop_zero, List.take_length, htake, List.drop_eq_nil_of_le (by omega), List.append_nil, hsp, ← hdata,
      List.take_length_add_append]
  · rw [List.length_append, Nat.add_mul]; omega
  · dsimp only [Writing.fwrite]
    rw [htake, hc.size, hdata]
  · dsimp only
    rw [hnext, Nat.add_comm (Y.length * c.bpp), Nat.add_mul_div_right _ _ hb]
    omega

theorem chainPush_nonblock (c : Cfg V α γ ε) (hk : c.kind ≠ .block) (xs : List γ) (x : FSt V α ε) :
    chainPush taken c xs x = filePush taken c (xs.map (c.conv x.s.v)) (xs.map (c.conv x.s.v)).length x := by
  unfold chainPush
  cases hkk : c.kind with
  | block => exact absurd hkk hk
  | pcm => rfl
  | g711 => rfl

/-- The chunks of one `afWriteFrames`. -/
theorem writeLoop_part (c : Cfg V α γ ε) (h : WF c) (hc : c.checks = false) (hk : c.kind ≠ .block) (e0 : ε) (E : Prop) (n : Nat) :
    ∀ (xs : List γ) (x : FSt V α ε) (X : List α), xs.length = n → Inv c e0 E x.s X → x.s.dirty = false →
      x.s.filePos = x.s.fposNext → x.happy = true →
      ∃ m, Part c e0 (writeLoop taken c xs x).2.s (X ++ xs.map (c.conv x.s.v)) m ∧
        (X.length + (writeLoop taken c xs x).1) * c.bpp ≤ m ∧
        ((writeLoop taken c xs x).1 = xs.length ↔ m = (X.length + xs.length) * c.bpp) := by
  induction n using Nat.strongRecOn with
  | _ n ih =>
  intro xs x X hn hi hd hpos hx
  have h1 := h.one hk
  have hb := c.bpp_pos
  unfold writeLoop
  by_cases h0 : xs.length = 0
  · have e : xs = [] := List.length_eq_zero_iff.1 h0
    subst e
    simp only [List.length_nil, dite_true, List.map_nil, List.append_nil, Nat.add_zero]
    exact ⟨_, inv_part h hk hi, Nat.le_refl _, by simp⟩
  · simp only [h0, dite_false]
    by_cases hh : (chainPush taken c (xs.take 1024) x).happy = true
    · rw [if_pos hh]
      obtain ⟨-, h2⟩ := chainPush_sim c h hc _ _ hh
      obtain ⟨s', e1, p1, m1, i1⟩ := chainPush_ok c h e0 E x.s X (xs.take 1024) hi hd hpos
      rw [h2] at e1
      obtain rfl := Except.ok.inj e1
      obtain ⟨m, g1, g2, g3⟩ := ih (xs.drop 1024).length (by simp; omega) (xs.drop 1024) (chainPush taken c (xs.take 1024) x) _ rfl i1
        (m1.dirty.trans hd) p1 hh
      rw [m1.v, List.append_assoc, ← List.map_append, List.take_append_drop] at g1
      simp only [List.length_append, List.length_map] at g2 g3
      have hl : X.length + (xs.take 1024).length + (xs.drop 1024).length = X.length + xs.length := by
        rw [List.length_take, List.length_drop]; omega
      rw [hl] at g3
      refine ⟨m, g1, ?_, ?_⟩
      · rw [← Nat.add_assoc]; exact g2
      · rw [← g3, List.length_take, List.length_drop]
        dsimp only
        omega
    · rw [if_neg hh]
      have hf : (chainPush taken c (xs.take 1024) x).happy = false := by simpa using hh
      rw [chainPush_nonblock c hk] at hf ⊢
      obtain ⟨⟨Y, k, hcore, hX, -, -⟩, -, hnb⟩ := hi
      rw [hnb hk, List.append_nil] at hX
      subst hX
      have hkl : k = X.length := by rw [hcore.len, h1, Nat.mul_one]
      subst hkl
      obtain ⟨m, g1, g2, g3⟩ := filePush_part c h hk e0 x X _ hcore hpos hf hx
      rw [List.length_map, List.length_take] at g3
      have hle : (X.length + min 1024 xs.length) * c.bpp ≤ (X.length + xs.length) * c.bpp := Nat.mul_le_mul_right _ (by omega)
      have hpre : X ++ xs.map (c.conv x.s.v) = (X ++ (xs.take 1024).map (c.conv x.s.v)) ++ (xs.drop 1024).map (c.conv x.s.v) := by
        rw [List.append_assoc, ← List.map_append, List.take_append_drop]
      refine ⟨m, ⟨?_, ?_, g1.size, g1.totalf⟩, by rw [Nat.add_zero]; exact g2, by constructor <;> intro e <;> omega⟩
      · rw [g1.data]
        have hsplit : (X ++ xs.map (c.conv x.s.v)).length
            = (X ++ (xs.take 1024).map (c.conv x.s.v)).length + ((xs.drop 1024).map (c.conv x.s.v)).length := by
          rw [hpre, List.length_append]
        rw [hsplit, sp_add, hpre, sp_prefix c (X ++ (xs.take 1024).map (c.conv x.s.v)).length e0 (X ++ (xs.take 1024).map (c.conv x.s.v)) _
          (by rw [h1]; omega)]
        dsimp only
        rw [List.take_append_of_le_length]
        rw [sp_len h _ _ _ (by rw [h1]; omega)]
        exact g1.most
      · simp only [List.length_append, List.length_map]; omega

theorem writeFrames_part (c : Cfg V α γ ε) (h : WF c) (hc : c.checks = false) (hk : c.kind ≠ .block) (e0 : ε) (E : Prop)
    (xs : List γ) (x : FSt V α ε) (X : List α) (hi : Inv c e0 E x.s X) :
    ∃ m k : Nat, (writeFrames taken c xs x).1 = k ∧ k ≤ xs.length ∧
      Part c e0 (writeFrames taken c xs x).2.s (X ++ xs.map (c.conv x.s.v)) m ∧
      (X.length + k) * c.bpp ≤ m ∧ (k = xs.length ↔ m = (X.length + xs.length) * c.bpp) := by
  obtain ⟨i0, d0, v0, n0, -, -, -⟩ := setup_inv c h e0 E x.s X hi
  unfold writeFrames
  have e : (if x.s.dirty then { x with s := setup c x.s } else x).s = if x.s.dirty then setup c x.s else x.s := by split <;> rfl
  dsimp only
  rw [← e] at i0 d0 v0
  generalize (if x.s.dirty then { x with s := setup c x.s } else x) = y at i0 d0 v0
  have hnn : ¬ (c.first : Int) + y.s.fposNext < 0 := by
    obtain ⟨⟨_, _, hc, _⟩, _, _⟩ := i0
    have := hc.fpos
    omega
  rw [if_neg hnn]
  have i0' : Inv c e0 E { y.s with filePos := y.s.fposNext } X := by
    obtain ⟨⟨Y, k, hc, hX, hh, hob⟩, hf, hnb⟩ := i0
    exact ⟨⟨Y, k, ⟨hc.len, hc.data, hc.enc, hc.fpos, hc.size, hc.nextf, hc.totalf⟩, hX, hh, hob⟩, hf, hnb⟩
  obtain ⟨m, g1, g2, g3⟩ := writeLoop_part (taken := taken) c h hc hk e0 E _ xs
    { s := { y.s with filePos := y.s.fposNext }, happy := true, tick := y.tick } X rfl i0' d0 rfl rfl
  refine ⟨m, _, rfl, writeLoop_le c _ xs _ rfl, ?_, g2, g3⟩
  rw [← v0]
  exact ⟨g1.data, g1.most, g1.size, g1.totalf⟩

/-- Without packets, closing leaves the data as it is. -/
theorem close_nonblock (c : Cfg V α γ ε) (hk : c.kind ≠ .block) (x : FSt V α ε) :
    close taken c x = (0, ⟨x.s.data, x.s.dataSize, x.s.totalf⟩) := by
  unfold close syncFile syncModules
  cases hkk : c.kind with
  | block => exact absurd hkk hk
  | pcm => cases hd : x.s.dirty <;> simp [setup, hd]
  | g711 => cases hd : x.s.dirty <;> simp [setup, hd]

theorem run_append (c : Cfg V α γ ε) (pre post : List (Op V γ)) : ∀ x : FSt V α ε,
    run taken c x (pre ++ post) = ((run taken c x pre).1 ++ (run taken c (run taken c x pre).2 post).1,
      (run taken c (run taken c x pre).2 post).2) := by
  induction pre with
  | nil => intro x; rfl
  | cons op pre ih => intro x; simp only [List.cons_append, run, ih]

theorem run_length (c : Cfg V α γ ε) (ops : List (Op V γ)) : ∀ x : FSt V α ε, (run taken c x ops).1.length = ops.length := by
  induction ops with
  | nil => intro x; rfl
  | cons op ops ih => intro x; simp [run, ih]

/-- As long as all calls report success the states are those of a file that takes everything. -/
theorem run_sim (c : Cfg V α γ ε) (h : WF c) (hc : c.checks = false) (ops : List (Op V γ)) (hs : c.kind = .block → ∀ op ∈ ops, op ≠ .sync) :
    ∀ x : FSt V α ε, (∀ p ∈ ops.zip (run taken c x ops).1, Spec.Faults.Success p.1 p.2) →
      Writing.run c x.s ops = .ok (run taken c x ops).2.s := by
  induction ops with
  | nil => intro x _; rfl
  | cons op ops ih =>
    intro x hf
    have hstep : Writing.step c x.s op = .ok (step taken c x op).2.s := by
      have h0 : Spec.Faults.Success op (step taken c x op).1 := hf (op, (step taken c x op).1) (by simp [run])
      cases op with
      | write xs =>
        have := writeFrames_sim c h hc xs x h0
        simp only [Writing.step, bind, Except.bind, this]
        rfl
      | sync =>
        exact (syncFile_sim c (fun hk => hs hk _ List.mem_cons_self rfl) hc x).2
      | setFormat v => rfl
    have := ih (fun hk o ho => hs hk o (List.mem_cons_of_mem _ ho)) (step taken c x op).2
      (fun p hp => hf p (by simp only [run, List.zip_cons_cons]; exact List.mem_cons_of_mem _ hp))
    simp only [Writing.run, bind, Except.bind, hstep, this]
    rfl

/-- With packets, closing writes the last packet or a part of it. -/
theorem close_block (c : Cfg V α γ ε) (h : WF c) (hk : c.kind = .block) (e0 : ε) (x : FSt V α ε) (X : List α) (hi : Inv c e0 False x.s X)
    (hpos : x.s.filePos = x.s.fposNext ∨ x.s.held = []) :
    ∃ (pad : List α) (m : Nat), pad.length = c.fpp ∧
      close taken c x = (0, ⟨(Spec.fileData c.fpp c.encode e0 pad X).take m, m,
        if m = (Spec.fileData c.fpp c.encode e0 pad X).length then X.length else (X.length / c.fpp * c.fpp : Nat)⟩) ∧
      X.length / c.fpp * c.bpp ≤ m ∧ m ≤ (Spec.fileData c.fpp c.encode e0 pad X).length := by
  obtain ⟨i0, d0, v0, n0, f0, g0, h0⟩ := setup_inv c h e0 False x.s X hi
  unfold close syncFile
  have e : (if x.s.dirty then { x with s := setup c x.s } else x).s = if x.s.dirty then setup c x.s else x.s := by split <;> rfl
  rw [← e] at i0 d0 v0 f0 g0 h0
  generalize (if x.s.dirty then { x with s := setup c x.s } else x) = y at i0 d0 v0 f0 g0 h0
  rw [← f0, ← g0, ← h0] at hpos
  obtain ⟨⟨Y, k, hc, hX, hh, hob⟩, -, -⟩ := i0
  obtain ⟨-, hol⟩ := hob hk d0
  have hb := c.bpp_pos
  have hp := c.fpp_pos
  have hdiv : X.length / c.fpp = k := by
    rw [hX, List.length_append, hc.len, Nat.add_comm, Nat.add_mul_div_right _ _ hp, Nat.div_eq_of_lt hh, Nat.zero_add]
  have hdrop : X.drop (X.length / c.fpp * c.fpp) = y.s.held := by rw [hdiv, ← hc.len, hX, List.drop_left]
  have hwhole : Spec.packets c.fpp c.encode (X.length / c.fpp) e0 X = sp c k e0 Y := by
    rw [hdiv, hX]
    exact sp_prefix c k e0 Y _ (by rw [hc.len]; omega)
  have hdl : y.s.data.length = k * c.bpp := by rw [hc.data]; exact sp_len h _ _ _ (by rw [hc.len]; omega)
  refine ⟨y.s.outBuf, ?_⟩
  by_cases hheld : y.s.held = []
  · have hD : Spec.fileData c.fpp c.encode e0 y.s.outBuf X = y.s.data := by
      unfold Spec.fileData
      dsimp only
      rw [hdrop, if_pos hheld, hwhole, hc.data]
    refine ⟨y.s.data.length, hol, ?_, by rw [hdiv, hdl]; omega, by rw [hD]; omega⟩
    rw [hD, if_pos rfl, List.take_length]
    have hXl : X.length = k * c.fpp := by rw [hX, hheld, List.append_nil, hc.len]
    unfold syncModules filePush
    simp only [hk]
    have ez : (c.fpp - 1) / c.fpp = 0 := Nat.div_eq_of_lt (by omega)
    have een : ∀ e, encodePackets c e [] = ([], e) := by
      intro e; rw [encodePackets_eq]; simp [sp, Spec.packets]
    have hle : y.s.data.take y.s.filePos.toNat ++ (y.s.data.drop y.s.filePos.toNat) = y.s.data := List.take_append_drop _ _
    simp [hheld, ez, een, fwrite, Writing.fwrite, hle, hc.size, hc.totalf, hc.nextf, hXl]
  · have hpos' := hpos.resolve_right hheld
    have hlen : 0 < y.s.held.length := List.length_pos_iff.2 hheld
    have hB : (y.s.held ++ y.s.outBuf.drop y.s.held.length).length = c.fpp := by
      rw [List.length_append, List.length_drop]; omega
    have hD : Spec.fileData c.fpp c.encode e0 y.s.outBuf X
        = y.s.data ++ (c.encode y.s.enc (y.s.held ++ y.s.outBuf.drop y.s.held.length)).1 := by
      unfold Spec.fileData
      dsimp only
      rw [hdrop, if_neg hheld, hwhole, hc.data, hc.enc]
    have hel := h.encode_len y.s.enc _ hB
    have hDl : (Spec.fileData c.fpp c.encode e0 y.s.outBuf X).length = k * c.bpp + c.bpp := by
      rw [hD, List.length_append, hdl, hel]
    have eb : (y.s.held.length + c.fpp - 1) / c.fpp = 1 := by
      rw [Nat.div_eq_iff hp]; omega
    have een : encodePackets c y.s.enc ((y.s.held ++ y.s.outBuf.drop y.s.held.length).take (1 * c.fpp))
        = c.encode y.s.enc (y.s.held ++ y.s.outBuf.drop y.s.held.length) := by
      rw [Nat.one_mul, List.take_of_length_le (by omega), encodePackets_eq, hB, Nat.div_self hp]
      simp only [sp, Spec.packets]
      rw [List.take_of_length_le (by omega), List.append_nil]
    have hoff : y.s.filePos.toNat = y.s.data.length := by rw [hpos', hc.fpos]; simp
    have hneg : (-y.s.filePos).toNat = 0 := by rw [hpos', hc.fpos]; omega
    generalize hee : c.encode y.s.enc (y.s.held ++ y.s.outBuf.drop y.s.held.length) = p at een hel hD
    obtain ⟨bs, e'⟩ := p
    dsimp only at hel hD
    obtain ⟨j, hj, hfw⟩ := fwrite_spec taken bs ⟨{ y.s with outBuf := y.s.held ++ y.s.outBuf.drop y.s.held.length, enc := e' }, true, y.tick⟩
    have htl : (bs.take j).length = j := by rw [List.length_take]; omega
    refine ⟨k * c.bpp + j, hol, ?_, by rw [hdiv]; omega, by rw [hDl]; omega⟩
    have hdata : (Spec.fileData c.fpp c.encode e0 y.s.outBuf X).take (k * c.bpp + j) = y.s.data ++ bs.take j := by
      rw [hD, ← hdl, List.take_length_add_append]
    have hcount : (if k * c.bpp + j = (Spec.fileData c.fpp c.encode e0 y.s.outBuf X).length then (X.length : Int)
        else (X.length / c.fpp * c.fpp : Nat)) = (k * c.fpp : Nat) + (min (j / c.bpp * c.fpp) y.s.held.length : Nat) := by
      rw [hDl, hdiv]
      have hXl : X.length = k * c.fpp + y.s.held.length := by rw [hX, List.length_append, hc.len]
      by_cases hf : j = c.bpp
      · rw [if_pos (by omega), hf, Nat.div_self hb, Nat.one_mul, Nat.min_eq_right (by omega), hXl]
        omega
      · rw [if_neg (by omega), Nat.div_eq_of_lt (by omega), Nat.zero_mul, Nat.zero_min]
        simp
    rw [hdata, hcount]
    unfold syncModules filePush
    simp only [hk]
    rw [eb, een]
    dsimp only at hfw ⊢
    simp only [Bool.not_true, Bool.false_eq_true, if_false, ne_eq, not_true_eq_false]
    rw [hfw]
    dsimp only
    have hst : Writing.fwrite (bs.take j) { y.s with outBuf := y.s.held ++ y.s.outBuf.drop y.s.held.length, enc := e' } =
        { y.s with outBuf := y.s.held ++ y.s.outBuf.drop y.s.held.length, enc := e', data := y.s.data ++ bs.take j,
                   filePos := y.s.filePos + j, fposNext := y.s.fposNext + j, dataSize := y.s.dataSize + j } := by
      simp only [Writing.fwrite, hoff, hneg, List.drop_zero, htl, List.take_length, List.drop_eq_nil_of_le (Nat.le_add_right _ _),
        List.append_nil]
    rw [hst]
    have hnf := hc.nextf
    split <;> simp only [hc.size, hdl, hnf]

/-! ## No faults -/

theorem filePush_roomy (hr : Spec.Faults.Roomy taken) (c : Cfg V α γ ε) (h : WF c) (buf : List α) (j : Nat) (hB : buf.length = j * c.fpp)
    (x : FSt V α ε) : (filePush taken c buf (j * c.fpp) x).happy = x.happy := by
  have hb := c.bpp_pos
  have hf := c.fpp_pos
  have hall : ∀ (bs : List Byte) (x : FSt V α ε), fwrite taken bs x = (bs.length, ⟨Writing.fwrite bs x.s, x.happy, x.tick + 1⟩) := by
    intro bs x
    have := hr x.tick bs.length
    unfold fwrite
    rw [Nat.min_eq_right this]
    dsimp only
    rw [List.take_length]
  have hlen : (encodePackets c x.s.enc (buf.take (j * c.fpp))).1.length / c.bpp = j := by
    rw [List.take_of_length_le (by omega), encodePackets_eq, sp_len h _ _ _ (Nat.div_mul_le_self _ _), hB, Nat.mul_div_cancel _ hf,
      Nat.mul_div_cancel _ hb]
  unfold filePush
  cases hk : c.kind with
  | block =>
    have hbl : (j * c.fpp + c.fpp - 1) / c.fpp = j := by
      rw [Nat.div_eq_iff hf]
      omega
    simp only
    rw [hbl]
    generalize encodePackets c x.s.enc (buf.take (j * c.fpp)) = p at hlen ⊢
    obtain ⟨bs, e⟩ := p
    dsimp only at hlen ⊢
    rw [hall]
    dsimp only
    rw [hlen, Nat.min_self, if_neg (by omega)]
  | pcm =>
    have h1 := h.one (by simp [hk])
    simp only
    generalize encodePackets c x.s.enc (buf.take (j * c.fpp)) = p at hlen ⊢
    obtain ⟨bs, e⟩ := p
    dsimp only at hlen ⊢
    rw [hall]
    dsimp only
    rw [hlen, h1, Nat.mul_one]
    simp
  | g711 =>
    have h1 := h.one (by simp [hk])
    simp only
    generalize encodePackets c x.s.enc (buf.take (j * c.fpp)) = p at hlen ⊢
    obtain ⟨bs, e⟩ := p
    dsimp only at hlen ⊢
    rw [hall]
    dsimp only
    rw [hlen, h1, Nat.mul_one]
    simp

theorem pushLoop_roomy (hr : Spec.Faults.Roomy taken) (c : Cfg V α γ ε) (h : WF c) (n : Nat) : ∀ (fs held : List α) (x : FSt V α ε), fs.length = n →
    (pushLoop taken c held fs x).2.2.happy = x.happy := by
  induction n using Nat.strongRecOn with
  | _ n ih =>
  intro fs held x hn
  unfold pushLoop
  by_cases hcond : held.length < c.fpp ∧ c.fpp ≤ held.length + fs.length
  · simp only [hcond, and_self, dite_true]
    rw [ih _ (by have := c.fpp_pos; simp; omega) (fs.drop (c.fpp - held.length)) [] _ rfl]
    have := filePush_roomy hr c h (held ++ fs.take (c.fpp - held.length)) 1 (by simp; omega)
      { x with s := { x.s with outBuf := held ++ fs.take (c.fpp - held.length) } }
    rw [Nat.one_mul] at this
    exact this
  · simp only [hcond, dite_false]

theorem chainPush_roomy (hr : Spec.Faults.Roomy taken) (c : Cfg V α γ ε) (h : WF c) (xs : List γ) (x : FSt V α ε) :
    (chainPush taken c xs x).happy = x.happy := by
  by_cases hk : c.kind = .block
  · unfold chainPush
    simp only [hk]
    unfold rebufPush
    exact pushLoop_roomy hr c h _ _ _ x rfl
  · rw [chainPush_nonblock c hk]
    have h1 := h.one hk
    have := filePush_roomy hr c h (xs.map (c.conv x.s.v)) (xs.map (c.conv x.s.v)).length (by rw [h1]; omega) x
    rw [h1, Nat.mul_one] at this
    exact this

theorem writeLoop_roomy (hr : Spec.Faults.Roomy taken) (c : Cfg V α γ ε) (h : WF c) (n : Nat) : ∀ (xs : List γ) (x : FSt V α ε), xs.length = n →
    x.happy = true → (writeLoop taken c xs x).1 = xs.length := by
  induction n using Nat.strongRecOn with
  | _ n ih =>
  intro xs x hn hx
  unfold writeLoop
  by_cases h0 : xs.length = 0
  · simp only [h0, dite_true]
  · simp only [h0, dite_false]
    have hh := (chainPush_roomy hr c h (xs.take 1024) x).trans hx
    rw [if_pos hh]
    have := ih (xs.drop 1024).length (by simp; omega) (xs.drop 1024) _ rfl hh
    simp only [List.length_drop, List.length_take] at this ⊢
    omega

/-- `afWriteFrames` counts all frames if the file takes them. -/
theorem writeFrames_roomy (hr : Spec.Faults.Roomy taken) (c : Cfg V α γ ε) (h : WF c) (xs : List γ) (x : FSt V α ε)
    (hpos : 0 ≤ c.first + x.s.fposNext) : (writeFrames taken c xs x).1 = xs.length := by
  unfold writeFrames
  have e : (if x.s.dirty then { x with s := setup c x.s } else x).s.fposNext = x.s.fposNext := by split <;> rfl
  dsimp only
  rw [if_neg (by rw [e]; omega)]
  dsimp only
  rw [writeLoop_roomy hr c h _ xs _ rfl rfl]

/-! ## The virtual format -/

theorem filePush_v (c : Cfg V α γ ε) (buf : List α) (n : Nat) (x : FSt V α ε) : (filePush taken c buf n x).s.v = x.s.v := by
  unfold filePush fwrite Writing.fwrite
  cases c.kind <;> dsimp only <;> split <;> rfl

theorem pushLoop_v (c : Cfg V α γ ε) (n : Nat) : ∀ (fs held : List α) (x : FSt V α ε), fs.length = n →
    (pushLoop taken c held fs x).2.2.s.v = x.s.v := by
  induction n using Nat.strongRecOn with
  | _ n ih =>
  intro fs held x hn
  unfold pushLoop
  by_cases hcond : held.length < c.fpp ∧ c.fpp ≤ held.length + fs.length
  · simp only [hcond, and_self, dite_true]
    rw [ih _ (by have := c.fpp_pos; simp; omega) (fs.drop (c.fpp - held.length)) [] _ rfl, filePush_v]
  · simp only [hcond, dite_false]

theorem chainPush_v (c : Cfg V α γ ε) (xs : List γ) (x : FSt V α ε) : (chainPush taken c xs x).s.v = x.s.v := by
  by_cases hk : c.kind = .block
  · unfold chainPush
    simp only [hk]
    unfold rebufPush
    exact pushLoop_v c _ _ _ x rfl
  · rw [chainPush_nonblock c hk, filePush_v]

theorem writeLoop_v (c : Cfg V α γ ε) (n : Nat) : ∀ (xs : List γ) (x : FSt V α ε), xs.length = n →
    (writeLoop taken c xs x).2.s.v = x.s.v := by
  induction n using Nat.strongRecOn with
  | _ n ih =>
  intro xs x hn
  unfold writeLoop
  by_cases h0 : xs.length = 0
  · simp only [h0, dite_true]
  · simp only [h0, dite_false]
    split
    · have := ih (xs.drop 1024).length (by simp; omega) (xs.drop 1024) (chainPush taken c (xs.take 1024) x) rfl
      rw [chainPush_v] at this
      exact this
    · exact chainPush_v c _ x

theorem writeFrames_v (c : Cfg V α γ ε) (xs : List γ) (x : FSt V α ε) : (writeFrames taken c xs x).2.s.v = x.s.v := by
  unfold writeFrames
  have e : (if x.s.dirty then { x with s := setup c x.s } else x).s.v = x.s.v := by split <;> rfl
  dsimp only
  generalize (if x.s.dirty then { x with s := setup c x.s } else x) = y at e
  split
  · exact e
  · dsimp only
    rw [writeLoop_v c _ xs _ rfl]
    exact e

theorem syncFile_v (c : Cfg V α γ ε) (x : FSt V α ε) : (syncFile taken c x).2.s.v = x.s.v := by
  unfold syncFile syncModules
  have e : (if x.s.dirty then { x with s := setup c x.s } else x).s.v = x.s.v := by split <;> rfl
  generalize (if x.s.dirty then { x with s := setup c x.s } else x) = y at e
  cases hk : c.kind with
  | block =>
    have := filePush_v (taken := taken) c (y.s.held ++ y.s.outBuf.drop y.s.held.length) y.s.held.length
      ⟨{ y.s with outBuf := y.s.held ++ y.s.outBuf.drop y.s.held.length }, true, y.tick⟩
    simpa [e] using this
  | pcm => simpa using e
  | g711 => simpa using e

/-- The virtual format after the calls. -/
def formatAfter : V → List (Op V γ) → V
  | v, [] => v
  | _, .setFormat w :: ops => formatAfter w ops
  | v, _ :: ops => formatAfter v ops

theorem run_v (c : Cfg V α γ ε) (ops : List (Op V γ)) : ∀ x : FSt V α ε, (run taken c x ops).2.s.v = formatAfter x.s.v ops := by
  induction ops with
  | nil => intro x; rfl
  | cons op ops ih =>
    intro x
    have := ih (step taken c x op).2
    cases op with
    | write xs => rw [show (step taken c x (.write xs)).2.s.v = x.s.v from writeFrames_v c xs x] at this; exact this
    | sync => rw [show (step taken c x .sync).2.s.v = x.s.v from syncFile_v c x] at this; exact this
    | setFormat w => exact this

theorem handed_snoc (conv : V → γ → α) (ops : List (Op V γ)) (xs : List γ) : ∀ v,
    handed conv v (ops ++ [.write xs]) = handed conv v ops ++ xs.map (conv (formatAfter v ops)) := by
  induction ops with
  | nil => intro v; simp [handed, formatAfter]
  | cons op ops ih => intro v; cases op <;> simp [handed, formatAfter, ih]

/-! ## A file with room is the file of `Verif.Model.Writing` -/

theorem fwrite_roomy (hr : Spec.Faults.Roomy taken) (bs : List Byte) (x : FSt V α ε) :
    fwrite taken bs x = (bs.length, ⟨Writing.fwrite bs x.s, x.happy, x.tick + 1⟩) := by
  have := hr x.tick bs.length
  unfold fwrite
  rw [Nat.min_eq_right this]
  dsimp only
  rw [List.take_length]

theorem filePush_same (hr : Spec.Faults.Roomy taken) (c : Cfg V α γ ε) (hc : c.checks = false) (buf : List α) (n : Nat) (x : FSt V α ε) :
    Writing.filePush c buf n x.s = .ok (filePush taken c buf n x).s := by
  unfold filePush Writing.filePush
  cases hk : c.kind with
  | block =>
    simp only
    rw [fwrite_roomy hr]
    simp only [hc, Reading.cAssert, bind, Except.bind, pure, Except.pure, Bool.not_false, Bool.true_or, if_true]
    split <;> rfl
  | pcm =>
    simp only
    rw [fwrite_roomy hr]
    simp only [hc, Reading.cAssert, bind, Except.bind, pure, Except.pure, Bool.not_false, Bool.true_or, if_true]
    split <;> rfl
  | g711 =>
    simp only
    rw [fwrite_roomy hr]
    simp only [hc, Reading.cAssert, bind, Except.bind, pure, Except.pure, Bool.not_false, Bool.true_or, if_true]
    split <;> rfl

theorem syncFile_same (hr : Spec.Faults.Roomy taken) (c : Cfg V α γ ε) (hc : c.checks = false) (x : FSt V α ε) :
    (syncFile taken c x).1 = 0 ∧ Writing.syncFile c x.s = .ok (syncFile taken c x).2.s := by
  by_cases hk : c.kind = .block
  · unfold syncFile Writing.syncFile
    have e : (if x.s.dirty then { x with s := setup c x.s } else x).s = if x.s.dirty then setup c x.s else x.s := by split <;> rfl
    dsimp only
    rw [← e]
    generalize (if x.s.dirty then { x with s := setup c x.s } else x) = y
    unfold syncModules Writing.syncModules
    have := filePush_same hr c hc (y.s.held ++ y.s.outBuf.drop y.s.held.length) y.s.held.length
      ⟨{ y.s with outBuf := y.s.held ++ y.s.outBuf.drop y.s.held.length }, true, y.tick⟩
    dsimp only at this
    simp only [hk, hc, Reading.cAssert, bind, Except.bind, pure, Except.pure, Bool.not_false, Bool.true_or, if_true, this]
    exact ⟨rfl, rfl⟩
  · exact syncFile_sim c hk hc x

theorem writeFrames_same (hr : Spec.Faults.Roomy taken) (c : Cfg V α γ ε) (h : WF c) (hc : c.checks = false) (xs : List γ) (x : FSt V α ε) :
    Writing.writeFrames c xs x.s = .ok ((writeFrames taken c xs x).1, (writeFrames taken c xs x).2.s) := by
  by_cases hneg : 0 ≤ c.first + x.s.fposNext
  · have e := writeFrames_roomy hr c h xs x hneg
    rw [writeFrames_sim c h hc xs x e, e]
  · unfold writeFrames Writing.writeFrames
    have e : (if x.s.dirty then { x with s := setup c x.s } else x).s = if x.s.dirty then setup c x.s else x.s := by split <;> rfl
    have e' : (if x.s.dirty then { x with s := setup c x.s } else x).s.fposNext = x.s.fposNext := by split <;> rfl
    dsimp only
    rw [← e]
    generalize (if x.s.dirty then { x with s := setup c x.s } else x) = y at e'
    rw [if_pos (by rw [e']; omega), if_pos (by rw [e']; omega)]
    rfl

theorem run_same (hr : Spec.Faults.Roomy taken) (c : Cfg V α γ ε) (h : WF c) (hc : c.checks = false) (ops : List (Op V γ)) :
    ∀ x : FSt V α ε, Writing.run c x.s ops = .ok (run taken c x ops).2.s := by
  induction ops with
  | nil => intro x; rfl
  | cons op ops ih =>
    intro x
    have hstep : Writing.step c x.s op = .ok (step taken c x op).2.s := by
      cases op with
      | write xs =>
        simp only [Writing.step, bind, Except.bind, writeFrames_same hr c h hc xs x]
        rfl
      | sync => exact (syncFile_same hr c hc x).2
      | setFormat v => rfl
    simp only [Writing.run, bind, Except.bind, hstep]
    exact ih _

end AF.Faults
