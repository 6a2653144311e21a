import Verif.Spec.WriteCalls
import Verif.Spec.Written
namespace AF.Writing
open AF.Reading (cAssert)
variable {V α γ ε : Type}

abbrev sp (c : Cfg V α γ ε) := Spec.packets c.fpp c.encode

theorem sp_len {c : Cfg V α γ ε} (h : WF c) (k : Nat) : ∀ e fs, k * c.fpp ≤ fs.length →
    (sp c k e fs).1.length = k * c.bpp := by
  induction k with
  | zero => intro e fs _; simp [sp, Spec.packets]
  | succ k ih =>
    intro e fs hl
    rw [Nat.succ_mul] at hl
    simp only [sp, Spec.packets, List.length_append]
    rw [h.encode_len _ _ (by simp; omega)]
    have := ih (c.encode e (fs.take c.fpp)).2 (fs.drop c.fpp) (by simp; omega)
    simp only [sp] at this
    rw [this, Nat.succ_mul]; omega

theorem sp_add (c : Cfg V α γ ε) (k j : Nat) : ∀ e fs,
    sp c (k + j) e fs = ((sp c k e fs).1 ++ (sp c j (sp c k e fs).2 (fs.drop (k * c.fpp))).1,
      (sp c j (sp c k e fs).2 (fs.drop (k * c.fpp))).2) := by
  induction k with
  | zero => intro e fs; simp [sp, Spec.packets]
  | succ k ih =>
    intro e fs
    have e1 : k + 1 + j = (k + j) + 1 := by omega
    rw [e1]
    have := ih (c.encode e (fs.take c.fpp)).2 (fs.drop c.fpp)
    simp only [sp] at this
    simp only [sp, Spec.packets, this, List.drop_drop, List.append_assoc]
    have e2 : c.fpp + k * c.fpp = (k + 1) * c.fpp := by rw [Nat.succ_mul]; omega
    rw [e2]

theorem sp_prefix (c : Cfg V α γ ε) (k : Nat) : ∀ e fs gs, k * c.fpp ≤ fs.length →
    sp c k e (fs ++ gs) = sp c k e fs := by
  induction k with
  | zero => intro e fs gs _; rfl
  | succ k ih =>
    intro e fs gs hl
    rw [Nat.succ_mul] at hl
    simp only [sp, Spec.packets]
    rw [List.take_append_of_le_length (by omega), List.drop_append_of_le_length (by omega)]
    have := ih (c.encode e (fs.take c.fpp)).2 (fs.drop c.fpp) gs (by simp; omega)
    simp only [sp] at this
    rw [this]

theorem encodePackets_eq (c : Cfg V α γ ε) (e : ε) (fs : List α) :
    encodePackets c e fs = sp c (fs.length / c.fpp) e fs := by
  fun_induction encodePackets c e fs with
  | case1 e fs hl b e' hb bs e'' hbs ih =>
    rw [← Nat.div_eq_sub_div c.fpp_pos hl |>.symm] at *
    rw [hbs] at ih
    rw [List.length_drop] at ih
    have : fs.length / c.fpp = (fs.length - c.fpp) / c.fpp + 1 := Nat.div_eq_sub_div c.fpp_pos hl
    simp only [sp, Spec.packets, hb] at *
    rw [← ih]
  | case2 e fs hl => rw [Nat.div_eq_of_lt (by omega)]; rfl

/-- State after whole packets `Y` (`k` of them) have reached the file. -/
structure Core (c : Cfg V α γ ε) (e0 : ε) (s : St V α ε) (Y : List α) (k : Nat) : Prop where
  len : Y.length = k * c.fpp
  data : s.data = (sp c k e0 Y).1
  enc : s.enc = (sp c k e0 Y).2
  fpos : s.fposNext = (s.data.length : Nat)
  size : s.dataSize = s.data.length
  nextf : s.nextf = (k * c.fpp : Nat)
  totalf : s.totalf = s.nextf

/-- Fields a push to the file module leaves alone. -/
structure Same (s s' : St V α ε) : Prop where
  v : s'.v = s.v
  dirty : s'.dirty = s.dirty
  totalv : s'.totalv = s.totalv
  nextv : s'.nextv = s.nextv

theorem Same.refl (s : St V α ε) : Same s s := ⟨rfl, rfl, rfl, rfl⟩
theorem Same.trans {a b d : St V α ε} (h : Same a b) (k : Same b d) : Same a d :=
  ⟨k.v.trans h.v, k.dirty.trans h.dirty, k.totalv.trans h.totalv, k.nextv.trans h.nextv⟩

theorem filePush_ok (c : Cfg V α γ ε) (h : WF c) (e0 : ε) (s : St V α ε) (Y B : List α) (k j : Nat)
    (hc : Core c e0 s Y k) (hpos : s.filePos = s.fposNext) (hB : B.length = j * c.fpp) :
    ∃ s', filePush c B (j * c.fpp) s = .ok s' ∧ Core c e0 s' (Y ++ B) (k + j) ∧ s'.filePos = s'.fposNext
      ∧ Same s s' ∧ s'.held = s.held ∧ s'.outBuf = s.outBuf := by
  have hdiv : B.length / c.fpp = j := by rw [hB, Nat.mul_div_cancel _ c.fpp_pos]
  have hj : j * c.fpp = B.length := hB.symm
  have henc : encodePackets c s.enc B = sp c j s.enc B := by rw [encodePackets_eq, hdiv]
  have hlen := sp_len h j s.enc B (by omega)
  have hsp : sp c (k + j) e0 (Y ++ B) = ((sp c k e0 Y).1 ++ (sp c j s.enc B).1, (sp c j s.enc B).2) := by
    rw [sp_add, sp_prefix _ _ _ _ _ (by rw [hc.len]; omega), ← hc.len, List.drop_left, hc.enc]
  refine ⟨{ s with
      data := s.data ++ (sp c j s.enc B).1
      enc := (sp c j s.enc B).2
      filePos := s.filePos + (j * c.bpp : Nat)
      fposNext := s.fposNext + (j * c.bpp : Nat)
      dataSize := s.dataSize + j * c.bpp
      nextf := s.nextf + (j * c.fpp : Nat)
      totalf := s.nextf + (j * c.fpp : Nat) }, ?_, ?_, ?_, ⟨rfl, rfl, rfl, rfl⟩, rfl, rfl⟩
  · have hbp : j * c.bpp / c.bpp = j := Nat.mul_div_cancel _ c.bpp_pos
    have hoff : s.filePos.toNat = s.data.length := by rw [hpos, hc.fpos]; simp
    have hneg : (-s.filePos).toNat = 0 := by rw [hpos, hc.fpos]; omega
    have hBt : B.take (j * c.fpp) = B := List.take_of_length_le (by omega)
    have hfw : ∀ e : ε, fwrite (sp c j s.enc B).1 { s with enc := e } =
        { s with
          data := s.data ++ (sp c j s.enc B).1
          enc := e
          filePos := s.filePos + (j * c.bpp : Nat)
          fposNext := s.fposNext + (j * c.bpp : Nat)
          dataSize := s.dataSize + j * c.bpp } := by
      intro e
      have hdrop : s.data.drop (s.data.length + j * c.bpp) = [] := List.drop_eq_nil_of_le (by omega)
      simp only [fwrite, hoff, hneg, List.drop_zero, hlen, List.take_length, hdrop, List.append_nil]
    unfold filePush
    cases hk : c.kind with
    | block =>
      have hbl : (j * c.fpp + c.fpp - 1) / c.fpp = j := by
        have := c.fpp_pos
        rw [Nat.div_eq_iff this]
        omega
      simp only [hbl, hBt, henc, hfw, hlen, hbp, bind, Except.bind, Nat.min_self, pure, Except.pure]
      simp [cAssert, hpos]
    | pcm =>
      have h1 := h.one (by simp [hk])
      simp only [hBt, henc, hfw, hlen, hbp, bind, Except.bind, pure, Except.pure]
      simp [cAssert, hpos, h1]
    | g711 =>
      have h1 := h.one (by simp [hk])
      simp only [hBt, henc, hfw, hlen, hbp, bind, Except.bind, pure, Except.pure]
      simp [cAssert, hpos, h1]
  · refine ⟨?_, ?_, ?_, ?_, ?_, ?_, ?_⟩
    · rw [List.length_append, hc.len, hB, Nat.add_mul]
    · rw [hsp]; simp only [hc.data]
    · rw [hsp]
    · simp only [List.length_append, hlen, hc.fpos]; omega
    · simp only [List.length_append, hlen, hc.size]
    · simp only [hc.nextf, Nat.add_mul]; omega
    · rfl
  · simp [hpos]

/-- Content of the chunk in front of the codec: the last whole packet, or what it was before. -/
def bufAfter (c : Cfg V α γ ε) (old : List α) (Y : List α) (k : Nat) : List α :=
  if k = 0 then old else Y.drop ((k - 1) * c.fpp)

theorem bufAfter_len {c : Cfg V α γ ε} {old Y : List α} {k : Nat} (ho : old.length = c.fpp)
    (hY : Y.length = k * c.fpp) : (bufAfter c old Y k).length = c.fpp := by
  unfold bufAfter
  split
  · exact ho
  · rename_i hk
    rw [List.length_drop, hY]
    have : k * c.fpp = (k - 1) * c.fpp + c.fpp := by
      rw [← Nat.succ_mul]; congr 1; omega
    omega

theorem pushLoop_ok (c : Cfg V α γ ε) (h : WF c) (e0 : ε) (n : Nat) :
    ∀ (fs held : List α) (s : St V α ε) (Y : List α) (k : Nat), fs.length = n →
      Core c e0 s Y k → s.filePos = s.fposNext → held.length < c.fpp →
      ∃ held' fs' s' Y' k', pushLoop c held fs s = .ok (held', fs', s') ∧ Core c e0 s' Y' k'
        ∧ s'.filePos = s'.fposNext ∧ Same s s' ∧ Y' ++ (held' ++ fs') = Y ++ (held ++ fs)
        ∧ held'.length + fs'.length < c.fpp
        ∧ ((k' = k ∧ Y' = Y ∧ s'.outBuf = s.outBuf) ∨ (0 < k' ∧ s'.outBuf = Y'.drop ((k' - 1) * c.fpp))) := by
  induction n using Nat.strongRecOn with
  | _ n ih =>
  intro fs held s Y k hn hc hpos hh
  rw [pushLoop]
  by_cases hcond : held.length < c.fpp ∧ c.fpp ≤ held.length + fs.length
  · simp only [hcond, and_self, dite_true]
    have hbl : (held ++ fs.take (c.fpp - held.length)).length = 1 * c.fpp := by simp; omega
    obtain ⟨s1, e1, c1, p1, m1, h1, o1⟩ := filePush_ok c h e0
      { s with outBuf := held ++ fs.take (c.fpp - held.length) } Y (held ++ fs.take (c.fpp - held.length)) k 1
      ⟨hc.len, hc.data, hc.enc, hc.fpos, hc.size, hc.nextf, hc.totalf⟩ hpos hbl
    rw [Nat.one_mul] at e1
    have hb1 : s1.outBuf = (Y ++ (held ++ fs.take (c.fpp - held.length))).drop (k * c.fpp) := by
      rw [o1, ← hc.len, List.drop_left]
    obtain ⟨held', fs', s', Y', k', e2, c2, p2, m2, x2, l2, b2⟩ :=
      ih (fs.drop (c.fpp - held.length)).length (by have := c.fpp_pos; simp; omega)
        (fs.drop (c.fpp - held.length)) [] s1 _ (k + 1) rfl c1 p1 c.fpp_pos
    refine ⟨held', fs', s', Y', k', ?_, c2, p2, ⟨m2.v.trans m1.v, m2.dirty.trans m1.dirty,
      m2.totalv.trans m1.totalv, m2.nextv.trans m1.nextv⟩, ?_, l2, ?_⟩
    · simp only [bind, Except.bind, e1, e2]
    · rw [x2]; simp [List.append_assoc]
    · right
      rcases b2 with ⟨rfl, rfl, b2⟩ | b2
      · refine ⟨by omega, ?_⟩
        rw [b2, hb1]; simp
      · exact b2
  · simp only [hcond, dite_false]
    exact ⟨held, fs, s, Y, k, rfl, hc, hpos, Same.refl s, rfl, by omega, Or.inl ⟨rfl, rfl, rfl⟩⟩

/-- Invariant of a writing session; `X` are all (converted) frames accepted so far. `E` says that the exact
content of the chunk memory is tracked (no change of virtual format). -/
structure Inv (c : Cfg V α γ ε) (e0 : ε) (E : Prop) (s : St V α ε) (X : List α) : Prop where
  core : ∃ Y k, Core c e0 s Y k ∧ X = Y ++ s.held ∧ s.held.length < c.fpp
    ∧ (c.kind = .block → s.dirty = false → (E → s.outBuf = bufAfter c c.junk Y k) ∧ s.outBuf.length = c.fpp)
  fresh : E → s.dirty = true → X = []
  nb : c.kind ≠ .block → s.held = []

theorem chainPush_ok (c : Cfg V α γ ε) (h : WF c) (e0 : ε) (E : Prop) (s : St V α ε) (X : List α) (xs : List γ)
    (hi : Inv c e0 E s X) (hd : s.dirty = false) (hpos : s.filePos = s.fposNext) :
    ∃ s', chainPush c xs s = .ok s' ∧ s'.filePos = s'.fposNext ∧ Same s s'
      ∧ Inv c e0 E s' (X ++ xs.map (c.conv s.v)) := by
  obtain ⟨Y, k, hc, hX, hh, hob⟩ := hi.core
  unfold chainPush
  by_cases hk : c.kind = .block
  · obtain ⟨ho1, ho2⟩ := hob hk hd
    simp only [hk]
    obtain ⟨held', fs', s', Y', k', e1, c1, p1, m1, x1, l1, b1⟩ :=
      pushLoop_ok c h e0 _ (xs.map (c.conv s.v)) s.held s Y k rfl hc hpos hh
    refine ⟨{ s' with held := held' ++ fs' }, ?_, p1, ⟨m1.v, m1.dirty, m1.totalv, m1.nextv⟩, ?_⟩
    · simp only [rebufPush, bind, Except.bind, cAssert, hh, decide_true, Bool.or_true, if_true, e1, l1]
      rfl
    · refine ⟨⟨Y', k', ⟨c1.len, c1.data, c1.enc, c1.fpos, c1.size, c1.nextf, c1.totalf⟩, ?_, ?_, ?_⟩, ?_, ?_⟩
      · show _ = Y' ++ (held' ++ fs')
        rw [x1, hX, List.append_assoc]
      · simpa using l1
      · intro _ _
        rcases b1 with ⟨rfl, rfl, b1⟩ | ⟨hp, b1⟩
        · show (E → s'.outBuf = _) ∧ s'.outBuf.length = _
          rw [b1]; exact ⟨ho1, ho2⟩
        · have hbe : ∀ old, s'.outBuf = bufAfter c old Y' k' := by
            intro old; rw [b1, bufAfter, if_neg (by omega)]
          exact ⟨fun _ => hbe _, by
            show s'.outBuf.length = _
            rw [hbe c.junk]; exact bufAfter_len h.junk_len c1.len⟩
      · intro _ hdd
        simp only [m1.dirty, hd] at hdd
        exact absurd hdd (by simp)
      · intro hnb; exact absurd hk hnb
  · have h1 := h.one hk
    have hheld := hi.nb hk
    obtain ⟨s', e1, c1, p1, m1, hh1, o1⟩ := filePush_ok c h e0 s Y (xs.map (c.conv s.v)) k xs.length hc hpos
      (by rw [h1]; simp)
    rw [h1, Nat.mul_one] at e1
    refine ⟨s', ?_, p1, m1, ⟨⟨_, _, c1, ?_, ?_, fun hb => absurd hb hk⟩, ?_, ?_⟩⟩
    · cases hkk : c.kind with
      | block => exact absurd hkk hk
      | pcm => simpa using e1
      | g711 => simpa using e1
    · rw [hX, hh1, hheld]; simp
    · rw [hh1]; exact hh
    · intro _ hdd; rw [m1.dirty, hd] at hdd; exact absurd hdd (by simp)
    · intro _; rw [hh1, hheld]

theorem writeLoop_ok (c : Cfg V α γ ε) (h : WF c) (e0 : ε) (E : Prop) (n : Nat) :
    ∀ (xs : List γ) (s : St V α ε) (X : List α), xs.length = n → Inv c e0 E s X → s.dirty = false →
      s.filePos = s.fposNext →
      ∃ s', writeLoop c xs s = .ok s' ∧ s'.filePos = s'.fposNext ∧ Same s s'
        ∧ Inv c e0 E s' (X ++ xs.map (c.conv s.v)) := by
  induction n using Nat.strongRecOn with
  | _ n ih =>
  intro xs s X hn hi hd hpos
  rw [writeLoop]
  by_cases h0 : xs.length = 0
  · have : xs = [] := List.length_eq_zero_iff.1 h0
    subst this
    exact ⟨s, by simp; rfl, hpos, Same.refl s, by simpa using hi⟩
  · obtain ⟨s1, e1, p1, m1, i1⟩ := chainPush_ok c h e0 E s X (xs.take 1024) hi hd hpos
    obtain ⟨s2, e2, p2, m2, i2⟩ := ih (xs.drop 1024).length (by simp; omega) (xs.drop 1024) s1 _ rfl i1
      (m1.dirty.trans hd) p1
    refine ⟨s2, ?_, p2, m1.trans m2, ?_⟩
    · simp only [h0, dite_false, bind, Except.bind, e1, e2]
    · rw [m1.v, List.append_assoc, ← List.map_append, List.take_append_drop] at i2
      exact i2

theorem setup_inv (c : Cfg V α γ ε) (h : WF c) (e0 : ε) (E : Prop) (s : St V α ε) (X : List α)
    (hi : Inv c e0 E s X) :
    Inv c e0 E (if s.dirty then setup c s else s) X ∧ (if s.dirty then setup c s else s).dirty = false
      ∧ (if s.dirty then setup c s else s).v = s.v ∧ (if s.dirty then setup c s else s).nextv = s.nextv
      ∧ (if s.dirty then setup c s else s).filePos = s.filePos
      ∧ (if s.dirty then setup c s else s).fposNext = s.fposNext
      ∧ (if s.dirty then setup c s else s).held = s.held := by
  cases hd : s.dirty with
  | false => simp [hd, hi]
  | true =>
    obtain ⟨Y, k, hc, hX, hh, _⟩ := hi.core
    simp only [if_true]
    refine ⟨⟨⟨Y, k, ⟨hc.len, hc.data, hc.enc, hc.fpos, hc.size, hc.nextf, hc.totalf⟩, hX, hh, ?_⟩, ?_, hi.nb⟩,
      rfl, rfl, rfl, rfl, rfl, rfl⟩
    · intro _ _
      refine ⟨fun e => ?_, h.junk_len⟩
      have hx := hi.fresh e hd
      rw [hX] at hx
      have hY : Y = [] := (List.append_eq_nil_iff.1 hx).1
      have hk : k = 0 := by
        have := hc.len; rw [hY] at this
        simp only [List.length_nil] at this
        rcases Nat.mul_eq_zero.1 this.symm with h1 | h1
        · exact h1
        · have := c.fpp_pos; omega
      simp [bufAfter, hk, setup]
    · intro _ hdd; simp [setup] at hdd

theorem writeFrames_ok (c : Cfg V α γ ε) (h : WF c) (e0 : ε) (E : Prop) (s : St V α ε) (X : List α) (xs : List γ)
    (hi : Inv c e0 E s X) :
    ∃ s', writeFrames c xs s = .ok ((xs.length : Int), s') ∧ s'.filePos = s'.fposNext ∧ s'.v = s.v
      ∧ s'.dirty = false ∧ s'.nextv = s.nextv + xs.length ∧ Inv c e0 E s' (X ++ xs.map (c.conv s.v)) := by
  obtain ⟨i0, d0, v0, n0, _, _, _⟩ := setup_inv c h e0 E s X hi
  unfold writeFrames
  generalize (if s.dirty then setup c s else s) = s1 at i0 d0 v0 n0
  have hnn : ¬ (c.first : Int) + s1.fposNext < 0 := by
    obtain ⟨⟨_, _, hc, _⟩, _, _⟩ := i0
    have := hc.fpos
    omega
  rw [if_neg hnn]
  have i0' : Inv c e0 E { s1 with filePos := s1.fposNext } X := by
    obtain ⟨⟨Y, k, hc, hX, hh, hob⟩, hf, hnb⟩ := i0
    exact ⟨⟨Y, k, ⟨hc.len, hc.data, hc.enc, hc.fpos, hc.size, hc.nextf, hc.totalf⟩, hX, hh, hob⟩, hf, hnb⟩
  obtain ⟨s2, e2, p2, m2, i2⟩ := writeLoop_ok c h e0 E _ xs { s1 with filePos := s1.fposNext } X rfl i0' d0 rfl
  refine ⟨{ s2 with nextv := s2.nextv + xs.length, totalv := s2.totalv + xs.length },
    by simp only [bind, Except.bind, e2]; rfl, p2, m2.v.trans v0, m2.dirty.trans d0, ?_, ?_⟩
  · simp only [m2.nextv, n0]
  · obtain ⟨⟨Y, k, hc, hX, hh, hob⟩, hf, hnb⟩ := i2
    have hX' := hX
    simp only [v0] at hX' hf
    exact ⟨⟨Y, k, ⟨hc.len, hc.data, hc.enc, hc.fpos, hc.size, hc.nextf, hc.totalf⟩, hX', hh, hob⟩, hf, hnb⟩

theorem wrap32 {x : Int} (h1 : 0 ≤ x) (h2 : x < 2 ^ 31) : wrapS 32 x = x :=
  Int.bmod_eq_of_le (by omega) (by omega)

/-- `afSyncFile` with nothing pending in the rebuffer module. -/
theorem syncFile_ok (c : Cfg V α γ ε) (h : WF c) (e0 : ε) (E : Prop) (s : St V α ε) (X : List α)
    (hi : Inv c e0 E s X) (hpos : c.checks = true → s.filePos = s.fposNext) (hheld : s.held = []) :
    ∃ s', syncFile c s = .ok s' ∧ s'.v = s.v ∧ s'.dirty = false
      ∧ s'.filePos = c.afterUpdate.getD s.filePos ∧ s'.held = []
      ∧ s'.totalf = X.length ∧ s'.dataSize = s'.data.length
      ∧ s'.data = (sp c (X.length / c.fpp) e0 X).1
      ∧ s'.fposNext = (if c.kind = .pcm then wrapS 32 (c.first + s.fposNext) - c.first else s.fposNext)
      ∧ (Place c X.length → s'.fposNext = s.fposNext ∧ Inv c e0 E s' X) := by
  obtain ⟨i0, d0, v0, n0, f0, g0, h0⟩ := setup_inv c h e0 E s X hi
  unfold syncFile
  generalize (if s.dirty then setup c s else s) = s1 at i0 d0 v0 n0 f0 g0 h0
  obtain ⟨⟨Y, k, hc, hX, hh, hob⟩, hf, hnb⟩ := i0
  rw [h0, hheld, List.append_nil] at hX
  have hchk : (!c.checks || s1.filePos == s1.fposNext) = true := by
    cases hcc : c.checks with
    | false => rfl
    | true => simp [f0, g0, hpos hcc]
  have hkX : X.length / c.fpp = k := by rw [hX, hc.len, Nat.mul_div_cancel _ c.fpp_pos]
  have hheld1 : s1.held = [] := h0.trans hheld
  have hsm : syncModules c s1 = .ok { s1 with
      fposNext := if c.kind = .pcm then wrapS 32 (c.first + s1.fposNext) - c.first else s1.fposNext
      nextf := if c.kind = .pcm then wrapS 32 s1.nextf else s1.nextf } := by
    unfold syncModules
    by_cases hk : c.kind = .block
    · have e0' : filePush c s1.outBuf 0 s1 = .ok s1 := by
        unfold filePush
        simp only [hk]
        have hz : (0 + c.fpp - 1) / c.fpp = 0 := Nat.div_eq_of_lt (by have := c.fpp_pos; omega)
        rw [hz]
        simp only [Nat.zero_mul, List.take_zero]
        rw [encodePackets_eq]
        simp only [List.length_nil, Nat.zero_div, sp, Spec.packets, fwrite, List.append_nil, Nat.add_zero,
          List.take_append_drop, Nat.min_zero]
        have ht := hc.totalf
        cases s1
        simp_all [cAssert, bind, Except.bind, pure, Except.pure]
      have hdec : decide (0 < c.fpp) = true := by simp [c.fpp_pos]
      have hs2 : ({ s1 with held := [] } : St V α ε) = s1 := by
        rw [← hheld1]
      simp only [hk, hdec, bind, Except.bind, cAssert, Bool.or_true, if_true, hheld1, List.length_nil,
        List.nil_append, List.drop_zero, pure, Except.pure, e0', hs2, hchk]
    · cases hkk : c.kind with
      | block => exact absurd hkk hk
      | pcm => simp only [pure, Except.pure, bind, Except.bind, cAssert, hchk, if_true]
      | g711 => simp only [pure, Except.pure, bind, Except.bind, cAssert, hchk, if_true]
  refine ⟨{ s1 with
      fposNext := if c.kind = .pcm then wrapS 32 (c.first + s1.fposNext) - c.first else s1.fposNext
      nextf := if c.kind = .pcm then wrapS 32 s1.nextf else s1.nextf
      filePos := c.afterUpdate.getD s1.filePos }, ?_, v0, d0, by simp only [f0], hheld1, ?_,
    hc.size, ?_, by simp only [g0], ?_⟩
  · simp only [hsm, bind, Except.bind]; rfl
  · show s1.totalf = _
    rw [hc.totalf, hc.nextf, hX, hc.len]
  · rw [hkX, hX]; exact hc.data
  · intro hpl
    have hlen : s1.data.length = k * c.bpp := by rw [hc.data]; exact sp_len h k _ _ (by rw [hc.len]; omega)
    have hw : (if c.kind = .pcm then wrapS 32 (c.first + s1.fposNext) - c.first else s1.fposNext) = s1.fposNext
        ∧ (if c.kind = .pcm then wrapS 32 s1.nextf else s1.nextf) = s1.nextf := by
      by_cases hk : c.kind = .pcm
      · have hp := hpl hk
        have h1 := h.one (by rw [hk]; simp)
        have hXl : X.length = k := by rw [hX, hc.len, h1, Nat.mul_one]
        rw [hXl] at hp
        have hkb : k ≤ k * c.bpp := Nat.le_mul_of_pos_right _ c.bpp_pos
        have hfp : s1.fposNext = (k * c.bpp : Nat) := by rw [hc.fpos, hlen]
        have hnf : s1.nextf = (k : Nat) := by rw [hc.nextf, h1, Nat.mul_one]
        simp only [if_pos hk]
        constructor
        · rw [hfp, wrap32 (by omega) (by omega)]; omega
        · rw [hnf, wrap32 (by omega) (by omega)]
      · simp only [if_neg hk, and_self]
    refine ⟨hw.1.trans g0, ⟨Y, k, ⟨hc.len, hc.data, hc.enc, hw.1.trans hc.fpos, hc.size, hw.2.trans hc.nextf, ?_⟩,
      by rw [hheld1]; simpa using hX, hh, hob⟩, hf, hnb⟩
    exact hc.totalf.trans hw.2.symm

/-- What `afCloseFile` leaves, whatever is pending. -/
theorem close_ok (c : Cfg V α γ ε) (h : WF c) (e0 : ε) (E : Prop) (s : St V α ε) (X : List α)
    (hi : Inv c e0 E s X) (hpos : c.checks = true ∨ s.held ≠ [] → s.filePos = s.fposNext) :
    ∃ pad : List α, pad.length = c.fpp ∧ (E → pad = Spec.lastPacket c.fpp c.junk X) ∧
      close c s = .ok ⟨Spec.fileData c.fpp c.encode e0 pad X,
        (Spec.fileData c.fpp c.encode e0 pad X).length, X.length⟩ := by
  by_cases hheld : s.held = []
  · obtain ⟨s', e1, _, _, _, _, t1, z1, dt1, _, _⟩ :=
      syncFile_ok c h e0 E s X hi (fun hc => hpos (.inl hc)) hheld
    obtain ⟨Y, k, hc, hX, _, _⟩ := hi.core
    rw [hheld, List.append_nil] at hX
    have hkX : X.length / c.fpp = k := by rw [hX, hc.len, Nat.mul_div_cancel _ c.fpp_pos]
    have hr : X.drop (X.length / c.fpp * c.fpp) = [] := by
      rw [hkX, ← hc.len, hX]; simp
    have hfd : ∀ pad, Spec.fileData c.fpp c.encode e0 pad X = s'.data := by
      intro pad; rw [dt1]; simp [Spec.fileData, hr, sp]
    refine ⟨Spec.lastPacket c.fpp c.junk X, ?_, fun _ => rfl, ?_⟩
    · unfold Spec.lastPacket
      rw [hkX]
      split
      · exact h.junk_len
      · rename_i hk0
        have e2 : X.length = (k - 1) * c.fpp + c.fpp := by
          rw [hX, hc.len, ← Nat.succ_mul]; congr 1; omega
        simp [e2]
    · rw [hfd]
      simp only [close, bind, Except.bind, e1, pure, Except.pure, z1, t1]
  · replace hpos := hpos (.inr hheld)
    have hk : c.kind = .block := by
      exact Decidable.byContradiction fun hk => hheld (hi.nb hk)
    obtain ⟨i0, d0, v0, n0, f0, g0, h0⟩ := setup_inv c h e0 E s X hi
    unfold close syncFile
    generalize (if s.dirty then setup c s else s) = s1 at i0 d0 v0 n0 f0 g0 h0
    obtain ⟨⟨Y, k, hc, hX, hh, hob⟩, hf, hnb⟩ := i0
    obtain ⟨ho1, ho2⟩ := hob hk d0
    have hpos1 : s1.filePos = s1.fposNext := by rw [f0, g0, hpos]
    have hhpos : 0 < s1.held.length := by
      rw [h0]; exact List.length_pos_iff.2 hheld
    have hXl : X.length = k * c.fpp + s1.held.length := by rw [hX, List.length_append, hc.len]
    have hkX : X.length / c.fpp = k := by
      rw [hXl, Nat.add_comm, Nat.add_mul_div_right _ _ c.fpp_pos, Nat.div_eq_of_lt hh, Nat.zero_add]
    have hrest : X.drop (X.length / c.fpp * c.fpp) = s1.held := by
      rw [hkX, ← hc.len, hX, List.drop_left]
    have hwhole : Spec.packets c.fpp c.encode k e0 X = sp c k e0 Y := by
      rw [hX]; exact sp_prefix c k e0 Y s1.held (by rw [hc.len]; omega)
    have hne : s1.held ≠ [] := List.length_pos_iff.1 hhpos
    obtain ⟨blk, hbd⟩ : ∃ b, b = s1.held ++ s1.outBuf.drop s1.held.length := ⟨_, rfl⟩
    have hblk : blk.length = c.fpp := by simp [hbd, ho2]; omega
    have hfd : Spec.fileData c.fpp c.encode e0 s1.outBuf X = s1.data ++ (c.encode s1.enc blk).1 := by
      rw [hkX] at hrest
      simp only [Spec.fileData, hkX, hrest, if_neg hne, hwhole, hc.data, hc.enc, hbd]
    refine ⟨s1.outBuf, ho2, ?_, ?_⟩
    · intro e
      rw [ho1 e, Spec.lastPacket, hkX, bufAfter]
      split
      · rfl
      · rename_i hk0
        have e2 : Y.length = (k - 1) * c.fpp + c.fpp := by
          rw [hc.len, ← Nat.succ_mul]; congr 1; omega
        rw [hX, List.drop_append_of_le_length (by omega), List.take_left' (by simp [e2])]
    · rw [hfd]
      have hdec : decide (s1.held.length < c.fpp) = true := by simp [hh]
      have hb1 : (s1.held.length + c.fpp - 1) / c.fpp = 1 := by
        rw [Nat.div_eq_iff c.fpp_pos]; omega
      have henc : encodePackets c s1.enc blk = c.encode s1.enc blk := by
        have h1 : c.fpp / c.fpp = 1 := Nat.div_self c.fpp_pos
        have htk : blk.take c.fpp = blk := List.take_of_length_le (by omega)
        rw [encodePackets_eq, hblk, h1]
        simp [sp, Spec.packets, htk]
      have hoff : s1.filePos.toNat = s1.data.length := by rw [hpos1, hc.fpos]; simp
      have hneg : (-s1.filePos).toNat = 0 := by rw [hpos1, hc.fpos]; omega
      have hel := h.encode_len s1.enc blk hblk
      have hdrop : s1.data.drop (s1.data.length + c.bpp) = [] := List.drop_eq_nil_of_le (by omega)
      have htk' : blk.take c.fpp = blk := List.take_of_length_le (by omega)
      have hbp : c.bpp / c.bpp = 1 := Nat.div_self c.bpp_pos
      have hmin : min c.fpp s1.held.length = s1.held.length := by omega
      have hnx := hc.nextf
      have hsz := hc.size
      have hfp : filePush c blk s1.held.length { s1 with outBuf := blk } = .ok { s1 with
          outBuf := blk
          data := s1.data ++ (c.encode s1.enc blk).1
          enc := (c.encode s1.enc blk).2
          filePos := s1.filePos + c.bpp
          fposNext := s1.fposNext + c.bpp
          dataSize := s1.dataSize + c.bpp
          nextf := s1.nextf + s1.held.length
          totalf := s1.nextf + s1.held.length } := by
        unfold filePush
        simp only [hk, hb1, Nat.one_mul, htk', henc, fwrite, hoff, hneg, List.drop_zero, hel, hdrop, List.take_length, List.append_nil, hbp,
          hmin, bind, Except.bind, pure, Except.pure]
        simp [cAssert, hpos1]
      unfold syncModules
      simp only [hk, hdec, ← hbd, hfp, bind, Except.bind, pure, Except.pure]
      simp [cAssert, hpos1, hnx, hXl, hsz, hel]

theorem held_len {c : Cfg V α γ ε} {e0 : ε} {E : Prop} {s : St V α ε} {X : List α} (hi : Inv c e0 E s X)
    (hm : X.length % c.fpp = 0) : s.held = [] := by
  obtain ⟨Y, k, hc, hX, hh, _⟩ := hi.core
  rw [hX, List.length_append, hc.len, Nat.add_comm, Nat.add_mul_mod_self_right, Nat.mod_eq_of_lt hh] at hm
  exact List.length_eq_zero_iff.1 hm

/-- May the library synchronise now? -/
def Ready (c : Cfg V α γ ε) (s : St V α ε) (ready : Bool) : Prop :=
  (s.filePos = s.fposNext ∨ s.held = []) ∧
  (ready = true → c.checks = true → s.filePos = s.fposNext)

theorem run_close (c : Cfg V α γ ε) (h : WF c) (e0 : ε) (E : Prop) (ops : List (Op V γ)) :
    ∀ (s : St V α ε) (X : List α) (ready : Bool), Inv c e0 E s X → Ready c s ready →
      (E → ∀ op ∈ ops, ∀ v, op ≠ .setFormat v) →
      SyncOK (Place c) c.fpp (c.checks && c.afterUpdate.isSome) X.length ready ops →
      ∃ s', run c s ops = .ok s' ∧ Ready c s' true ∧ Inv c e0 E s' (X ++ handed c.conv s.v ops) := by
  induction ops with
  | nil =>
    intro s X ready hi hr _ hs
    simp only [SyncOK] at hs
    rw [hs] at hr
    exact ⟨s, rfl, hr, by simpa [handed] using hi⟩
  | cons op ops ih =>
    intro s X ready hi hr hE hs
    have hE' : E → ∀ op ∈ ops, ∀ v, op ≠ .setFormat v := fun e o ho => hE e o (List.mem_cons_of_mem _ ho)
    cases op with
    | write xs =>
      obtain ⟨s1, e1, p1, v1, _, _, i1⟩ := writeFrames_ok c h e0 E s X xs hi
      obtain ⟨s2, e2, p2, i2⟩ := ih s1 _ true i1 ⟨.inl p1, fun _ _ => p1⟩ hE' (by simpa [SyncOK] using hs)
      refine ⟨s2, ?_, p2, ?_⟩
      · simp only [run, step, bind, Except.bind, e1, pure, Except.pure, e2]
      · rw [v1, List.append_assoc] at i2; exact i2
    | sync =>
      obtain ⟨hr1, hm, hpl, hs⟩ := hs
      obtain ⟨s1, e1, v1, d1, p1, hh1, _, _, _, _, hp1⟩ :=
        syncFile_ok c h e0 E s X hi (hr.2 hr1) (held_len hi hm)
      obtain ⟨g1, i1⟩ := hp1 hpl
      obtain ⟨s2, e2, p2, i2⟩ := ih s1 X _ i1 ⟨.inr hh1, by
        intro hb hck
        rw [p1, g1]
        cases ha : c.afterUpdate with
        | none => exact hr.2 hr1 hck
        | some a => simp [ha, hck] at hb⟩ hE' hs
      refine ⟨s2, ?_, p2, ?_⟩
      · simp only [run, step, bind, Except.bind, e1, e2]
      · rw [v1] at i2; exact i2
    | setFormat v =>
      have i1 : Inv c e0 E { s with v := v, dirty := true } X := by
        obtain ⟨⟨Y, k, hc, hX, hh, hob⟩, hf, hnb⟩ := hi
        refine ⟨⟨Y, k, ⟨hc.len, hc.data, hc.enc, hc.fpos, hc.size, hc.nextf, hc.totalf⟩, hX, hh, ?_⟩, ?_, hnb⟩
        · intro _ hd; exact absurd hd (by simp)
        · intro e; exact absurd rfl (hE e _ (List.mem_cons_self) v)
      obtain ⟨s2, e2, p2, i2⟩ := ih { s with v := v, dirty := true } X ready i1 hr hE' hs
      refine ⟨s2, ?_, p2, i2⟩
      simp only [run, step, bind, Except.bind, pure, Except.pure, e2]

theorem init_inv (c : Cfg V α γ ε) (E : Prop) (e0 : ε) (v : V) : Inv c e0 E (init e0 v) [] :=
  ⟨⟨[], 0, ⟨by simp, rfl, rfl, rfl, rfl, by simp [init], rfl⟩, rfl, by simpa [init] using c.fpp_pos,
    fun _ hd => by simp [init] at hd⟩, fun _ _ => rfl, fun _ => rfl⟩

theorem session_ok (c : Cfg V α γ ε) (h : WF c) (e0 : ε) (E : Prop) (v : V) (ops : List (Op V γ))
    (hE : E → ∀ op ∈ ops, ∀ v, op ≠ .setFormat v)
    (hs : SyncOK (Place c) c.fpp (c.checks && c.afterUpdate.isSome) 0 true ops) :
    ∃ pad : List α, pad.length = c.fpp ∧ (E → pad = Spec.lastPacket c.fpp c.junk (handed c.conv v ops)) ∧
      session c e0 v ops = .ok ⟨Spec.fileData c.fpp c.encode e0 pad (handed c.conv v ops),
        (Spec.fileData c.fpp c.encode e0 pad (handed c.conv v ops)).length, (handed c.conv v ops).length⟩ := by
  obtain ⟨s', e1, p1, i1⟩ := run_close c h e0 E ops (init e0 v) [] true (init_inv c E e0 v)
    ⟨.inl rfl, fun _ _ => rfl⟩ hE hs
  rw [List.nil_append] at i1
  obtain ⟨pad, hl, hp, e2⟩ := close_ok c h e0 E s' _ i1 (by
    rintro (hck | hh)
    · exact p1.2 rfl hck
    · exact p1.1.resolve_right hh)
  refine ⟨pad, hl, hp, ?_⟩
  simp only [session, bind, Except.bind, e1]
  exact e2

end AF.Writing
