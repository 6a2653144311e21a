import Verif.Proof.PacketRead
/-! Reading packets of a sound file does not leave the buffers. -/
namespace AF.Packets
open AF AF.Files
variable {V α γ : Type} {c : RCfg V α γ} {S : List Nat}

/-- Where the file is read next: at the next packet, or at the end of the file if that packet is not completely there. -/
def Next (c : RCfg V α γ) (S : List Nat) (cur pos : Int) : Prop :=
  pos = c.fposFirst + (S.take cur.toNat).sum ∨ (c.file.length : Int) ≤ pos ∧ ∃ h : cur.toNat < S.length, 0 < S[cur.toNat]

/-- What holds during a call. -/
structure Place (c : RCfg V α γ) (S : List Nat) (s : RSt V α) : Prop where
  cur : 0 ≤ s.cur ∧ s.cur ≤ S.length
  same : s.filePos = s.fposNext
  pos : Next c S s.cur s.fposNext

/-- What holds between calls. -/
structure Fine (c : RCfg V α γ) (S : List Nat) (s : RSt V α) : Prop where
  cur : 0 ≤ s.cur ∧ s.cur ≤ S.length
  pos : s.dirty = false → Next c S s.cur s.fposNext
  ignore : 0 ≤ s.ignore
  nextv : 0 ≤ s.nextv ∧ s.nextv ≤ c.totalf
  totalv : s.dirty = false → s.totalv = c.totalf

/-- The fields a pull does not touch; `cur` stays in range. -/
structure Moved (c : RCfg V α γ) (S : List Nat) (s s' : RSt V α) : Prop where
  cur : Place c S s → Place c S s'
  ignore : s'.ignore = s.ignore
  nextv : s'.nextv = s.nextv
  totalv : s'.totalv = s.totalv
  dirty : s'.dirty = s.dirty

theorem Moved.refl {c : RCfg V α γ} (s : RSt V α) : Moved c S s s := ⟨id, rfl, rfl, rfl, rfl⟩
theorem Moved.trans {a b d : RSt V α} (h : Moved c S a b) (k : Moved c S b d) : Moved c S a d :=
  ⟨k.cur ∘ h.cur, k.ignore.trans h.ignore, k.nextv.trans h.nextv, k.totalv.trans h.totalv, k.dirty.trans h.dirty⟩

theorem sum_take_succ (S : List Nat) (i : Nat) (hi : i < S.length) : (S.take (i + 1)).sum = (S.take i).sum + S[i] := by
  rw [List.take_succ_eq_append_getElem hi, List.sum_append, List.sum_singleton]

theorem filePull_safe (h : Sound c S) (s : RSt V α) (hc : Place c S s) :
    ∃ fs s', filePull c s = .ok (fs, s') ∧ fs.length ≤ c.fpp ∧ Moved c S s s' := by
  unfold filePull
  rw [h.sizes]
  dsimp only
  have hcur := hc.cur
  by_cases h1 : s.cur ≥ S.length
  · rw [if_pos h1]
    exact ⟨[], s, rfl, Nat.zero_le _, Moved.refl s⟩
  · rw [if_neg h1, if_neg (by omega)]
    have hlt : s.cur.toNat < S.length := by omega
    have hsz : S.getD s.cur.toNat 0 = S[s.cur.toNat] := by
      rw [List.getD_eq_getElem?_getD, List.getElem?_eq_getElem hlt, Option.getD_some]
    have hcap := h.capacity _ (List.getElem_mem hlt)
    have hsame := hc.same
    have hnn : 0 ≤ s.fposNext := by
      rcases hc.pos with e | ⟨e, -⟩
      · rw [e]; exact Int.natCast_nonneg (c.fposFirst + (S.take s.cur.toNat).sum)
      · omega
    rw [hsz, if_neg (by rw [List.length_take]; omega)]
    have hl : (List.take S[s.cur.toNat] (List.drop s.filePos.toNat c.file)).length = min S[s.cur.toNat] (c.file.length - s.filePos.toNat) := by
      rw [List.length_take, List.length_drop]
    rw [hl]
    by_cases hshort : min S[s.cur.toNat] (c.file.length - s.filePos.toNat) < S[s.cur.toNat]
    · rw [if_pos hshort]
      refine ⟨_, _, rfl, h.stale, ⟨fun q => ⟨q.cur, ?_, Or.inr ⟨?_, hlt, by show 0 < S[s.cur.toNat]; omega⟩⟩, rfl, rfl, rfl, rfl⟩⟩
      · dsimp only; rw [hsame]
      · dsimp only
        omega
    · rw [if_neg hshort]
      have hpos : s.fposNext = c.fposFirst + (S.take s.cur.toNat).sum := by
        rcases hc.pos with e | ⟨e, hk, h0⟩
        · exact e
        · exfalso; omega
      have hp : s.filePos.toNat = c.fposFirst + (S.take s.cur.toNat).sum := by omega
      obtain ⟨fs, e, hl⟩ : ∃ fs, c.decode s.cur.toNat (List.take S[s.cur.toNat] (List.drop s.filePos.toNat c.file)) = .ok fs ∧
          fs.length ≤ c.fpp := by
        rw [hp]
        exact h.decode _ hlt (by rw [← hp, hl]; omega)
      simp only [bind, Except.bind, e, pure, Except.pure]
      refine ⟨fs, _, rfl, hl, ⟨fun _ => ⟨?_, ?_, Or.inl ?_⟩, rfl, rfl, rfl, rfl⟩⟩
      · dsimp only; omega
      · dsimp only; rw [hsame]
      · dsimp only
        have e1 : (s.cur + 1).toNat = s.cur.toNat + 1 := by omega
        rw [e1, sum_take_succ _ _ hlt]
        omega

theorem rebufLoop_safe (h : Sound c S) (want : Nat) : ∀ (s : RSt V α), Place c S s →
    ∃ fs left s', rebufLoop c want s = .ok (fs, left, s') ∧ fs.length ≤ want ∧ Moved c S s s' := by
  induction want using Nat.strongRecOn with
  | _ want ih =>
  intro s hc
  have hfp := c.fpp_pos
  rw [rebufLoop]
  by_cases hw : want = 0
  · subst hw; exact ⟨[], 0, s, by simp; rfl, Nat.le_refl _, Moved.refl s⟩
  · simp only [hw, dite_false]
    cases he : s.eof with
    | true => exact ⟨[], _, s, by simp; rfl, Nat.zero_le _, Moved.refl s⟩
    | false =>
      obtain ⟨fs, s1, e1, hl, m1⟩ := filePull_safe h s hc
      simp only [Bool.false_eq_true, if_false, bind, Except.bind, e1]
      rw [if_neg (by omega)]
      by_cases hfull : fs.length = c.fpp
      · rw [if_pos hfull]
        by_cases hs : want < c.fpp
        · rw [if_pos hs]
          exact ⟨_, _, _, rfl, by rw [List.length_take]; omega, ⟨fun q => ⟨(m1.cur q).cur, (m1.cur q).same, (m1.cur q).pos⟩, m1.ignore, m1.nextv, m1.totalv, m1.dirty⟩⟩
        · rw [if_neg hs]
          obtain ⟨gs, left, s2, e2, hl2, m2⟩ := ih (want - c.fpp) (by omega) s1 (m1.cur hc)
          rw [e2]
          refine ⟨_, _, _, rfl, ?_, m1.trans m2⟩
          show (fs ++ gs).length ≤ want
          rw [List.length_append]; omega
      · rw [if_neg hfull]
        by_cases hs : want < fs.length
        · rw [if_pos hs]
          exact ⟨_, _, _, rfl, by rw [List.length_take]; omega, ⟨fun q => ⟨(m1.cur q).cur, (m1.cur q).same, (m1.cur q).pos⟩, m1.ignore, m1.nextv, m1.totalv, m1.dirty⟩⟩
        · rw [if_neg hs]
          exact ⟨_, _, _, rfl, by omega, ⟨fun q => ⟨(m1.cur q).cur, (m1.cur q).same, (m1.cur q).pos⟩, m1.ignore, m1.nextv, m1.totalv, m1.dirty⟩⟩

theorem chainPull_safe (h : Sound c S) (n : Nat) (s : RSt V α) (hc : Place c S s) :
    ∃ fs s', chainPull c n s = .ok (fs, s') ∧ fs.length ≤ n ∧ Moved c S s s' := by
  have key : ∃ fs s', rebufPull c n s = .ok (fs, s') ∧ fs.length ≤ n ∧ Moved c S s s' := by
    unfold rebufPull
    simp only [bind, Except.bind]
    by_cases hn : n < s.held.length
    · rw [if_pos hn]
      exact ⟨_, _, rfl, by rw [List.length_take]; omega, ⟨fun q => ⟨q.cur, q.same, q.pos⟩, rfl, rfl, rfl, rfl⟩⟩
    · rw [if_neg hn]
      obtain ⟨fs, left, s1, e, hl, m1⟩ := rebufLoop_safe h (n - s.held.length) { s with held := [] } ⟨hc.cur, hc.same, hc.pos⟩
      rw [e]
      have pl : Place c S s → Place c S s1 := fun q => m1.cur ⟨q.cur, q.same, q.pos⟩
      refine ⟨_, _, rfl, ?_, ⟨fun q => ⟨(pl q).cur, (pl q).same, (pl q).pos⟩, m1.ignore, m1.nextv, m1.totalv, m1.dirty⟩⟩
      show (s.held.take n ++ fs).length ≤ n
      rw [List.length_append, List.length_take]; omega
  obtain ⟨fs, s1, e, hl, m1⟩ := key
  unfold chainPull
  simp only [bind, Except.bind, e]
  split
  · exact ⟨_, _, rfl, by simp; omega, m1⟩
  · exact ⟨_, _, rfl, by simpa using hl, m1⟩

theorem readLoop_safe (h : Sound c S) (left : Nat) : ∀ (s : RSt V α), Place c S s →
    ∃ fs s', readLoop c left s = .ok (fs, s') ∧ fs.length ≤ left ∧ Moved c S s s' := by
  induction left using Nat.strongRecOn with
  | _ left ih =>
  intro s hc
  rw [readLoop]
  by_cases hl : left = 0
  · subst hl; exact ⟨[], s, by simp; rfl, Nat.le_refl _, Moved.refl s⟩
  · simp only [hl, dite_false]
    by_cases hh : s.happy = false
    · rw [if_pos hh]; exact ⟨[], s, rfl, Nat.zero_le _, Moved.refl s⟩
    · rw [if_neg hh]
      obtain ⟨fs, s1, e1, hl1, m1⟩ := chainPull_safe h (min 1024 left) s hc
      simp only [bind, Except.bind, e1]
      split
      · split
        · exact ⟨_, _, rfl, by omega, m1⟩
        · obtain ⟨gs, s2, e2, hl2, m2⟩ := ih (left - min 1024 left) (by omega) s1 (m1.cur hc)
          rw [e2]
          refine ⟨_, _, rfl, ?_, m1.trans m2⟩
          show (fs ++ gs).length ≤ left
          rw [List.length_append]; omega
      · exact ⟨_, _, rfl, Nat.zero_le _, m1⟩

theorem wrapS_small (w v : Nat) (hw : w = v + 1) {x : Int} (h0 : 0 ≤ x) (h : x < 2 ^ v) : wrapS w x = x := by
  subst hw
  have e : (2 : Int) ^ (v + 1) = 2 ^ v * 2 := Int.pow_succ ..
  exact wrapS_id (by generalize (2 : Int) ^ v = z at *; omega) (by generalize (2 : Int) ^ v = z at *; omega)

theorem setup_safe (h : Sound c S) (s : RSt V α) (hn : 0 ≤ s.nextv ∧ s.nextv ≤ c.totalf) :
    ∃ s', setup c s = .ok s' ∧ Fine c S s' ∧ s'.dirty = false ∧ s'.nextv = s.nextv := by
  obtain ⟨t0, t1, t2⟩ := h.total
  have hf := c.fpp_pos
  have hcnt := h.count
  obtain ⟨p, hp⟩ : ∃ p : Nat, s.nextv = p := ⟨s.nextv.toNat, by omega⟩
  obtain ⟨T, hT⟩ : ∃ T : Nat, c.totalf = T := ⟨c.totalf.toNat, by omega⟩
  rw [hT] at t0 t1 t2
  have hpT : p ≤ T := by omega
  have hTS : T ≤ S.length * c.fpp := by exact_mod_cast t1
  have hq : p / c.fpp ≤ S.length := by
    have := Nat.div_le_div_right (c := c.fpp) (Nat.le_trans hpT hTS)
    rwa [Nat.mul_div_cancel _ hf] at this
  have hq0 : 0 ≤ ((p / c.fpp : Nat) : Int) := Int.natCast_nonneg _
  have hmul : p / c.fpp * c.fpp ≤ p := Nat.div_mul_le_self ..
  have hpI : (p : Int) < 2 ^ 63 := Int.lt_of_le_of_lt (Int.ofNat_le.2 hpT) t2
  have hqI : ((p / c.fpp : Nat) : Int) ≤ S.length := Int.ofNat_le.2 hq
  have hmI : ((p / c.fpp * c.fpp : Nat) : Int) ≤ p := Int.ofNat_le.2 hmul
  have hm0 : 0 ≤ ((p / c.fpp * c.fpp : Nat) : Int) := Int.natCast_nonneg _
  have hS31 : (S.length : Int) < 2 ^ 31 := by clear t2 hpI; omega
  have e0 : wrapU 64 (p : Int) = p := wrapU_id (Int.natCast_nonneg _) (Int.lt_trans hpI (by decide))
  have e1 : wrapS 32 ((p : Int) / (c.fpp : Int)) = ((p / c.fpp : Nat) : Int) := by
    rw [← Int.natCast_ediv]
    exact wrapS_small 32 31 rfl hq0 (Int.lt_of_le_of_lt hqI hS31)
  have e2 : wrapU 64 ((p / c.fpp : Nat) : Int) = ((p / c.fpp : Nat) : Int) :=
    wrapU_id hq0 (Int.lt_trans (Int.lt_of_le_of_lt hqI hS31) (by decide))
  have e3 : ((p / c.fpp : Nat) : Int) * (c.fpp : Int) = ((p / c.fpp * c.fpp : Nat) : Int) := by rw [Int.natCast_mul]
  have e5 : wrapS 64 ((p / c.fpp * c.fpp : Nat) : Int) = ((p / c.fpp * c.fpp : Nat) : Int) :=
    wrapS_small 64 63 rfl hm0 (Int.lt_of_le_of_lt hmI hpI)
  have e6 : (⟨S, 0, 0, 0⟩ : PacketTable).startOfPacket (p / c.fpp) = some (S.take (p / c.fpp)).sum :=
    C47_prefix_sums _ _ hq
  unfold setup
  dsimp only
  rw [h.sizes]
  dsimp only
  rw [hp, e0, e1, e2, e3, e5, Int.toNat_natCast, e6]
  have k1 : ((p / c.fpp : Nat) : Int) ≤ S.length := hqI
  have k2 : 0 ≤ (p : Int) - ((p / c.fpp * c.fpp : Nat) : Int) := Int.sub_nonneg_of_le hmI
  have k3 : 0 ≤ (p : Int) ∧ (p : Int) ≤ c.totalf := hp ▸ hn
  clear e0 e1 e2 e3 e5 e6
  exact ⟨_, rfl, ⟨⟨hq0, k1⟩, fun _ => Or.inl (by dsimp only; rw [Int.toNat_natCast]), k2, k3, fun _ => rfl⟩, rfl, rfl⟩

theorem ensure_safe (h : Sound c S) (s : RSt V α) (hF : Fine c S s) :
    ∃ s', ensure c s = .ok s' ∧ Fine c S s' ∧ s'.dirty = false := by
  unfold ensure
  cases hd : s.dirty with
  | false => exact ⟨s, rfl, hF, hd⟩
  | true =>
    obtain ⟨s', e, a, b, -⟩ := setup_safe h s hF.nextv
    exact ⟨s', e, a, b⟩

theorem skip_safe (h : Sound c S) (s : RSt V α) (hF : Fine c S s) (hP : Place c S s) :
    ∃ b s', skip c s = .ok (b, s') ∧ Fine c S s' ∧ Place c S s' ∧ s'.dirty = s.dirty ∧ s'.totalv = s.totalv ∧ s'.nextv = s.nextv := by
  unfold skip
  by_cases h0 : s.ignore = 0
  · rw [if_pos h0]; exact ⟨_, _, rfl, hF, hP, rfl, rfl, rfl⟩
  · have := hF.ignore
    rw [if_neg h0, if_neg (by omega)]
    obtain ⟨fs, s1, e, -, m1⟩ := chainPull_safe h s.ignore.toNat s hP
    simp only [bind, Except.bind, e]
    have q := m1.cur hP
    exact ⟨_, _, rfl, ⟨q.cur, fun _ => q.pos, Int.le_refl 0, by dsimp only; rw [m1.nextv]; exact hF.nextv,
      fun hd => by dsimp only at hd ⊢; rw [m1.totalv]; exact hF.totalv (by rw [← m1.dirty]; exact hd)⟩,
      ⟨q.cur, q.same, q.pos⟩, m1.dirty, m1.totalv, m1.nextv⟩

theorem step_safe (h : Sound c S) (s : RSt V α) (hF : Fine c S s) (op : Spec.Call V)
    (hop : Spec.InRange c.totalf.toNat op) : ∃ o s', step c s op = .ok (o, s') ∧ Within op o ∧ Fine c S s' := by
  obtain ⟨s1, e1, f1, d1⟩ := ensure_safe h s hF
  have ht := f1.totalv d1
  have hn := f1.nextv
  cases op with
  | read n =>
    simp only [step, readFrames, bind, Except.bind, e1]
    split
    · rename_i hneg
      exfalso
      rcases f1.pos d1 with e | ⟨e, -⟩ <;> omega
    · obtain ⟨b, s2, e2, f2, p2, d2, t2, hnext⟩ := skip_safe h { s1 with filePos := s1.fposNext, happy := true }
        ⟨f1.cur, f1.pos, f1.ignore, f1.nextv, f1.totalv⟩ ⟨f1.cur, rfl, f1.pos d1⟩
      simp only [e2]
      have hn2 := f2.nextv
      have ht2 := f2.totalv (by rw [d2]; exact d1)
      dsimp only at hnext
      generalize hw : (if s1.totalv = -1 then n else if n > s1.totalv - s1.nextv then s1.totalv - s1.nextv else n) = w
      have hwle : w ≤ c.totalf - s1.nextv ∧ w ≤ n := by
        rw [← hw, if_neg (by omega), ht]
        split <;> omega
      cases b with
      | true =>
        simp only [if_true, pure, Except.pure]
        exact ⟨_, _, rfl, ⟨rfl, Nat.zero_le _⟩, ⟨f2.cur, f2.pos, f2.ignore, by dsimp only; simpa using f2.nextv, f2.totalv⟩⟩
      | false =>
        simp only [Bool.false_eq_true, if_false]
        obtain ⟨fs, s3, e3, hl, m3⟩ := readLoop_safe h w.toNat s2 p2
        rw [e3]
        refine ⟨_, _, rfl, ⟨rfl, by show fs.length ≤ n.toNat; omega⟩, ⟨(m3.cur p2).cur, fun _ => (m3.cur p2).pos, by dsimp only; rw [m3.ignore]; exact f2.ignore, ?_, ?_⟩⟩
        · dsimp only
          rw [m3.nextv, hnext]
          omega
        · intro hd
          dsimp only at hd ⊢
          rw [m3.totalv]
          exact f2.totalv (by rw [← m3.dirty]; exact hd)
  | tell =>
    simp only [step, seekFrame, e1, bind, Except.bind, pure, Except.pure]
    exact ⟨_, s1, rfl, rfl, f1⟩
  | count =>
    simp only [step, e1, bind, Except.bind, pure, Except.pure]
    exact ⟨_, s1, rfl, rfl, f1⟩
  | setFormat v => exact ⟨_, { s with v := v, dirty := true }, rfl, rfl, ⟨hF.cur, by simp, hF.ignore, hF.nextv, by simp⟩⟩
  | seek f =>
    have hin : f ≤ c.totalf.toNat ∨ 0 < c.totalf.toNat := hop
    have ht0 := h.total.1
    simp only [step, seekFrame, e1, bind, Except.bind, pure, Except.pure]
    by_cases hf : f < 0
    · rw [if_pos hf]; exact ⟨_, s1, rfl, rfl, f1⟩
    · rw [if_neg hf]
      by_cases he : f = s1.nextv
      · rw [if_pos he]; exact ⟨_, s1, rfl, rfl, f1⟩
      · rw [if_neg he]
        generalize hw : (if s1.totalv ≠ -1 ∧ f > s1.totalv then s1.totalv - 1 else f) = w
        have hwb : 0 ≤ w ∧ w ≤ c.totalf := by
          rw [← hw, ht]; split <;> omega
        obtain ⟨s2, e2, f2, -⟩ := setup_safe h { s1 with nextv := w } hwb
        rw [e2]
        exact ⟨_, s2, rfl, rfl, f2⟩

theorem run_safe (h : Sound c S) (ops : List (Spec.Call V)) : ∀ (s : RSt V α), Fine c S s →
    (∀ op ∈ ops, Spec.InRange c.totalf.toNat op) → ∃ os, run c s ops = .ok os ∧ os.length = ops.length ∧
      ∀ (i : Nat) op o, ops[i]? = some op → os[i]? = some o → Within op o := by
  induction ops with
  | nil => intro s _ _; exact ⟨[], rfl, rfl, by simp⟩
  | cons op ops ih =>
    intro s hF hops
    obtain ⟨o, s1, e1, w1, f1⟩ := step_safe h s hF op (hops op List.mem_cons_self)
    obtain ⟨os, e2, l2, w2⟩ := ih s1 f1 (fun o ho => hops o (List.mem_cons_of_mem _ ho))
    simp only [run, bind, Except.bind, e1, e2]
    refine ⟨o :: os, rfl, by simp [l2], ?_⟩
    intro i op' o' h1 h2
    cases i with
    | zero => simp at h1 h2; subst h1 h2; exact w1
    | succ i => exact w2 i op' o' (by simpa using h1) (by simpa using h2)

theorem init_fine (h : Sound c S) (v : V) : Fine c S (init c v) :=
  ⟨⟨Int.le_refl 0, Int.natCast_nonneg _⟩, by simp [init], Int.le_refl 0, ⟨Int.le_refl 0, h.total.1⟩, by simp [init]⟩

end AF.Packets
