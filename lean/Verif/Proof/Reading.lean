import Verif.Proof.Packets
import Verif.Spec.Track
/-! Refinement of the read side to a cursor over the decoded frames. -/
namespace AF.Reading
variable {V α γ : Type}

/-- All frames the data section of the file decodes to. -/
def allFrames (c : Cfg V α γ) : List α :=
  (packets c.bpp c.bpp_pos (c.file.drop c.fposFirst.toNat)).flatMap c.decode

theorem allFrames_length {c : Cfg V α γ} (h : Intact c) :
    (allFrames c).length = (c.file.length - c.fposFirst.toNat) / c.bpp * c.fpp := by
  unfold allFrames
  rw [flatMap_length_of _ c.fpp, packets_length, List.length_drop]
  intro x hx; exact h.decode_len x (packets_mem _ _ _ x hx)

/-- `s` is between packets so that the next frame it will deliver is frame `q`. -/
structure At (c : Cfg V α γ) (s : St V α) (q b : Nat) : Prop where
  fpos : s.fposNext = c.fposFirst + (c.bpp * b : Nat)
  nextf : s.nextf = (b * c.fpp : Nat)
  le : q ≤ b * c.fpp
  lt : b * c.fpp < q + c.fpp
  avail : b * c.fpp ≤ (allFrames c).length
  held : s.held = ((allFrames c).take (b * c.fpp)).drop q
  eof : s.eof = false
  sent : s.sent = false

/-- The fields a pull does not touch. -/
structure Same (s s' : St V α) : Prop where
  v : s'.v = s.v
  dirty : s'.dirty = s.dirty
  ignore : s'.ignore = s.ignore
  totalv : s'.totalv = s.totalv
  nextv : s'.nextv = s.nextv
  happy : s'.happy = s.happy

theorem Same.refl (s : St V α) : Same s s := ⟨rfl, rfl, rfl, rfl, rfl, rfl⟩
theorem Same.trans {a b d : St V α} (h : Same a b) (k : Same b d) : Same a d :=
  ⟨k.v.trans h.v, k.dirty.trans h.dirty, k.ignore.trans h.ignore, k.totalv.trans h.totalv,
   k.nextv.trans h.nextv, k.happy.trans h.happy⟩

theorem packets_at (c : Cfg V α γ) (h : Intact c) (b k : Nat)
    (hav : (b + k) * c.fpp ≤ (allFrames c).length) :
    let ps := packets c.bpp c.bpp_pos
      ((c.file.drop (c.fposFirst + (c.bpp * b : Nat)).toNat).take (c.bpp * k))
    ps.length = k ∧ ps.flatMap c.decode = ((allFrames c).drop (b * c.fpp)).take (k * c.fpp)
    ∧ ((c.file.drop (c.fposFirst + (c.bpp * b : Nat)).toNat).take (c.bpp * k)).length = c.bpp * k := by
  intro ps
  have hlen := allFrames_length h
  have hf := c.fpp_pos
  have e1 : (c.fposFirst + (c.bpp * b : Nat)).toNat = c.fposFirst.toNat + c.bpp * b := by
    have := h.first; omega
  have hk : b + k ≤ (c.file.length - c.fposFirst.toNat) / c.bpp := by
    rw [hlen] at hav; exact Nat.le_of_mul_le_mul_right hav hf
  have hk' : c.bpp * (b + k) ≤ c.file.length - c.fposFirst.toNat := by
    have := Nat.mul_le_mul_left c.bpp hk
    have h2 := Nat.mul_div_le (c.file.length - c.fposFirst.toNat) c.bpp
    omega
  have hb := h.decode_len
  have eps : ps = ((packets c.bpp c.bpp_pos (c.file.drop c.fposFirst.toNat)).drop b).take k := by
    show packets c.bpp c.bpp_pos _ = _
    rw [packets_take, e1, ← List.drop_drop, packets_drop]
  have hmem : ∀ x ∈ packets c.bpp c.bpp_pos (c.file.drop c.fposFirst.toNat),
      (c.decode x).length = c.fpp := fun x hx => hb x (packets_mem _ _ _ x hx)
  refine ⟨?_, ?_, ?_⟩
  · rw [eps, List.length_take, List.length_drop, packets_length, List.length_drop]
    omega
  · rw [eps, flatMap_take_of _ c.fpp, flatMap_drop_of _ c.fpp]
    · rfl
    · exact hmem
    · intro x hx; exact hmem x (List.mem_of_mem_drop hx)
  · rw [e1, List.length_take, List.length_drop]
    rw [Nat.mul_add] at hk'
    omega

theorem filePull_ok (c : Cfg V α γ) (h : Intact c) (s : St V α) (b k : Nat)
    (hpos : s.filePos = s.fposNext) (hf : s.fposNext = c.fposFirst + (c.bpp * b : Nat))
    (hn : s.nextf = (b * c.fpp : Nat))
    (hav : (b + k) * c.fpp ≤ (allFrames c).length)
    (hpcm : c.kind = .pcm → ((b + k : Nat) : Int) ≤ c.totalf) :
    ∃ s', filePull c ((k * c.fpp : Nat) : Int) s =
        .ok (((allFrames c).drop (b * c.fpp)).take (k * c.fpp), s')
      ∧ s'.filePos = s'.fposNext ∧ s'.fposNext = c.fposFirst + (c.bpp * (b + k) : Nat)
      ∧ s'.nextf = ((b + k) * c.fpp : Nat) ∧ s'.held = s.held ∧ s'.eof = s.eof ∧ s'.sent = s.sent
      ∧ Same s s' := by
  obtain ⟨p1, p2, p3⟩ := packets_at c h b k hav
  have hseek := h.seek
  have htot := h.total
  rw [← hf, ← hpos] at p1 p2 p3
  have hmul : c.bpp * (b + k) = c.bpp * b + c.bpp * k := Nat.mul_add ..
  have hmul2 : (b + k) * c.fpp = b * c.fpp + k * c.fpp := Nat.add_mul ..
  have hnn : ¬ ((k * c.fpp : Nat) : Int) < 0 := by omega
  refine ⟨{ s with filePos := s.filePos + (c.bpp * k : Nat), fposNext := s.fposNext + (c.bpp * k : Nat),
                   nextf := s.nextf + (k * c.fpp : Nat) }, ?_, ?_, ?_, ?_, rfl, rfl, rfl,
          ⟨rfl, rfl, rfl, rfl, rfl, rfl⟩⟩
  · unfold filePull
    cases hk : c.kind with
    | pcm =>
      have h1 := h.one (by simp [hk])
      have hlim : ¬ (c.totalf ≠ -1 ∧ s.nextf + ((k * c.fpp : Nat) : Int) > c.totalf) := by
        have := hpcm hk
        rw [hn, h1]; simp; omega
      simp only [hlim, if_false, hnn, fread, Int.toNat_natCast]
      simp only [h1, Nat.mul_one] at p1 p2 p3 ⊢
      simp only [p1, p2, p3]
      simp [cAssert, hpos, pure, Except.pure, bind, Except.bind]
    | g711 =>
      have h1 := h.one (by simp [hk])
      simp only [if_false, hnn, fread, Int.toNat_natCast]
      simp only [h1, Nat.mul_one] at p1 p2 p3 ⊢
      simp only [p1, p2, p3]
      simp [cAssert, hpos, pure, Except.pure, bind, Except.bind]
    | block =>
      have hdiv : k * c.fpp / c.fpp = k := Nat.mul_div_cancel _ c.fpp_pos
      simp only [if_false, hnn, fread, Int.toNat_natCast, hdiv, p1, p2, p3]
      simp [cAssert, hpos, pure, Except.pure, bind, Except.bind]
  · simp [hpos]
  · simp only [hf, hmul]; omega
  · simp only [hn, hmul2]; omega

theorem blocks_avail {c : Cfg V α γ} (h : Intact c) {b n : Nat} (hn : b * c.fpp + n ≤ (allFrames c).length)
    (hpos : 0 < n) : (b + 1) * c.fpp ≤ (allFrames c).length := by
  rw [allFrames_length h] at *
  have : b < (c.file.length - c.fposFirst.toNat) / c.bpp := by
    apply Nat.lt_of_mul_lt_mul_right (a := c.fpp); omega
  exact Nat.mul_le_mul_right _ this

theorem rebufLoop_ok (c : Cfg V α γ) (h : Intact c) (hk : c.kind = .block) (want : Nat) :
    ∀ (s : St V α) (b : Nat), At c s (b * c.fpp) b → s.filePos = s.fposNext →
      b * c.fpp + want ≤ (allFrames c).length →
      ∃ s' b' left, rebufLoop c want s = .ok (((allFrames c).drop (b * c.fpp)).take want, left, s')
        ∧ At c s' (b * c.fpp + want) b' ∧ s'.filePos = s'.fposNext ∧ Same s s'
        ∧ left ≤ 0 ∧ (s'.held.length : Int) = -left := by
  induction want using Nat.strongRecOn with
  | _ want ih =>
  intro s b hat hpos hav
  have hheld : s.held = [] := by rw [hat.held]; simp
  rw [rebufLoop]
  by_cases hw : want = 0
  · subst hw
    refine ⟨s, b, 0, by simp; rfl, hat, hpos, Same.refl s, by omega, by simp [hheld]⟩
  · have hfp := c.fpp_pos
    have h1 : (b + 1) * c.fpp ≤ (allFrames c).length := blocks_avail h hav (by omega)
    have h1' : b * c.fpp + c.fpp ≤ (allFrames c).length := by rw [Nat.succ_mul] at h1; exact h1
    obtain ⟨s1, e1, q1, q2, q3, q4, q5, q6, q7⟩ :=
      filePull_ok c h s b 1 hpos hat.fpos hat.nextf h1 (by simp [hk])
    rw [Nat.one_mul] at e1
    have hlen : (((allFrames c).drop (b * c.fpp)).take c.fpp).length = c.fpp := by
      simp; omega
    rw [hheld] at q4
    rw [hat.eof] at q5
    rw [hat.sent] at q6
    simp only [hw, dite_false, hat.eof, e1, bind, Except.bind, hlen, if_true]
    by_cases hlt : want < c.fpp
    · refine ⟨{ s1 with held := ((allFrames c).drop (b * c.fpp)).take c.fpp |>.drop want }, b + 1,
        (want : Int) - c.fpp, ?_, ?_, ?_, ?_, by omega, ?_⟩
      · have hmin : min want c.fpp = want := by omega
        simp [hlt, q4, cAssert, pure, Except.pure, List.take_take, hmin]
      · refine ⟨q2, q3, ?_, ?_, h1, ?_, q5, q6⟩
        · rw [Nat.succ_mul]; omega
        · rw [Nat.succ_mul]; omega
        · rw [List.take_drop, List.drop_drop]
          show List.drop _ _ = List.drop _ _
          rw [Nat.succ_mul]
      · exact q1
      · exact ⟨q7.v, q7.dirty, q7.ignore, q7.totalv, q7.nextv, q7.happy⟩
      · simp; omega
    · have hat1 : At c s1 ((b + 1) * c.fpp) (b + 1) :=
        ⟨q2, q3, Nat.le_refl _, by omega, h1, by rw [q4]; simp, q5, q6⟩
      obtain ⟨s2, b2, left, e2, r1, r2, r3, r4, r5⟩ :=
        ih (want - c.fpp) (by omega) s1 (b + 1) hat1 q1 (by rw [Nat.succ_mul]; omega)
      have hadd : (b + 1) * c.fpp + (want - c.fpp) = b * c.fpp + want := by
        rw [Nat.succ_mul]; omega
      rw [hadd] at r1
      refine ⟨s2, b2, left, ?_, r1, r2, q7.trans r3, r4, r5⟩
      simp only [hlt, if_false, q4, cAssert, List.length_nil, BEq.rfl, Bool.or_true, if_true, e2, pure, Except.pure]
      congr 2
      have hsplit : want = c.fpp + (want - c.fpp) := by omega
      conv => rhs; rw [hsplit, List.take_add]
      rw [List.drop_drop, ← Nat.succ_mul]; simp

theorem rebufPull_ok (c : Cfg V α γ) (h : Intact c) (hk : c.kind = .block) (s : St V α) (q b n : Nat)
    (hat : At c s q b) (hpos : s.filePos = s.fposNext) (hav : q + n ≤ (allFrames c).length) :
    ∃ s' b', rebufPull c n s = .ok (((allFrames c).drop q).take n, s')
      ∧ At c s' (q + n) b' ∧ s'.filePos = s'.fposNext ∧ Same s s' := by
  have hl : s.held.length = b * c.fpp - q := by
    rw [hat.held, List.length_drop, List.length_take]; have := hat.avail; omega
  have h1 := hat.le
  have h2 := hat.lt
  have hdec : decide (s.held.length < c.fpp) = true := by simp; omega
  have htake : ((allFrames c).take (b * c.fpp)).drop q = ((allFrames c).drop q).take (b * c.fpp - q) := by
    rw [List.drop_take]
  have hns : (!s.sent) = true := by simp [hat.sent]
  unfold rebufPull
  simp only [hdec, hns, cAssert, Bool.or_true, if_true, bind, Except.bind]
  by_cases hn : n < s.held.length
  · refine ⟨{ s with held := s.held.drop n }, b, ?_, ?_, hpos, ⟨rfl, rfl, rfl, rfl, rfl, rfl⟩⟩
    · have : min n (b * c.fpp - q) = n := by omega
      simp only [hn, pure, Except.pure, if_true]
      rw [hat.held, htake, List.take_take, this]
    · refine ⟨hat.fpos, hat.nextf, by omega, by omega, hat.avail, ?_, hat.eof, hat.sent⟩
      show List.drop n s.held = _
      rw [hat.held, List.drop_drop]
  · have hat0 : At c { s with held := [] } (b * c.fpp) b :=
      ⟨hat.fpos, hat.nextf, Nat.le_refl _, by have := c.fpp_pos; omega, hat.avail, by simp, hat.eof, hat.sent⟩
    obtain ⟨s1, b1, left, e1, r1, r2, r3, r4, r5⟩ :=
      rebufLoop_ok c h hk (n - s.held.length) { s with held := [] } b hat0 hpos (by omega)
    have hadd : b * c.fpp + (n - s.held.length) = q + n := by omega
    rw [hadd] at r1
    refine ⟨s1, b1, ?_, r1, r2, ⟨r3.v, r3.dirty, r3.ignore, r3.totalv, r3.nextv, r3.happy⟩⟩
    have hle : ¬ left > 0 := by omega
    simp only [hn, if_false, e1, r1.eof, Bool.false_and, Bool.false_eq_true, r4, r5, decide_true, Bool.or_true, if_true,
      pure, Except.pure]
    congr 2
    rw [List.take_of_length_le (l := s.held) (by omega)]
    have hsplit : n = (b * c.fpp - q) + (n - s.held.length) := by omega
    conv => rhs; rw [hsplit, List.take_add, List.drop_drop, ← htake, ← hat.held]
    congr 3; omega

theorem chainPull_ok (c : Cfg V α γ) (h : Intact c) (s : St V α) (q b n : Nat)
    (hat : At c s q b) (hpos : s.filePos = s.fposNext) (hav : ((q + n : Nat) : Int) ≤ c.totalf) :
    ∃ s' b', chainPull c n s = .ok ((((allFrames c).drop q).take n).map (fun a => some (c.conv s.v a)), s')
      ∧ At c s' (q + n) b' ∧ s'.filePos = s'.fposNext ∧ Same s s' := by
  have hav' : q + n ≤ (allFrames c).length := by
    have := h.enough; rw [allFrames_length h]; omega
  have hlen : (((allFrames c).drop q).take n).length = n := by simp; omega
  have core : ∃ s' b', sourcePull c n s = .ok (((allFrames c).drop q).take n, s')
      ∧ At c s' (q + n) b' ∧ s'.filePos = s'.fposNext ∧ Same s s' := by
    by_cases hk : c.kind = .block
    · rw [sourcePull, hk]
      exact rebufPull_ok c h hk s q b n hat hpos hav'
    · have h1 := h.one hk
      have hbq : b = q := by have := hat.le; have := hat.lt; rw [h1] at *; omega
      subst hbq
      obtain ⟨s1, e1, q1, q2, q3, q4, q5, q6, q7⟩ :=
        filePull_ok c h s b n hpos hat.fpos hat.nextf (by rw [h1]; omega) (fun _ => hav)
      rw [h1] at e1 q3
      simp only [Nat.mul_one] at e1 q3
      refine ⟨s1, b + n, ?_, ?_, q1, q7⟩
      · unfold sourcePull
        cases hkk : c.kind with
        | block => exact absurd hkk hk
        | pcm => exact e1
        | g711 => exact e1
      · refine ⟨q2, by rw [h1]; simpa using q3, by rw [h1]; omega, by rw [h1]; omega, by rw [h1]; omega, ?_,
          by rw [q5]; exact hat.eof, by rw [q6]; exact hat.sent⟩
        rw [q4, hat.held, h1]; simp
  obtain ⟨s1, b1, e1, r1, r2, r3⟩ := core
  refine ⟨s1, b1, ?_, r1, r2, r3⟩
  unfold chainPull
  simp only [bind, Except.bind]
  have hlen2 : ((((allFrames c).drop q).take n).map (fun a => some (c.conv s1.v a))).length = n := by
    simpa using hlen
  rw [e1]
  simp only [hlen2]
  simp [pure, Except.pure, r3.v]

theorem readLoop_ok (c : Cfg V α γ) (h : Intact c) (left : Nat) :
    ∀ (s : St V α) (q b : Nat), At c s q b → s.filePos = s.fposNext → s.happy = true →
      ((q + left : Nat) : Int) ≤ c.totalf →
      ∃ s' b', readLoop c left s =
          .ok ((((allFrames c).drop q).take left).map (fun a => some (c.conv s.v a)), s')
        ∧ At c s' (q + left) b' ∧ s'.filePos = s'.fposNext ∧ Same s s' := by
  induction left using Nat.strongRecOn with
  | _ left ih =>
  intro s q b hat hpos hhap hav
  rw [readLoop]
  by_cases hl : left = 0
  · subst hl
    exact ⟨s, b, by simp; rfl, hat, hpos, Same.refl s⟩
  · obtain ⟨s1, b1, e1, r1, r2, r3⟩ := chainPull_ok c h s q b (min 1024 left) hat hpos (by omega)
    have hav' : q + left ≤ (allFrames c).length := by
      have := h.enough; rw [allFrames_length h]; omega
    have hlen : ¬ ((((allFrames c).drop q).take (min 1024 left)).map (fun a => some (c.conv s.v a))).length
        < min 1024 left := by simp; omega
    have hh1 : s1.happy = true := by rw [r3.happy, hhap]
    obtain ⟨s2, b2, e2, t1, t2, t3⟩ := ih (left - min 1024 left) (by omega) s1 _ b1 r1 r2 hh1 (by omega)
    have hadd : q + min 1024 left + (left - min 1024 left) = q + left := by omega
    rw [hadd] at t1
    refine ⟨s2, b2, ?_, t1, t2, r3.trans t3⟩
    simp only [hl, dite_false, hhap, Bool.true_eq_false, if_false, bind, Except.bind, e1, hlen, hh1, if_true,
      e2, pure, Except.pure]
    congr 2
    have hsplit : left = min 1024 left + (left - min 1024 left) := by omega
    conv => rhs; rw [hsplit, List.take_add]
    rw [List.drop_drop, List.map_append, r3.v]

/-- The frames of the track. -/
def frames (c : Cfg V α γ) : List α := (allFrames c).take c.totalf.toNat

theorem frames_length {c : Cfg V α γ} (h : Intact c) : (frames c).length = c.totalf.toNat := by
  have := h.enough; have := h.total
  rw [frames, List.length_take, allFrames_length h]; omega

/-- A set-up state whose next delivered frame (after skipping) is frame `p`. -/
structure Ready (c : Cfg V α γ) (s : St V α) (p : Nat) : Prop where
  totalv : s.totalv = c.totalf
  at_ : ∃ q b g, At c s q b ∧ s.ignore = (g : Nat) ∧ q + g = p

/-- Abstraction relation. -/
structure Rel (c : Cfg V α γ) (s : St V α) (cur : Spec.Cursor V) : Prop where
  fmt : s.v = cur.fmt
  le : (cur.pos : Int) ≤ c.totalf
  nextv : s.nextv = cur.pos
  clean : c.kind ≠ .block → s.held = [] ∧ s.eof = false ∧ s.sent = false
  ready : s.dirty = false → Ready c s cur.pos

theorem setup_ready (c : Cfg V α γ) (h : Intact c) (s : St V α) (p : Nat) (hp : (p : Int) ≤ c.totalf)
    (hn : s.nextv = p) (hc : c.kind ≠ .block → s.held = [] ∧ s.eof = false ∧ s.sent = false) :
    Ready c (setup c s) p ∧ (setup c s).v = s.v ∧ (setup c s).nextv = p
      ∧ (setup c s).dirty = false
      ∧ (c.kind ≠ .block → (setup c s).held = [] ∧ (setup c s).eof = false ∧ (setup c s).sent = false) := by
  have hf := c.fpp_pos
  have hlen : p ≤ (allFrames c).length := by
    have := h.enough; rw [allFrames_length h]; omega
  by_cases hk : c.kind = .block
  · have hdm := Nat.div_add_mod p c.fpp
    have hml := Nat.mod_lt p hf
    have e1 : Int.tdiv (p : Int) (c.fpp : Int) = ((p / c.fpp : Nat) : Int) := by
      rw [Int.tdiv_eq_ediv_of_nonneg (by omega)]; simp
    have e2 : Int.tdiv (((p / c.fpp : Nat) : Int) * (c.fpp : Int)) (c.fpp : Int) = ((p / c.fpp : Nat) : Int) := by
      rw [Int.mul_tdiv_cancel _ (by omega)]
    have e3 : p / c.fpp * c.fpp = c.fpp * (p / c.fpp) := Nat.mul_comm ..
    refine ⟨⟨?_, p / c.fpp * c.fpp, p / c.fpp, p % c.fpp, ⟨?_, ?_, ?_, ?_, ?_, ?_, ?_, ?_⟩, ?_, ?_⟩, ?_, ?_, ?_, ?_⟩
    all_goals try simp only [setup, hk, hn, e1, e2]
    all_goals first
      | rfl
      | (simp; done)
      | omega
      | skip
  · have h1 := h.one hk
    obtain ⟨c1, c2, c3⟩ := hc hk
    have key : setup c s = { s with
        totalv := c.totalf, nextf := s.nextv, dirty := false, happy := true
        fposNext := c.fposFirst + c.bpp * s.nextv, ignore := 0 } := by
      unfold setup
      cases hkk : c.kind <;> first | rfl | exact absurd hkk hk
    rw [key]
    refine ⟨⟨rfl, p, p, 0, ⟨?_, ?_, ?_, ?_, ?_, ?_, c2, c3⟩, rfl, rfl⟩, rfl, hn, rfl, fun _ => ⟨c1, c2, c3⟩⟩
    · simp [hn]
    · simp [hn, h1]
    · rw [h1]; omega
    · rw [h1]; omega
    · rw [h1]; omega
    · simp [c1, h1]

theorem ensure_ready (c : Cfg V α γ) (h : Intact c) (s : St V α) (cur : Spec.Cursor V) (hr : Rel c s cur) :
    Rel c (if s.dirty then setup c s else s) cur ∧ (if s.dirty then setup c s else s).dirty = false := by
  cases hd : s.dirty with
  | false => simp; exact ⟨hr, hd⟩
  | true =>
    obtain ⟨a, b, d, e, f⟩ := setup_ready c h s cur.pos hr.le hr.nextv hr.clean
    simp only [if_true]
    exact ⟨⟨b.trans hr.fmt, hr.le, d, f, fun _ => a⟩, e⟩

theorem At.congr {c : Cfg V α γ} {s s' : St V α} {q b : Nat} (h : At c s q b)
    (h1 : s'.fposNext = s.fposNext) (h2 : s'.nextf = s.nextf) (h3 : s'.held = s.held) (h4 : s'.eof = s.eof)
    (h5 : s'.sent = s.sent) : At c s' q b :=
  ⟨h1.trans h.fpos, h2.trans h.nextf, h.le, h.lt, h.avail, h3.trans h.held, h4.trans h.eof, h5.trans h.sent⟩

theorem At.clean {c : Cfg V α γ} (h : Intact c) {s : St V α} {q b : Nat} (ha : At c s q b) :
    c.kind ≠ .block → s.held = [] ∧ s.eof = false ∧ s.sent = false := by
  intro hk
  have h1 := h.one hk
  have := ha.le; have := ha.lt
  refine ⟨?_, ha.eof, ha.sent⟩
  rw [ha.held]
  have : b * c.fpp = q := by omega
  rw [this]; simp

theorem readFrames_ok (c : Cfg V α γ) (h : Intact c) (s : St V α) (cur : Spec.Cursor V) (hr : Rel c s cur)
    (n : Int) :
    let fs := (((frames c).drop cur.pos).take n.toNat)
    ∃ s', readFrames c n s = .ok (((fs.length : Int), fs.map (fun a => some (c.conv cur.fmt a))), s')
      ∧ Rel c s' { cur with pos := cur.pos + fs.length } := by
  intro fs
  obtain ⟨hr1, hd1⟩ := ensure_ready c h s cur hr
  unfold readFrames
  generalize (if s.dirty then setup c s else s) = s1 at hr1 hd1
  obtain ⟨ht, q, b, g, hat, hig, hqg⟩ := hr1.ready hd1
  have hfirst := h.first
  have htot := h.total
  have hle := hr1.le
  have hfp : 0 ≤ s1.fposNext := by rw [hat.fpos]; omega
  have hflen := frames_length h
  -- the number of frames read
  have hnum : (if s1.totalv = -1 then n else if n > s1.totalv - s1.nextv then s1.totalv - s1.nextv else n).toNat
      = fs.length := by
    rw [ht, hr1.nextv]
    show _ = (List.take _ (List.drop _ _)).length
    rw [List.length_take, List.length_drop, hflen]
    split
    · omega
    · split <;> omega
  have hfs : fs = ((allFrames c).drop cur.pos).take fs.length := by
    show (((allFrames c).take c.totalf.toNat).drop cur.pos).take n.toNat = _
    have : fs.length = min n.toNat (c.totalf.toNat - cur.pos) := by
      show (List.take _ (List.drop _ _)).length = _
      rw [List.length_take, List.length_drop, hflen]
    rw [this, List.drop_take, List.take_take]
  have hfl : ((cur.pos + fs.length : Nat) : Int) ≤ c.totalf := by
    have : fs.length ≤ c.totalf.toNat - cur.pos := by
      show (List.take _ (List.drop _ _)).length ≤ _
      rw [List.length_take, List.length_drop, hflen]; omega
    omega
  rw [h.seek]
  simp only [if_true, hnum, bind, Except.bind]
  by_cases hg : g = 0
  · subst hg
    have hqp : q = cur.pos := by omega
    subst hqp
    obtain ⟨s2, b2, e2, t1, t2, t3⟩ := readLoop_ok c h fs.length
      { s1 with filePos := s1.fposNext, happy := true } cur.pos b (hat.congr rfl rfl rfl rfl rfl) rfl rfl hfl
    have hne : ¬ s1.ignore ≠ 0 := by rw [hig]; simp
    refine ⟨{ s2 with nextv := s2.nextv + fs.length }, ?_, ?_⟩
    · simp only [hne, if_false, pure, Except.pure, Bool.false_eq_true, e2]
      rw [← hfs, hr1.fmt]
      simpa using hfp
    · refine ⟨t3.v.trans hr1.fmt, hfl, ?_, ?_, ?_⟩
      · simp only [t3.nextv, hr1.nextv]; simp
      · exact (t1.clean h)
      · intro _
        exact ⟨t3.totalv.trans ht, _, b2, 0, t1.congr rfl rfl rfl rfl rfl, by
          simp only [t3.ignore]; exact hig, rfl⟩
  · obtain ⟨s2, b2, e2, t1, t2, t3⟩ := chainPull_ok c h
      { s1 with filePos := s1.fposNext, happy := true } q b g (hat.congr rfl rfl rfl rfl rfl) rfl (by omega)
    have hgn : s1.ignore ≠ 0 := by rw [hig]; omega
    have hgp : ¬ s1.ignore < 0 := by rw [hig]; omega
    rw [hqg] at t1
    obtain ⟨s3, b3, e3, u1, u2, u3⟩ := readLoop_ok c h fs.length { s2 with ignore := 0 } cur.pos b2
      (t1.congr rfl rfl rfl rfl rfl) t2 t3.happy hfl
    have hgl : (((allFrames c).drop q).take g).length = g := by
      have := h.enough; simp; rw [allFrames_length h]; omega
    refine ⟨{ s3 with nextv := s3.nextv + fs.length }, ?_, ?_⟩
    · have hdec : decide (((List.map (fun a => some (c.conv s1.v a)) (((allFrames c).drop q).take g)).length : Int)
          < ((g : Nat) : Int)) = false := by
        rw [List.length_map, hgl]; simp
      have hgz : ((g : Nat) : Int) ≠ 0 := by omega
      have hgz2 : ¬ ((g : Nat) : Int) < 0 := by omega
      simp only [hig, hgz, hgz2, ne_eq, not_false_eq_true, if_true, if_false, pure, Except.pure] at *
      simp only [Int.toNat_natCast, e2, hdec, Bool.false_eq_true, if_false, e3]
      rw [t3.v, ← hfs, hr1.fmt]
      simpa using hfp
    · refine ⟨(u3.v.trans t3.v).trans hr1.fmt, hfl, ?_, ?_, ?_⟩
      · simp only [u3.nextv, t3.nextv, hr1.nextv]; simp
      · exact (u1.clean h)
      · intro _
        exact ⟨(u3.totalv.trans t3.totalv).trans ht, _, b3, 0, u1.congr rfl rfl rfl rfl rfl, by
          simp only [u3.ignore]; simp, rfl⟩

theorem step_ok (c : Cfg V α γ) (h : Intact c) (s : St V α) (cur : Spec.Cursor V) (hr : Rel c s cur)
    (op : Op V) (hop : Spec.InRange (frames c).length op) :
    ∃ s', step c s op = .ok (((Spec.answer (frames c) c.conv cur op).1,
        (Spec.answer (frames c) c.conv cur op).2.map some), s')
      ∧ Rel c s' (Spec.move (frames c) cur op) := by
  have hflen := frames_length h
  have htot := h.total
  cases op with
  | read n =>
    obtain ⟨s', e, r⟩ := readFrames_ok c h s cur hr n
    refine ⟨s', ?_, r⟩
    simp only [step, e, bind, Except.bind, pure, Except.pure, Spec.answer, List.map_map, List.length_map]
    rfl
  | tell =>
    obtain ⟨hr1, hd1⟩ := ensure_ready c h s cur hr
    refine ⟨_, ?_, hr1⟩
    simp only [step, seekFrame, pure, Except.pure, Spec.answer]
    generalize (if s.dirty then setup c s else s) = s1 at hr1 hd1
    simp [hr1.nextv]
  | count =>
    obtain ⟨hr1, hd1⟩ := ensure_ready c h s cur hr
    refine ⟨_, ?_, hr1⟩
    simp only [step, frameCount, pure, Except.pure, Spec.answer]
    generalize (if s.dirty then setup c s else s) = s1 at hr1 hd1
    simp only [(hr1.ready hd1).totalv, hflen, List.map_nil]
    congr 2; congr 1; omega
  | setFormat v =>
    refine ⟨{ s with v := v, dirty := true }, rfl, ⟨rfl, hr.le, hr.nextv, hr.clean, by simp⟩⟩
  | seek f =>
    obtain ⟨hr1, hd1⟩ := ensure_ready c h s cur hr
    simp only [step, seekFrame, pure, Except.pure, Spec.answer, Spec.move]
    generalize (if s.dirty then setup c s else s) = s1 at hr1 hd1
    have hin : f ≤ (frames c).length ∨ 0 < (frames c).length := hop
    by_cases hf : f < 0
    · refine ⟨s1, ?_, ?_⟩
      · simp [hf, hr1.nextv]
      · simpa [hf] using hr1
    · by_cases he : f = s1.nextv
      · have hle := hr1.le
        have hnv := hr1.nextv
        have ht : Spec.target (frames c).length f = f := by
          unfold Spec.target; rw [if_neg]; omega
        refine ⟨s1, ?_, ?_⟩
        · rw [if_neg hf, if_neg hf, if_pos he, ht, he]
          rfl
        · have e1 : f.toNat = cur.pos := by rw [hr1.nextv] at he; omega
          simp only [hf, if_false, ht, e1]
          exact hr1
      · have ht : (if s1.totalv ≠ -1 ∧ f > s1.totalv then s1.totalv - 1 else f) = Spec.target (frames c).length f := by
          rw [(hr1.ready hd1).totalv]
          unfold Spec.target
          split <;> split <;> omega
        have hb : 0 ≤ Spec.target (frames c).length f ∧ Spec.target (frames c).length f ≤ c.totalf := by
          unfold Spec.target; split <;> omega
        have := setup_ready c h { s1 with nextv := Spec.target (frames c).length f }
          (Spec.target (frames c).length f).toNat (by omega) (by simp; omega) hr1.clean
        obtain ⟨a, b, d, e, g⟩ := this
        refine ⟨setup c { s1 with nextv := Spec.target (frames c).length f }, ?_, ?_⟩
        · simp only [hf, he, if_false, ht, d, List.map_nil]
          congr 2; congr 1; omega
        · simp only [hf, if_false]
          refine ⟨b.trans hr1.fmt, by simp; omega, d, g, fun _ => a⟩

theorem run_ok (c : Cfg V α γ) (h : Intact c) (ops : List (Op V)) :
    ∀ (s : St V α) (cur : Spec.Cursor V), Rel c s cur →
      (∀ op ∈ ops, Spec.InRange (frames c).length op) →
      ∃ s', run c s ops = .ok ((Spec.answers (frames c) c.conv cur ops).map
          (fun a => (a.1, a.2.map some)), s')
        ∧ Rel c s' (ops.foldl (Spec.move (frames c)) cur) := by
  induction ops with
  | nil => intro s cur hr _; exact ⟨s, rfl, hr⟩
  | cons op ops ih =>
    intro s cur hr hops
    obtain ⟨s1, e1, r1⟩ := step_ok c h s cur hr op (hops op (by simp))
    obtain ⟨s2, e2, r2⟩ := ih s1 _ r1 (fun o ho => hops o (by simp [ho]))
    refine ⟨s2, ?_, r2⟩
    simp only [run, bind, Except.bind, e1, e2, pure, Except.pure]
    simp [Spec.answers]

theorem init_rel (c : Cfg V α γ) (h : Intact c) (v : V) : Rel c (init c v) ⟨0, v⟩ :=
  ⟨rfl, by simpa using h.total, rfl, fun _ => ⟨rfl, rfl, rfl⟩, by simp [init]⟩

theorem frames_get {c : Cfg V α γ} (h : Intact c) (i : Nat) (hi : (i : Int) < c.totalf) :
    (frames c)[i]? = trackFrame c i := by
  have hf := c.fpp_pos
  have hlen : i < (allFrames c).length := by
    have := h.enough; rw [allFrames_length h]; omega
  have hdm := Nat.div_add_mod i c.fpp
  have hml := Nat.mod_lt i hf
  have hdm' : i / c.fpp * c.fpp + i % c.fpp = i := by rw [Nat.mul_comm]; exact hdm
  have hb : (i / c.fpp + 1) * c.fpp ≤ (allFrames c).length :=
    blocks_avail h (b := i / c.fpp) (n := i % c.fpp + 1) (by omega) (by omega)
  obtain ⟨p1, p2, p3⟩ := packets_at c h (i / c.fpp) 1 hb
  rw [Nat.mul_one, Nat.one_mul] at *
  have e1 : (c.fposFirst + (c.bpp * (i / c.fpp) : Nat)).toNat = c.fposFirst.toNat + c.bpp * (i / c.fpp) := by
    have := h.first; omega
  rw [packets_cons (by omega), packets_short (by rw [List.length_drop, p3]; have := c.bpp_pos; omega)] at p2
  simp only [List.flatMap_cons, List.flatMap_nil, List.append_nil, List.take_take, Nat.min_self] at p2
  unfold trackFrame frames
  rw [e1] at p2
  rw [p2, List.getElem?_take_of_lt (by omega), List.getElem?_take_of_lt hml, List.getElem?_drop, hdm']

theorem frames_eq {c : Cfg V α γ} (h : Intact c) : trackFrames c = frames c := by
  have hl := frames_length h
  have ht := h.total
  have key : ∀ n, n ≤ c.totalf.toNat → (List.range n).filterMap (trackFrame c) = (frames c).take n := by
    intro n
    induction n with
    | zero => simp
    | succ n ih =>
      intro hn
      rw [List.range_succ, List.filterMap_append, ih (by omega), List.take_add_one]
      congr 1
      rw [frames_get h n (by omega)]
      cases hh : trackFrame c n <;> simp [hh]
  unfold trackFrames
  rw [key _ (Nat.le_refl _), List.take_of_length_le (by omega)]

end AF.Reading
