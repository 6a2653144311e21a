import Verif.Model.ShortReads
import Verif.Spec.ShortReads
import Verif.Proof.Reading
/-! Reads that come short: whatever is counted agrees with the fault-free model. -/
namespace AF.ShortReads
open AF AF.Reading
variable {V α γ : Type}

/-- What no pull changes, and what it keeps. -/
structure Keep (c : Cfg V α γ) (s s' : St V α) : Prop where
  v : s'.v = s.v
  dirty : s'.dirty = s.dirty
  ignore : s'.ignore = s.ignore
  totalv : s'.totalv = s.totalv
  nextv : s'.nextv = s.nextv
  happy : s'.happy = true → s.happy = true
  fpos : s.fposNext ≤ s'.fposNext
  nextf : c.kind = .pcm → s.nextf ≤ c.totalf → s'.nextf ≤ c.totalf
  clean : c.kind ≠ .block → s'.held = s.held ∧ s'.eof = s.eof ∧ s'.sent = s.sent

theorem Keep.refl (c : Cfg V α γ) (s : St V α) : Keep c s s :=
  ⟨rfl, rfl, rfl, rfl, rfl, fun h => h, by omega, fun _ h => h, fun _ => ⟨rfl, rfl, rfl⟩⟩

theorem Keep.trans {c : Cfg V α γ} {a b d : St V α} (h : Keep c a b) (k : Keep c b d) : Keep c a d :=
  ⟨k.v.trans h.v, k.dirty.trans h.dirty, k.ignore.trans h.ignore, k.totalv.trans h.totalv, k.nextv.trans h.nextv,
    fun x => h.happy (k.happy x), by have := h.fpos; have := k.fpos; omega, fun x y => k.nextf x (h.nextf x y),
    fun x => ⟨(k.clean x).1.trans (h.clean x).1, (k.clean x).2.1.trans (h.clean x).2.1, (k.clean x).2.2.trans (h.clean x).2.2⟩⟩

theorem upto_prefix (file : List Byte) (m p n : Nat) (h : n ≤ (((file.take m).drop p).take n).length) :
    ((file.take m).drop p).take n = (file.drop p).take n := by
  rw [List.drop_take, List.take_take]
  rw [List.drop_take, List.take_take, List.length_take, List.length_drop] at h
  rw [show min n (m - p) = n by omega]

/-- What a pull asks of the state: PCM does not go past the end of the track. -/
def Within (c : Cfg V α γ) (s : St V α) : Prop := c.kind = .pcm → s.nextf ≤ c.totalf

theorem packets_le (c : Cfg V α γ) (h : Intact c) (bs : List Byte) (k : Nat) (hb : bs.length ≤ c.bpp * k) :
    (packets c.bpp c.bpp_pos bs).length ≤ k ∧
    ((packets c.bpp c.bpp_pos bs).flatMap c.decode).length = (packets c.bpp c.bpp_pos bs).length * c.fpp ∧
    ((packets c.bpp c.bpp_pos bs).length = k → bs.length = c.bpp * k) := by
  refine ⟨?_, ?_, ?_⟩
  · rw [packets_length]
    exact Nat.div_le_of_le_mul hb
  · exact flatMap_length_of _ c.fpp _ fun x hx => h.decode_len x (packets_mem _ _ _ x hx)
  · rw [packets_length]
    intro e
    have := Nat.div_mul_le_self bs.length c.bpp
    rw [e, Nat.mul_comm] at this
    omega

/-- What a pull of `j` packets makes of the bytes it got. -/
def after (c : Cfg V α γ) (bs : List Byte) (j : Nat) (s : St V α) : List α × St V α :=
  ((packets c.bpp c.bpp_pos bs).flatMap c.decode,
    { s with
      filePos := s.filePos + bs.length
      fposNext := s.fposNext + bs.length
      nextf := s.nextf + ((packets c.bpp c.bpp_pos bs).length * c.fpp : Nat)
      happy := s.happy && decide ((packets c.bpp c.bpp_pos bs).length = j) })

/-- How many packets a pull asks for. -/
def asked (c : Cfg V α γ) (k : Nat) (s : St V α) : Nat :=
  if c.kind = .pcm ∧ s.nextf + k > c.totalf then (c.totalf - s.nextf).toNat else k

theorem filePull_eq (c : Cfg V α γ) (hone : c.kind ≠ .block → c.fpp = 1) (htot : 0 ≤ c.totalf) (hc : c.checks = false) (k : Nat) (s : St V α)
    (hw : Within c s) :
    Reading.filePull c ((k * c.fpp : Nat) : Int) s
      = .ok (after c ((c.file.drop s.filePos.toNat).take (c.bpp * asked c k s)) (asked c k s) s) := by
  have hf := c.fpp_pos
  cases hk : c.kind with
  | pcm =>
    have h1 := hone (by rw [hk]; intro q; cases q)
    have hnf := hw hk
    have ek : ((k * c.fpp : Nat) : Int) = (k : Int) := by rw [h1]; simp
    rw [ek]
    have ej : (if c.totalf ≠ -1 ∧ s.nextf + (k : Int) > c.totalf then c.totalf - s.nextf else (k : Int)) = (asked c k s : Nat) := by
      unfold asked
      by_cases hg : s.nextf + (k : Int) > c.totalf
      · rw [if_pos ⟨by omega, hg⟩, if_pos ⟨hk, hg⟩]; omega
      · rw [if_neg (by rintro ⟨-, q⟩; exact hg q), if_neg (by rintro ⟨-, q⟩; exact hg q)]
    generalize asked c k s = j at ej ⊢
    unfold Reading.filePull fread
    simp only [hk, hc, cAssert, bind, Except.bind, pure, Except.pure, Bool.not_false, Bool.true_or, if_true]
    rw [ej, if_neg (by omega)]
    simp only [Int.toNat_natCast]
    generalize (c.file.drop s.filePos.toNat).take (c.bpp * j) = bs
    unfold after
    by_cases hp : (packets c.bpp c.bpp_pos bs).length = j
    · rw [if_neg (by omega)]
      simp [hp, h1]
    · rw [if_pos ⟨by omega, by omega⟩]
      simp [hp, h1, reportReadError]
  | g711 =>
    have h1 := hone (by rw [hk]; intro q; cases q)
    have ek : ((k * c.fpp : Nat) : Int) = (k : Int) := by rw [h1]; simp
    have ej : asked c k s = k := if_neg (by rw [hk]; rintro ⟨q, -⟩; cases q)
    rw [ek, ej]
    unfold Reading.filePull fread
    simp only [hk, hc, cAssert, bind, Except.bind, pure, Except.pure, Bool.not_false, Bool.true_or, if_true]
    rw [if_neg (by omega)]
    simp only [Int.toNat_natCast]
    generalize (c.file.drop s.filePos.toNat).take (c.bpp * k) = bs
    unfold after
    by_cases hp : (packets c.bpp c.bpp_pos bs).length = k
    · rw [if_neg (by omega)]
      simp [hp, h1]
    · rw [if_pos ⟨by omega, by omega⟩]
      simp [hp, h1, reportReadError]
  | block =>
    have ej : asked c k s = k := if_neg (by rw [hk]; rintro ⟨q, -⟩; cases q)
    have hdiv : ((k * c.fpp : Nat) : Int).toNat / c.fpp = k := by
      rw [Int.toNat_natCast]; exact Nat.mul_div_cancel _ hf
    rw [ej]
    unfold Reading.filePull fread
    simp only [hk, hc, cAssert, bind, Except.bind, pure, Except.pure, Bool.not_false, Bool.true_or, if_true]
    rw [if_neg (by omega), hdiv]
    have hl : (packets c.bpp c.bpp_pos ((c.file.drop s.filePos.toNat).take (c.bpp * k))).length ≤ k := by
      rw [packets_length, List.length_take]
      exact Nat.div_le_of_le_mul (Nat.min_le_left _ _)
    generalize (c.file.drop s.filePos.toNat).take (c.bpp * k) = bs at hl
    unfold after
    by_cases hp : (packets c.bpp c.bpp_pos bs).length = k
    · rw [if_neg (by rw [hp]; omega)]
      simp [hp]
    · have : (packets c.bpp c.bpp_pos bs).length * c.fpp < k * c.fpp := Nat.mul_lt_mul_of_pos_right (by omega) hf
      rw [if_pos (by omega)]
      simp [hp, reportReadError]

/-- One pull of the file module: `k` packets. -/
theorem filePull_any (c : Cfg V α γ) (h : Intact c) (hc : c.checks = false) (m : Nat) (k : Nat) (s : St V α) (hw : Within c s) :
    ∃ fs s', Reading.filePull (upto c m) ((k * c.fpp : Nat) : Int) s = .ok (fs, s') ∧ Keep c s s' ∧ fs.length ≤ k * c.fpp ∧
      (s'.happy = true → Reading.filePull c ((k * c.fpp : Nat) : Int) s = .ok (fs, s')) := by
  have ht := h.total
  have e1 := filePull_eq c h.one ht hc k s hw
  have e2 : Reading.filePull (upto c m) ((k * c.fpp : Nat) : Int) s
      = .ok (after c (((c.file.take m).drop s.filePos.toNat).take (c.bpp * asked c k s)) (asked c k s) s) :=
    filePull_eq (upto c m) h.one ht hc k s hw
  have hak : asked c k s ≤ k := by unfold asked; split <;> omega
  have hat : c.kind = .pcm → s.nextf + (asked c k s : Nat) ≤ c.totalf := by
    intro hk
    have := hw hk
    unfold asked
    split
    · omega
    · rename_i q
      have : ¬ s.nextf + k > c.totalf := fun r => q ⟨hk, r⟩
      omega
  generalize asked c k s = j at *
  generalize hbs : ((c.file.take m).drop s.filePos.toNat).take (c.bpp * j) = bs at e2
  have hbl : bs.length ≤ c.bpp * j := by rw [← hbs]; simp; omega
  obtain ⟨p1, p2, p3⟩ := packets_le c h bs j hbl
  refine ⟨_, _, e2, ?_, ?_, ?_⟩
  · refine ⟨rfl, rfl, rfl, rfl, rfl, ?_, ?_, ?_, fun _ => ⟨rfl, rfl, rfl⟩⟩
    · intro q
      simp only [after, Bool.and_eq_true] at q
      exact q.1
    · simp only [after]; omega
    · intro hk hn
      have h1 := h.one (by rw [hk]; intro q; cases q)
      have := hat hk
      simp only [after, h1]; omega
  · rw [p2]
    exact Nat.mul_le_mul_right _ (by omega)
  · intro hh
    simp only [Bool.and_eq_true, decide_eq_true_eq] at hh
    have hfull := p3 hh.2
    have hsame := upto_prefix c.file m s.filePos.toNat (c.bpp * j) (by rw [hbs, hfull]; omega)
    rw [e1, ← hsame, hbs]
    rfl

variable {seen : Nat → Nat}

theorem Keep.within {c : Cfg V α γ} {s s' : St V α} (k : Keep c s s') (h : Within c s) : Within c s' :=
  fun q => k.nextf q (h q)

theorem filePull_sim (c : Cfg V α γ) (h : Intact c) (hc : c.checks = false) (k : Nat) (x : FSt V α) (hw : Within c x.s) :
    ∃ fs x', filePull seen c ((k * c.fpp : Nat) : Int) x = .ok (fs, x') ∧ Keep c x.s x'.s ∧ fs.length ≤ k * c.fpp ∧
      (x'.s.happy = true → Reading.filePull c ((k * c.fpp : Nat) : Int) x.s = .ok (fs, x'.s)) := by
  obtain ⟨fs, s', e, g1, g2, g3⟩ := filePull_any c h hc (seen x.tick) k x.s hw
  exact ⟨fs, ⟨s', x.tick + 1⟩, by simp only [filePull, e, bind, Except.bind]; rfl, g1, g2, g3⟩

theorem rebufLoop_sim (c : Cfg V α γ) (h : Intact c) (hc : c.checks = false) (hk : c.kind = .block) (want : Nat) : ∀ x : FSt V α,
    ∃ fs left x', rebufLoop seen c want x = .ok (fs, left, x') ∧ Keep c x.s x'.s ∧ fs.length ≤ want ∧
      (x'.s.happy = true → Reading.rebufLoop c want x.s = .ok (fs, left, x'.s)) := by
  have hnb : c.kind ≠ .pcm := by rw [hk]; intro q; cases q
  induction want using Nat.strongRecOn with
  | _ want ih =>
    intro x
    unfold rebufLoop Reading.rebufLoop
    by_cases hw : want = 0
    · subst hw
      exact ⟨[], 0, x, rfl, Keep.refl c x.s, by simp, fun _ => rfl⟩
    · simp only [hw, dite_false]
      by_cases he : x.s.eof = true
      · simp only [he, if_true]
        exact ⟨[], want, x, rfl, Keep.refl c x.s, by simp, fun _ => rfl⟩
      · simp only [he, Bool.false_eq_true, if_false]
        obtain ⟨fs, x1, e1, k1, l1, s1⟩ := filePull_sim (seen := seen) c h hc 1 x (fun q => absurd q hnb)
        rw [Nat.one_mul] at e1 l1 s1
        simp only [bind, Except.bind, e1, pure, Except.pure]
        by_cases hl : fs.length = c.fpp
        · simp only [hl, if_true]
          by_cases hwf : want < c.fpp
          · simp only [hwf, if_true]
            refine ⟨_, _, _, rfl, ?_, by simp; omega, ?_⟩
            · exact ⟨k1.v, k1.dirty, k1.ignore, k1.totalv, k1.nextv, k1.happy, k1.fpos, k1.nextf, fun q => absurd hk q⟩
            · intro hh
              simp only [s1 hh, hl, if_true, hwf, hc, cAssert, Bool.not_false, Bool.true_or]
          · simp only [hwf, if_false]
            obtain ⟨fs2, left2, x2, e2, k2, l2, s2⟩ := ih (want - c.fpp) (by have := c.fpp_pos; omega) x1
            simp only [e2]
            refine ⟨_, _, _, rfl, k1.trans k2, by simp; omega, ?_⟩
            intro hh
            simp only [s1 (k2.happy hh), hl, if_true, hwf, if_false, hc, cAssert, Bool.not_false, Bool.true_or, s2 hh]
        · simp only [hl, if_false]
          by_cases hwf : want < fs.length
          · simp only [hwf, if_true]
            refine ⟨_, _, _, rfl, ?_, by simp; omega, ?_⟩
            · exact ⟨k1.v, k1.dirty, k1.ignore, k1.totalv, k1.nextv, k1.happy, k1.fpos, k1.nextf, fun q => absurd hk q⟩
            · intro hh
              simp only [s1 hh, hl, if_false, hwf, if_true, hc, cAssert, Bool.not_false, Bool.true_or]
          · simp only [hwf, if_false]
            refine ⟨_, _, _, rfl, ?_, by omega, ?_⟩
            · exact ⟨k1.v, k1.dirty, k1.ignore, k1.totalv, k1.nextv, k1.happy, k1.fpos, k1.nextf, fun q => absurd hk q⟩
            · intro hh
              simp only [s1 hh, hl, if_false, hwf, hc, cAssert, Bool.not_false, Bool.true_or, if_true]

theorem rebufPull_sim (c : Cfg V α γ) (h : Intact c) (hc : c.checks = false) (hk : c.kind = .block) (n : Nat) (x : FSt V α) :
    ∃ fs x', rebufPull seen c n x = .ok (fs, x') ∧ Keep c x.s x'.s ∧ fs.length ≤ n ∧
      (x'.s.happy = true → Reading.rebufPull c n x.s = .ok (fs, x'.s)) := by
  unfold rebufPull Reading.rebufPull
  simp only [hc, cAssert, bind, Except.bind, pure, Except.pure, Bool.not_false, Bool.true_or, if_true]
  by_cases hn : n < x.s.held.length
  · simp only [hn, if_true]
    exact ⟨_, _, rfl, ⟨rfl, rfl, rfl, rfl, rfl, fun q => q, by simp, fun _ q => q, fun q => absurd hk q⟩, by simp; omega, fun _ => rfl⟩
  · simp only [hn, if_false]
    obtain ⟨fs, left, x1, e1, k1, l1, s1⟩ := rebufLoop_sim (seen := seen) c h hc hk (n - x.s.held.length)
      { x with s := { x.s with held := [] } }
    have k0 : Keep c x.s { x.s with held := [] } := ⟨rfl, rfl, rfl, rfl, rfl, fun q => q, by simp, fun _ q => q, fun q => absurd hk q⟩
    simp only [e1]
    have hlen : (x.s.held.take n ++ fs).length ≤ n := by simp; omega
    by_cases hg : (x1.s.eof && decide (left > 0)) = true
    · simp only [hg, if_true]
      refine ⟨_, _, rfl, k0.trans (k1.trans ⟨rfl, rfl, rfl, rfl, rfl, fun q => q, by simp, fun _ q => q, fun q => absurd hk q⟩), hlen, ?_⟩
      intro hh
      simp only [s1 hh, hg, if_true]
    · simp only [hg, if_false]
      refine ⟨_, _, rfl, k0.trans k1, hlen, ?_⟩
      intro hh
      simp only [s1 hh, hg, if_false]
      rfl

theorem chainPull_sim (c : Cfg V α γ) (h : Intact c) (hc : c.checks = false) (n : Nat) (x : FSt V α) (hw : Within c x.s) :
    ∃ fs x', chainPull seen c n x = .ok (fs, x') ∧ Keep c x.s x'.s ∧ fs.length ≤ n ∧
      (x'.s.happy = true → Reading.chainPull c n x.s = .ok (fs, x'.s)) := by
  have core : ∃ fs x', sourcePull seen c n x = .ok (fs, x') ∧ Keep c x.s x'.s ∧ fs.length ≤ n ∧
      (x'.s.happy = true → Reading.sourcePull c n x.s = .ok (fs, x'.s)) := by
    by_cases hk : c.kind = .block
    · unfold sourcePull Reading.sourcePull
      rw [hk]
      exact rebufPull_sim c h hc hk n x
    · have h1 := h.one hk
      obtain ⟨fs, x1, e1, k1, l1, s1⟩ := filePull_sim (seen := seen) c h hc n x hw
      have ek : ((n * c.fpp : Nat) : Int) = (n : Int) := by rw [h1]; simp
      have ek' : n * c.fpp = n := by rw [h1]; simp
      rw [ek] at e1 s1
      rw [ek'] at l1
      refine ⟨fs, x1, ?_, k1, l1, ?_⟩
      · unfold sourcePull
        cases hkk : c.kind with
        | block => exact absurd hkk hk
        | pcm => exact e1
        | g711 => exact e1
      · unfold Reading.sourcePull
        cases hkk : c.kind with
        | block => exact absurd hkk hk
        | pcm => exact s1
        | g711 => exact s1
  obtain ⟨fs, x1, e1, k1, l1, s1⟩ := core
  unfold chainPull Reading.chainPull
  simp only [bind, Except.bind, e1, pure, Except.pure]
  by_cases hv : c.hasConv x1.s.v = true
  · simp only [hv, if_true]
    refine ⟨_, _, rfl, k1, by simp; omega, ?_⟩
    intro hh
    simp only [s1 hh, hv, if_true]
  · simp only [hv, if_false]
    refine ⟨_, _, rfl, k1, by simpa using l1, ?_⟩
    intro hh
    simp only [s1 hh, hv, if_false]
    rfl

theorem readLoop_sim (c : Cfg V α γ) (h : Intact c) (hc : c.checks = false) (left : Nat) : ∀ (x : FSt V α), Within c x.s →
    ∃ fs x', readLoop seen c left x = .ok (fs, x') ∧ Keep c x.s x'.s ∧ fs.length ≤ left ∧
      (x'.s.happy = true → Reading.readLoop c left x.s = .ok (fs, x'.s)) ∧
      (0 < fs.length → fs.length = left → x'.s.happy = true) ∧
      (∀ gs s', Reading.readLoop c left x.s = .ok (gs, s') → fs <+: gs) := by
  induction left using Nat.strongRecOn with
  | _ left ih =>
    intro x hw
    unfold readLoop Reading.readLoop
    by_cases h0 : left = 0
    · subst h0
      refine ⟨[], x, rfl, Keep.refl c x.s, by simp, fun _ => rfl, fun q => absurd q (by simp), fun gs s' e => List.nil_prefix⟩
    · simp only [h0, dite_false]
      by_cases hh0 : x.s.happy = false
      · simp only [hh0, if_true]
        exact ⟨[], x, rfl, Keep.refl c x.s, by simp, fun _ => rfl, fun q => absurd q (by simp), fun gs s' e => List.nil_prefix⟩
      · simp only [hh0, Bool.true_eq_false, if_false]
        obtain ⟨fs, x1, e1, k1, l1, s1⟩ := chainPull_sim (seen := seen) c h hc (min 1024 left) x hw
        simp only [bind, Except.bind, e1, pure, Except.pure]
        by_cases hh : x1.s.happy = true
        · simp only [hh, if_true, s1 hh]
          by_cases hl : fs.length < min 1024 left
          · simp only [hl, if_true]
            refine ⟨fs, x1, rfl, k1, by omega, fun _ => rfl, fun _ q => hh, fun gs s' e => ?_⟩
            simp only [Except.ok.injEq, Prod.mk.injEq] at e
            rw [e.1]
            exact List.prefix_rfl
          · simp only [hl, if_false]
            obtain ⟨fs2, x2, e2, k2, l2, s2, f2, p2⟩ := ih (left - min 1024 left) (by omega) x1 (k1.within hw)
            simp only [e2]
            refine ⟨_, _, rfl, k1.trans k2, by simp; omega, ?_, ?_, ?_⟩
            · intro q
              simp only [s2 q]
            · intro _ q
              rw [List.length_append] at q
              by_cases hz : fs2.length = 0
              · have : left - min 1024 left = 0 := by omega
                rw [this] at e2
                unfold readLoop at e2
                simp only [dite_true, pure, Except.pure, Except.ok.injEq, Prod.mk.injEq] at e2
                rw [← e2.2]
                exact hh
              · exact f2 (by omega) (by omega)
            · intro gs s' e
              cases e3 : Reading.readLoop c (left - min 1024 left) x1.s with
              | error q => rw [e3] at e; cases e
              | ok r =>
                obtain ⟨g2, t2⟩ := r
                rw [e3] at e
                simp only [Except.ok.injEq, Prod.mk.injEq] at e
                rw [← e.1]
                exact List.prefix_append_right_inj _ |>.mpr (p2 _ _ e3)
        · simp only [hh, if_false]
          refine ⟨[], x1, rfl, k1, by simp, fun q => absurd q hh, fun q => absurd q (by simp), fun gs s' e => List.nil_prefix⟩

/-- What always holds: the position, and that nothing can go wrong except for the frames. -/
structure Alive (c : Cfg V α γ) (s : St V α) (cur : Spec.Cursor V) : Prop where
  fmt : s.v = cur.fmt
  le : (cur.pos : Int) ≤ c.totalf
  nextv : s.nextv = cur.pos
  clean : c.kind ≠ .block → s.held = [] ∧ s.eof = false ∧ s.sent = false
  set : s.dirty = false → s.totalv = c.totalf ∧ 0 ≤ s.fposNext ∧ 0 ≤ s.ignore ∧ Within c s

theorem Alive.of_rel {c : Cfg V α γ} (h : Intact c) {s : St V α} {cur : Spec.Cursor V} (r : Rel c s cur) : Alive c s cur := by
  refine ⟨r.fmt, r.le, r.nextv, r.clean, fun hd => ?_⟩
  obtain ⟨ht, q, b, g, hat, hig, hqg⟩ := r.ready hd
  have h1 := h.first
  refine ⟨ht, by rw [hat.fpos]; omega, by rw [hig]; omega, fun hk => ?_⟩
  have := h.one (by rw [hk]; intro q; cases q)
  have := hat.le
  have := hat.lt
  have := r.le
  rw [hat.nextf]
  simp only [‹c.fpp = 1›] at *
  omega

/-- Setting up the chain finds the place again. -/
theorem setup_rel (c : Cfg V α γ) (h : Intact c) (s : St V α) (cur : Spec.Cursor V) (hv : s.v = cur.fmt) (hle : (cur.pos : Int) ≤ c.totalf)
    (hn : s.nextv = cur.pos) (hcl : c.kind ≠ .block → s.held = [] ∧ s.eof = false ∧ s.sent = false) : Rel c (setup c s) cur := by
  obtain ⟨a, b, d, e, f⟩ := setup_ready c h s cur.pos hle hn hcl
  exact ⟨b.trans hv, hle, d, f, fun _ => a⟩

theorem ensure_alive (c : Cfg V α γ) (h : Intact c) (s : St V α) (cur : Spec.Cursor V) (ha : Alive c s cur) :
    Alive c (if s.dirty then setup c s else s) cur ∧ (if s.dirty then setup c s else s).dirty = false := by
  cases hd : s.dirty with
  | false => exact ⟨ha, hd⟩
  | true =>
    refine ⟨Alive.of_rel h (setup_rel c h s cur ha.fmt ha.le ha.nextv ha.clean), ?_⟩
    obtain ⟨a, b, d, e, f⟩ := setup_ready c h s cur.pos ha.le ha.nextv ha.clean
    exact e

theorem readFrames_sim (c : Cfg V α γ) (h : Intact c) (hc : c.checks = false) (x : FSt V α) (cur : Spec.Cursor V) (ha : Alive c x.s cur)
    (n : Int) :
    ∃ fs x', readFrames seen c n x = .ok (((fs.length : Int), fs), x') ∧ fs.length ≤ min n.toNat (c.totalf.toNat - cur.pos) ∧
      Alive c x'.s { cur with pos := cur.pos + fs.length } ∧
      (∀ r gs s', Reading.readFrames c n x.s = .ok ((r, gs), s') → fs <+: gs ∧
        (0 < fs.length → fs.length = min n.toNat (c.totalf.toNat - cur.pos) → x'.s = s')) := by
  obtain ⟨ha1, hd1⟩ := ensure_alive c h x.s cur ha
  unfold readFrames Reading.readFrames
  generalize (if x.s.dirty then setup c x.s else x.s) = s1 at ha1 hd1
  obtain ⟨ht, hfp, hig, hwi⟩ := ha1.set hd1
  have htot := h.total
  have hle := ha1.le
  rw [h.seek]
  have hfn : ¬ s1.fposNext < 0 := by omega
  simp only [true_and, if_true, hfn, if_false]
  have hnum : (if s1.totalv = -1 then n else if n > s1.totalv - s1.nextv then s1.totalv - s1.nextv else n).toNat
      = min n.toNat (c.totalf.toNat - cur.pos) := by
    rw [ht, ha1.nextv]
    split
    · omega
    · split <;> omega
  simp only [hnum]
  generalize hT : min n.toNat (c.totalf.toNat - cur.pos) = T
  have hTl : ((cur.pos + T : Nat) : Int) ≤ c.totalf := by omega
  -- the loop, from a state that differs from `s1` by a pull
  have loop : ∀ y : FSt V α, Keep c { s1 with filePos := s1.fposNext, happy := true, ignore := 0 } y.s →
      ∃ fs x', readLoop seen c T y = .ok (fs, x') ∧ fs.length ≤ T ∧
        Alive c { x'.s with nextv := x'.s.nextv + fs.length } { cur with pos := cur.pos + fs.length } ∧
        (0 < fs.length → fs.length = T → x'.s.happy = true ∧ Reading.readLoop c T y.s = .ok (fs, x'.s)) ∧
        (∀ gs s', Reading.readLoop c T y.s = .ok (gs, s') → fs <+: gs) := by
    intro y hy
    obtain ⟨fs, x', e1, k1, l1, s2, f1, p1⟩ := readLoop_sim (seen := seen) c h hc T y (hy.within hwi)
    have kk := hy.trans k1
    refine ⟨fs, x', e1, l1, ?_, fun q1 q2 => ⟨f1 q1 q2, s2 (f1 q1 q2)⟩, p1⟩
    refine ⟨kk.v.trans ha1.fmt, by simp; omega, ?_, ?_, ?_⟩
    · have := kk.nextv
      have e2 : s1.nextv = cur.pos := ha1.nextv
      simp only [this, e2]
      omega
    · intro hk
      obtain ⟨a, b, d⟩ := kk.clean hk
      obtain ⟨a', b', d'⟩ := ha1.clean hk
      exact ⟨a.trans a', b.trans b', d.trans d'⟩
    · intro _
      refine ⟨kk.totalv.trans ht, ?_, ?_, kk.within hwi⟩
      · have := kk.fpos
        simp only at this ⊢
        omega
      · have := kk.ignore
        simp only at this ⊢
        omega
  by_cases hz : s1.ignore = 0
  · unfold skipFrames
    simp only [hz, ne_eq, not_true_eq_false, if_false, bind, Except.bind, pure, Except.pure, Bool.false_eq_true]
    obtain ⟨fs, x', e1, l1, a1, f1, p1⟩ := loop ⟨{ s1 with filePos := s1.fposNext, happy := true }, x.tick⟩
      ⟨rfl, rfl, hz, rfl, rfl, fun _ => rfl, by simp, fun _ q => q, fun _ => ⟨rfl, rfl, rfl⟩⟩
    simp only [hz] at e1
    simp only [e1]
    refine ⟨fs, _, rfl, l1, a1, ?_⟩
    intro r gs s' e
    simp only [hz] at f1 p1
    cases e3 : Reading.readLoop c T { s1 with filePos := s1.fposNext, happy := true } with
    | error q => simp only [hz] at e3; rw [e3] at e; cases e
    | ok r =>
      obtain ⟨g2, t2⟩ := r
      simp only [hz] at e3
      rw [e3] at e
      simp only [Except.ok.injEq, Prod.mk.injEq] at e
      obtain ⟨⟨-, e5⟩, e6⟩ := e
      subst e5
      refine ⟨p1 _ _ e3, fun q1 q2 => ?_⟩
      obtain ⟨-, f2⟩ := f1 q1 q2
      rw [e3] at f2
      simp only [Except.ok.injEq, Prod.mk.injEq] at f2
      rw [← e6, f2.1, f2.2]
  · have hgt : ¬ s1.ignore < 0 := by omega
    obtain ⟨g0, y, ey, ky, ly, sy⟩ := chainPull_sim (seen := seen) c h hc s1.ignore.toNat
      ⟨{ s1 with filePos := s1.fposNext, happy := true }, x.tick⟩ hwi
    unfold skipFrames
    simp only [hz, ne_eq, not_false_eq_true, if_true, hgt, if_false, bind, Except.bind, pure, Except.pure, ey]
    obtain ⟨fs, x', e1, l1, a1, f1, p1⟩ := loop { y with s := { y.s with ignore := 0 } }
      ⟨ky.v, ky.dirty, rfl, ky.totalv, ky.nextv, fun _ => rfl, ky.fpos, ky.nextf, ky.clean⟩
    -- nothing delivered
    have stay : Alive c { y.s with ignore := 0, nextv := y.s.nextv + (([] : List (Option γ)).length : Int) }
        { cur with pos := cur.pos + ([] : List (Option γ)).length } := by
      refine ⟨ky.v.trans ha1.fmt, hle, ?_, ?_, ?_⟩
      · have e2 := ky.nextv
        have e3 := ha1.nextv
        simp only [List.length_nil] at e2 ⊢
        omega
      · intro hk
        obtain ⟨a, b, d⟩ := ky.clean hk
        obtain ⟨a', b', d'⟩ := ha1.clean hk
        exact ⟨a.trans a', b.trans b', d.trans d'⟩
      · intro _
        have := ky.fpos
        exact ⟨ky.totalv.trans ht, by simp only at this ⊢; omega, by simp, ky.within hwi⟩
    by_cases hh : y.s.happy = true
    · simp only [sy hh]
      by_cases he : ((g0.length : Int) < s1.ignore)
      · simp only [he, decide_true, if_true]
        refine ⟨[], _, rfl, by simp, stay, ?_⟩
        intro r gs s' e
        exact ⟨List.nil_prefix, fun q => absurd q (by simp)⟩
      · simp only [he, decide_false, Bool.false_eq_true, if_false, e1]
        refine ⟨fs, _, rfl, l1, a1, ?_⟩
        intro r gs s' e
        cases e3 : Reading.readLoop c T { y.s with ignore := 0 } with
        | error q => rw [e3] at e; cases e
        | ok r =>
          obtain ⟨g2, t2⟩ := r
          rw [e3] at e
          simp only [Except.ok.injEq, Prod.mk.injEq] at e
          obtain ⟨⟨-, e5⟩, e6⟩ := e
          subst e5
          refine ⟨p1 _ _ e3, fun q1 q2 => ?_⟩
          obtain ⟨-, f2⟩ := f1 q1 q2
          simp only at f2
          rw [e3] at f2
          simp only [Except.ok.injEq, Prod.mk.injEq] at f2
          rw [← e6, f2.1, f2.2]
    · have e0 : readLoop seen c T { y with s := { y.s with ignore := 0 } } = .ok ([], { y with s := { y.s with ignore := 0 } }) := by
        unfold readLoop
        by_cases hT0 : T = 0
        · rw [dif_pos hT0]; rfl
        · rw [dif_neg hT0, if_pos (by simpa using hh)]; rfl
      refine ⟨[], { y with s := { y.s with ignore := 0, nextv := y.s.nextv + (([] : List (Option γ)).length : Int) } }, ?_, by simp, stay,
        fun r gs s' e => ⟨List.nil_prefix, fun q => absurd q (by simp)⟩⟩
      by_cases he : ((g0.length : Int) < s1.ignore)
      · simp only [he, decide_true, if_true]
      · simp only [he, decide_false, Bool.false_eq_true, if_false, e0]

open AF.Spec.ShortReads

/-- The reader of the specification: it is right about the position, and knows its place unless it is lost. -/
structure Knows (c : Cfg V α γ) (s : St V α) (r : Reader V) : Prop where
  alive : Alive c s r.cur
  rel : r.lost = false → Rel c s r.cur

theorem due_length {c : Cfg V α γ} (h : Intact c) (cur : Spec.Cursor V) (n : Int) :
    (due (frames c) c.conv cur n).length = min n.toNat (c.totalf.toNat - cur.pos) := by
  simp [due, frames_length h]

theorem step_knows (c : Cfg V α γ) (h : Intact c) (hc : c.checks = false) (x : FSt V α) (r : Reader V) (hk : Knows c x.s r) (op : Op V)
    (hop : Spec.InRange (frames c).length op) :
    ∃ o x' r', step seen c x op = .ok (o, x') ∧ Allowed (frames c) c.conv r op o r' ∧ Knows c x'.s r' := by
  have hflen := frames_length h
  have htot := h.total
  cases op with
  | read n =>
    obtain ⟨fs, x', e1, l1, a1, p1⟩ := readFrames_sim (seen := seen) c h hc x r.cur hk.alive n
    refine ⟨_, x', ⟨{ r.cur with pos := r.cur.pos + fs.length },
      r.lost || !decide (0 < fs.length ∧ fs.length = (due (frames c) c.conv r.cur n).length)⟩, e1, ?_, ?_⟩
    · refine ⟨rfl, by rw [due_length h]; exact l1, rfl, fun hl => ?_⟩
      obtain ⟨s', e2, -⟩ := readFrames_ok c h x.s r.cur (hk.rel hl) n
      refine ⟨?_, fun q1 q2 => by simp [hl, q1, ← q2]⟩
      have := (p1 _ _ _ e2).1
      have := List.prefix_iff_eq_take.mp this
      rw [due, ← List.map_take, List.map_map, List.map_take]
      exact this
    · refine ⟨a1, fun hl => ?_⟩
      simp only [Bool.or_eq_false_iff, Bool.not_eq_false', decide_eq_true_eq] at hl
      obtain ⟨hl, q1, q2⟩ := hl
      obtain ⟨s', e2, r2⟩ := readFrames_ok c h x.s r.cur (hk.rel hl) n
      have := (p1 _ _ _ e2).2 q1 (by rw [q2, due_length h])
      rw [this]
      have e3 : ((List.drop r.cur.pos (frames c)).take n.toNat).length = fs.length := by
        rw [q2, due, List.length_map]
      rw [e3] at r2
      exact r2
  | tell =>
    obtain ⟨ha1, hd1⟩ := ensure_alive c h x.s r.cur hk.alive
    have hr1 : r.lost = false → Rel c (if x.s.dirty then setup c x.s else x.s) r.cur :=
      fun hl => (ensure_ready c h x.s r.cur (hk.rel hl)).1
    refine ⟨_, { x with s := if x.s.dirty then setup c x.s else x.s }, r, rfl, ⟨?_, rfl, fun q => q⟩, ha1, hr1⟩
    simp only [seekFrame, Spec.answer]
    generalize (if x.s.dirty then setup c x.s else x.s) = s1 at ha1 hd1
    simp [ha1.nextv]
  | count =>
    obtain ⟨ha1, hd1⟩ := ensure_alive c h x.s r.cur hk.alive
    have hr1 : r.lost = false → Rel c (if x.s.dirty then setup c x.s else x.s) r.cur :=
      fun hl => (ensure_ready c h x.s r.cur (hk.rel hl)).1
    refine ⟨_, { x with s := if x.s.dirty then setup c x.s else x.s }, r, rfl, ⟨?_, rfl, fun q => q⟩, ha1, hr1⟩
    simp only [frameCount, Spec.answer]
    generalize (if x.s.dirty then setup c x.s else x.s) = s1 at ha1 hd1
    rw [(ha1.set hd1).1, hflen]
    congr 1; omega
  | setFormat v =>
    have hr : Rel c { x.s with v := v, dirty := true } { r.cur with fmt := v } :=
      ⟨rfl, hk.alive.le, hk.alive.nextv, hk.alive.clean, by simp⟩
    exact ⟨_, { x with s := { x.s with v := v, dirty := true } }, ⟨{ r.cur with fmt := v }, false⟩, rfl, ⟨rfl, rfl, rfl⟩,
      Alive.of_rel h hr, fun _ => hr⟩
  | seek f =>
    obtain ⟨ha1, hd1⟩ := ensure_alive c h x.s r.cur hk.alive
    have hr1 : r.lost = false → Rel c (if x.s.dirty then setup c x.s else x.s) r.cur :=
      fun hl => (ensure_ready c h x.s r.cur (hk.rel hl)).1
    simp only [step, Reading.step, seekFrame, bind, Except.bind, pure, Except.pure]
    generalize (if x.s.dirty then setup c x.s else x.s) = s1 at ha1 hd1 hr1
    have hin : f ≤ (frames c).length ∨ 0 < (frames c).length := hop
    have hle := ha1.le
    have hnv := ha1.nextv
    by_cases hf : f < 0
    · simp only [hf, if_true]
      refine ⟨_, { x with s := s1 }, r, rfl, ⟨?_, ?_, ?_⟩, ha1, hr1⟩
      · simp [Spec.answer, hf, hnv]
      · simp [Spec.move, hf]
      · rintro (q | q)
        · exact q
        · omega
    · simp only [hf, if_false]
      by_cases he : f = s1.nextv
      · simp only [he, if_true]
        have ht : Spec.target (frames c).length f = f := by
          unfold Spec.target; rw [if_neg]; omega
        have hfp : f.toNat = r.cur.pos := by omega
        refine ⟨_, { x with s := s1 }, r, rfl, ⟨?_, ?_, ?_⟩, ha1, hr1⟩
        · simp only [Spec.answer]
          rw [← he, ht, if_neg hf]
        · simp only [Spec.move]
          rw [← he, ht, if_neg hf, hfp]
        · rintro (q | q)
          · exact q
          · omega
      · simp only [he, if_false]
        have ht : (if s1.totalv ≠ -1 ∧ f > s1.totalv then s1.totalv - 1 else f) = Spec.target (frames c).length f := by
          rw [(ha1.set hd1).1]
          unfold Spec.target
          split <;> split <;> omega
        have hb : 0 ≤ Spec.target (frames c).length f ∧ Spec.target (frames c).length f ≤ c.totalf := by
          unfold Spec.target; split <;> omega
        rw [ht]
        have hr : Rel c (setup c { s1 with nextv := Spec.target (frames c).length f })
            { r.cur with pos := (Spec.target (frames c).length f).toNat } :=
          setup_rel c h _ _ ha1.fmt (by simp; omega) (by simp; omega) ha1.clean
        refine ⟨_, { x with s := setup c { s1 with nextv := Spec.target (frames c).length f } },
          ⟨{ r.cur with pos := (Spec.target (frames c).length f).toNat }, false⟩, rfl, ⟨?_, ?_, fun _ => rfl⟩, Alive.of_rel h hr, fun _ => hr⟩
        · simp only [Spec.answer, hf, if_false]
          have := hr.nextv
          rw [this]
          simp only [Prod.mk.injEq, and_true]
          omega
        · simp only [Spec.move, hf, if_false]

theorem run_knows (c : Cfg V α γ) (h : Intact c) (hc : c.checks = false) (ops : List (Op V)) : ∀ (x : FSt V α) (r : Reader V),
    Knows c x.s r → (∀ op ∈ ops, Spec.InRange (frames c).length op) →
    ∃ os x', run seen c x ops = .ok (os, x') ∧ Conversation (frames c) c.conv r ops os := by
  induction ops with
  | nil => intro x r _ _; exact ⟨[], x, rfl, trivial⟩
  | cons op ops ih =>
    intro x r hk hops
    obtain ⟨o, x1, r1, e1, a1, k1⟩ := step_knows (seen := seen) c h hc x r hk op (hops op (by simp))
    obtain ⟨os, x2, e2, c2⟩ := ih x1 r1 k1 (fun o ho => hops o (by simp [ho]))
    exact ⟨o :: os, x2, by simp only [run, bind, Except.bind, e1, e2, pure, Except.pure], r1, a1, c2⟩

/-! Reads that see enough of the file. -/

/-- What a pull of the fault-free model does to the positions. -/
structure Moves (c : Cfg V α γ) (s s' : St V α) : Prop where
  pos : s.filePos ≤ s'.filePos
  both : s'.filePos - s'.fposNext = s.filePos - s.fposNext
  within : Within c s → Within c s'
  dirty : s'.dirty = s.dirty

theorem Moves.refl (c : Cfg V α γ) (s : St V α) : Moves c s s := ⟨by omega, rfl, fun h => h, rfl⟩
theorem Moves.trans {c : Cfg V α γ} {a b d : St V α} (h : Moves c a b) (k : Moves c b d) : Moves c a d :=
  ⟨by have := h.pos; have := k.pos; omega, k.both.trans h.both, fun q => k.within (h.within q), k.dirty.trans h.dirty⟩

theorem filePull_enough (c : Cfg V α γ) (h : Intact c) (hc : c.checks = false) (k : Nat) (x : FSt V α) (hw : Within c x.s)
    (hp : 0 ≤ x.s.filePos) (fs : List α) (s' : St V α) (e : Reading.filePull c ((k * c.fpp : Nat) : Int) x.s = .ok (fs, s')) :
    Moves c x.s s' ∧ ((∀ t, s'.filePos ≤ seen t) → filePull seen c ((k * c.fpp : Nat) : Int) x = .ok (fs, ⟨s', x.tick + 1⟩)) := by
  have ht := h.total
  have e1 := filePull_eq c h.one ht hc k x.s hw
  have e2 : Reading.filePull (upto c (seen x.tick)) ((k * c.fpp : Nat) : Int) x.s
      = .ok (after c (((c.file.take (seen x.tick)).drop x.s.filePos.toNat).take (c.bpp * asked c k x.s)) (asked c k x.s) x.s) :=
    filePull_eq (upto c (seen x.tick)) h.one ht hc k x.s hw
  rw [e] at e1
  have e3 := Except.ok.inj e1
  have hs' : s' = (after c ((c.file.drop x.s.filePos.toNat).take (c.bpp * asked c k x.s)) (asked c k x.s) x.s).2 := by rw [← e3]
  have hbl : ((c.file.drop x.s.filePos.toNat).take (c.bpp * asked c k x.s)).length ≤ c.bpp * asked c k x.s := by simp; omega
  refine ⟨⟨?_, ?_, ?_, ?_⟩, ?_⟩
  · rw [hs']; simp only [after]; omega
  · rw [hs']; simp only [after]; omega
  · intro _ hk
    have h1 := h.one (by rw [hk]; intro q; cases q)
    obtain ⟨p1, -, -⟩ := packets_le c h _ _ hbl
    rw [hs']
    simp only [after, h1, Nat.mul_one]
    have := hw hk
    have : x.s.nextf + (asked c k x.s : Nat) ≤ c.totalf := by
      unfold asked
      split
      · omega
      · rename_i q
        have : ¬ x.s.nextf + k > c.totalf := fun r => q ⟨hk, r⟩
        omega
    omega
  · rw [hs']; rfl
  · intro hs
    have := hs x.tick
    rw [hs'] at this
    simp only [after, List.length_take, List.length_drop] at this
    have hsame : ((c.file.take (seen x.tick)).drop x.s.filePos.toNat).take (c.bpp * asked c k x.s)
        = (c.file.drop x.s.filePos.toNat).take (c.bpp * asked c k x.s) := by
      rw [List.drop_take, List.take_take]
      by_cases hq : c.bpp * asked c k x.s ≤ seen x.tick - x.s.filePos.toNat
      · rw [Nat.min_eq_left hq]
      · rw [List.take_of_length_le, List.take_of_length_le] <;> rw [List.length_drop] <;> omega
    rw [hsame, ← e3] at e2
    simp only [filePull, e2, bind, Except.bind]
    rfl

theorem rebufLoop_enough (c : Cfg V α γ) (h : Intact c) (hc : c.checks = false) (hk : c.kind = .block) (want : Nat) : ∀ (x : FSt V α),
    0 ≤ x.s.filePos → ∀ fs left s', Reading.rebufLoop c want x.s = .ok (fs, left, s') →
    Moves c x.s s' ∧ ((∀ t, s'.filePos ≤ seen t) → ∃ t, rebufLoop seen c want x = .ok (fs, left, ⟨s', t⟩)) := by
  have hnb : c.kind ≠ .pcm := by rw [hk]; intro q; cases q
  have hwi : ∀ s, Within c s := fun s q => absurd q hnb
  induction want using Nat.strongRecOn with
  | _ want ih =>
    intro x hp fs left s' e
    unfold rebufLoop
    unfold Reading.rebufLoop at e
    by_cases hw : want = 0
    · subst hw
      simp only [dite_true, pure, Except.pure, Except.ok.injEq, Prod.mk.injEq] at e
      obtain ⟨rfl, rfl, rfl⟩ := e
      exact ⟨Moves.refl c _, fun _ => ⟨x.tick, rfl⟩⟩
    · simp only [hw, dite_false] at e ⊢
      by_cases he : x.s.eof = true
      · simp only [he, if_true, pure, Except.pure, Except.ok.injEq, Prod.mk.injEq] at e ⊢
        obtain ⟨rfl, rfl, rfl⟩ := e
        exact ⟨Moves.refl c _, fun _ => ⟨x.tick, rfl, rfl, rfl⟩⟩
      · simp only [he, Bool.false_eq_true, if_false] at e ⊢
        cases e1 : Reading.filePull c c.fpp x.s with
        | error q => simp only [e1, bind, Except.bind] at e; cases e
        | ok r =>
          obtain ⟨fs1, s1⟩ := r
          have e1' := e1
          rw [show (c.fpp : Int) = ((1 * c.fpp : Nat) : Int) by rw [Nat.one_mul]] at e1'
          obtain ⟨m1, g1⟩ := filePull_enough (seen := seen) c h hc 1 x (hwi _) hp fs1 s1 e1'
          rw [Nat.one_mul] at g1
          simp only [e1, bind, Except.bind, pure, Except.pure] at e ⊢
          by_cases hl : fs1.length = c.fpp
          · simp only [hl, if_true] at e
            by_cases hwf : want < c.fpp
            · simp only [hwf, if_true, hc, cAssert, Bool.not_false, Bool.true_or, pure, Except.pure, Except.ok.injEq, Prod.mk.injEq] at e
              obtain ⟨rfl, rfl, rfl⟩ := e
              refine ⟨⟨m1.pos, m1.both, fun _ => hwi _, m1.dirty⟩, fun hs => ?_⟩
              simp only [g1 hs, hl, if_true, hwf]
              exact ⟨_, rfl⟩
            · simp only [hwf, if_false, hc, cAssert, Bool.not_false, Bool.true_or, if_true] at e
              cases e2 : Reading.rebufLoop c (want - c.fpp) s1 with
              | error q => simp only [e2] at e; cases e
              | ok r =>
                obtain ⟨fs2, left2, s2⟩ := r
                obtain ⟨m2, g2⟩ := ih (want - c.fpp) (by have := c.fpp_pos; omega) ⟨s1, x.tick + 1⟩ (by have := m1.pos; simp only; omega) _ _ _ e2
                simp only [e2, Except.ok.injEq, Prod.mk.injEq] at e
                obtain ⟨rfl, rfl, rfl⟩ := e
                refine ⟨m1.trans m2, fun hs => ?_⟩
                have := m2.pos
                obtain ⟨t, e3⟩ := g2 hs
                simp only [g1 (fun t => by have := hs t; simp only at *; omega), hl, if_true, hwf, if_false, e3]
                exact ⟨t, rfl⟩
          · simp only [hl, if_false] at e
            by_cases hwf : want < fs1.length
            · simp only [hwf, if_true, hc, cAssert, Bool.not_false, Bool.true_or, Except.ok.injEq, Prod.mk.injEq] at e
              obtain ⟨rfl, rfl, rfl⟩ := e
              refine ⟨⟨m1.pos, m1.both, fun _ => hwi _, m1.dirty⟩, fun hs => ?_⟩
              simp only [g1 hs, hl, if_false, hwf, if_true]
              exact ⟨_, rfl⟩
            · simp only [hwf, if_false, hc, cAssert, Bool.not_false, Bool.true_or, if_true, Except.ok.injEq, Prod.mk.injEq] at e
              obtain ⟨rfl, rfl, rfl⟩ := e
              refine ⟨⟨m1.pos, m1.both, fun _ => hwi _, m1.dirty⟩, fun hs => ?_⟩
              simp only [g1 hs, hl, if_false, hwf]
              exact ⟨_, rfl⟩

theorem rebufPull_enough (c : Cfg V α γ) (h : Intact c) (hc : c.checks = false) (hk : c.kind = .block) (n : Nat) (x : FSt V α)
    (hp : 0 ≤ x.s.filePos) (fs : List α) (s' : St V α) (e : Reading.rebufPull c n x.s = .ok (fs, s')) :
    Moves c x.s s' ∧ ((∀ t, s'.filePos ≤ seen t) → ∃ t, rebufPull seen c n x = .ok (fs, ⟨s', t⟩)) := by
  have hnb : c.kind ≠ .pcm := by rw [hk]; intro q; cases q
  have hwi : ∀ s, Within c s := fun s q => absurd q hnb
  unfold rebufPull
  unfold Reading.rebufPull at e
  simp only [hc, cAssert, bind, Except.bind, pure, Except.pure, Bool.not_false, Bool.true_or, if_true] at e ⊢
  by_cases hn : n < x.s.held.length
  · simp only [hn, if_true, Except.ok.injEq, Prod.mk.injEq] at e ⊢
    obtain ⟨rfl, rfl⟩ := e
    exact ⟨⟨by simp, rfl, fun _ => hwi _, rfl⟩, fun _ => ⟨x.tick, rfl, rfl⟩⟩
  · simp only [hn, if_false] at e ⊢
    cases e1 : Reading.rebufLoop c (n - x.s.held.length) { x.s with held := [] } with
    | error q => simp only [e1] at e; cases e
    | ok r =>
      obtain ⟨fs1, left, s1⟩ := r
      obtain ⟨m1, g1⟩ := rebufLoop_enough (seen := seen) c h hc hk _ { x with s := { x.s with held := [] } } hp _ _ _ e1
      simp only [e1] at e
      by_cases hg : (s1.eof && decide (left > 0)) = true
      · simp only [hg, if_true, Except.ok.injEq, Prod.mk.injEq] at e
        obtain ⟨rfl, rfl⟩ := e
        refine ⟨⟨m1.pos, m1.both, fun _ => hwi _, m1.dirty⟩, fun hs => ?_⟩
        obtain ⟨t, e3⟩ := g1 hs
        simp only [e3, hg, if_true]
        exact ⟨t, rfl⟩
      · have hg' : (s1.eof && decide (left > 0)) = false := by simpa using hg
        simp only [hg', Bool.false_eq_true, if_false, Except.ok.injEq, Prod.mk.injEq] at e
        obtain ⟨rfl, rfl⟩ := e
        refine ⟨⟨m1.pos, m1.both, fun _ => hwi _, m1.dirty⟩, fun hs => ?_⟩
        obtain ⟨t, e3⟩ := g1 hs
        simp only [e3, hg', Bool.false_eq_true, if_false]
        exact ⟨t, rfl⟩

theorem chainPull_enough (c : Cfg V α γ) (h : Intact c) (hc : c.checks = false) (n : Nat) (x : FSt V α) (hw : Within c x.s)
    (hp : 0 ≤ x.s.filePos) (fs : List (Option γ)) (s' : St V α) (e : Reading.chainPull c n x.s = .ok (fs, s')) :
    Moves c x.s s' ∧ ((∀ t, s'.filePos ≤ seen t) → ∃ t, chainPull seen c n x = .ok (fs, ⟨s', t⟩)) := by
  have core : ∀ gs s', Reading.sourcePull c n x.s = .ok (gs, s') →
      Moves c x.s s' ∧ ((∀ t, s'.filePos ≤ seen t) → ∃ t, sourcePull seen c n x = .ok (gs, ⟨s', t⟩)) := by
    intro gs s' e
    by_cases hk : c.kind = .block
    · unfold sourcePull
      unfold Reading.sourcePull at e
      rw [hk] at e ⊢
      exact rebufPull_enough c h hc hk n x hp gs s' e
    · have h1 := h.one hk
      have ek : ((n * c.fpp : Nat) : Int) = (n : Int) := by rw [h1]; simp
      have e' : Reading.filePull c (n : Int) x.s = .ok (gs, s') := by
        unfold Reading.sourcePull at e
        cases hkk : c.kind with
        | block => exact absurd hkk hk
        | pcm => rw [hkk] at e; exact e
        | g711 => rw [hkk] at e; exact e
      rw [← ek] at e'
      obtain ⟨m1, g1⟩ := filePull_enough (seen := seen) c h hc n x hw hp gs s' e'
      rw [ek] at g1
      refine ⟨m1, fun hs => ⟨x.tick + 1, ?_⟩⟩
      unfold sourcePull
      cases hkk : c.kind with
      | block => exact absurd hkk hk
      | pcm => exact g1 hs
      | g711 => exact g1 hs
  unfold chainPull
  unfold Reading.chainPull at e
  simp only [bind, Except.bind, pure, Except.pure] at e ⊢
  cases e1 : Reading.sourcePull c n x.s with
  | error q => simp only [e1] at e; cases e
  | ok r =>
    obtain ⟨gs, s1⟩ := r
    obtain ⟨m1, g1⟩ := core gs s1 e1
    simp only [e1] at e
    by_cases hv : c.hasConv s1.v = true
    · simp only [hv, if_true, Except.ok.injEq, Prod.mk.injEq] at e
      obtain ⟨rfl, rfl⟩ := e
      refine ⟨m1, fun hs => ?_⟩
      obtain ⟨t, e3⟩ := g1 hs
      simp only [e3, hv, if_true]
      exact ⟨t, rfl⟩
    · have hv' : c.hasConv s1.v = false := by simpa using hv
      simp only [hv', Bool.false_eq_true, if_false, Except.ok.injEq, Prod.mk.injEq] at e
      obtain ⟨rfl, rfl⟩ := e
      refine ⟨m1, fun hs => ?_⟩
      obtain ⟨t, e3⟩ := g1 hs
      simp only [e3, hv', Bool.false_eq_true, if_false]
      exact ⟨t, rfl⟩

theorem readLoop_enough (c : Cfg V α γ) (h : Intact c) (hc : c.checks = false) (left : Nat) : ∀ (x : FSt V α), Within c x.s →
    0 ≤ x.s.filePos → ∀ fs s', Reading.readLoop c left x.s = .ok (fs, s') →
    Moves c x.s s' ∧ ((∀ t, s'.filePos ≤ seen t) → ∃ t, readLoop seen c left x = .ok (fs, ⟨s', t⟩)) := by
  induction left using Nat.strongRecOn with
  | _ left ih =>
    intro x hw hp fs s' e
    unfold readLoop
    unfold Reading.readLoop at e
    by_cases h0 : left = 0
    · subst h0
      simp only [dite_true, pure, Except.pure, Except.ok.injEq, Prod.mk.injEq] at e
      obtain ⟨rfl, rfl⟩ := e
      exact ⟨Moves.refl c _, fun _ => ⟨x.tick, rfl⟩⟩
    · simp only [h0, dite_false] at e ⊢
      by_cases hh0 : x.s.happy = false
      · simp only [hh0, if_true, pure, Except.pure, Except.ok.injEq, Prod.mk.injEq] at e ⊢
        obtain ⟨rfl, rfl⟩ := e
        exact ⟨Moves.refl c _, fun _ => ⟨x.tick, rfl, rfl⟩⟩
      · simp only [hh0, Bool.true_eq_false, if_false, bind, Except.bind, pure, Except.pure] at e ⊢
        cases e1 : Reading.chainPull c (min 1024 left) x.s with
        | error q => simp only [e1] at e; cases e
        | ok r =>
          obtain ⟨gs, s1⟩ := r
          obtain ⟨m1, g1⟩ := chainPull_enough (seen := seen) c h hc (min 1024 left) x hw hp gs s1 e1
          simp only [e1] at e
          by_cases hh : s1.happy = true
          · simp only [hh, if_true] at e
            by_cases hl : gs.length < min 1024 left
            · simp only [hl, if_true, Except.ok.injEq, Prod.mk.injEq] at e
              obtain ⟨rfl, rfl⟩ := e
              refine ⟨m1, fun hs => ?_⟩
              obtain ⟨t, e3⟩ := g1 hs
              simp only [e3, hh, if_true, hl]
              exact ⟨t, rfl⟩
            · simp only [hl, if_false] at e
              cases e2 : Reading.readLoop c (left - min 1024 left) s1 with
              | error q => simp only [e2] at e; cases e
              | ok r =>
                obtain ⟨g2, s2⟩ := r
                have hp1 : 0 ≤ s1.filePos := by have := m1.pos; omega
                have ih' := fun t => ih (left - min 1024 left) (by omega) ⟨s1, t⟩ (m1.within hw) hp1 _ _ e2
                simp only [e2, Except.ok.injEq, Prod.mk.injEq] at e
                obtain ⟨rfl, rfl⟩ := e
                have m2 := (ih' 0).1
                refine ⟨m1.trans m2, fun hs => ?_⟩
                have := m2.pos
                obtain ⟨t, e3⟩ := g1 (fun t => by have := hs t; simp only at *; omega)
                obtain ⟨t', e4⟩ := (ih' t).2 hs
                simp only [e3, hh, if_true, hl, if_false, e4]
                exact ⟨t', rfl⟩
          · have hh' : s1.happy = false := by simpa using hh
            simp only [hh', Bool.false_eq_true, if_false, Except.ok.injEq, Prod.mk.injEq] at e
            obtain ⟨rfl, rfl⟩ := e
            refine ⟨m1, fun hs => ?_⟩
            obtain ⟨t, e3⟩ := g1 hs
            simp only [e3, hh', Bool.false_eq_true, if_false]
            exact ⟨t, rfl⟩

theorem readFrames_enough (c : Cfg V α γ) (h : Intact c) (hc : c.checks = false) (x : FSt V α) (cur : Spec.Cursor V) (ha : Alive c x.s cur)
    (n r : Int) (gs : List (Option γ)) (s' : St V α) (e : Reading.readFrames c n x.s = .ok ((r, gs), s')) :
    s'.filePos = s'.fposNext ∧ s'.dirty = false ∧
    ((∀ t, s'.filePos ≤ seen t) → ∃ t, readFrames seen c n x = .ok ((r, gs), ⟨s', t⟩)) := by
  obtain ⟨ha1, hd1⟩ := ensure_alive c h x.s cur ha
  unfold readFrames
  unfold Reading.readFrames at e
  generalize (if x.s.dirty then setup c x.s else x.s) = s1 at ha1 hd1 e
  obtain ⟨ht, hfp, hig, hwi⟩ := ha1.set hd1
  have hfn : ¬ s1.fposNext < 0 := by omega
  rw [h.seek] at e ⊢
  simp only [true_and, if_true, hfn, if_false] at e ⊢
  generalize (if s1.totalv = -1 then n else if n > s1.totalv - s1.nextv then s1.totalv - s1.nextv else n).toNat = T at e ⊢
  by_cases hz : s1.ignore = 0
  · unfold skipFrames
    simp only [hz, ne_eq, not_true_eq_false, if_false, bind, Except.bind, pure, Except.pure, Bool.false_eq_true] at e ⊢
    cases e3 : Reading.readLoop c T { s1 with filePos := s1.fposNext, happy := true } with
    | error q => simp only [hz] at e3; rw [e3] at e; cases e
    | ok r =>
      obtain ⟨g2, t2⟩ := r
      obtain ⟨m1, g1⟩ := readLoop_enough (seen := seen) c h hc T ⟨{ s1 with filePos := s1.fposNext, happy := true }, x.tick⟩ hwi hfp _ _ e3
      simp only [hz] at e3 g1
      rw [e3] at e
      simp only [Except.ok.injEq, Prod.mk.injEq] at e
      obtain ⟨⟨rfl, rfl⟩, rfl⟩ := e
      have := m1.both
      refine ⟨by simp only at this ⊢; omega, m1.dirty.trans hd1, fun hs => ?_⟩
      obtain ⟨t, e4⟩ := g1 hs
      simp only [e4]
      exact ⟨t, rfl⟩
  · have hgt : ¬ s1.ignore < 0 := by omega
    unfold skipFrames
    simp only [hz, ne_eq, not_false_eq_true, if_true, hgt, if_false, bind, Except.bind, pure, Except.pure] at e ⊢
    cases e1 : Reading.chainPull c s1.ignore.toNat { s1 with filePos := s1.fposNext, happy := true } with
    | error q => rw [e1] at e; cases e
    | ok r =>
      obtain ⟨g0, y⟩ := r
      obtain ⟨m1, g1⟩ := chainPull_enough (seen := seen) c h hc s1.ignore.toNat
        ⟨{ s1 with filePos := s1.fposNext, happy := true }, x.tick⟩ hwi hfp _ _ e1
      have hb1 := m1.both
      have hp1 := m1.pos
      simp only at hb1 hp1
      rw [e1] at e
      by_cases he : ((g0.length : Int) < s1.ignore)
      · simp only [he, decide_true, if_true, Except.ok.injEq, Prod.mk.injEq] at e
        obtain ⟨⟨rfl, rfl⟩, rfl⟩ := e
        refine ⟨by simp only; omega, m1.dirty.trans hd1, fun hs => ?_⟩
        obtain ⟨t, e4⟩ := g1 hs
        simp only [e4, he, decide_true, if_true]
        exact ⟨t, rfl⟩
      · simp only [he, decide_false, Bool.false_eq_true, if_false] at e
        cases e3 : Reading.readLoop c T { y with ignore := 0 } with
        | error q => rw [e3] at e; cases e
        | ok r =>
          obtain ⟨g2, t2⟩ := r
          have loop := fun t => readLoop_enough (seen := seen) c h hc T ⟨{ y with ignore := 0 }, t⟩ (m1.within hwi) (by simp only; omega) _ _ e3
          rw [e3] at e
          simp only [Except.ok.injEq, Prod.mk.injEq] at e
          obtain ⟨⟨rfl, rfl⟩, rfl⟩ := e
          obtain ⟨m2, -⟩ := loop 0
          have hb2 := m2.both
          have hp2 := m2.pos
          simp only at hb2 hp2
          refine ⟨by simp only; omega, m2.dirty.trans (m1.dirty.trans hd1), fun hs => ?_⟩
          obtain ⟨t, e4⟩ := g1 (fun t => by have := hs t; simp only at this; omega)
          obtain ⟨t', e5⟩ := (loop t).2 hs
          simp only [e4, he, decide_false, Bool.false_eq_true, if_false, e5]
          exact ⟨t', rfl⟩

/-- The bytes of the file that hold the first `E` frames. -/
def extent (c : Cfg V α γ) (E : Nat) : Int := c.fposFirst + (c.bpp * ((E + c.fpp - 1) / c.fpp) : Nat)

/-- A program that stays before frame `E` gets the answers of the cursor, if every read sees the first `E` frames. -/
theorem run_enough (c : Cfg V α γ) (h : Intact c) (hc : c.checks = false) (E : Nat) (hE : ∀ t, extent c E ≤ seen t) (ops : List (Op V)) :
    ∀ (x : FSt V α) (cur : Spec.Cursor V), Rel c x.s cur → (∀ op ∈ ops, Spec.InRange (frames c).length op) →
      StaysBefore (frames c) E cur ops →
      ∃ x', run seen c x ops = .ok ((Spec.answers (frames c) c.conv cur ops).map (fun a => (a.1, a.2.map some)), x') := by
  induction ops with
  | nil => intro x cur _ _ _; exact ⟨x, rfl⟩
  | cons op ops ih =>
    intro x cur hr hops hst
    obtain ⟨s1, e1, r1⟩ := step_ok c h x.s cur hr op (hops op (by simp))
    have hstep : ∃ t, step seen c x op = .ok (((Spec.answer (frames c) c.conv cur op).1,
        (Spec.answer (frames c) c.conv cur op).2.map some), ⟨s1, t⟩) := by
      cases op with
      | read n =>
        simp only [Reading.step] at e1
        have e2 : Reading.readFrames c n x.s = .ok (((Spec.answer (frames c) c.conv cur (.read n)).1,
            (Spec.answer (frames c) c.conv cur (.read n)).2.map some), s1) := by
          cases e3 : Reading.readFrames c n x.s with
          | error q => rw [e3] at e1; cases e1
          | ok r => rw [e3] at e1; exact e1
        obtain ⟨p1, d1, g1⟩ := readFrames_enough (seen := seen) c h hc x cur (Alive.of_rel h hr) n _ _ _ e2
        refine g1 fun t => ?_
        obtain ⟨-, q, b, g, hat, -, hqg⟩ := r1.ready d1
        have h1 := hst.1
        have hb : b ≤ (E + c.fpp - 1) / c.fpp := by
          rw [Nat.le_div_iff_mul_le c.fpp_pos]
          have := hat.lt
          have : (Spec.move (frames c) cur (.read n)).pos ≤ E := h1
          omega
        have := Nat.mul_le_mul_left c.bpp hb
        have := hE t
        unfold extent at this
        rw [p1, hat.fpos]
        omega
      | tell => exact ⟨x.tick, by simp only [step, e1, bind, Except.bind]; rfl⟩
      | count => exact ⟨x.tick, by simp only [step, e1, bind, Except.bind]; rfl⟩
      | seek f => exact ⟨x.tick, by simp only [step, e1, bind, Except.bind]; rfl⟩
      | setFormat v => exact ⟨x.tick, by simp only [step, e1, bind, Except.bind]; rfl⟩
    obtain ⟨t, e2⟩ := hstep
    obtain ⟨x', e3⟩ := ih ⟨s1, t⟩ _ r1 (fun o ho => hops o (by simp [ho])) hst.2
    refine ⟨x', ?_⟩
    simp only [run, bind, Except.bind, e2, e3, pure, Except.pure]
    simp [Spec.answers]

end AF.ShortReads
