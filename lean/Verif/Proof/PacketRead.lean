import Verif.Spec.Packets
import Verif.Props.Files.CAF
/-! Refinement of reading packets to a cursor over the frames. -/
namespace AF.Packets
open AF AF.Files
variable {V α γ : Type}

/-- `s` has taken `b` packets, and the next frame it will deliver is frame `q`. -/
structure At (c : RCfg V α γ) (F : List α) (P : List (List Byte)) (s : RSt V α) (q b : Nat) : Prop where
  fpos : s.fposNext = ((c.fposFirst + (P.take b).flatten.length : Nat) : Int)
  cur : s.cur = b
  le : b ≤ P.length
  held : s.held = (F.take (b * c.fpp)).drop q
  pos : q ≤ min (b * c.fpp) F.length
  eof : s.eof = decide (b = P.length)

/-- The fields a pull does not touch. -/
structure Same (s s' : RSt V α) : Prop where
  v : s'.v = s.v
  dirty : s'.dirty = s.dirty
  ignore : s'.ignore = s.ignore
  totalv : s'.totalv = s.totalv
  nextv : s'.nextv = s.nextv
  happy : s'.happy = s.happy

theorem Same.refl (s : RSt V α) : Same s s := ⟨rfl, rfl, rfl, rfl, rfl, rfl⟩
theorem Same.trans {a b d : RSt V α} (h : Same a b) (k : Same b d) : Same a d :=
  ⟨k.v.trans h.v, k.dirty.trans h.dirty, k.ignore.trans h.ignore, k.totalv.trans h.totalv,
   k.nextv.trans h.nextv, k.happy.trans h.happy⟩

theorem take_flatten (P : List (List Byte)) {b : Nat} (hb : b < P.length) :
    (P.take (b + 1)).flatten.length = (P.take b).flatten.length + P[b].length := by
  rw [List.take_add_one, List.getElem?_eq_getElem hb, Option.toList_some, List.flatten_append, List.length_append]
  simp

theorem filePull_ok {c : RCfg V α γ} {F : List α} {P : List (List Byte)} (h : Carries c F P) {s : RSt V α} {b : Nat}
    (hpos : s.filePos = s.fposNext) (hf : s.fposNext = ((c.fposFirst + (P.take b).flatten.length : Nat) : Int)) (hc : s.cur = b)
    (hb : b < P.length) :
    filePull c s = .ok ((F.drop (b * c.fpp)).take c.fpp,
      { s with filePos := ((c.fposFirst + (P.take (b + 1)).flatten.length : Nat) : Int),
               fposNext := ((c.fposFirst + (P.take (b + 1)).flatten.length : Nat) : Int), cur := ((b + 1 : Nat) : Int) }) := by
  obtain ⟨rest, hr⟩ := h.bytes
  have hd : (c.file.drop s.filePos.toNat).take P[b].length = P[b] := by
    rw [hpos, hf, Int.toNat_natCast, ← List.drop_drop, hr]
    have : P.flatten ++ rest = (P.take b).flatten ++ (P[b] ++ ((P.drop (b + 1)).flatten ++ rest)) := by
      conv => lhs; rw [← List.take_append_drop b P, List.drop_eq_getElem_cons hb]
      simp only [List.flatten_append, List.flatten_cons, List.append_assoc]
    rw [this, List.drop_left, List.take_left]
  have hcap := h.capacity P[b] (List.getElem_mem hb)
  have hsz : (P.map List.length).getD b 0 = P[b].length := by
    rw [List.getD_eq_getElem?_getD, List.getElem?_map, List.getElem?_eq_getElem hb]; rfl
  unfold filePull
  rw [h.sizes]
  dsimp only
  rw [hc, List.length_map, if_neg (by omega), if_neg (by omega), Int.toNat_natCast, hsz, hd, if_neg (by omega), if_neg (by omega),
    h.decode b hb]
  refine congrArg Except.ok (Prod.ext rfl ?_)
  dsimp only
  have e := take_flatten P hb
  have e1 : s.filePos + (P[b].length : Int) = ((c.fposFirst + (P.take (b + 1)).flatten.length : Nat) : Int) := by
    rw [hpos, hf, e]; omega
  have e2 : s.fposNext + (P[b].length : Int) = ((c.fposFirst + (P.take (b + 1)).flatten.length : Nat) : Int) := by
    rw [hf, e]; omega
  rw [e1, e2]
  rfl

theorem rebufLoop_ok {c : RCfg V α γ} {F : List α} {P : List (List Byte)} (h : Carries c F P) (want : Nat) :
    ∀ (s : RSt V α) (b : Nat), At c F P s (min (b * c.fpp) F.length) b → s.filePos = s.fposNext →
      min (b * c.fpp) F.length + want ≤ F.length →
      ∃ s' b' left, rebufLoop c want s = .ok ((F.drop (min (b * c.fpp) F.length)).take want, left, s')
        ∧ At c F P s' (min (b * c.fpp) F.length + want) b' ∧ s'.filePos = s'.fposNext ∧ Same s s' := by
  induction want using Nat.strongRecOn with
  | _ want ih =>
  intro s b hat hpos hav
  rw [rebufLoop]
  by_cases hw : want = 0
  · subst hw
    exact ⟨s, b, 0, by simp; rfl, hat, hpos, Same.refl s⟩
  · have hfp := c.fpp_pos
    have hlt : b * c.fpp < F.length := by omega
    have hmin : min (b * c.fpp) F.length = b * c.fpp := by omega
    have hbN : b ≤ F.length / c.fpp := (Nat.le_div_iff_mul_le hfp).2 (by omega)
    have hb : b < P.length := by have := h.count; omega
    have heof : s.eof = false := by rw [hat.eof]; simp; omega
    have hheld : s.held = [] := by
      rw [hat.held, hmin, List.drop_eq_nil_of_le]; rw [List.length_take]; omega
    rw [hmin] at hat hav ⊢
    have e1 := filePull_ok h hpos hat.fpos hat.cur hb
    generalize hz : ((c.fposFirst + (P.take (b + 1)).flatten.length : Nat) : Int) = z at e1
    generalize hs1 : ({ s with filePos := z, fposNext := z, cur := ((b + 1 : Nat) : Int) } : RSt V α) = s1 at e1
    have q1 : s1.filePos = s1.fposNext := by rw [← hs1]
    have q2 : s1.fposNext = ((c.fposFirst + (P.take (b + 1)).flatten.length : Nat) : Int) := by rw [← hs1, hz]
    have q3 : s1.cur = ((b + 1 : Nat) : Int) := by rw [← hs1]
    have q4 : s1.held = [] := by rw [← hs1]; exact hheld
    have q5 : s1.eof = false := by rw [← hs1]; exact heof
    have q7 : Same s s1 := by rw [← hs1]; exact ⟨rfl, rfl, rfl, rfl, rfl, rfl⟩
    clear hs1
    have hsm : (b + 1) * c.fpp = b * c.fpp + c.fpp := Nat.succ_mul ..
    have hlen : ((F.drop (b * c.fpp)).take c.fpp).length = min c.fpp (F.length - b * c.fpp) := by
      simp only [List.length_take, List.length_drop]
    simp only [hw, dite_false, heof, Bool.false_eq_true, if_false, e1, bind, Except.bind, hlen]
    rw [if_neg (by omega)]
    by_cases hfull : min c.fpp (F.length - b * c.fpp) = c.fpp
    · rw [if_pos hfull]
      have hb1 : b + 1 < P.length := by
        have : b + 1 ≤ F.length / c.fpp := (Nat.le_div_iff_mul_le hfp).2 (by omega)
        have := h.count
        omega
      by_cases hl : want < c.fpp
      · rw [if_pos hl]
        refine ⟨{ s1 with held := ((F.drop (b * c.fpp)).take c.fpp).drop want }, b + 1, (want : Int) - c.fpp, ?_, ?_, q1, ?_⟩
        · show Except.ok _ = Except.ok _
          rw [List.take_take, Nat.min_eq_left (by omega)]
        · refine ⟨q2, q3, by omega, ?_, by omega, by rw [q5]; simp; omega⟩
          show ((F.drop (b * c.fpp)).take c.fpp).drop want = _
          rw [List.take_drop, List.drop_drop, hsm]
        · exact ⟨q7.v, q7.dirty, q7.ignore, q7.totalv, q7.nextv, q7.happy⟩
      · rw [if_neg hl]
        have hmin1 : min ((b + 1) * c.fpp) F.length = b * c.fpp + c.fpp := by omega
        have hat1 : At c F P s1 (min ((b + 1) * c.fpp) F.length) (b + 1) := by
          refine ⟨q2, q3, by omega, ?_, by omega, by rw [q5]; simp; omega⟩
          rw [q4, List.drop_eq_nil_of_le]
          rw [List.length_take]; omega
        obtain ⟨s2, b2, left, e2, r1, r2, r3⟩ := ih (want - c.fpp) (by omega) s1 (b + 1) hat1 q1 (by omega)
        rw [hmin1] at e2 r1
        rw [show b * c.fpp + c.fpp + (want - c.fpp) = b * c.fpp + want by omega] at r1
        refine ⟨s2, b2, left, ?_, r1, r2, q7.trans r3⟩
        rw [e2]
        show Except.ok _ = Except.ok _
        refine congrArg Except.ok (Prod.ext ?_ rfl)
        dsimp only
        have hsplit : want = c.fpp + (want - c.fpp) := by omega
        conv => rhs; rw [hsplit, List.take_add, List.drop_drop]
    · rw [if_neg hfull]
      have hbN' : b = F.length / c.fpp := by
        refine Nat.le_antisymm hbN ?_
        have := (Nat.div_lt_iff_lt_mul hfp (x := F.length) (y := b + 1)).2 (by omega)
        omega
      have hlast : b + 1 = P.length := by have := h.count; omega
      have hw2 : ¬ F.length - b * c.fpp < want := by omega
      by_cases hl : want < min c.fpp (F.length - b * c.fpp)
      · rw [if_pos hl]
        refine ⟨{ s1 with eof := true, held := ((F.drop (b * c.fpp)).take c.fpp).drop want }, b + 1, (want : Int) - (min c.fpp (F.length - b * c.fpp) : Nat), ?_, ?_, q1, ?_⟩
        · show Except.ok _ = Except.ok _
          rw [List.take_take, Nat.min_eq_left (by omega)]
        · refine ⟨q2, q3, by omega, ?_, by omega, by simp; omega⟩
          show ((F.drop (b * c.fpp)).take c.fpp).drop want = _
          rw [List.take_drop, List.drop_drop, hsm]
        · exact ⟨q7.v, q7.dirty, q7.ignore, q7.totalv, q7.nextv, q7.happy⟩
      · rw [if_neg hl]
        refine ⟨{ s1 with eof := true }, b + 1, (want : Int) - (min c.fpp (F.length - b * c.fpp) : Nat), ?_, ?_, q1, ⟨q7.v, q7.dirty, q7.ignore, q7.totalv, q7.nextv, q7.happy⟩⟩
        · show Except.ok _ = Except.ok _
          refine congrArg Except.ok (Prod.ext ?_ rfl)
          dsimp only
          rw [List.take_of_length_le (by rw [List.length_drop]; omega), List.take_of_length_le (by rw [List.length_drop]; omega)]
        · refine ⟨q2, q3, by omega, ?_, by omega, by simp; omega⟩
          show s1.held = _
          rw [q4, List.drop_eq_nil_of_le]
          rw [List.length_take]; omega

theorem rebufPull_ok {c : RCfg V α γ} {F : List α} {P : List (List Byte)} (h : Carries c F P) {s : RSt V α} {q b n : Nat}
    (hat : At c F P s q b) (hpos : s.filePos = s.fposNext) (hav : q + n ≤ F.length) :
    ∃ s' b', rebufPull c n s = .ok ((F.drop q).take n, s') ∧ At c F P s' (q + n) b' ∧ s'.filePos = s'.fposNext ∧ Same s s' := by
  have hp := hat.pos
  have hl : s.held.length = min (b * c.fpp) F.length - q := by rw [hat.held, List.length_drop, List.length_take]
  have htake : s.held = (F.drop q).take (min (b * c.fpp) F.length - q) := by
    rw [hat.held, ← List.drop_take]
    by_cases hb : b * c.fpp ≤ F.length
    · rw [Nat.min_eq_left hb]
    · rw [Nat.min_eq_right (by omega), List.take_length, List.take_of_length_le (by omega)]
  unfold rebufPull
  simp only [bind, Except.bind]
  by_cases hn : n < s.held.length
  · rw [if_pos hn]
    refine ⟨{ s with held := s.held.drop n }, b, ?_, ?_, hpos, ⟨rfl, rfl, rfl, rfl, rfl, rfl⟩⟩
    · show Except.ok _ = Except.ok _
      rw [htake, List.take_take, Nat.min_eq_left (by omega)]
    · refine ⟨hat.fpos, hat.cur, hat.le, ?_, by omega, hat.eof⟩
      show List.drop n s.held = _
      rw [hat.held, List.drop_drop]
  · rw [if_neg hn]
    have hat0 : At c F P { s with held := [] } (min (b * c.fpp) F.length) b := by
      refine ⟨hat.fpos, hat.cur, hat.le, ?_, Nat.le_refl _, hat.eof⟩
      rw [List.drop_eq_nil_of_le]
      rw [List.length_take]; omega
    obtain ⟨s1, b1, left, e1, r1, r2, r3⟩ := rebufLoop_ok h (n - s.held.length) { s with held := [] } b hat0 hpos (by omega)
    rw [show min (b * c.fpp) F.length + (n - s.held.length) = q + n by omega] at r1
    refine ⟨s1, b1, ?_, r1, r2, ⟨r3.v, r3.dirty, r3.ignore, r3.totalv, r3.nextv, r3.happy⟩⟩
    rw [e1]
    show Except.ok _ = Except.ok _
    refine congrArg Except.ok (Prod.ext ?_ rfl)
    dsimp only
    rw [List.take_of_length_le (l := s.held) (by omega)]
    have hsplit : n = (min (b * c.fpp) F.length - q) + (n - s.held.length) := by omega
    conv => rhs; rw [hsplit, List.take_add, List.drop_drop, ← htake]
    rw [show q + (min (b * c.fpp) F.length - q) = min (b * c.fpp) F.length by omega]

theorem chainPull_ok {c : RCfg V α γ} {F : List α} {P : List (List Byte)} (h : Carries c F P) {s : RSt V α} {q b n : Nat}
    (hat : At c F P s q b) (hpos : s.filePos = s.fposNext) (hav : q + n ≤ F.length) :
    ∃ s' b', chainPull c n s = .ok (((F.drop q).take n).map (fun a => some (c.conv s.v a)), s')
      ∧ At c F P s' (q + n) b' ∧ s'.filePos = s'.fposNext ∧ Same s s' := by
  obtain ⟨s1, b1, e1, r1, r2, r3⟩ := rebufPull_ok h hat hpos hav
  refine ⟨s1, b1, ?_, r1, r2, r3⟩
  unfold chainPull
  simp only [bind, Except.bind, e1]
  have hlen : (((F.drop q).take n).map (fun a => some (c.conv s1.v a))).length = n := by
    rw [List.length_map, List.length_take, List.length_drop]; omega
  rw [hlen, Nat.sub_self, List.replicate_zero, List.append_nil, r3.v]
  split <;> rfl

theorem readLoop_ok {c : RCfg V α γ} {F : List α} {P : List (List Byte)} (h : Carries c F P) (left : Nat) :
    ∀ (s : RSt V α) (q b : Nat), At c F P s q b → s.filePos = s.fposNext → s.happy = true → q + left ≤ F.length →
      ∃ s' b', readLoop c left s = .ok (((F.drop q).take left).map (fun a => some (c.conv s.v a)), s')
        ∧ At c F P s' (q + left) b' ∧ s'.filePos = s'.fposNext ∧ Same s s' := by
  induction left using Nat.strongRecOn with
  | _ left ih =>
  intro s q b hat hpos hhap hav
  rw [readLoop]
  by_cases hl : left = 0
  · subst hl
    exact ⟨s, b, by simp; rfl, hat, hpos, Same.refl s⟩
  · obtain ⟨s1, b1, e1, r1, r2, r3⟩ := chainPull_ok h (n := min 1024 left) hat hpos (by omega)
    have hlen : ¬ (((F.drop q).take (min 1024 left)).map (fun a => some (c.conv s.v a))).length < min 1024 left := by
      rw [List.length_map, List.length_take, List.length_drop]; omega
    have hh1 : s1.happy = true := by rw [r3.happy, hhap]
    obtain ⟨s2, b2, e2, t1, t2, t3⟩ := ih (left - min 1024 left) (by omega) s1 _ b1 r1 r2 hh1 (by omega)
    rw [show q + min 1024 left + (left - min 1024 left) = q + left by omega] at t1
    refine ⟨s2, b2, ?_, t1, t2, r3.trans t3⟩
    simp only [hl, dite_false, hhap, Bool.true_eq_false, if_false, bind, Except.bind, e1, hlen, hh1, if_true,
      e2, pure, Except.pure]
    congr 2
    have hsplit : left = min 1024 left + (left - min 1024 left) := by omega
    conv => rhs; rw [hsplit, List.take_add]
    rw [List.drop_drop, List.map_append, r3.v]

/-- A set-up state whose next delivered frame (after skipping) is frame `p`. -/
structure Ready (c : RCfg V α γ) (F : List α) (P : List (List Byte)) (s : RSt V α) (p : Nat) : Prop where
  totalv : s.totalv = F.length
  at_ : ∃ q b g, At c F P s q b ∧ s.ignore = (g : Nat) ∧ q + g = p

/-- Abstraction relation. -/
structure Rel (c : RCfg V α γ) (F : List α) (P : List (List Byte)) (s : RSt V α) (cur : Spec.Cursor V) : Prop where
  fmt : s.v = cur.fmt
  le : cur.pos ≤ F.length
  nextv : s.nextv = cur.pos
  ready : s.dirty = false → Ready c F P s cur.pos

theorem flatten_sum (P : List (List Byte)) : P.flatten.length = (P.map List.length).sum := by
  rw [List.length_flatten]

theorem setup_ready {c : RCfg V α γ} {F : List α} {P : List (List Byte)} (h : Carries c F P) (s : RSt V α) (p : Nat)
    (hp : p ≤ F.length) (hn : s.nextv = p) :
    ∃ s', setup c s = .ok s' ∧ Ready c F P s' p ∧ s'.v = s.v ∧ s'.nextv = p ∧ s'.dirty = false := by
  have hf := c.fpp_pos
  obtain ⟨hN, hsm⟩ := h.small
  have hdm := Nat.div_add_mod p c.fpp
  have hml := Nat.mod_lt p hf
  have hpN : p / c.fpp ≤ F.length / c.fpp := Nat.div_le_div_right hp
  have hq0 : 0 ≤ ((p / c.fpp : Nat) : Int) := Int.natCast_nonneg _
  have e0 : wrapU 64 (p : Int) = p := wrapU_id (by omega) (by omega)
  have e1 : wrapS 32 ((p : Int) / (c.fpp : Int)) = ((p / c.fpp : Nat) : Int) := by
    rw [← Int.natCast_ediv]
    exact wrapS_id (by omega) (by omega)
  have e2 : wrapU 64 ((p / c.fpp : Nat) : Int) = ((p / c.fpp : Nat) : Int) := wrapU_id (by omega) (by omega)
  have e3 : ((p / c.fpp : Nat) : Int) * (c.fpp : Int) = ((p / c.fpp * c.fpp : Nat) : Int) := by rw [Int.natCast_mul]
  have e4 : p / c.fpp * c.fpp = c.fpp * (p / c.fpp) := Nat.mul_comm ..
  have e5 : wrapS 64 ((p / c.fpp * c.fpp : Nat) : Int) = ((p / c.fpp * c.fpp : Nat) : Int) := wrapS_id (by omega) (by omega)
  have hb : p / c.fpp < P.length := by have := h.count; omega
  have e6 : (⟨P.map List.length, 0, 0, 0⟩ : PacketTable).startOfPacket (p / c.fpp) = some (P.take (p / c.fpp)).flatten.length := by
    rw [C47_prefix_sums _ _ (by dsimp only; rw [List.length_map]; omega)]
    dsimp only
    rw [← List.map_take, flatten_sum]
  unfold setup
  dsimp only
  rw [h.sizes]
  dsimp only
  rw [hn, e0, e1, e2, e3, e5, Int.toNat_natCast, e6]
  have k2 : p / c.fpp ≤ P.length := by omega
  have k3 : p / c.fpp * c.fpp ≤ min (p / c.fpp * c.fpp) F.length :=
    Nat.le_min.2 ⟨Nat.le_refl _, Nat.le_trans (Nat.div_mul_le_self ..) hp⟩
  have k4 : p / c.fpp * c.fpp + p % c.fpp = p := by omega
  have k5 : (p : Int) - ((p / c.fpp * c.fpp : Nat) : Int) = ((p % c.fpp : Nat) : Int) := by omega
  clear e1 e2 e3 e5 e6
  refine ⟨_, rfl, ⟨h.total, p / c.fpp * c.fpp, p / c.fpp, p % c.fpp, ⟨?_, rfl, k2, ?_, k3, ?_⟩, k5, k4⟩, rfl, rfl, rfl⟩
  · show (c.fposFirst : Int) + ((P.take (p / c.fpp)).flatten.length : Int) = _
    rw [Int.natCast_add]
  · show [] = _
    rw [List.drop_eq_nil_of_le]
    rw [List.length_take]; omega
  · show false = _
    symm; rw [decide_eq_false_iff_not]; omega

theorem ensure_ready {c : RCfg V α γ} {F : List α} {P : List (List Byte)} (h : Carries c F P) {s : RSt V α} {cur : Spec.Cursor V}
    (hr : Rel c F P s cur) : ∃ s', ensure c s = .ok s' ∧ Rel c F P s' cur ∧ s'.dirty = false := by
  unfold ensure
  cases hd : s.dirty with
  | false => exact ⟨s, rfl, hr, hd⟩
  | true =>
    obtain ⟨s', e, a, b, d, f⟩ := setup_ready h s cur.pos hr.le hr.nextv
    exact ⟨s', e, ⟨b.trans hr.fmt, hr.le, d, fun _ => a⟩, f⟩

theorem At.congr {c : RCfg V α γ} {F : List α} {P : List (List Byte)} {s s' : RSt V α} {q b : Nat} (h : At c F P s q b)
    (h1 : s'.fposNext = s.fposNext) (h2 : s'.cur = s.cur) (h3 : s'.held = s.held) (h4 : s'.eof = s.eof) : At c F P s' q b :=
  ⟨h1.trans h.fpos, h2.trans h.cur, h.le, h3.trans h.held, h.pos, h4.trans h.eof⟩

theorem readFrames_ok {c : RCfg V α γ} {F : List α} {P : List (List Byte)} (h : Carries c F P) {s : RSt V α} {cur : Spec.Cursor V}
    (hr : Rel c F P s cur) (n : Int) :
    let fs := (F.drop cur.pos).take n.toNat
    ∃ s', readFrames c n s = .ok (((fs.length : Int), fs.map (fun a => some (c.conv cur.fmt a))), s')
      ∧ Rel c F P s' { cur with pos := cur.pos + fs.length } := by
  intro fs
  obtain ⟨s1, e0, hr1, hd1⟩ := ensure_ready h hr
  unfold readFrames
  simp only [bind, Except.bind, e0]
  obtain ⟨ht, q, b, g, hat, hig, hqg⟩ := hr1.ready hd1
  have hle := hr1.le
  have hfl : fs.length = min n.toNat (F.length - cur.pos) := by
    show (List.take _ (List.drop _ _)).length = _
    rw [List.length_take, List.length_drop]
  have hnum : (if s1.totalv = -1 then n else if n > s1.totalv - s1.nextv then s1.totalv - s1.nextv else n).toNat = fs.length := by
    rw [ht, hr1.nextv, hfl]
    rw [if_neg (by omega)]
    split <;> omega
  have hfs : fs = (F.drop cur.pos).take fs.length := by
    show (F.drop cur.pos).take n.toNat = _
    rw [hfl]
    by_cases hh : n.toNat ≤ F.length - cur.pos
    · rw [Nat.min_eq_left hh]
    · rw [Nat.min_eq_right (by omega), List.take_of_length_le (by rw [List.length_drop]; omega),
        List.take_of_length_le (by rw [List.length_drop]; omega)]
  rw [if_neg (by rw [hat.fpos]; omega), hnum]
  by_cases hg : g = 0
  · subst hg
    have hqp : q = cur.pos := by omega
    subst hqp
    obtain ⟨s2, b2, e2, t1, t2, t3⟩ := readLoop_ok h fs.length { s1 with filePos := s1.fposNext, happy := true } cur.pos b
      (hat.congr rfl rfl rfl rfl) rfl rfl (by omega)
    have esk : skip c { s1 with filePos := s1.fposNext, happy := true } = .ok (false, { s1 with filePos := s1.fposNext, happy := true }) := by
      unfold skip
      rw [if_pos (by exact hig)]
      rfl
    refine ⟨{ s2 with nextv := s2.nextv + fs.length }, ?_, ?_⟩
    · rw [esk]
      simp only [Bool.false_eq_true, if_false, e2]
      rw [← hfs, hr1.fmt, List.length_map]
      rfl
    · refine ⟨t3.v.trans hr1.fmt, by dsimp only; omega, ?_, ?_⟩
      · show s2.nextv + _ = _
        rw [t3.nextv]
        show s1.nextv + _ = _
        rw [hr1.nextv]; simp
      · intro _
        exact ⟨t3.totalv.trans ht, _, b2, 0, t1.congr rfl rfl rfl rfl, t3.ignore.trans hig, rfl⟩
  · obtain ⟨s2, b2, e2, t1, t2, t3⟩ := chainPull_ok h (s := { s1 with filePos := s1.fposNext, happy := true }) (n := g)
      (hat.congr rfl rfl rfl rfl) rfl (by omega)
    rw [hqg] at t1
    obtain ⟨s3, b3, e3, u1, u2, u3⟩ := readLoop_ok h fs.length { s2 with ignore := 0 } cur.pos b2
      (t1.congr rfl rfl rfl rfl) t2 t3.happy (by omega)
    have esk : skip c { s1 with filePos := s1.fposNext, happy := true } = .ok (false, { s2 with ignore := 0 }) := by
      unfold skip
      rw [if_neg (by show ¬ s1.ignore = 0; omega), if_neg (by show ¬ s1.ignore < 0; omega)]
      simp only [bind, Except.bind]
      rw [show s1.ignore.toNat = g by omega, e2]
      have : decide (((List.map (fun a => some (c.conv s1.v a)) ((F.drop q).take g)).length : Int) < s1.ignore) = false := by
        rw [List.length_map, List.length_take, List.length_drop, decide_eq_false_iff_not]; omega
      show Except.ok (_, _) = _
      rw [this]
    refine ⟨{ s3 with nextv := s3.nextv + fs.length }, ?_, ?_⟩
    · rw [esk]
      simp only [Bool.false_eq_true, if_false, e3]
      rw [t3.v, ← hfs, hr1.fmt, List.length_map]
      rfl
    · refine ⟨(u3.v.trans t3.v).trans hr1.fmt, by dsimp only; omega, ?_, ?_⟩
      · show s3.nextv + _ = _
        rw [u3.nextv]
        show s2.nextv + _ = _
        rw [t3.nextv]
        show s1.nextv + _ = _
        rw [hr1.nextv]; simp
      · intro _
        exact ⟨(u3.totalv.trans t3.totalv).trans ht, _, b3, 0, u1.congr rfl rfl rfl rfl, u3.ignore, rfl⟩

theorem step_ok {c : RCfg V α γ} {F : List α} {P : List (List Byte)} (h : Carries c F P) {s : RSt V α} {cur : Spec.Cursor V}
    (hr : Rel c F P s cur) (op : Spec.Call V) (hop : Spec.InRange F.length op) :
    ∃ s', step c s op = .ok (((Spec.answer F c.conv cur op).1, (Spec.answer F c.conv cur op).2.map some), s')
      ∧ Rel c F P s' (Spec.move F cur op) := by
  cases op with
  | read n =>
    obtain ⟨s', e, r⟩ := readFrames_ok h hr n
    refine ⟨s', ?_, r⟩
    simp only [step, e, Spec.answer, List.map_map, List.length_map]
    rfl
  | tell =>
    obtain ⟨s1, e0, hr1, hd1⟩ := ensure_ready h hr
    refine ⟨s1, ?_, hr1⟩
    simp only [step, seekFrame, e0, bind, Except.bind, pure, Except.pure, Spec.answer, hr1.nextv]
    rfl
  | count =>
    obtain ⟨s1, e0, hr1, hd1⟩ := ensure_ready h hr
    refine ⟨s1, ?_, hr1⟩
    simp only [step, e0, bind, Except.bind, pure, Except.pure, Spec.answer, (hr1.ready hd1).totalv]
    rfl
  | setFormat v => exact ⟨{ s with v := v, dirty := true }, rfl, ⟨rfl, hr.le, hr.nextv, by simp⟩⟩
  | seek f =>
    obtain ⟨s1, e0, hr1, hd1⟩ := ensure_ready h hr
    have hin : f ≤ F.length ∨ 0 < F.length := hop
    simp only [step, seekFrame, e0, bind, Except.bind, pure, Except.pure, Spec.answer, Spec.move]
    by_cases hf : f < 0
    · refine ⟨s1, ?_, ?_⟩
      · simp [hf, hr1.nextv]
      · simpa [hf] using hr1
    · by_cases he : f = s1.nextv
      · have hle := hr1.le
        have hnv := hr1.nextv
        have ht : Spec.target F.length f = f := by unfold Spec.target; rw [if_neg]; omega
        refine ⟨s1, ?_, ?_⟩
        · rw [if_neg hf, if_neg hf, if_pos he, ht, he]
          rfl
        · have e1 : f.toNat = cur.pos := by rw [hr1.nextv] at he; omega
          simp only [hf, if_false, ht, e1]
          exact hr1
      · have ht : (if s1.totalv ≠ -1 ∧ f > s1.totalv then s1.totalv - 1 else f) = Spec.target F.length f := by
          rw [(hr1.ready hd1).totalv]
          unfold Spec.target
          split <;> split <;> omega
        have hb : 0 ≤ Spec.target F.length f ∧ Spec.target F.length f ≤ F.length := by
          unfold Spec.target; split <;> omega
        obtain ⟨s2, e2, a, b, d, e⟩ := setup_ready h { s1 with nextv := Spec.target F.length f }
          (Spec.target F.length f).toNat (by omega) (by simp; omega)
        refine ⟨s2, ?_, ?_⟩
        · rw [if_neg hf, if_neg he, if_neg hf, ht, e2]
          show Except.ok _ = _
          dsimp only
          rw [d, List.map_nil, Int.toNat_of_nonneg hb.1]
        · simp only [hf, if_false]
          exact ⟨b.trans hr1.fmt, by dsimp only; omega, d, fun _ => a⟩

theorem run_ok {c : RCfg V α γ} {F : List α} {P : List (List Byte)} (h : Carries c F P) (ops : List (Spec.Call V)) :
    ∀ (s : RSt V α) (cur : Spec.Cursor V), Rel c F P s cur → (∀ op ∈ ops, Spec.InRange F.length op) →
      run c s ops = .ok ((Spec.answers F c.conv cur ops).map (fun a => (a.1, a.2.map some))) := by
  induction ops with
  | nil => intro s cur hr _; rfl
  | cons op ops ih =>
    intro s cur hr hops
    obtain ⟨s1, e1, r1⟩ := step_ok h hr op (hops op (by simp))
    have e2 := ih s1 _ r1 (fun o ho => hops o (by simp [ho]))
    simp only [run, bind, Except.bind, e1, e2, pure, Except.pure]
    simp [Spec.answers]

theorem init_rel {c : RCfg V α γ} {F : List α} {P : List (List Byte)} (v : V) : Rel c F P (init c v) ⟨0, v⟩ :=
  ⟨rfl, Nat.zero_le _, rfl, by simp [init]⟩

end AF.Packets
