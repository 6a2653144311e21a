import Verif.Proof.FLAC
import Verif.Proof.ALAC.Predictor
/-! Writing a FLAC track hands libFLAC exactly the frames written. -/
namespace AF.FLAC
open AF AF.Spec AF.Spec.FLAC

variable {V γ : Type}

theorem wrapS24 (u : Int) (h0 : 0 ≤ u) (h1 : u < 2 ^ 24) : sar (wrapS 32 (u * 256)) 8 = wrapS 24 u := by
  unfold sar wrapS Int.bmod
  simp only [show ((2 ^ 32 : Nat) : Int) = 4294967296 from rfl, show ((2 ^ 24 : Nat) : Int) = 16777216 from rfl,
    show ((2 ^ 8 : Nat) : Int) = 256 from rfl] at *
  have h1' : u < 16777216 := h1
  have e1 : u * 256 % 4294967296 = u * 256 := Int.emod_eq_of_lt (by omega) (by omega)
  have e2 : u % 16777216 = u := Int.emod_eq_of_lt h0 (by omega)
  rw [e1, e2]
  split <;> split <;> omega

theorem three {bs : List Byte} (h : bs.length = 3) : ∃ a b c, bs = [a, b, c] := by
  match bs, h with
  | [a, b, c], _ => exact ⟨a, b, c, rfl⟩

theorem sampleIn_eq (h : Endian) {width : Nat} (hw : width = 16 ∨ width = 24) (bs : List Byte) (hl : width / 8 ≤ bs.length) :
    sampleIn h width bs = wrapS (8 * (width / 8)) (uintOf h (bs.take (width / 8))) := by
  rcases hw with rfl | rfl
  · rfl
  · show sampleIn h 24 bs = wrapS 24 (uintOf h (bs.take 3))
    have hl3 : (bs.take 3).length = 3 := by
      have : 3 ≤ bs.length := hl
      rw [List.length_take]; omega
    have bnd := uintOf_bounds h (bs.take 3)
    rw [hl3] at bnd
    rw [← wrapS24 _ bnd.1 (by have := bnd.2; omega)]
    obtain ⟨a, b, c, e⟩ := three hl3
    have e0 : bs[0]? = some a := by
      have := List.getElem?_take_of_lt (l := bs) (show 0 < 3 by omega); rw [← this, e]; rfl
    have e1 : bs[1]? = some b := by
      have := List.getElem?_take_of_lt (l := bs) (show 1 < 3 by omega); rw [← this, e]; rfl
    have e2 : bs[2]? = some c := by
      have := List.getElem?_take_of_lt (l := bs) (show 2 < 3 by omega); rw [← this, e]; rfl
    unfold sampleIn
    rw [if_neg (by omega), e]
    simp only [e0, e1, e2, Option.getD_some]
    congr 2
    cases h
    all_goals
      simp [uintOf, ofLE]
      try omega

theorem frameIn_eq (h : Endian) {width : Nat} (hw : width = 16 ∨ width = 24) : ∀ (ch : Nat) (bs : List Byte),
    bs.length = ch * (width / 8) →
    frameBytes h width (frameIn h width ch bs) = bs ∧ (frameIn h width ch bs).length = ch ∧
      ∀ x ∈ frameIn h width ch bs, SampleRange (width / 8) false x := by
  have hB : 0 < width / 8 := by rcases hw with rfl | rfl <;> decide
  intro ch
  induction ch with
  | zero => intro bs hl; simp at hl; subst hl; simp [frameIn, frameBytes, packedBytes]
  | succ ch ih =>
    intro bs hl
    rw [Nat.succ_mul] at hl
    obtain ⟨i1, i2, i3⟩ := ih (bs.drop (width / 8)) (by rw [List.length_drop]; omega)
    have e : frameIn h width (ch + 1) bs = sampleIn h width bs :: frameIn h width ch (bs.drop (width / 8)) := by
      unfold frameIn
      have ef : ((fun ch => sampleIn h width (bs.drop (ch * (width / 8)))) ∘ Nat.succ) =
          fun ch => sampleIn h width ((bs.drop (width / 8)).drop (ch * (width / 8))) := by
        funext i
        simp only [Function.comp, List.drop_drop, Nat.succ_mul]
        rw [Nat.add_comm]
      rw [List.range_succ_eq_map, List.map_cons, List.map_map, ef, Nat.zero_mul, List.drop_zero]
    have es := sampleIn_eq h hw bs (by omega)
    have hlt : (bs.take (width / 8)).length = width / 8 := by rw [List.length_take]; omega
    refine ⟨?_, ?_, ?_⟩
    · rw [e]
      unfold frameBytes packedBytes at i1 ⊢
      rw [List.flatMap_cons, i1, es, Convert.toBytes_wrapS]
      have := toBytes_uintOf h (bs.take (width / 8))
      rw [hlt] at this
      rw [this, List.take_append_drop]
    · rw [e]; simp [i2]
    · rw [e]
      intro x hx
      rcases List.mem_cons.mp hx with rfl | hx
      · rw [es]
        have r := ALAC.wrapS_range (n := 8 * (width / 8)) (by omega) (uintOf h (bs.take (width / 8)))
        rw [Int.natCast_pow] at r
        exact r
      · exact i3 x hx

/-! ## The calls -/

variable {c : WCfg V γ}

/-- Frames as libFLAC gets them. -/
abbrev inFrames (c : WCfg V γ) (fs : List (List Byte)) : List (List Int) := fs.map (frameIn c.host c.width c.channels)

theorem push_ok (ha : c.accepted = true) (ht : ∀ i, c.takes i = true) (fs : List (List Byte)) (s : WSt V)
    (hf : s.failed = false) (hs : s.finished = false) :
    ∃ s', push c fs s = .ok s' ∧ s'.v = s.v ∧ s'.dirty = s.dirty ∧ s'.sent = s.sent ++ inFrames c fs ∧ s'.failed = false ∧
      s'.finished = false ∧ s'.nextf = s.nextf + fs.length ∧ s'.totalf = s'.nextf ∧ s'.nextv = s.nextv ∧ s'.totalv = s.totalv := by
  unfold push
  simp only [ha, hs, hf, ht, Bool.not_true, Bool.not_false, Bool.and_self, Bool.false_eq_true, if_false, if_true, bind, Except.bind,
    pure, Except.pure]
  exact ⟨_, rfl, rfl, rfl, rfl, rfl, rfl, rfl, rfl, rfl, rfl⟩

theorem writeLoop_ok (ha : c.accepted = true) (ht : ∀ i, c.takes i = true) : ∀ (n : Nat) (xs : List γ) (s : WSt V), xs.length ≤ n →
    s.failed = false → (xs ≠ [] → s.finished = false) → s.totalf = s.nextf →
    ∃ s', writeLoop c xs s = .ok s' ∧ s'.v = s.v ∧ s'.dirty = s.dirty ∧ s'.sent = s.sent ++ inFrames c (xs.map (c.conv s.v)) ∧
      s'.failed = false ∧ s'.finished = s.finished ∧ s'.nextf = s.nextf + xs.length ∧ s'.totalf = s'.nextf ∧
      s'.nextv = s.nextv ∧ s'.totalv = s.totalv := by
  intro n
  induction n with
  | zero =>
    intro xs s hn hf hs hx
    have : xs = [] := List.length_eq_zero_iff.mp (by omega)
    subst this
    rw [writeLoop]
    exact ⟨s, rfl, rfl, rfl, by simp, hf, rfl, by simp, hx, rfl, rfl⟩
  | succ n ih =>
    intro xs s hn hf hs hx
    rw [writeLoop]
    by_cases h0 : xs.length = 0
    · have : xs = [] := List.length_eq_zero_iff.mp h0
      subst this
      exact ⟨s, rfl, rfl, rfl, by simp, hf, rfl, by simp, hx, rfl, rfl⟩
    · rw [dif_neg h0]
      have hfin := hs (by intro x; rw [x] at h0; exact h0 rfl)
      obtain ⟨s1, e1, a1, a2, a3, a4, a5, a6, a7, a8, a9⟩ := push_ok ha ht ((xs.take 1024).map (c.conv s.v)) s hf hfin
      obtain ⟨s2, e2, b1, b2, b3, b4, b5, b6, b7, b8, b9⟩ := ih (xs.drop 1024) s1 (by rw [List.length_drop]; omega) a4 (fun _ => a5) a7
      refine ⟨s2, ?_, b1.trans a1, b2.trans a2, ?_, b4, by rw [b5, a5, hfin], ?_, b7, b8.trans a8, b9.trans a9⟩
      · simp only [e1, bind, Except.bind]; exact e2
      · rw [b3, a3, a1, List.append_assoc, ← List.map_append, ← List.map_append, List.take_append_drop]
      · rw [b6, a6, List.length_map, List.length_take, List.length_drop]; omega

theorem wrun_ok (ha : c.accepted = true) (ht : ∀ i, c.takes i = true) : ∀ (ops : List (Writing.Op V γ)) (s : WSt V),
    s.failed = false → NoWriteAfterSync s.finished ops → s.totalf = s.nextf →
    ∃ s', wrun c s ops = .ok (ops.map resultOf, s') ∧ s'.failed = false ∧
      s'.sent = s.sent ++ inFrames c (Writing.handed c.conv s.v ops) ∧ s'.totalf = s'.nextf ∧
      s'.nextf = s.nextf + (Writing.handed c.conv s.v ops).length := by
  intro ops
  induction ops with
  | nil => intro s hf _ hx; exact ⟨s, rfl, hf, by simp [Writing.handed], hx, by simp [Writing.handed]⟩
  | cons op ops ih =>
    intro s hf hq hx
    unfold wrun
    cases op with
    | write xs =>
      obtain ⟨s1, e1, b1, b2, b3, b4, b5, b6, b7, b8, b9⟩ := writeLoop_ok ha ht xs.length xs (if s.dirty then wsetup s else s)
        (Nat.le_refl _) (by split <;> exact hf) (by
          intro hne
          have hfin : s.finished = false := by
            cases hs : s.finished with
            | false => rfl
            | true => exact absurd (hq.1 hs) hne
          split <;> exact hfin) (by split <;> exact hx)
      have ev : (if s.dirty then wsetup s else s).v = s.v := by split <;> rfl
      have es : (if s.dirty then wsetup s else s).sent = s.sent := by split <;> rfl
      have ef : (if s.dirty then wsetup s else s).finished = s.finished := by split <;> rfl
      have en : (if s.dirty then wsetup s else s).nextf = s.nextf := by split <;> rfl
      rw [ev] at b1 b3
      rw [es] at b3
      rw [ef] at b5
      rw [en] at b6
      obtain ⟨s2, e2, c1, c2, c3, c4⟩ := ih { s1 with nextv := s1.nextv + xs.length, totalv := s1.totalv + xs.length } b4
        (by rw [show _ = s1.finished from rfl, b5]; exact hq.2) b7
      refine ⟨s2, ?_, c1, ?_, c3, ?_⟩
      · simp only [wstep, writeFrames, e1, bind, Except.bind, pure, Except.pure, e2]
        rfl
      · rw [c2]
        simp only [b1, b3, Writing.handed, List.append_assoc, List.map_append]
      · rw [c4]
        simp only [b1, b6, Writing.handed, List.length_append, List.length_map]; omega
    | sync =>
      have ev : (syncFile s).v = s.v := by unfold syncFile; simp only; split <;> rfl
      have es : (syncFile s).sent = s.sent := by unfold syncFile; simp only; split <;> rfl
      have en : (syncFile s).nextf = s.nextf := by unfold syncFile; simp only; split <;> rfl
      obtain ⟨s2, e2, c1, c2, c3, c4⟩ := ih (syncFile s) (by unfold syncFile; simp only; split <;> exact hf) hq
        (by unfold syncFile; simp only; split <;> exact hx)
      rw [ev, es] at c2
      rw [ev, en] at c4
      refine ⟨s2, ?_, c1, c2, c3, c4⟩
      simp only [wstep, bind, Except.bind, pure, Except.pure, e2]
      rfl
    | setFormat v =>
      obtain ⟨s2, e2, c1, c2, c3, c4⟩ := ih { s with v := v, dirty := true } hf hq hx
      refine ⟨s2, ?_, c1, c2, c3, c4⟩
      simp only [wstep, bind, Except.bind, pure, Except.pure, e2]
      rfl

theorem syncFile_fields (s : WSt V) : (syncFile s).sent = s.sent ∧ (syncFile s).failed = s.failed ∧ (syncFile s).totalf = s.totalf := by
  unfold syncFile
  simp only
  split <;> exact ⟨rfl, rfl, rfl⟩

theorem session_ok (ha : c.accepted = true) (ht : ∀ i, c.takes i = true) (v : V) (ops : List (Writing.Op V γ))
    (hq : NoWriteAfterSync false ops) :
    session c v ops = .ok ⟨inFrames c (Writing.handed c.conv v ops), false, (Writing.handed c.conv v ops).length, ops.map resultOf⟩ := by
  obtain ⟨s, e, h1, h2, h3, h4⟩ := wrun_ok ha ht ops (winit v) rfl hq rfl
  unfold session
  simp only [e, bind, Except.bind, pure, Except.pure]
  obtain ⟨f1, f2, f3⟩ := syncFile_fields s
  rw [f1, f2, f3, h1, h2, h3, h4]
  simp [winit]

end AF.FLAC
