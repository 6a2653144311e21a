import Verif.Props.RateWrite
/-!
# C85: the rate set between writes
-/
namespace AF.Writing.Rate
open AF.Convert (Dbl roundDouble)
variable {V α γ ε : Type} {rnd : Rat → Dbl}

/-- The session without counting and rates: where a rate is set, the format is set to what it is. -/
def plainCalls : V → List (OpR V γ) → List (Writing.Op V γ)
  | _, [] => []
  | v, .op .count :: l => plainCalls v l
  | _, .op (.call (.setFormat w)) :: l => .setFormat w :: plainCalls w l
  | v, .op (.call (.write xs)) :: l => .write xs :: plainCalls v l
  | v, .op (.call .sync) :: l => .sync :: plainCalls v l
  | v, .setRate r :: l => if Dbl.lt r (.fin 0) then plainCalls v l else .setFormat v :: plainCalls v l

/-! ## The caller's format is changed by setting it only -/

theorem filePush_keeps {c : Cfg V α γ ε} {buf : List α} {n : Nat} {s s' : St V α ε} (h : filePush c buf n s = .ok s') : s'.v = s.v := by
  unfold filePush at h
  cases hk : c.kind <;> simp only [hk, bind, Except.bind, pure, Except.pure] at h <;> split at h <;> cases h <;> rfl

theorem pushLoop_keeps {c : Cfg V α γ ε} (n : Nat) : ∀ (held fs : List α) (s : St V α ε) {r : List α × List α × St V α ε}, fs.length = n →
    pushLoop c held fs s = .ok r → r.2.2.v = s.v := by
  induction n using Nat.strongRecOn with
  | _ n ih =>
    intro held fs s r hn h
    unfold pushLoop at h
    split at h
    · simp only [bind, Except.bind] at h
      split at h
      · cases h
      · rename_i t ht
        have := ih _ (by have := c.fpp_pos; simp; omega) [] (fs.drop (c.fpp - held.length)) t rfl h
        rw [this]
        have h2 := filePush_keeps ht
        exact h2
    · cases h; rfl

theorem chainPush_keeps {c : Cfg V α γ ε} {xs : List γ} {s s' : St V α ε} (h : chainPush c xs s = .ok s') : s'.v = s.v := by
  unfold chainPush at h
  cases hk : c.kind with
  | block =>
    simp only [hk] at h
    unfold rebufPush at h
    simp only [bind, Except.bind, pure, Except.pure] at h
    split at h
    · cases h
    · split at h
      · cases h
      · rename_i r hr
        have := pushLoop_keeps _ _ _ _ rfl hr
        split at h
        · cases h
        · cases h; exact this
  | pcm => simp only [hk] at h; exact filePush_keeps h
  | g711 => simp only [hk] at h; exact filePush_keeps h

theorem writeLoop_keeps {c : Cfg V α γ ε} (n : Nat) : ∀ (xs : List γ) (s : St V α ε) {s' : St V α ε}, xs.length = n →
    writeLoop c xs s = .ok s' → s'.v = s.v := by
  induction n using Nat.strongRecOn with
  | _ n ih =>
    intro xs s s' hn h
    unfold writeLoop at h
    split at h
    · cases h; rfl
    · simp only [bind, Except.bind] at h
      split at h
      · cases h
      · rename_i t ht
        rw [ih (xs.drop 1024).length (by simp; omega) _ t rfl h]
        exact chainPush_keeps ht

theorem setup_keeps (c : Cfg V α γ ε) (s : St V α ε) : (wens c s).v = s.v := by
  unfold wens
  split <;> rfl

theorem writeFrames_keeps {c : Cfg V α γ ε} {xs : List γ} {s : St V α ε} {r : Int × St V α ε} (h : writeFrames c xs s = .ok r) : r.2.v = s.v := by
  rw [writeFrames_wens, writeFrames_clean c xs (wens_clean c s)] at h
  rw [← setup_keeps c s]
  split at h
  · cases h; rfl
  · split at h
    · rename_i t ht
      have h2 := writeLoop_keeps _ _ _ rfl ht
      cases h
      exact h2
    · cases h

theorem syncFile_keeps {c : Cfg V α γ ε} {s s' : St V α ε} (h : syncFile c s = .ok s') : s'.v = s.v := by
  rw [syncFile_wens] at h
  rw [← setup_keeps c s]
  generalize hw : wens c s = w at h ⊢
  have hd : w.dirty = false := by rw [← hw]; exact wens_clean c s
  unfold syncFile at h
  simp only [hd, Bool.false_eq_true, if_false, bind, Except.bind, pure, Except.pure] at h
  split at h
  · cases h
  · rename_i t ht
    cases h
    show t.v = w.v
    unfold syncModules at ht
    cases hk : c.kind with
    | block =>
      simp only [hk, bind, Except.bind, pure, Except.pure] at ht
      split at ht
      · cases ht
      · rename_i u hu
        split at hu
        · cases hu
        · split at hu
          · cases hu
          · rename_i y hy
            have := filePush_keeps hy
            cases hu
            split at ht
            · cases ht
            · cases ht; exact this
    | pcm =>
      simp only [hk, bind, Except.bind, pure, Except.pure] at ht
      split at ht
      · cases ht
      · cases ht; rfl
    | g711 =>
      simp only [hk, bind, Except.bind, pure, Except.pure] at ht
      split at ht
      · cases ht
      · cases ht; rfl

/-! ## Setting the rate -/

theorem alike_rate {c : Cfg V α γ ε} {s t : St V α ε} (h : Alike c s t) : Alike c { s with dirty := true } { t with v := t.v, dirty := true } := by
  obtain ⟨a, b, e⟩ := h
  refine ⟨s.nextv, s.nextv, ?_⟩
  have k : ∀ u : St V α ε, wens c { u with dirty := true } = mark u.nextv u.nextv { wens c u with dirty := false, outBuf := c.junk } := by
    intro u
    unfold wens
    cases u.dirty <;> rfl
  rw [k s, show ({ t with v := t.v, dirty := true } : St V α ε) = { t with dirty := true } from rfl, k t, e]
  rfl

/-- One call that is not of the rate. -/
theorem step_alike {c : Cfg V α γ ε} {rf rv : Dbl} {o : Op V γ} {s t : St V α ε} {r : Int} {s1 : St V α ε} (h : Alike c s t)
    (hs : step rnd c rf rv s o = .ok (r, s1)) : ∃ t1, Writing.run c t (calls [o]) = .ok t1 ∧ Alike c s1 t1 := by
  apply run_alike (rnd := rnd) (rf := rf) (rv := rv) [o] s t [r] s1 h
  unfold run
  simp only [bind, Except.bind, pure, Except.pure, hs]
  rfl

theorem runR_alike {c : Cfg V α γ ε} {rf : Dbl} (ops : List (OpR V γ)) : ∀ (rv : Dbl) (s t : St V α ε) (rs : List Int) (rv' : Dbl) (s' : St V α ε),
    Alike c s t → runR rnd c rf rv s ops = .ok (rs, rv', s') →
    ∃ t', Writing.run c t (plainCalls t.v ops) = .ok t' ∧ Alike c s' t' := by
  induction ops with
  | nil =>
    intro rv s t rs rv' s' h hr
    unfold runR at hr
    cases hr
    exact ⟨t, rfl, h⟩
  | cons op ops ih =>
    intro rv s t rs rv' s' h hr
    cases op with
    | setRate r =>
      unfold runR at hr
      unfold plainCalls
      by_cases hl : Dbl.lt r (.fin 0) = true
      · rw [if_pos hl] at hr ⊢
        simp only [bind, Except.bind, pure, Except.pure] at hr
        split at hr
        · cases hr
        · rename_i y hy
          cases hr
          exact ih rv s t y.1 y.2.1 y.2.2 h hy
      · rw [if_neg hl] at hr ⊢
        simp only [bind, Except.bind, pure, Except.pure] at hr
        split at hr
        · cases hr
        · rename_i y hy
          cases hr
          exact ih r _ { t with v := t.v, dirty := true } y.1 y.2.1 y.2.2 (alike_rate h) hy
    | op o =>
      unfold runR at hr
      simp only [bind, Except.bind, pure, Except.pure] at hr
      split at hr
      · cases hr
      · rename_i x hx
        split at hr
        · cases hr
        · rename_i y hy
          cases hr
          obtain ⟨t1, ht1, ha⟩ := step_alike h hx
          obtain ⟨t2, ht2, hb⟩ := ih rv x.2 t1 y.1 y.2.1 y.2.2 ha hy
          refine ⟨t2, ?_, hb⟩
          cases o with
          | count => cases ht1; exact ht2
          | call o =>
            cases o with
            | setFormat w =>
              cases ht1
              exact ht2
            | write xs =>
              simp only [calls, Writing.run, Writing.step, bind, Except.bind, pure, Except.pure] at ht1
              cases hw : writeFrames c xs t with
              | error e => rw [hw] at ht1; cases ht1
              | ok z =>
                rw [hw] at ht1
                cases ht1
                rw [writeFrames_keeps hw] at ht2
                simp only [plainCalls, Writing.run, Writing.step, bind, Except.bind, pure, Except.pure, hw]
                exact ht2
            | sync =>
              simp only [calls, Writing.run, Writing.step, bind, Except.bind, pure, Except.pure] at ht1
              cases hw : syncFile c t with
              | error e => rw [hw] at ht1; cases ht1
              | ok z =>
                rw [hw] at ht1
                cases ht1
                rw [syncFile_keeps hw] at ht2
                simp only [plainCalls, Writing.run, Writing.step, bind, Except.bind, pure, Except.pure, hw]
                exact ht2

/-- **C85** with `afSetVirtualRate` between the writes: as long as every count stays a number of 64 bits, the file, its header's
numbers included, is that of the session without counting and with the format set to what it is where a rate was set: no rate has an
effect on what is written. -/
theorem C85_file_rates (c : Cfg V α γ ε) (rf : Dbl) (e : ε) (v : V) (ops : List (OpR V γ)) {f : Final}
    (h : sessionR rnd c rf e v ops = .ok f) : Writing.session c e v (plainCalls v ops) = .ok f := by
  unfold sessionR at h
  simp only [bind, Except.bind] at h
  cases hr : runR rnd c rf rf (Writing.init e v) ops with
  | error e => rw [hr] at h; cases h
  | ok x =>
    obtain ⟨rs, rv, s⟩ := x
    rw [hr] at h
    dsimp only at h
    obtain ⟨t, ht, hal⟩ := runR_alike ops _ _ _ rs rv s (alike_mark c _ _ (Writing.init e v)) hr
    cases he : ensure rnd c rf rv s with
    | error e => rw [he] at h; cases h
    | ok s0 =>
      rw [he] at h
      obtain ⟨a, b, e0⟩ := ensure_mark he
      unfold Writing.session
      simp only [bind, Except.bind]
      rw [show (Writing.init e v : St V α ε).v = v from rfl] at ht
      rw [ht]
      unfold close at h ⊢
      simp only [bind, Except.bind, pure, Except.pure] at h ⊢
      rw [(alike_ensure hal e0).1, syncFile_mark c (wens_clean c t), ← syncFile_wens] at h
      cases hy : syncFile c t with
      | error e => rw [hy] at h; cases h
      | ok z =>
        rw [hy] at h
        exact h

/-- **The counts are wrong when the rate changes**: seven frames at 8000 Hz count as eight once the rate is 16000 Hz (they are fourteen frames of
that rate: the position of the caller is taken for one at the new rate), and as none after the rate 0 was set; the file has nine frames
in the end. -/
theorem C85_count_rates_refuted :
    (runR roundDouble pcmDemo (.fin 8000) (.fin 8000) (Writing.init () 0) [.op (.call (.write [1, 2, 3, 4, 5, 6, 7])), .setRate (.fin 16000),
      .op .count, .setRate (.fin (-1)), .setRate (.fin 0), .op .count, .op (.call (.write [8, 9])), .op .count]).map Prod.fst =
        .ok [7, 0, 8, -1, 0, 0, 2, 2] ∧
    sessionR roundDouble pcmDemo (.fin 8000) () 0 [.op (.call (.write [1, 2, 3, 4, 5, 6, 7])), .setRate (.fin 16000),
      .op .count, .setRate (.fin (-1)), .setRate (.fin 0), .op .count, .op (.call (.write [8, 9])), .op .count] =
        .ok ⟨[1, 2, 3, 4, 5, 6, 7, 8, 9], 9, 9⟩ := by
  constructor <;> decide +kernel

end AF.Writing.Rate
