import Verif.Proof.Rate
import Verif.Proof.RoundDouble
import Verif.Spec.RateWrite
import Verif.Props.Writing
/-!
# C85: sample rates in writing
-/
namespace AF.Writing.Rate
open AF.Convert (Dbl truncRat roundDouble)
open AF.Spec (Tallied offered ExactOnDoubles IsDouble)
variable {V α γ ε : Type} {rnd : Rat → Dbl}

/-- What the calls of a program return. -/
def observe (rnd : Rat → Dbl) (c : Cfg V α γ ε) (rf rv : Dbl) (e : ε) (v : V) (ops : List (Op V γ)) : Except Abort (List Int) :=
  (run rnd c rf rv (Writing.init e v) ops).map Prod.fst

/-- Products that are whole numbers below 2^53 are exact. -/
theorem back_exact (hx : ExactOnDoubles rnd) {r : Nat} (hr : 0 < r) {n : Nat} (h : n * r < 2 ^ 53) :
    rnd (n : Rat) = .fin n ∧ Dbl.div rnd (Dbl.mul rnd (rnd (n : Rat)) (.fin r)) (.fin r) = .fin n := by
  have hn : n < 2 ^ 53 := Nat.lt_of_le_of_lt (Nat.le_mul_of_pos_right n hr) h
  have hd : ∀ k : Nat, k < 2 ^ 53 → rnd (k : Rat) = .fin k := fun k hk => by
    have := Dbl.isDouble_int (n := (k : Int)) (by omega)
    exact hx _ this
  have hr0 : (r : Rat) ≠ 0 := by
    intro h0
    have : ((r : Nat) : Rat) = ((0 : Nat) : Rat) := h0
    have := Rat.natCast_inj.1 this
    omega
  refine ⟨hd n hn, ?_⟩
  rw [hd n hn]
  unfold Dbl.mul
  dsimp only
  have e : (n : Rat) * (r : Rat) = ((n * r : Nat) : Rat) := (Rat.natCast_mul n r).symm
  rw [e, hd _ h]
  unfold Dbl.div
  dsimp only
  rw [if_neg hr0, ← e, show (n : Rat) * r / r = n by grind, hd n hn]

theorem setup_whole (hx : ExactOnDoubles rnd) (c : Cfg V α γ ε) {r : Nat} (hr : 0 < r) (s : St V α ε) {n : Nat} (hs : s.nextv = n)
    (h : n * r < 2 ^ 53) : setup rnd c (.fin r) (.fin r) s = .ok (Writing.setup c s) := by
  have hn : n < 2 ^ 53 := Nat.lt_of_le_of_lt (Nat.le_mul_of_pos_right n hr) h
  obtain ⟨a, b⟩ := back_exact hx hr h
  have sc : Dbl.scale rnd (n : Int) (.fin r) (.fin r) = n := by
    unfold Dbl.scale
    rw [show (((n : Nat) : Int) : Rat) = (n : Rat) from rfl, b]
    exact Dbl.llrint_close (q := ((n : Int) : Rat)) (by grind) (by grind) (by omega)
  have ti : Dbl.toInt 64 (.fin (n : Rat)) = some (n : Int) := by
    unfold Dbl.toInt
    have : truncRat (n : Rat) = n := by
      unfold truncRat
      rw [if_neg (by have := Rat.natCast_nonneg (a := n); grind)]
      exact Rat.floor_intCast n
    dsimp only
    rw [this, if_pos (by omega)]
  unfold setup
  rw [hs, sc, show (((n : Nat) : Int) : Rat) = (n : Rat) from rfl, b, ti]
  unfold Writing.setup
  dsimp only
  rw [hs]

/-! ## The counts do not touch anything else -/

/-- The same state with other counts. -/
def mark (a b : Int) (s : St V α ε) : St V α ε := { s with nextv := a, totalv := b }

theorem fwrite_mark (a b : Int) (bs : List Byte) (s : St V α ε) : fwrite bs (mark a b s) = mark a b (fwrite bs s) := rfl

theorem filePush_mark (c : Cfg V α γ ε) (buf : List α) (n : Nat) (a b : Int) (s : St V α ε) :
    filePush c buf n (mark a b s) = (filePush c buf n s).map (mark a b) := by
  unfold filePush
  cases c.kind <;>
  · simp only [bind, Except.bind, pure, Except.pure, fwrite, mark]
    generalize Reading.cAssert c.checks _ = x
    cases x <;> rfl

theorem pushLoop_mark (c : Cfg V α γ ε) (a b : Int) (held fs : List α) (s : St V α ε) :
    pushLoop c held fs (mark a b s) = (pushLoop c held fs s).map fun r => (r.1, r.2.1, mark a b r.2.2) := by
  unfold pushLoop
  split
  · have e : ∀ block, ({ mark a b s with outBuf := block } : St V α ε) = mark a b { s with outBuf := block } := fun _ => rfl
    simp only [bind, Except.bind, e]
    rw [filePush_mark]
    cases filePush c (held ++ fs.take (c.fpp - held.length)) c.fpp { s with outBuf := held ++ fs.take (c.fpp - held.length) } with
    | error e => rfl
    | ok s1 => exact pushLoop_mark c a b [] (fs.drop (c.fpp - held.length)) s1
  · rfl
termination_by fs.length
decreasing_by have := c.fpp_pos; simp; omega

theorem rebufPush_mark (c : Cfg V α γ ε) (fs : List α) (a b : Int) (s : St V α ε) :
    rebufPush c fs (mark a b s) = (rebufPush c fs s).map (mark a b) := by
  unfold rebufPush
  simp only [bind, Except.bind, pure, Except.pure]
  rw [pushLoop_mark, show (mark a b s).held = s.held from rfl]
  generalize Reading.cAssert c.checks (decide (s.held.length < c.fpp)) = x
  cases x with
  | error e => rfl
  | ok u =>
    cases pushLoop c s.held fs s with
    | error e => rfl
    | ok r =>
      dsimp only [Except.map]
      generalize Reading.cAssert c.checks _ = y
      cases y <;> rfl

theorem chainPush_mark (c : Cfg V α γ ε) (xs : List γ) (a b : Int) (s : St V α ε) :
    chainPush c xs (mark a b s) = (chainPush c xs s).map (mark a b) := by
  unfold chainPush
  cases c.kind with
  | block => exact rebufPush_mark c _ a b s
  | pcm => exact filePush_mark c _ _ a b s
  | g711 => exact filePush_mark c _ _ a b s

theorem writeLoop_mark (c : Cfg V α γ ε) (a b : Int) (xs : List γ) (s : St V α ε) :
    writeLoop c xs (mark a b s) = (writeLoop c xs s).map (mark a b) := by
  unfold writeLoop
  split
  · rfl
  · simp only [bind, Except.bind]
    rw [chainPush_mark]
    cases chainPush c (xs.take 1024) s with
    | error e => rfl
    | ok s1 => exact writeLoop_mark c a b (xs.drop 1024) s1
termination_by xs.length
decreasing_by simp; omega

theorem syncModules_mark (c : Cfg V α γ ε) (a b : Int) (s : St V α ε) :
    syncModules c (mark a b s) = (syncModules c s).map (mark a b) := by
  unfold syncModules
  have e : ∀ ob, ({ mark a b s with outBuf := ob } : St V α ε) = mark a b { s with outBuf := ob } := fun _ => rfl
  cases c.kind with
  | block =>
    simp only [bind, Except.bind, pure, Except.pure, e]
    rw [show (mark a b s).held = s.held from rfl, show (mark a b s).outBuf = s.outBuf from rfl]
    generalize Reading.cAssert c.checks (decide (s.held.length < c.fpp)) = x
    cases x with
    | error e => rfl
    | ok u =>
      dsimp only
      rw [filePush_mark]
      cases filePush c (s.held ++ s.outBuf.drop s.held.length) s.held.length { s with outBuf := s.held ++ s.outBuf.drop s.held.length } with
      | error e => rfl
      | ok s1 =>
        dsimp only [Except.map, mark]
        generalize Reading.cAssert c.checks _ = y
        cases y <;> rfl
  | pcm =>
    simp only [bind, Except.bind, pure, Except.pure, mark]
    generalize Reading.cAssert c.checks _ = y
    cases y <;> rfl
  | g711 =>
    simp only [bind, Except.bind, pure, Except.pure, mark]
    generalize Reading.cAssert c.checks _ = y
    cases y <;> rfl

/-- What every call does first, without rates. -/
def wens (c : Cfg V α γ ε) (s : St V α ε) : St V α ε := if s.dirty then Writing.setup c s else s

theorem wens_clean (c : Cfg V α γ ε) (s : St V α ε) : (wens c s).dirty = false := by
  unfold wens
  split
  · rfl
  · simp_all

theorem wens_of_clean {c : Cfg V α γ ε} {s : St V α ε} (h : s.dirty = false) : wens c s = s := by
  unfold wens
  rw [h]
  rfl

theorem writeFrames_wens (c : Cfg V α γ ε) (xs : List γ) (s : St V α ε) : writeFrames c xs s = writeFrames c xs (wens c s) := by
  have := wens_clean c s
  conv => rhs; unfold writeFrames
  rw [this]
  rfl

theorem syncFile_wens (c : Cfg V α γ ε) (s : St V α ε) : syncFile c s = syncFile c (wens c s) := by
  have := wens_clean c s
  conv => rhs; unfold syncFile
  rw [this]
  rfl

theorem writeFrames_clean (c : Cfg V α γ ε) (xs : List γ) {s : St V α ε} (h : s.dirty = false) :
    writeFrames c xs s = (if c.first + s.fposNext < 0 then .ok (-1, s) else
      match writeLoop c xs { s with filePos := s.fposNext } with
      | .ok s' => .ok (xs.length, { s' with nextv := s'.nextv + xs.length, totalv := s'.totalv + xs.length })
      | .error e => .error e) := by
  unfold writeFrames
  simp only [h, Bool.false_eq_true, if_false]
  split
  · rfl
  · simp only [bind, Except.bind, pure, Except.pure]
    generalize writeLoop c xs _ = y
    cases y <;> rfl

/-- Writing to a track with other counts. -/
theorem writeFrames_mark (c : Cfg V α γ ε) (xs : List γ) {s : St V α ε} (h : s.dirty = false) (a b : Int) {r : Int} {s' : St V α ε}
    (hw : writeFrames c xs (mark a b s) = .ok (r, s')) :
    (r = xs.length ∧ s'.nextv = a + r ∧ s'.totalv = b + r ∨ r = -1 ∧ s'.nextv = a ∧ s'.totalv = b) ∧
      ∃ a' b' t, writeFrames c xs s = .ok (r, t) ∧ s' = mark a' b' t := by
  rw [writeFrames_clean c xs (show (mark a b s).dirty = false from h)] at hw
  rw [writeFrames_clean c xs h]
  by_cases hf : c.first + s.fposNext < 0
  · rw [if_pos (show c.first + (mark a b s).fposNext < 0 from hf)] at hw
    rw [if_pos hf]
    injection hw with hw
    injection hw with h1 h2
    subst h1 h2
    exact ⟨Or.inr ⟨rfl, rfl, rfl⟩, a, b, s, rfl, rfl⟩
  · rw [if_neg (show ¬ c.first + (mark a b s).fposNext < 0 from hf),
      show ({ mark a b s with filePos := (mark a b s).fposNext } : St V α ε) = mark a b { s with filePos := s.fposNext } from rfl,
      writeLoop_mark] at hw
    rw [if_neg hf]
    cases hl : writeLoop c xs { s with filePos := s.fposNext } with
    | error e => rw [hl] at hw; cases hw
    | ok t =>
      rw [hl] at hw
      injection hw with hw
      injection hw with h1 h2
      subst h1 h2
      exact ⟨Or.inl ⟨rfl, rfl, rfl⟩, _, _, _, rfl, rfl⟩

/-- Synchronizing a track with other counts. -/
theorem syncFile_mark (c : Cfg V α γ ε) {s : St V α ε} (h : s.dirty = false) (a b : Int) :
    syncFile c (mark a b s) = (syncFile c s).map (mark a b) := by
  unfold syncFile
  simp only [show (mark a b s).dirty = false from h, h, Bool.false_eq_true, if_false, bind, Except.bind, pure, Except.pure]
  rw [syncModules_mark]
  cases syncModules c s <;> rfl

theorem mark_self (s : St V α ε) : mark s.nextv s.totalv s = s := rfl

theorem ensure_whole (hx : ExactOnDoubles rnd) (c : Cfg V α γ ε) {r : Nat} (hr : 0 < r) (s : St V α ε) {n : Nat} (hs : s.nextv = n)
    (h : n * r < 2 ^ 53) : ensure rnd c (.fin r) (.fin r) s = .ok (wens c s) := by
  unfold ensure wens
  split
  · exact setup_whole hx c hr s hs h
  · rfl

/-- **C85.** If the sample rate is a whole number and the frames written, times it, stay below 2^53, then whatever is
written, synchronized and set in between, afGetFrameCount reports the number of frames accepted so far. -/
theorem C85_count (hx : ExactOnDoubles rnd) (c : Cfg V α γ ε) {r : Nat} (hr : 0 < r) (e : ε) (v : V) (ops : List (Op V γ)) {rs : List Int}
    (hb : offered ops * r < 2 ^ 53) (h : observe rnd c (.fin r) (.fin r) e v ops = .ok rs) : Tallied 0 (ops.zip rs) := by
  have key : ∀ (ops : List (Op V γ)) (t : Nat) (s : St V α ε) (rs : List Int) (s' : St V α ε), s.nextv = t → (s.dirty = false → s.totalv = t) →
      (t + offered ops) * r < 2 ^ 53 → run rnd c (.fin r) (.fin r) s ops = .ok (rs, s') → Tallied t (ops.zip rs) := by
    intro ops
    induction ops with
    | nil => intro t s rs s' _ _ _ _; exact trivial
    | cons op ops ih =>
      intro t s rs s' h1 h2 h3 h4
      have hen : ensure rnd c (.fin r) (.fin r) s = .ok (wens c s) :=
        ensure_whole hx c hr s h1 (Nat.lt_of_le_of_lt (Nat.mul_le_mul_right _ (Nat.le_add_right _ _)) h3)
      have hc := wens_clean c s
      have w1 : (wens c s).nextv = t ∧ (wens c s).totalv = t := by
        unfold wens
        cases hd : s.dirty with
        | true => exact ⟨h1, h1⟩
        | false => exact ⟨h1, h2 hd⟩
      unfold run at h4
      simp only [bind, Except.bind, pure, Except.pure] at h4
      cases hs : step rnd c (.fin r) (.fin r) s op with
      | error e => rw [hs] at h4; cases h4
      | ok x =>
        obtain ⟨r1, s1⟩ := x
        rw [hs] at h4
        dsimp only at h4
        cases hrun : run rnd c (.fin r) (.fin r) s1 ops with
        | error e => rw [hrun] at h4; cases h4
        | ok y =>
          obtain ⟨rs1, s2⟩ := y
          rw [hrun] at h4
          injection h4 with h4
          injection h4 with h4 h5
          subst h4
          rw [List.zip_cons_cons]
          unfold step at hs
          cases op with
          | count =>
            simp only [bind, Except.bind, pure, Except.pure, hen] at hs
            injection hs with hs
            injection hs with a b
            subst a b
            exact ⟨w1.2, ih t _ rs1 s2 w1.1 (fun _ => w1.2) h3 hrun⟩
          | call o =>
            cases o with
            | setFormat w =>
              injection hs with hs
              injection hs with a b
              subst b
              exact ih t { s with v := w, dirty := true } rs1 s2 h1 (fun hd => by cases hd) h3 hrun
            | sync =>
              simp only [bind, Except.bind, pure, Except.pure, hen] at hs
              rw [← mark_self (wens c s), syncFile_mark c hc] at hs
              cases hy : syncFile c (wens c s) with
              | error e => rw [hy] at hs; cases hs
              | ok z =>
                rw [hy] at hs
                injection hs with hs
                injection hs with a b
                subst b
                exact ih t (mark (wens c s).nextv (wens c s).totalv z) rs1 s2 w1.1 (fun _ => w1.2) h3 hrun
            | write xs =>
              simp only [bind, Except.bind, hen] at hs
              rw [← mark_self (wens c s)] at hs
              obtain ⟨hres, -⟩ := writeFrames_mark c xs hc _ _ hs
              have hoff : offered (Op.call (.write xs) :: ops) = xs.length + offered ops := rfl
              rw [hoff] at h3
              rcases hres with ⟨a, b, d⟩ | ⟨a, b, d⟩
              · left
                refine ⟨a, ?_⟩
                rw [a, w1.1] at b
                rw [a, w1.2] at d
                rw [a, ← Int.natCast_add]
                refine ih (t + xs.length) s1 rs1 s2 ?_ (fun _ => ?_) ?_ hrun
                · rw [b]; simp
                · rw [d]; simp
                · rw [Nat.add_assoc]; exact h3
              · right
                refine ⟨a, ih t s1 rs1 s2 (b.trans w1.1) (fun _ => d.trans w1.2) (Nat.lt_of_le_of_lt (Nat.mul_le_mul_right _ ?_) h3) hrun⟩
                omega
  unfold observe at h
  cases hrun : run rnd c (.fin r) (.fin r) (Writing.init e v) ops with
  | error e => rw [hrun] at h; cases h
  | ok y =>
    rw [hrun] at h
    injection h with h
    subst h
    exact key ops 0 _ _ y.2 rfl (fun _ => rfl) (by rw [Nat.zero_add]; exact hb) hrun

/-- **C85** for the arithmetic of IEEE binary64 itself. -/
theorem C85_count_ieee (c : Cfg V α γ ε) {r : Nat} (hr : 0 < r) (e : ε) (v : V) (ops : List (Op V γ)) {rs : List Int}
    (hb : offered ops * r < 2 ^ 53) (h : observe roundDouble c (.fin r) (.fin r) e v ops = .ok rs) : Tallied 0 (ops.zip rs) :=
  C85_count AF.Convert.roundDouble_nearest.exact c hr e v ops hb h

/-- A program that counts between its writes, at 44100 Hz, in the arithmetic of doubles. -/
example : observe roundDouble pcmDemo (.fin 44100) (.fin 44100) () 0
    [.call (.write [1, 2, 3]), .count, .call (.setFormat 1), .call (.write [4]), .call .sync, .count] = .ok [3, 3, 0, 1, 0, 4] := by decide +kernel

/-- The rate of the first Macintoshes, 22254.5454… Hz, as a double. -/
def macRate : Rat := 1529320718633891 / 68719476736

/-- **C85 is false for other rates**: seven frames are written, and once the format has been set anew six are reported: the quotient is cut off instead of
rounded. -/
theorem C85_count_refuted :
    observe roundDouble pcmDemo (.fin macRate) (.fin macRate) () 0
      [.call (.write [1, 2, 3, 4, 5, 6, 7]), .count, .call (.setFormat 1), .count] = .ok [7, 7, 0, 6] := by decide +kernel

/-! ## The file does not depend on the rates -/

theorem ensure_mark {c : Cfg V α γ ε} {rf rv : Dbl} {s s1 : St V α ε} (h : ensure rnd c rf rv s = .ok s1) : ∃ a b, s1 = mark a b (wens c s) := by
  unfold ensure setup at h
  unfold wens
  split at h
  · next hd =>
    rw [if_pos hd]
    split at h
    · injection h with h
      exact ⟨_, _, h.symm⟩
    · cases h
  · next hd =>
    rw [if_neg hd]
    injection h with h
    exact ⟨s.nextv, s.totalv, h.symm⟩

/-- The same but for the counts, once set up. -/
def Alike (c : Cfg V α γ ε) (s t : St V α ε) : Prop := ∃ a b, wens c s = mark a b (wens c t)

theorem alike_mark (c : Cfg V α γ ε) (a b : Int) (t : St V α ε) : Alike c (mark a b t) t := by
  unfold Alike wens
  rw [show (mark a b t).dirty = t.dirty from rfl]
  cases t.dirty with
  | true => exact ⟨a, a, rfl⟩
  | false => exact ⟨a, b, rfl⟩

theorem alike_ensure {c : Cfg V α γ ε} {s t s1 : St V α ε} (h : Alike c s t) {a b : Int} (h1 : s1 = mark a b (wens c s)) :
    s1 = mark a b (wens c t) ∧ Alike c s1 t := by
  obtain ⟨x, y, e⟩ := h
  have e1 : s1 = mark a b (wens c t) := by rw [h1, e]; rfl
  refine ⟨e1, ?_⟩
  have hd : s1.dirty = false := by rw [e1]; exact wens_clean c t
  exact ⟨a, b, by rw [wens_of_clean hd, e1]⟩

theorem alike_format {c : Cfg V α γ ε} {s t : St V α ε} (h : Alike c s t) (v : V) :
    Alike c { s with v := v, dirty := true } { t with v := v, dirty := true } := by
  obtain ⟨a, b, e⟩ := h
  refine ⟨s.nextv, s.nextv, ?_⟩
  have k : ∀ u : St V α ε, wens c { u with v := v, dirty := true } = mark u.nextv u.nextv { wens c u with v := v, dirty := false, outBuf := c.junk } := by
    intro u
    unfold wens
    cases u.dirty <;> rfl
  rw [k s, k t, e]
  rfl

/-- The calls that do not count. -/
def calls : List (Op V γ) → List (Writing.Op V γ)
  | [] => []
  | .call o :: l => o :: calls l
  | .count :: l => calls l

/-- The file after the calls and afCloseFile (openclose.cpp:445-462), the rates considered. -/
def session (rnd : Rat → Dbl) (c : Cfg V α γ ε) (rf rv : Dbl) (e : ε) (v : V) (ops : List (Op V γ)) : Except Abort Final := do
  let (_, s) ← run rnd c rf rv (Writing.init e v) ops
  let s ← ensure rnd c rf rv s
  close c s

theorem run_alike {c : Cfg V α γ ε} {rf rv : Dbl} (ops : List (Op V γ)) : ∀ (s t : St V α ε) (rs : List Int) (s' : St V α ε), Alike c s t →
    run rnd c rf rv s ops = .ok (rs, s') → ∃ t', Writing.run c t (calls ops) = .ok t' ∧ Alike c s' t' := by
  induction ops with
  | nil =>
    intro s t rs s' h hr
    injection hr with hr
    injection hr with _ hr
    subst hr
    exact ⟨t, rfl, h⟩
  | cons op ops ih =>
    intro s t rs s' h hr
    unfold run at hr
    simp only [bind, Except.bind, pure, Except.pure] at hr
    cases hs : step rnd c rf rv s op with
    | error e => rw [hs] at hr; cases hr
    | ok x =>
      obtain ⟨r1, s1⟩ := x
      rw [hs] at hr
      dsimp only at hr
      cases hrun : run rnd c rf rv s1 ops with
      | error e => rw [hrun] at hr; cases hr
      | ok y =>
        obtain ⟨rs1, s2⟩ := y
        rw [hrun] at hr
        injection hr with hr
        injection hr with _ hr
        dsimp only at hr
        subst hr
        unfold step at hs
        cases op with
        | count =>
          simp only [bind, Except.bind, pure, Except.pure] at hs
          cases he : ensure rnd c rf rv s with
          | error e => rw [he] at hs; cases hs
          | ok s0 =>
            rw [he] at hs
            injection hs with hs
            injection hs with _ hs
            subst hs
            obtain ⟨a, b, e0⟩ := ensure_mark he
            exact ih s0 t rs1 s2 (alike_ensure h e0).2 hrun
        | call o =>
          show ∃ t', (Writing.step c t o >>= fun u => Writing.run c u (calls ops)) = .ok t' ∧ _
          cases o with
          | setFormat w =>
            injection hs with hs
            injection hs with _ hs
            subst hs
            exact ih _ _ rs1 s2 (alike_format h w) hrun
          | sync =>
            simp only [bind, Except.bind, pure, Except.pure] at hs
            cases he : ensure rnd c rf rv s with
            | error e => rw [he] at hs; cases hs
            | ok s0 =>
              rw [he] at hs
              dsimp only at hs
              obtain ⟨a, b, e0⟩ := ensure_mark he
              rw [(alike_ensure h e0).1, syncFile_mark c (wens_clean c t), ← syncFile_wens] at hs
              unfold Writing.step
              cases hy : syncFile c t with
              | error e => rw [hy] at hs; cases hs
              | ok z =>
                rw [hy] at hs
                injection hs with hs
                injection hs with _ hs
                subst hs
                exact ih _ z rs1 s2 (alike_mark c a b z) hrun
          | write xs =>
            simp only [bind, Except.bind] at hs
            cases he : ensure rnd c rf rv s with
            | error e => rw [he] at hs; cases hs
            | ok s0 =>
              rw [he] at hs
              dsimp only at hs
              obtain ⟨a, b, e0⟩ := ensure_mark he
              rw [(alike_ensure h e0).1] at hs
              obtain ⟨-, a', b', z, hz, hm⟩ := writeFrames_mark c xs (wens_clean c t) a b hs
              rw [← writeFrames_wens] at hz
              unfold Writing.step
              simp only [bind, Except.bind, hz, pure, Except.pure]
              exact ih s1 z rs1 s2 (by rw [hm]; exact alike_mark c a' b' z) hrun

/-- C85: whatever the rates, if every count stays a number of 64 bits, the file, its header's numbers included, is the one of a
session without them: counting and rates have no effect on what is written, and what holds of it (C13, C17, …) holds at all rates. -/
theorem C85_file (c : Cfg V α γ ε) (rf rv : Dbl) (e : ε) (v : V) (ops : List (Op V γ)) {f : Final}
    (h : session rnd c rf rv e v ops = .ok f) : Writing.session c e v (calls ops) = .ok f := by
  unfold session at h
  simp only [bind, Except.bind] at h
  cases hr : run rnd c rf rv (Writing.init e v) ops with
  | error e => rw [hr] at h; cases h
  | ok x =>
    obtain ⟨rs, s⟩ := x
    rw [hr] at h
    dsimp only at h
    obtain ⟨t, ht, hal⟩ := run_alike ops _ _ rs s (alike_mark c _ _ (Writing.init e v)) hr
    cases he : ensure rnd c rf rv s with
    | error e => rw [he] at h; cases h
    | ok s0 =>
      rw [he] at h
      obtain ⟨a, b, e0⟩ := ensure_mark he
      unfold Writing.session
      simp only [bind, Except.bind, ht]
      unfold close at h ⊢
      simp only [bind, Except.bind, pure, Except.pure] at h ⊢
      rw [(alike_ensure hal e0).1, syncFile_mark c (wens_clean c t), ← syncFile_wens] at h
      cases hy : syncFile c t with
      | error e => rw [hy] at h; cases h
      | ok z =>
        rw [hy] at h
        exact h

/-- The session of `C85_count_refuted` writes its seven frames all the same. -/
example : session roundDouble pcmDemo (.fin macRate) (.fin macRate) () 0 [.call (.write [1, 2, 3, 4, 5, 6, 7]), .count, .call (.setFormat 1), .count]
    = .ok ⟨[1, 2, 3, 4, 5, 6, 7], 7, 7⟩ := by decide +kernel

end AF.Writing.Rate
