import Verif.Proof.Rate
import Verif.Proof.RoundDouble
import Verif.Props.Reading
import Verif.Props.Files.Foreign
/-!
# C84: sample rates in reading

`Verif/Model/Rate.lean` computes positions the way the code does, with the rates of the file and of the caller, in floating point.
-/
namespace AF.Reading.Rate
open AF.Convert (Dbl)
open AF.Spec (Call Cursor Nearest Usual Meaningless)
variable {V α γ : Type} {rnd : Rat → Dbl}

/-- What the client of a run sees. -/
def observe (rnd : Rat → Dbl) (c : Cfg V α γ) (rf : Dbl) (v : V) (ops : List (Op V)) : Except Abort (List (Obs γ)) :=
  (run rnd c rf (init c rf v) ops).map Prod.fst

/-- The position in the file stays within 64 bits. -/
theorem setup_small (c : Cfg V α γ) (h : Intact c) (hl : c.file.length < 2 ^ 62) (hf0 : c.fposFirst < 2 ^ 62) (s : Reading.St V α) (h0 : 0 ≤ s.nextv) (h1 : s.nextv ≤ c.totalf) :
    ((Reading.setup c s).fposNext).bmod (2 ^ 64) = (Reading.setup c s).fposNext := by
  obtain ⟨n, hn⟩ := Int.eq_ofNat_of_zero_le h0
  obtain ⟨f, hf⟩ := Int.eq_ofNat_of_zero_le h.first
  have hen := h.enough
  have key : n / c.fpp * c.bpp ≤ c.file.length - f := by
    have a : n ≤ (c.file.length - f) / c.bpp * c.fpp := by rw [hf] at hen; simp only [Int.toNat_natCast] at hen; omega
    have b : n / c.fpp ≤ (c.file.length - f) / c.bpp := by
      have := Nat.div_le_div_right (c := c.fpp) a
      rwa [Nat.mul_div_cancel _ c.fpp_pos] at this
    exact Nat.le_trans (Nat.mul_le_mul_right _ b) (Nat.div_mul_le_self _ _)
  have hpos : ((Reading.setup c s).fposNext = (f + n / c.fpp * c.bpp : Nat)) := by
    have hd : (n : Int).tdiv c.fpp = ((n / c.fpp : Nat) : Int) := rfl
    have hm : ((n / c.fpp : Nat) : Int) * c.fpp = ((n / c.fpp * c.fpp : Nat) : Int) := by simp
    unfold Reading.setup
    cases hk : c.kind with
    | block =>
      simp only [hn, hf, hd, hm]
      rw [show ((n / c.fpp * c.fpp : Nat) : Int).tdiv c.fpp = ((n / c.fpp * c.fpp / c.fpp : Nat) : Int) from rfl,
        Nat.mul_div_cancel _ c.fpp_pos, Nat.mul_comm (n / c.fpp) c.bpp]
      simp
    | pcm =>
      have := h.one (by rw [hk]; decide)
      simp only [hn, hf, this, Nat.div_one, Nat.mul_comm n c.bpp]
      simp
    | g711 =>
      have := h.one (by rw [hk]; decide)
      simp only [hn, hf, this, Nat.div_one, Nat.mul_comm n c.bpp]
      simp
  rw [hpos]
  refine Int.bmod_eq_of_le ?_ ?_
  · omega
  · omega

theorem setup_totalv (c : Cfg V α γ) (s : Reading.St V α) : (Reading.setup c s).totalv = c.totalf ∧ (Reading.setup c s).nextv = s.nextv := by
  unfold Reading.setup
  split <;> exact ⟨rfl, rfl⟩

/-- What is asked of a track: it is all there, and not longer than its numbers can count. -/
structure Sound (c : Cfg V α γ) : Prop where
  intact : Intact c
  frames : c.totalf ≤ 2 ^ 49
  file : c.file.length < 2 ^ 62
  first : c.fposFirst < 2 ^ 62

theorem setup_eq (hn : Nearest rnd) (c : Cfg V α γ) (h : Sound c) {r : Rat} (hr : Usual r) (s : Reading.St V α) (h0 : 0 ≤ s.nextv)
    (h1 : s.nextv ≤ c.totalf) : setup rnd c (.fin r) ⟨s, .fin r⟩ = ⟨Reading.setup c s, .fin r⟩ := by
  have hf := h.frames
  have ht := h.intact.total
  unfold setup
  dsimp only
  rw [Dbl.scale_same hn hr h0 (by omega), Dbl.scale_same hn hr h0 (by omega), if_neg (by omega), Dbl.scaleTotal_same hn hr ht hf]
  have e : ({ s with nextv := s.nextv } : Reading.St V α) = s := rfl
  rw [e, setup_small c h.intact h.file h.first s h0 h1]
  obtain ⟨a, b⟩ := setup_totalv c s
  generalize Reading.setup c s = t at a b
  rw [← a, ← b]

theorem ensure_eq (hn : Nearest rnd) (c : Cfg V α γ) (h : Sound c) {r : Rat} (hr : Usual r) (s : Reading.St V α) (cur : Cursor V)
    (hrel : Rel c s cur) : ensure rnd c (.fin r) ⟨s, .fin r⟩ = ⟨if s.dirty then Reading.setup c s else s, .fin r⟩ := by
  unfold ensure
  have := hrel.le
  have := hrel.nextv
  dsimp only
  split
  · exact setup_eq hn c h hr s (by omega) (by omega)
  · rfl

theorem seek_eq (hn : Nearest rnd) (c : Cfg V α γ) (h : Sound c) {r : Rat} (hr : Usual r) (s : Reading.St V α) (cur : Cursor V)
    (hrel : Rel c s cur) (f : Int) (hin : f ≤ (frames c).length ∨ 0 < (frames c).length) :
    seek rnd c (.fin r) f ⟨s, .fin r⟩ = ((seekFrame c f s).1, ⟨(seekFrame c f s).2, .fin r⟩) := by
  obtain ⟨hr1, hd1⟩ := ensure_ready c h.intact s cur hrel
  unfold seek seekFrame
  rw [ensure_eq hn c h hr s cur hrel]
  generalize (if s.dirty then Reading.setup c s else s) = s1 at hr1 hd1
  dsimp only
  by_cases h1 : f < 0
  · rw [if_pos h1, if_pos h1]
  · rw [if_neg h1, if_neg h1]
    by_cases h2 : f = s1.nextv
    · rw [if_pos h2, if_pos h2]
    · rw [if_neg h2, if_neg h2]
      have ht := (hr1.ready hd1).totalv
      have hfl := frames_length h.intact
      have := h.intact.total
      rw [setup_eq hn c h hr _ (by dsimp only; split <;> omega) (by dsimp only; split <;> omega)]

/-- Equal results with the rate added. -/
theorem ok_rate {o o' : Obs γ} {s s' : Reading.St V α} (r : Dbl) (h : (Except.ok (o, s) : Except Abort _) = .ok (o', s')) :
    (Except.ok (o, (⟨s, r⟩ : St V α)) : Except Abort _) = .ok (o', ⟨s', r⟩) := by
  injection h with h
  injection h with a b
  rw [a, b]

/-- **C84.** At any usual sample rate the conversions between the positions of the file and of the caller, although computed in floating
point, change nothing: reading, seeking, telling and counting answer as the cursor of C12 does. -/
theorem C84_usual_rate (hn : Nearest rnd) (c : Cfg V α γ) (h : Sound c) {r : Rat} (hr : Usual r) (v : V) (ops : List (Reading.Op V))
    (hops : ∀ op ∈ ops, Spec.InRange (trackFrames c).length op) :
    observe rnd c (.fin r) v (ops.map .call) = .ok (expected (trackFrames c) c.conv ⟨0, v⟩ ops) := by
  rw [frames_eq h.intact] at *
  have key : ∀ (ops : List (Reading.Op V)) (s : Reading.St V α) (cur : Cursor V), Rel c s cur →
      (∀ op ∈ ops, Spec.InRange (frames c).length op) →
      ∃ s', run rnd c (.fin r) ⟨s, .fin r⟩ (ops.map .call) = .ok (expected (frames c) c.conv cur ops, ⟨s', .fin r⟩) := by
    intro ops
    induction ops with
    | nil => intro s cur _ _; exact ⟨s, rfl⟩
    | cons op ops ih =>
      intro s cur hrel hops
      obtain ⟨s1, e1, r1⟩ := step_ok c h.intact s cur hrel op (hops op (by simp))
      obtain ⟨s2, e2⟩ := ih s1 _ r1 (fun o ho => hops o (by simp [ho]))
      refine ⟨s2, ?_⟩
      have e : step rnd c (.fin r) ⟨s, .fin r⟩ (.call op) = .ok (((Spec.answer (frames c) c.conv cur op).1,
          (Spec.answer (frames c) c.conv cur op).2.map some), ⟨s1, .fin r⟩) := by
        have hin := hops op (by simp)
        have he := ensure_eq hn c h hr s cur hrel
        cases op with
        | read n =>
          unfold step
          dsimp only
          rw [he]
          dsimp only
          have hc : readFrames c n (if s.dirty then Reading.setup c s else s) = readFrames c n s := by
            cases hd : s.dirty with
            | false => rfl
            | true =>
              have hd' : (Reading.setup c s).dirty = false := by unfold Reading.setup; split <;> rfl
              unfold readFrames
              simp only [hd, hd', if_true, Bool.false_eq_true, if_false]
          rw [hc]
          unfold Reading.step at e1
          dsimp only at e1
          cases hq : readFrames c n s with
          | error e => rw [hq] at e1; cases e1
          | ok q =>
            rw [hq] at e1
            exact ok_rate _ e1
        | seek f =>
          unfold step
          dsimp only
          rw [seek_eq hn c h hr s cur hrel f hin]
          unfold Reading.step at e1
          dsimp only at e1
          exact ok_rate _ e1
        | tell =>
          unfold step
          dsimp only
          rw [seek_eq hn c h hr s cur hrel (-1) (Or.inl (by omega))]
          unfold Reading.step at e1
          dsimp only at e1
          exact ok_rate _ e1
        | count =>
          unfold step
          dsimp only
          rw [he]
          unfold Reading.step at e1
          dsimp only at e1
          exact ok_rate _ e1
        | setFormat w =>
          unfold Reading.step at e1
          cases e1
          rfl
      simp only [List.map_cons, run, bind, Except.bind, e, e2, pure, Except.pure]
      rfl
  obtain ⟨s', e⟩ := key ops (Reading.init c v) ⟨0, v⟩ (init_rel c h.intact v) hops
  unfold observe init
  rw [e]
  rfl

/-- Exact arithmetic is a rounding as assumed; a stereo rate of CD players is a usual rate; the tracks of C12 are sound ones. -/
theorem nearest_exact : Nearest Dbl.fin :=
  ⟨fun _ _ => rfl, fun q h _ => by
    have h0 : (0 : Rat) ≤ 1 / 2 ^ 1022 := by decide +kernel
    have hq : 0 ≤ q := Rat.le_trans h0 h
    exact ⟨q, rfl, by clear h h0; grind, by clear h h0; grind⟩⟩
example : Usual 44100 := by constructor <;> decide +kernel
theorem pcmDemo_sound : Sound pcmDemo := ⟨pcmDemo_intact, by decide, by decide, by decide⟩
theorem blockDemo_sound : Sound blockDemo := ⟨blockDemo_intact, by decide, by decide, by decide⟩
example : observe Dbl.fin blockDemo (.fin 44100) 0 [.call (.seek 2), .call (.read 2), .call .tell, .call .count]
    = .ok [(2, []), (2, [some 12, some 20]), (4, []), (5, [])] := by
  have := C84_usual_rate nearest_exact blockDemo blockDemo_sound (r := 44100) (by constructor <;> decide +kernel) 0
    [.seek 2, .read 2, .tell, .count] (by simp [Spec.InRange]; decide)
  simp only [List.map] at this
  rw [this]
  decide

/-- **C84** for the arithmetic of IEEE binary64 itself (`roundDouble`: nearest, ties to even, subnormals, infinities). -/
theorem C84_usual_rate_ieee (c : Cfg V α γ) (h : Sound c) {r : Rat} (hr : Usual r) (v : V) (ops : List (Reading.Op V))
    (hops : ∀ op ∈ ops, Spec.InRange (trackFrames c).length op) :
    observe AF.Convert.roundDouble c (.fin r) v (ops.map .call) = .ok (expected (trackFrames c) c.conv ⟨0, v⟩ ops) :=
  C84_usual_rate AF.Convert.roundDouble_nearest c h hr v ops hops

/-- C84: every whole number of at most 64 bits but zero is usual; most formats have no others. -/
theorem C84_whole_rates (n : Nat) (h0 : 0 < n) (h1 : n < 2 ^ 64) : Usual (n : Rat) := by
  have a : ((1 : Nat) : Rat) ≤ n := Rat.natCast_le_natCast.2 h0
  have b : (n : Rat) ≤ ((2 ^ 64 : Nat) : Rat) := Rat.natCast_le_natCast.2 (by omega)
  have k1 : (1 : Rat) / 2 ^ 900 ≤ ((1 : Nat) : Rat) := by decide +kernel
  have k2 : ((2 ^ 64 : Nat) : Rat) ≤ 2 ^ 900 := by decide +kernel
  exact ⟨Rat.le_trans k1 a, Rat.le_trans b k2⟩

/-! ## Another rate -/

/-- C84: a caller who asks for another rate is told the number of frames the track would have at it, to within a frame. -/
theorem C84_count (hn : Nearest rnd) (c : Cfg V α γ) (ht : 0 ≤ c.totalf) (hN : c.totalf ≤ 2 ^ 49) {f r : Rat} (hf : Usual f) (hx : Usual (r / f))
    (hr : 0 < r) (h1 : c.totalf * (r / f) ≤ 2 ^ 48) (v : V) :
    ∃ k : Int, observe rnd c (.fin f) v [.setRate (.fin r), .call .count] = .ok [(0, []), (k, [])] ∧
      (k : Rat) - c.totalf * (r / f) ≤ 5 / 8 ∧ c.totalf * (r / f) - k ≤ 5 / 8 := by
  refine ⟨Dbl.scaleTotal rnd c.totalf (.fin r) (.fin f), ?_, Dbl.scaleTotal_close hn hf hx ht hN h1⟩
  have e : Dbl.lt (.fin r) (.fin 0) = false := by
    unfold Dbl.lt
    dsimp only
    exact decide_eq_false (by grind)
  simp only [observe, e, init, Reading.init, run, step, ensure, bind, Except.bind, pure, Except.pure, Except.map, Bool.false_eq_true, if_false, if_true]
  unfold setup
  dsimp only
  rw [if_neg (by omega)]

/-- C84: a rate below zero is refused, and nothing changes. -/
theorem C84_negative_rate (c : Cfg V α γ) (rf : Dbl) (r : Rat) (hr : r < 0) (x : St V α) :
    step rnd c rf x (.setRate (.fin r)) = .ok ((-1, []), x) ∧ step rnd c rf x (.setRate (.inf true)) = .ok ((-1, []), x) := by
  refine ⟨?_, rfl⟩
  unfold step
  dsimp only
  rw [if_pos]
  unfold Dbl.lt
  exact decide_eq_true hr

/-- **C84 is false for another rate** (a): nothing is resampled. Asked for half the rate, the track reports half the frames, delivers the
first ones as they are and then no more: the second half is not heard. -/
theorem C84_half_refuted :
    observe Dbl.fin pcmDemo (.fin 44100) 0 [.setRate (.fin 22050), .call .count, .call (.read 10), .call .tell, .call (.read 10)] =
      .ok [(0, []), (2, []), (2, [some 1, some 2]), (2, []), (0, [])] := by decide +kernel

/-- (b): asked for twice the rate it reports twice the frames, and delivers those there are, once. If a conversion is in
the way, reading claims to have delivered all that it reported, without having stored the second half; from a compressed track one request
for everything delivers nothing. -/
theorem C84_double_refuted :
    observe Dbl.fin pcmDemo (.fin 22050) 0 [.setRate (.fin 44100), .call .count, .call (.read 10), .call (.read 10)] =
      .ok [(0, []), (10, []), (5, [some 1, some 2, some 3, some 4, some 5]), (0, [])] ∧
    observe Dbl.fin pcmDemo (.fin 22050) 7 [.setRate (.fin 44100), .call .count, .call (.read 10), .call .tell] =
      .ok [(0, []), (10, []), (10, [some 8, some 9, some 10, some 11, some 12, none, none, none, none, none]), (10, [])] ∧
    observe Dbl.fin blockDemo (.fin 22050) 0 [.setRate (.fin 44100), .call (.read 10), .call (.read 10)] =
      .ok [(0, []), (0, []), (0, [])] := by
  refine ⟨?_, ?_, ?_⟩ <;> decide +kernel

/-- (c): a seek goes to a position near the one asked for, and setting the rate while reading moves the position: frames are
delivered twice. -/
theorem C84_seek_refuted :
    observe Dbl.fin pcmDemo (.fin 22050) 0 [.setRate (.fin 44100), .call (.seek 1), .call (.seek 3), .call .tell] =
      .ok [(0, []), (0, []), (4, []), (4, [])] ∧
    observe Dbl.fin pcmDemo (.fin 22050) 0 [.call (.read 3), .setRate (.fin 44100), .call .tell, .call (.read 10)] =
      .ok [(3, [some 1, some 2, some 3]), (0, []), (4, []), (3, [some 3, some 4, some 5])] := by
  refine ⟨?_, ?_⟩ <;> decide +kernel

/-- (d): zero, and what is no number, are accepted as rates; the track reports no or −2^63 frames. -/
theorem C84_zero_accepted_refuted :
    observe Dbl.fin pcmDemo (.fin 22050) 0 [.setRate (.fin 0), .call .count, .call (.read 10)] = .ok [(0, []), (0, []), (-1, [])] ∧
    observe Dbl.fin pcmDemo (.fin 22050) 0 [.setRate .nan, .call .count, .call .tell, .call (.read 10)] =
      .ok [(0, []), (-2 ^ 63, []), (-2 ^ 63, []), (-1, [])] := by
  refine ⟨?_, ?_⟩ <;> decide +kernel

/-! ## Files whose rate means nothing -/

/-- **C84 is false for a file that gives zero, an infinity or no number as its sample rate**: the number of its frames is
reported as −2^63, and so is the position. -/
theorem C84_meaningless_refuted (hn : Nearest rnd) (c : Cfg V α γ) (ht : c.totalf ≠ -1) {rf : Dbl} (hm : Meaningless rf) (v : V) :
    observe rnd c rf v [.call .count, .call .tell] = .ok [(-2 ^ 63, []), (-2 ^ 63, [])] := by
  have h1 := Dbl.scale_meaningless hn hm 0 (Or.inl (by decide))
  have h2 := Dbl.scale_meaningless hn hm (-2 ^ 63) (Or.inr rfl)
  have h3 := Dbl.scaleTotal_meaningless (rnd := rnd) hm c.totalf
  have hd : ∀ s : Reading.St V α, (Reading.setup c s).dirty = false := by
    intro s
    unfold Reading.setup
    split <;> rfl
  simp only [observe, run, step, ensure, seek, init, Reading.init, setup, bind, Except.bind, pure, Except.pure, Except.map, if_true, h1, h2, h3, hd,
    Bool.false_eq_true, if_false, if_neg ht]
  rw [if_pos (by decide)]

/-- No frame of it can be read: the first request delivers nothing, or asks for a negative amount of memory. -/
theorem C84_meaningless_silent (hn : Nearest rnd) (c : Cfg V α γ) (ht : c.totalf ≠ -1) {rf : Dbl} (hm : Meaningless rf) (v : V) (n : Int) :
    observe rnd c rf v [.call (.read n)] = .ok [(0, [])] ∨ observe rnd c rf v [.call (.read n)] = .ok [(-1, [])] ∨
    c.kind = .block ∧ observe rnd c rf v [.call (.read n)] = .error .badAlloc := by
  have h1 := Dbl.scale_meaningless hn hm 0 (Or.inl (by decide))
  have h2 := Dbl.scale_meaningless hn hm (-2 ^ 63) (Or.inr rfl)
  have h3 := Dbl.scaleTotal_meaningless (rnd := rnd) hm c.totalf
  have e0 : ∀ s : Reading.St V α, readLoop c 0 s = .ok ([], s) := fun s => by unfold readLoop; rfl
  obtain ⟨s, hs, hig, hdirty, htv, hnv⟩ : ∃ s, (ensure rnd c rf (init c rf v)).s = s ∧ (s.ignore = 0 ∨ c.kind = .block ∧ s.ignore < 0) ∧
      s.dirty = false ∧ s.totalv = -2 ^ 63 ∧ s.nextv = -2 ^ 63 := by
    refine ⟨_, rfl, ?_⟩
    simp only [ensure, init, Reading.init, setup, if_true, h1, h2, h3, if_neg ht, and_true]
    unfold Reading.setup
    cases hk : c.kind with
    | block =>
      refine ⟨?_, rfl⟩
      dsimp only
      have a := Int.mul_tdiv_add_tmod (-2 ^ 63) c.fpp
      have b : (-2 ^ 63 : Int).tmod c.fpp ≤ 0 := by
        rw [Int.neg_tmod]
        have := Int.tmod_nonneg (a := 2 ^ 63) (c.fpp : Int) (by decide)
        omega
      rw [Int.mul_comm] at a
      by_cases hz : (-2 ^ 63 : Int).tmod c.fpp = 0
      · left; omega
      · right; exact ⟨rfl, by omega⟩
    | pcm => exact ⟨Or.inl rfl, rfl⟩
    | g711 => exact ⟨Or.inl rfl, rfl⟩
  have hr : (∃ s', readFrames c n s = .ok ((0, []), s')) ∨ (∃ s', readFrames c n s = .ok ((-1, []), s')) ∨
      c.kind = .block ∧ readFrames c n s = .error .badAlloc := by
    have hs1 : (if s.dirty = true then Reading.setup c s else s) = s := by rw [hdirty]; rfl
    unfold readFrames
    simp only [hs1]
    by_cases hp : c.seekok = true ∧ s.fposNext < 0
    · rw [if_pos hp]
      exact Or.inr (Or.inl ⟨s, rfl⟩)
    · rw [if_neg hp]
      have hnum : ∀ k : Int, (if k > (0 : Int) then 0 else k).toNat = 0 := by intro k; split <;> omega
      rcases hig with hig | ⟨hk, hig⟩
      · left
        by_cases hsk : c.seekok = true
        · simp [hsk, htv, hnv, hig, hnum, e0, bind, Except.bind, pure, Except.pure]
        · simp [hsk, htv, hnv, hig, hnum, e0, bind, Except.bind, pure, Except.pure]
      · right; right
        refine ⟨hk, ?_⟩
        have hne : s.ignore ≠ 0 := by omega
        by_cases hsk : c.seekok = true
        · simp [hsk, hig, hne, bind, Except.bind, throw, throwThe, MonadExceptOf.throw]
        · simp [hsk, hig, hne, bind, Except.bind, throw, throwThe, MonadExceptOf.throw]
  have ho : observe rnd c rf v [.call (.read n)] = (readFrames c n s).map fun o => [o.1] := by
    simp only [observe, run, step, hs, bind, Except.bind, pure, Except.pure]
    cases readFrames c n s <;> rfl
  rw [ho]
  rcases hr with ⟨s', e⟩ | ⟨s', e⟩ | ⟨hk, e⟩
  · left; rw [e]; rfl
  · right; left; rw [e]; rfl
  · right; right; rw [e]; exact ⟨hk, rfl⟩

/-- Such files are opened: the WAVE file of C77 with a rate of 0, on any machine. -/
def silentWave : Spec.Foreign.Wave := { AF.Foreign.exWave with rate := 0 }

theorem silentWave_ok : silentWave.Ok := by
  refine ⟨by decide, by decide, (by decide : 24 < 2 ^ 16 ∧ 20 < 2 ^ 16), fun c hc => ⟨⟨?_, ?_⟩, ?_⟩, rfl, fun n more h => by cases h; decide, rfl, by decide +kernel⟩
  all_goals revert c; decide

theorem C84_meaningless_opens (F32 : Files.Float32) (F64 : Files.Float64) (h : Endian) :
    ∃ t p, Files.openRead F32 F64 rnd h 1000 silentWave.file 0 = .ok (t, p) ∧ t.f.rate = 0 ∧ t.frames = 2 := by
  obtain ⟨t, p, h1, h2, -⟩ := AF.Foreign.C77_wave F32 F64 rnd silentWave silentWave_ok (k := Spec.Foreign.signed 20) rfl (fuel := 1000)
    (by decide +kernel) h (fun _ b => b)
  exact ⟨t, p, h1, by rw [h2.rate]; rfl, h2.frames⟩

end AF.Reading.Rate
