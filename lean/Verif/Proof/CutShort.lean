import Verif.Proof.ShortReads
import Verif.Model.SfConvert
/-!
# Reading from a file that is too short for its frames

Nothing is assumed about the file: a read that reports all frames it was asked for found all their bytes.
-/
namespace AF.SfConvert
open AF AF.Reading AF.Convert

variable {V α γ : Type}

/-- A track of which the first `s.nextv` frames were read from the file, one after the other. -/
structure Along (c : Cfg V α γ) (s : St V α) : Prop where
  clean : s.dirty = false
  total : s.totalv = c.totalf
  ignore : s.ignore = 0
  place : s.nextf = s.nextv
  pos : s.fposNext = c.fposFirst + c.bpp * s.nextv
  start : 0 ≤ s.nextv
  within : s.nextv ≤ c.totalf

/-- What a pull of `n` frames leaves, if it was not reported as failed. -/
structure Got (c : Cfg V α γ) (n : Nat) (k : Nat) (s s' : St V α) : Prop where
  dirty : s'.dirty = s.dirty
  totalv : s'.totalv = s.totalv
  ignore : s'.ignore = s.ignore
  nextv : s'.nextv = s.nextv
  few : k ≤ n
  good : s'.happy = true → k = n ∧ s'.nextf = s.nextf + n ∧ s'.filePos = s.filePos + c.bpp * n ∧ s'.fposNext = s.fposNext + c.bpp * n ∧
    (0 < n → 0 ≤ s.filePos → s.filePos + c.bpp * n ≤ c.file.length)

theorem Got.refl (c : Cfg V α γ) (s : St V α) : Got c 0 0 s s :=
  ⟨rfl, rfl, rfl, rfl, Nat.le_refl _, fun _ => ⟨rfl, by omega, by simp, by simp, fun h => absurd h (by omega)⟩⟩

variable {c : Cfg V α γ}

theorem sourcePull_got (hk : c.kind ≠ .block) (h1 : c.fpp = 1) (ht : 0 ≤ c.totalf) (hc : c.checks = false)
    (hd : ∀ p, (c.decode p).length = 1) (n : Nat) (s : St V α) (hn : s.nextf + n ≤ c.totalf) :
    ∃ fs s', sourcePull c n s = .ok (fs, s') ∧ s'.v = s.v ∧ Got c n fs.length s s' := by
  have hw : ShortReads.Within c s := fun _ => by omega
  have he := ShortReads.filePull_eq c (fun _ => h1) ht hc n s hw
  have hn1 : n * c.fpp = n := by rw [h1, Nat.mul_one]
  rw [hn1] at he
  have ha : ShortReads.asked c n s = n := by
    unfold ShortReads.asked
    rw [if_neg (by rintro ⟨-, x⟩; omega)]
  rw [ha] at he
  have hs : sourcePull c n s = Reading.filePull c n s := by
    unfold sourcePull
    cases h : c.kind with
    | block => exact absurd h hk
    | _ => rfl
  rw [hs, he]
  refine ⟨_, _, rfl, rfl, ?_⟩
  obtain ⟨bs, hbs⟩ : ∃ bs, bs = (c.file.drop s.filePos.toNat).take (c.bpp * n) := ⟨_, rfl⟩
  have hlen : bs.length ≤ c.bpp * n ∧ bs.length ≤ c.file.length - s.filePos.toNat := by
    rw [hbs, List.length_take, List.length_drop]; omega
  rw [← hbs]
  have hp1 : ((packets c.bpp c.bpp_pos bs).flatMap c.decode).length = (packets c.bpp c.bpp_pos bs).length := by
    rw [flatMap_length_of _ 1 _ fun x _ => hd x, Nat.mul_one]
  have hp2 : (packets c.bpp c.bpp_pos bs).length ≤ n := by
    rw [packets_length]
    exact Nat.div_le_of_le_mul hlen.1
  have hp3 : (packets c.bpp c.bpp_pos bs).length = n → bs.length = c.bpp * n := by
    rw [packets_length]
    intro e
    have := Nat.div_mul_le_self bs.length c.bpp
    rw [e, Nat.mul_comm] at this
    omega
  refine ⟨rfl, rfl, rfl, rfl, by rw [hp1]; exact hp2, ?_⟩
  dsimp only
  intro hh
  obtain ⟨-, hh⟩ := Bool.and_eq_true_iff.1 hh
  have hh := of_decide_eq_true hh
  have hb := hp3 hh
  rw [hb] at hlen ⊢
  rw [hp1, hh, h1, Nat.mul_one]
  have hpos := c.bpp_pos
  refine ⟨rfl, rfl, by rw [Int.natCast_mul], by rw [Int.natCast_mul], fun h0 h2 => ?_⟩
  have : 0 < c.bpp * n := Nat.mul_pos hpos h0
  rw [← Int.natCast_mul]
  omega

theorem chainPull_got (hk : c.kind ≠ .block) (h1 : c.fpp = 1) (ht : 0 ≤ c.totalf) (hc : c.checks = false)
    (hd : ∀ p, (c.decode p).length = 1) (n : Nat) (s : St V α) (hn : s.nextf + n ≤ c.totalf) :
    ∃ fs s', chainPull c n s = .ok (fs, s') ∧ Got c n fs.length s s' := by
  obtain ⟨fs, s', he, hv, g⟩ := sourcePull_got hk h1 ht hc hd n s hn
  unfold chainPull
  rw [he]
  simp only [bind, Except.bind, pure, Except.pure]
  by_cases hh : c.hasConv s'.v = true
  · rw [if_pos hh]
    refine ⟨_, _, rfl, g.dirty, g.totalv, g.ignore, g.nextv, ?_, ?_⟩
    · have := g.few
      simp only [List.length_append, List.length_map, List.length_replicate]; omega
    · intro hg
      have := (g.good hg).1
      refine ⟨?_, (g.good hg).2⟩
      simp only [List.length_append, List.length_map, List.length_replicate]; omega
  · rw [if_neg hh]
    refine ⟨_, _, rfl, ?_⟩
    rw [List.length_map]
    exact g

theorem readLoop_got (hk : c.kind ≠ .block) (h1 : c.fpp = 1) (ht : 0 ≤ c.totalf) (hc : c.checks = false)
    (hd : ∀ p, (c.decode p).length = 1) : ∀ (n left : Nat) (s : St V α), left = n → s.nextf + left ≤ c.totalf → s.happy = true →
    ∃ fs s', readLoop c left s = .ok (fs, s') ∧ s'.dirty = s.dirty ∧ s'.totalv = s.totalv ∧ s'.ignore = s.ignore ∧ s'.nextv = s.nextv ∧
      fs.length ≤ left ∧ (fs.length = left → s'.nextf = s.nextf + left ∧ s'.fposNext = s.fposNext + c.bpp * left ∧
        (0 < left → 0 ≤ s.filePos → s.filePos + c.bpp * left ≤ c.file.length)) := by
  intro n
  induction n using Nat.strongRecOn with
  | ind n ih =>
    intro left s hl hn hh
    rw [readLoop]
    by_cases h0 : left = 0
    · rw [dif_pos h0]
      subst h0
      refine ⟨_, _, rfl, rfl, rfl, rfl, rfl, Nat.le_refl _, fun _ => ⟨by omega, by simp, fun h => absurd h (by omega)⟩⟩
    · rw [dif_neg h0, if_neg (by rw [hh]; decide)]
      obtain ⟨fs, s1, he, g⟩ := chainPull_got hk h1 ht hc hd (min 1024 left) s (by omega)
      simp only [he, bind, Except.bind, pure, Except.pure]
      by_cases hg : s1.happy = true
      · rw [if_pos hg]
        obtain ⟨g1, g2, g3, g4, g5⟩ := g.good hg
        rw [if_neg (by omega)]
        obtain ⟨rest, s2, e2, a1, a2, a3, a4, a5, a6⟩ := ih (left - min 1024 left) (by omega) _ s1 rfl (by omega) hg
        simp only [e2]
        refine ⟨_, _, rfl, a1.trans g.dirty, a2.trans g.totalv, a3.trans g.ignore, a4.trans g.nextv, ?_, ?_⟩
        · rw [List.length_append]; omega
        · rw [List.length_append]
          intro hlen
          obtain ⟨b1, b2, b3⟩ := a6 (by omega)
          have hmul : (c.bpp : Int) * left = c.bpp * (min 1024 left : Nat) + c.bpp * (left - min 1024 left : Nat) := by
            rw [← Int.mul_add]; congr 1; omega
          refine ⟨by omega, by rw [hmul]; omega, fun _ hf => ?_⟩
          by_cases hr : 0 < left - min 1024 left
          · have hm := Int.mul_nonneg (Int.natCast_nonneg c.bpp) (Int.natCast_nonneg (min 1024 left))
            have := b3 hr (by omega)
            omega
          · have : min 1024 left = left := by omega
            rw [this] at g5
            exact g5 (by omega) hf
      · rw [if_neg hg]
        refine ⟨_, _, rfl, g.dirty, g.totalv, g.ignore, g.nextv, Nat.zero_le _, fun hlen => ?_⟩
        rw [List.length_nil] at hlen
        omega

/-- A read of `n` frames of those that are left does not do anything undefined, and if it reports `n` frames, the file has their bytes. -/
theorem read_got (hk : c.kind ≠ .block) (h1 : c.fpp = 1) (hc : c.checks = false) (hsk : c.seekok = true)
    (hd : ∀ p, (c.decode p).length = 1) {s : St V α} (ha : Along c s) {n : Int} (hn : 1 ≤ n) (hle : s.nextv + n ≤ c.totalf) :
    ∃ k fs s', Reading.step c s (.read n) = .ok ((k, fs), s') ∧ k ≤ n ∧
      (k = n → Along c s' ∧ s'.nextv = s.nextv + n ∧ 0 ≤ c.fposFirst + c.bpp * s.nextv ∧ c.fposFirst + c.bpp * s'.nextv ≤ c.file.length) := by
  unfold Reading.step readFrames
  dsimp only
  have hst := ha.start
  have hcl : (if s.dirty = true then setup c s else s) = s := if_neg (by rw [ha.clean]; decide)
  simp only [hcl]
  by_cases hneg : s.fposNext < 0
  · rw [if_pos ⟨hsk, hneg⟩]
    refine ⟨-1, [], s, rfl, by omega, fun e => absurd e (by omega)⟩
  · rw [if_neg (fun x => hneg x.2), if_pos hsk]
    dsimp only
    have e1 : ¬ s.ignore ≠ 0 := fun x => x ha.ignore
    have e2 : ¬ s.totalv = -1 := by have := ha.total; omega
    have e3 : ¬ n > s.totalv - s.nextv := by have := ha.total; omega
    simp only [e1, e2, e3, if_false, bind, Except.bind, pure, Except.pure]
    have hl := readLoop_got hk h1 (by omega) hc hd n.toNat n.toNat { s with filePos := s.fposNext, happy := true } rfl
      (by dsimp only; have := ha.place; omega) rfl
    obtain ⟨fs, s', he, a1, a2, a3, a4, a5, a6⟩ := hl
    rw [if_neg Bool.false_ne_true, he]
    dsimp only at *
    refine ⟨_, _, _, rfl, by omega, fun e => ?_⟩
    obtain ⟨b1, b2, b3⟩ := a6 (by omega)
    have b3 := b3 (by omega) (by omega)
    have hnn : (n.toNat : Int) = n := by omega
    rw [hnn] at b1 b2 b3
    have hp := ha.pos
    have hmul : (c.bpp : Int) * (s.nextv + n) = c.bpp * s.nextv + c.bpp * n := Int.mul_add _ _ _
    refine ⟨⟨?_, ?_, ?_, ?_, ?_, ?_, ?_⟩, ?_, ?_, ?_⟩
    · rw [a1]; exact ha.clean
    · rw [a2]; exact ha.total
    · rw [a3]; exact ha.ignore
    · dsimp only; rw [b1, a4, ha.place, e]
    · dsimp only; rw [b2, a4, e, hmul, hp]; omega
    · dsimp only; rw [a4, e]; omega
    · dsimp only; rw [a4, e]; omega
    · dsimp only; rw [a4, e]
    · omega
    · dsimp only; rw [a4, e, hmul]; omega

/-- `copyaudiodata` does not do anything undefined, and succeeds only if the file has the bytes of all frames. -/
theorem copyLoop_got (hk : c.kind ≠ .block) (h1 : c.fpp = 1) (hc : c.checks = false) (hsk : c.seekok = true)
    (hd : ∀ p, (c.decode p).length = 1) : ∀ (m : Nat) (done : Int) (s : St V α) (out : List (List (Option γ))), (c.totalf - done).toNat = m →
    Along c s → s.nextv = done →
    ∃ b out', copyLoop (fun n s => Reading.step c s (.read n)) (fun n fs s => (n, s ++ [fs])) c.totalf done s out = .ok (b, out') ∧
      (b = true → done < c.totalf → 0 ≤ c.fposFirst + c.bpp * done ∧ c.fposFirst + c.bpp * c.totalf ≤ c.file.length) := by
  intro m
  induction m using Nat.strongRecOn with
  | ind m ih =>
    intro done s out hm ha hs
    rw [copyLoop]
    by_cases hlt : done < c.totalf
    · rw [dif_pos hlt]
      dsimp only
      obtain ⟨W, hW⟩ : ∃ W, W = if c.totalf - done > 65536 then 65536 else c.totalf - done := ⟨_, rfl⟩
      rw [← hW]
      have hW1 : 1 ≤ W ∧ W ≤ c.totalf - done := by split at hW <;> omega
      clear hW
      obtain ⟨k, fs, s', he, hk1, hk2⟩ := read_got hk h1 hc hsk hd ha hW1.1 (by omega)
      rw [he]
      dsimp only
      by_cases h2 : k < W
      · rw [dif_pos h2]
        exact ⟨_, _, rfl, fun e => by cases e⟩
      · rw [dif_neg h2, dif_neg (by omega)]
        obtain ⟨b1, b2, b3, b4⟩ := hk2 (by omega)
        obtain rfl : k = W := by omega
        obtain ⟨b, out', e, hb⟩ := ih (c.totalf - (done + k)).toNat (by omega) (done + k) s' (out ++ [fs]) rfl b1 (by omega)
        refine ⟨b, out', e, fun hbt _ => ?_⟩
        by_cases hl : done + k < c.totalf
        · rw [hs] at b3
          exact ⟨b3, (hb hbt hl).2⟩
        · have hk : done + k = c.totalf := by omega
          rw [b2, hs, hk] at b4
          rw [hs] at b3
          exact ⟨b3, b4⟩
    · rw [dif_neg hlt]
      exact ⟨_, _, rfl, fun _ h => absurd h hlt⟩

/-- The whole of `copyaudiodata`, for a track with frames. -/
theorem copy_got {c : Cfg Fmt (List Byte) (List Byte)} (hk : c.kind ≠ .block) (h1 : c.fpp = 1) (hc : c.checks = false) (hsk : c.seekok = true)
    (hd : ∀ p, (c.decode p).length = 1) (v : Fmt) (h0 : 0 < c.totalf) :
    ∃ b out, copy c v = .ok (b, out) ∧ (b = true → 0 ≤ c.fposFirst ∧ c.fposFirst + c.bpp * c.totalf ≤ c.file.length) := by
  have hset : Along c (setup c (init c v)) ∧ (setup c (init c v)).nextv = 0 := by
    unfold setup init
    cases h : c.kind with
    | block => exact absurd h hk
    | _ => exact ⟨⟨rfl, rfl, rfl, rfl, rfl, Int.le_refl _, Int.le_of_lt h0⟩, rfl⟩
  obtain ⟨b, out, he, hb⟩ := copyLoop_got hk h1 hc hsk hd c.totalf.toNat 0 (setup c (init c v)) [] (by omega) hset.1 hset.2
  refine ⟨b, out, ?_, fun e => by have := hb e h0; omega⟩
  unfold copy
  have hstep : Reading.step c (Reading.init c v) .count = .ok ((c.totalf, []), setup c (init c v)) := by
    show Except.ok (((setup c (init c v)).totalv, []), setup c (init c v)) = _
    rw [hset.1.total]
  rw [hstep]
  exact he

end AF.SfConvert
