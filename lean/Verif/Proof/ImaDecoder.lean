import Verif.Spec.ImaDecoder
import Verif.Proof.IMA
/-!
# The decoder of IMA ADPCM follows the definition
-/
namespace AF.IMA
open AF

abbrev conv (s : Spec.Ima.State) : St := ⟨s.sample, s.index⟩

def SValid (s : Spec.Ima.State) : Prop := -32768 ≤ s.sample ∧ s.sample ≤ 32767 ∧ 0 ≤ s.index ∧ s.index ≤ 88

theorem next_valid (s : Spec.Ima.State) (c : Nat) : SValid (Spec.Ima.next s c) := by
  unfold SValid Spec.Ima.next Spec.Ima.limit
  dsimp only
  refine ⟨?_, ?_, ?_, ?_⟩ <;> omega

theorem clamp_limit (x lo hi : Int) (h : lo ≤ hi) : clamp x lo hi = Spec.Ima.limit lo hi x := by
  unfold clamp Spec.Ima.limit
  repeat' split
  all_goals omega

theorem decode_next {s : Spec.Ima.State} (hs : SValid s) {c : Nat} (hc : c < 16) :
    decodeSample (conv s) c = .ok ((Spec.Ima.next s c).sample, conv (Spec.Ima.next s c)) := by
  obtain ⟨he, -⟩ := tableAt_step s.index hs.2.2.1 hs.2.2.2
  unfold decodeSample
  rw [he, tableAt_index c hc]
  have hst : stepTable = Spec.Ima.stepSizes := rfl
  have hadj : ∀ n : Fin 16, indexTable.getD n.val 0 = Spec.Ima.adjustment n.val := by decide +kernel
  have h1 := hadj ⟨c, hc⟩
  dsimp only at h1
  have b4 : ∀ n : Fin 16, ((n.val &&& 4 ≠ 0) ↔ n.val / 4 % 2 = 1) ∧ ((n.val &&& 2 ≠ 0) ↔ n.val / 2 % 2 = 1) ∧
    ((n.val &&& 1 ≠ 0) ↔ n.val % 2 = 1) ∧ ((n.val &&& 8 ≠ 0) ↔ ¬ n.val < 8) := by decide +kernel
  obtain ⟨q1, q2, q3, q4⟩ := b4 ⟨c, hc⟩
  dsimp only at q1 q2 q3 q4
  simp only [bind, Except.bind, pure, Except.pure, h1, hst, q1, q2, q3, q4, sar]
  rw [clamp_limit _ _ _ (by decide), clamp_limit _ _ _ (by decide)]
  simp only [Spec.Ima.next, Spec.Ima.difference]
  generalize Spec.Ima.stepSizes.getD s.index.toNat 0 = d
  have e3 : ((2 ^ 3 : Nat) : Int) = 8 := rfl
  have e2 : ((2 ^ 2 : Nat) : Int) = 4 := rfl
  have e1 : ((2 ^ 1 : Nat) : Int) = 2 := rfl
  rw [e1, e2, e3]
  by_cases k1 : c < 8 <;> by_cases k2 : c % 2 = 1 <;> by_cases k3 : c / 2 % 2 = 1 <;> by_cases k4 : c / 4 % 2 = 1 <;>
    simp only [k1, k2, k3, k4, if_true, if_false, not_true, not_false_iff, Int.add_zero]

/-- The state after a sequence of codes. -/
def endState (s : Spec.Ima.State) (cs : List Nat) : Spec.Ima.State := cs.foldl Spec.Ima.next s

theorem endState_valid {s : Spec.Ima.State} (hs : SValid s) (cs : List Nat) : SValid (endState s cs) := by
  unfold endState
  induction cs generalizing s with
  | nil => exact hs
  | cons c cs ih => exact ih (next_valid s c)

theorem samples_append (cs ds : List Nat) : ∀ s : Spec.Ima.State,
    Spec.Ima.samples s (cs ++ ds) = Spec.Ima.samples s cs ++ Spec.Ima.samples (endState s cs) ds := by
  induction cs with
  | nil => intro s; rfl
  | cons c cs ih => intro s; rw [List.cons_append]; simp only [Spec.Ima.samples, ih]; rfl

theorem samples_length (cs : List Nat) : ∀ s : Spec.Ima.State, (Spec.Ima.samples s cs).length = cs.length := by
  induction cs with
  | nil => intro s; rfl
  | cons c cs ih => intro s; simp only [Spec.Ima.samples, List.length_cons, ih]

theorem samples_range {s : Spec.Ima.State} (cs : List Nat) : ∀ x ∈ Spec.Ima.samples s cs, -32768 ≤ x ∧ x ≤ 32767 := by
  induction cs generalizing s with
  | nil => intro x hx; cases hx
  | cons c cs ih =>
    intro x hx
    rcases List.mem_cons.1 hx with rfl | hx
    · exact ⟨(next_valid s c).1, (next_valid s c).2.1⟩
    · exact ih x hx

/-- `decodePairs` by positions. -/
theorem pairs_spec (block : List Byte) (n : Nat) : ∀ (s : Spec.Ima.State) (p : Nat), SValid s → p + n ≤ block.length →
    decodePairs n (conv s) (block.drop p) = .ok (Spec.Ima.samples s ((List.range (2 * n)).map (Spec.Ima.nibble block p)),
      conv (endState s ((List.range (2 * n)).map (Spec.Ima.nibble block p))), block.drop (p + n)) := by
  induction n with
  | zero => intro s p _ _; rfl
  | succ n ih =>
    intro s p hs hl
    have hd : block.drop p = block[p] :: block.drop (p + 1) := List.drop_eq_getElem_cons (by omega)
    have hg : block.getD p 0 = block[p] := by rw [List.getD_eq_getElem?_getD, List.getElem?_eq_getElem (by omega)]; rfl
    have hr : (List.range (2 * (n + 1))).map (Spec.Ima.nibble block p) =
        block[p].toNat % 16 :: block[p].toNat / 16 :: (List.range (2 * n)).map (Spec.Ima.nibble block (p + 1)) := by
      rw [show 2 * (n + 1) = 2 + 2 * n by omega, List.range_add, List.map_append, List.map_map]
      show Spec.Ima.nibble block p 0 :: Spec.Ima.nibble block p 1 :: _ = _
      have a0 : Spec.Ima.nibble block p 0 = block[p].toNat % 16 := by
        unfold Spec.Ima.nibble; dsimp only; rw [if_pos (by decide), Nat.zero_div, Nat.add_zero, hg]
      have a1 : Spec.Ima.nibble block p 1 = block[p].toNat / 16 := by
        unfold Spec.Ima.nibble; dsimp only; rw [if_neg (by decide), show (1 : Nat) / 2 = 0 from rfl, Nat.add_zero, hg]
      rw [a0, a1]
      refine congrArg _ (congrArg _ (List.map_congr_left fun i _ => ?_))
      unfold Spec.Ima.nibble
      dsimp only [Function.comp]
      rw [show (2 + i) % 2 = i % 2 by omega, show p + (2 + i) / 2 = p + 1 + i / 2 by omega]
    rw [hd, hr]
    have hb := block[p].isLt
    have n1 : ∀ b : Byte, b.toNat &&& 0xf = b.toNat % 16 := fun b => Nat.and_two_pow_sub_one_eq_mod _ 4
    have n2 : ∀ b : Byte, b.toNat >>> 4 = b.toNat / 16 := fun b => Nat.shiftRight_eq_div_pow _ 4
    simp only [decodePairs, n1, n2]
    rw [decode_next hs (Nat.mod_lt _ (by decide))]
    simp only [bind, Except.bind]
    rw [decode_next (next_valid _ _) (by omega)]
    simp only
    rw [ih _ (p + 1) (next_valid _ _) (by omega)]
    rw [show p + 1 + n = p + (n + 1) by omega]
    rfl

/-- One group of a WAVE block. -/
theorem waveGroup_spec (block : List Byte) : ∀ (sts : List Spec.Ima.State) (p : Nat), (∀ s ∈ sts, SValid s) → p + 4 * sts.length ≤ block.length →
    ∃ cols, waveGroup (sts.map conv) (block.drop p) = .ok (cols,
        (sts.mapIdx fun c s => endState s ((List.range 8).map (Spec.Ima.nibble block (p + 4 * c)))).map conv, block.drop (p + 4 * sts.length)) ∧
      cols = sts.mapIdx fun c s => Spec.Ima.samples s ((List.range 8).map (Spec.Ima.nibble block (p + 4 * c))) := by
  intro sts
  induction sts with
  | nil => intro p _ _; exact ⟨[], rfl, rfl⟩
  | cons s sts ih =>
    intro p hv hl
    rw [List.length_cons] at hl
    obtain ⟨cols, h1, h2⟩ := ih (p + 4) (fun s hs => hv s (List.mem_cons_of_mem _ hs)) (by omega)
    have h3 := pairs_spec block 4 s p (hv s List.mem_cons_self) (by omega)
    refine ⟨_, ?_, rfl⟩
    simp only [List.map_cons, waveGroup]
    rw [h3]
    simp only [bind, Except.bind]
    rw [h1, h2]
    simp only [pure, Except.pure, List.mapIdx_cons, List.map_cons, List.length_cons]
    rw [show p + 4 + 4 * sts.length = p + 4 * (sts.length + 1) by omega]
    have e : ∀ c, p + 4 * (c + 1) = p + 4 + 4 * c := fun c => by omega
    simp only [e, Nat.mul_zero, Nat.add_zero]

/-- The codes of channel `c` in `k` groups from `p` on. -/
def groupCodes (ch : Nat) (block : List Byte) (p k c : Nat) : List Nat :=
  (List.range (8 * k)).map fun i => Spec.Ima.nibble block (p + i / 8 * (4 * ch) + 4 * c) (i % 8)

theorem groupCodes_succ (ch : Nat) (block : List Byte) (p k c : Nat) :
    groupCodes ch block p (k + 1) c = (List.range 8).map (Spec.Ima.nibble block (p + 4 * c)) ++ groupCodes ch block (p + 4 * ch) k c := by
  unfold groupCodes
  rw [show 8 * (k + 1) = 8 + 8 * k by omega, List.range_add, List.map_append, List.map_map]
  refine congr (congrArg _ (List.map_congr_left fun i hi => ?_)) (List.map_congr_left fun i _ => ?_)
  · have := List.mem_range.1 hi
    rw [Nat.div_eq_of_lt this, Nat.zero_mul, Nat.add_zero, Nat.mod_eq_of_lt this]
  · dsimp only [Function.comp]
    rw [show (8 + i) / 8 = i / 8 + 1 by omega, show (8 + i) % 8 = i % 8 by omega, Nat.succ_mul]
    congr 1
    omega

/-- The groups of a WAVE block. -/
theorem waveGroups_spec (block : List Byte) (k : Nat) : ∀ (sts : List Spec.Ima.State) (p : Nat), (∀ s ∈ sts, SValid s) →
    p + 4 * k * sts.length ≤ block.length →
    ∃ frames, waveGroups k (sts.map conv) (block.drop p) = .ok frames ∧ frames.length = 8 * k ∧ (∀ f ∈ frames, f.length = sts.length) ∧
      ∀ c (hc : c < sts.length), column c frames = Spec.Ima.samples sts[c] (groupCodes sts.length block p k c) := by
  induction k with
  | zero => intro sts p _ _; exact ⟨[], rfl, rfl, (fun f hf => by cases hf), fun c _ => rfl⟩
  | succ k ih =>
    intro sts p hv hl
    have hmul : 4 * (k + 1) * sts.length = 4 * sts.length + 4 * k * sts.length := by
      rw [Nat.mul_succ, Nat.add_mul, Nat.add_comm]
    obtain ⟨cols, h1, h2⟩ := waveGroup_spec block sts p hv (by omega)
    generalize hS : (sts.mapIdx fun c s => endState s ((List.range 8).map (Spec.Ima.nibble block (p + 4 * c)))) = sts' at h1
    have hl' : sts'.length = sts.length := by rw [← hS, List.length_mapIdx]
    have hv' : ∀ s ∈ sts', SValid s := by
      intro s hs
      rw [← hS] at hs
      obtain ⟨i, hi, rfl⟩ := List.mem_mapIdx.1 hs
      exact endState_valid (hv _ (List.getElem_mem hi)) _
    obtain ⟨frames, r1, r2, r3, r4⟩ := ih sts' (p + 4 * sts.length) hv' (by rw [hl']; omega)
    have hcl : cols.length = sts.length := by rw [h2, List.length_mapIdx]
    refine ⟨interleave 8 cols ++ frames, ?_, ?_, ?_, ?_⟩
    · simp only [waveGroups]
      rw [h1]
      simp only [bind, Except.bind]
      rw [r1]
      rfl
    · rw [List.length_append, interleave_length, r2]; omega
    · intro f hf
      rcases List.mem_append.1 hf with hf | hf
      · rw [interleave_width 8 cols f hf, hcl]
      · rw [r3 f hf, hl']
    · intro c hc
      have hcc : cols[c]'(by omega) = Spec.Ima.samples sts[c] ((List.range 8).map (Spec.Ima.nibble block (p + 4 * c))) := by
        simp only [h2, List.getElem_mapIdx]
      have hss : sts'[c]'(by omega) = endState sts[c] ((List.range 8).map (Spec.Ima.nibble block (p + 4 * c))) := by
        simp only [← hS, List.getElem_mapIdx]
      rw [column_append, column_interleave 8 c cols (by omega) (by rw [hcc, samples_length, List.length_map, List.length_range]), hcc,
        r4 c (by omega), hss, groupCodes_succ, samples_append, hl']

theorem signed16_range {x : Nat} (h : x < 65536) : -32768 ≤ Spec.Ima.signed16 x ∧ Spec.Ima.signed16 x ≤ 32767 := by
  unfold Spec.Ima.signed16
  split <;> omega

theorem byteAt_lt (block : List Byte) (p : Nat) : Spec.Ima.byteAt block p < 256 := (block.getD p 0).isLt

theorem getD_of_lt {block : List Byte} {p : Nat} (h : p < block.length) : block.getD p 0 = block[p] := by
  rw [List.getD_eq_getElem?_getD, List.getElem?_eq_getElem h]; rfl

/-- The headers of a WAVE block, from channel `d` on. -/
theorem headers_spec (block : List Byte) (ch : Nat) : ∀ d : Nat, 4 * (d + ch) ≤ block.length →
    waveHeaders ch (block.drop (4 * d)) = .ok (((List.range ch).map fun c => conv (Spec.Ima.waveStart block (d + c))), block.drop (4 * (d + ch))) := by
  induction ch with
  | zero => intro d _; rfl
  | succ ch ih =>
    intro d hl
    have e0 : block.drop (4 * d) = block[4 * d] :: block[4 * d + 1] :: block[4 * d + 2] :: block.drop (4 * d + 3) := by
      rw [List.drop_eq_getElem_cons (by omega), List.drop_eq_getElem_cons (by omega), List.drop_eq_getElem_cons (by omega)]
    rw [e0]
    simp only [waveHeaders, List.drop_drop]
    rw [show 4 * d + 3 + 1 = 4 * (d + 1) by omega, ih (d + 1) (by omega)]
    simp only [bind, Except.bind, pure, Except.pure]
    have hst : (⟨if block[4 * d + 1].toNat &&& 128 ≠ 0 then ((block[4 * d + 1].toNat : Nat) : Int) * 256 + (block[4 * d].toNat : Nat) - 65536 else
        ((block[4 * d + 1].toNat : Nat) : Int) * 256 + (block[4 * d].toNat : Nat), (block[4 * d + 2].toNat : Nat)⟩ : St) = conv (Spec.Ima.waveStart block d) := by
      have e1 : Spec.Ima.byteAt block (4 * d + 1) = block[4 * d + 1].toNat := by unfold Spec.Ima.byteAt; rw [getD_of_lt]
      have e2 : Spec.Ima.byteAt block (4 * d) = block[4 * d].toNat := by unfold Spec.Ima.byteAt; rw [getD_of_lt]
      have e3 : Spec.Ima.byteAt block (4 * d + 2) = block[4 * d + 2].toNat := by unfold Spec.Ima.byteAt; rw [getD_of_lt]
      unfold Spec.Ima.waveStart Spec.Ima.signed16 conv
      dsimp only
      rw [e1, e2, e3]
      have h1 := block[4 * d + 1].isLt
      have h2 := block[4 * d].isLt
      rw [and80 _ h1]
      congr 1
      split <;> split <;> omega
    rw [hst, List.range_succ_eq_map, List.map_cons, List.map_map]
    refine congrArg Except.ok (Prod.ext ?_ ?_)
    · dsimp only
      refine congrArg _ (List.map_congr_left fun c _ => ?_)
      dsimp only [Function.comp]
      rw [show d + 1 + c = d + c.succ by omega]
    · dsimp only
      rw [show d + 1 + ch = d + (ch + 1) by omega]

/-- The channels of a QuickTime block, from channel `d` on. -/
theorem qt_spec (block : List Byte) (n ch : Nat) : ∀ d : Nat, (2 + n) * (d + ch) ≤ block.length →
    (∀ c, c < ch → Spec.Ima.byteAt block ((2 + n) * (d + c) + 1) % 128 ≤ 88) →
    qtChannels (2 * n) ch (block.drop ((2 + n) * d)) = .ok ((List.range ch).map fun c => Spec.Ima.qtChannel n block (d + c)) := by
  induction ch with
  | zero => intro d _ _; rfl
  | succ ch ih =>
    intro d hl hi
    have hm : (2 + n) * (d + (ch + 1)) = (2 + n) * d + (2 + n) + (2 + n) * ch := by
      rw [← Nat.add_assoc, Nat.mul_succ, Nat.mul_add]; omega
    generalize hp : (2 + n) * d = p at *
    have e0 : block.drop p = block[p] :: block[p + 1] :: block.drop (p + 2) := by
      rw [List.drop_eq_getElem_cons (by omega), List.drop_eq_getElem_cons (by omega)]
    have b0 : Spec.Ima.byteAt block p = block[p].toNat := by unfold Spec.Ima.byteAt; rw [getD_of_lt]
    have b1 : Spec.Ima.byteAt block (p + 1) = block[p + 1].toNat := by unfold Spec.Ima.byteAt; rw [getD_of_lt]
    have h0 := block[p].isLt
    have h1 := block[p + 1].isLt
    have hst : (⟨clamp (if ((block[p].toNat : Nat) : Int) * 256 + (block[p + 1].toNat &&& 0x80 : Nat) ≥ 0x8000 then
        ((block[p].toNat : Nat) : Int) * 256 + (block[p + 1].toNat &&& 0x80 : Nat) - 0x10000 else
        ((block[p].toNat : Nat) : Int) * 256 + (block[p + 1].toNat &&& 0x80 : Nat)) (-32768) 32767, (block[p + 1].toNat &&& 0x7f : Nat)⟩ : St) =
        conv (Spec.Ima.qtStart n block d) := by
      unfold Spec.Ima.qtStart Spec.Ima.signed16 conv
      dsimp only
      rw [hp, b0, b1, and80 _ h1, and7f _ h1, clamp_limit _ _ _ (by decide)]
      unfold Spec.Ima.limit
      congr 1
      · split <;> split <;> omega
      · omega
    have hv : SValid (Spec.Ima.qtStart n block d) := by
      have hi0 : Spec.Ima.byteAt block ((2 + n) * d + 1) % 128 ≤ 88 := hi 0 (by omega)
      rw [hp] at hi0
      unfold Spec.Ima.qtStart SValid
      dsimp only
      rw [hp]
      have := byteAt_lt block p
      have := byteAt_lt block (p + 1)
      have hs := signed16_range (x := (Spec.Ima.byteAt block p * 256 + Spec.Ima.byteAt block (p + 1)) / 128 * 128) (by omega)
      refine ⟨hs.1, hs.2, by omega, by omega⟩
    rw [e0]
    simp only [qtChannels]
    rw [hst, show (2 * n + 1) / 2 = n by omega, pairs_spec block n _ (p + 2) hv (by omega)]
    simp only [bind, Except.bind]
    have hnext : p + 2 + n = (2 + n) * (d + 1) := by rw [Nat.mul_succ, hp]; omega
    rw [hnext, ih (d + 1) (by rw [show d + 1 + ch = d + (ch + 1) by omega, hm]; omega) (fun c hc => by
      have := hi (c + 1) (by omega)
      rw [show d + 1 + c = d + (c + 1) by omega]; exact this)]
    simp only [pure, Except.pure]
    rw [List.range_succ_eq_map, List.map_cons, List.map_map]
    refine congrArg Except.ok (congr (congrArg _ ?_) (List.map_congr_left fun c _ => ?_))
    · unfold Spec.Ima.qtChannel
      rw [← hp]
      rfl
    · dsimp only [Function.comp]
      rw [show d + 1 + c = d + c.succ by omega]

end AF.IMA
