import Verif.Proof.Reading
/-!
# C12, C14, C15, C16: reading

`trackFrames c` (Verif/Spec/Track.lean) is the frame sequence of the file, `Spec.answers` the cursor
semantics (Verif/Spec/Cursor.lean).
-/
namespace AF.Reading
open AF.Spec (Call Cursor)
variable {V α γ : Type}

/-! ## Concrete tracks used to show that hypotheses are met -/

/-- 1-byte frames after a 2-byte header, 5 frames. -/
def pcmDemo : Cfg Nat Nat Nat where
  kind := .pcm
  fpp := 1
  bpp := 1
  fpp_pos := by decide
  bpp_pos := by decide
  decode p := p.map BitVec.toNat
  conv v x := v + x
  hasConv v := v != 0
  file := [90, 91, 1, 2, 3, 4, 5]
  fposFirst := 2
  totalf := 5
  seekok := true
  checks := false

/-- Packets of 1 byte that decode to 3 frames; 2 packets, 5 frames. -/
def blockDemo : Cfg Nat Nat Nat where
  kind := .block
  fpp := 3
  bpp := 1
  fpp_pos := by decide
  bpp_pos := by decide
  decode p := [(p.map BitVec.toNat).sum, (p.map BitVec.toNat).sum + 1, (p.map BitVec.toNat).sum + 2]
  conv v x := v + x
  hasConv v := v != 0
  file := [90, 91, 10, 20]
  fposFirst := 2
  totalf := 5
  seekok := true
  checks := false

theorem pcmDemo_intact : Intact pcmDemo :=
  ⟨by simp [pcmDemo], by simp [pcmDemo], by decide, by decide, by decide, rfl⟩
theorem blockDemo_intact : Intact blockDemo :=
  ⟨by simp [blockDemo], by simp [blockDemo], by decide, by decide, by decide, rfl⟩
example : trackFrames pcmDemo = [1, 2, 3, 4, 5] := by decide
example : trackFrames blockDemo = [10, 11, 12, 20, 21] := by decide

/-- What the client of a run sees. -/
def observe (c : Cfg V α γ) (v : V) (ops : List (Op V)) : Except Abort (List (Obs γ)) :=
  (run c (init c v) ops).map Prod.fst

/-- The specification's answers in the form of observations. -/
def expected (F : List α) (conv : V → α → γ) (cur : Cursor V) (ops : List (Op V)) : List (Obs γ) :=
  (Spec.answers F conv cur ops).map fun a => (a.1, a.2.map some)

theorem answers_append (F : List α) (conv : V → α → γ) : ∀ (ops rest : List (Op V)) (cur : Cursor V),
    Spec.answers F conv cur (ops ++ rest)
      = Spec.answers F conv cur ops ++ Spec.answers F conv (ops.foldl (Spec.move F) cur) rest := by
  intro ops rest
  induction ops with
  | nil => intro cur; rfl
  | cons o ops ih => intro cur; simp [Spec.answers, ih]

/-! ## C12 -/

/-- **C12** (full refinement). Any sequence of reads, seeks, position queries and virtual-format changes on
an intact track, PCM, G.711 or block-compressed, answers like a cursor over the track's frames; in
particular nothing aborts. -/
theorem C12_reading_refines_cursor (c : Cfg V α γ) (h : Intact c) (v : V) (ops : List (Op V))
    (hops : ∀ op ∈ ops, Spec.InRange (trackFrames c).length op) :
    observe c v ops =
      .ok ((Spec.answers (trackFrames c) c.conv ⟨0, v⟩ ops).map fun a => (a.1, a.2.map some)) := by
  rw [frames_eq h] at *
  obtain ⟨s', e, _⟩ := run_ok c h ops (init c v) ⟨0, v⟩ (init_rel c h v) hops
  simp [observe, e, Except.map]

/-- Reads in pieces of sizes `ns` starting at `p`, on the specification side. -/
theorem answers_reads (F : List α) (conv : V → α → γ) (v : V) (ns : List Int) : ∀ p : Nat,
    ((Spec.answers F conv ⟨p, v⟩ (ns.map Call.read)).map Prod.snd).flatten
      = ((F.drop p).take ((ns.map Int.toNat).sum)).map (conv v) := by
  induction ns with
  | nil => intro p; simp [Spec.answers]
  | cons n ns ih =>
    intro p
    simp only [List.map_cons, Spec.answers, List.flatten_cons, Spec.answer, Spec.move, List.sum_cons]
    rw [ih, List.take_add, List.map_append, List.drop_drop]
    congr 2
    rw [List.length_take, List.length_drop]
    by_cases hn : n.toNat ≤ F.length - p
    · rw [Nat.min_eq_left hn]
    · rw [Nat.min_eq_right (by omega), List.drop_eq_nil_of_le (by omega), List.drop_eq_nil_of_le (by omega)]

/-- **C12.** However the requests are divided, the concatenation of what the calls deliver is the first
`Σ nᵢ` frames of the track, each call returns the number of frames it delivered, and it is what one single
call asking for the total delivers. -/
theorem C12_read_partition_independent (c : Cfg V α γ) (h : Intact c) (v : V) (ns : List Int) :
    ∃ os, observe c v (ns.map Call.read) = .ok os
      ∧ (os.map Prod.snd).flatten
          = ((trackFrames c).take (ns.map Int.toNat).sum).map (fun a => some (c.conv v a))
      ∧ (∀ o ∈ os, o.1 = (o.2.length : Int))
      ∧ observe c v [Call.read ((ns.map Int.toNat).sum : Nat)]
          = .ok [(((os.map Prod.snd).flatten.length : Int), (os.map Prod.snd).flatten)] := by
  have hin : ∀ op ∈ ns.map (Call.read (V := V)), Spec.InRange (trackFrames c).length op := by
    intro op ho
    obtain ⟨n, _, rfl⟩ := List.mem_map.1 ho
    trivial
  have e := C12_reading_refines_cursor c h v _ hin
  have hcat := answers_reads (trackFrames c) c.conv v ns 0
  have hflat : ((List.map (fun a : Int × List γ => (a.1, a.2.map some))
        (Spec.answers (trackFrames c) c.conv ⟨0, v⟩ (ns.map Call.read))).map Prod.snd).flatten
      = ((trackFrames c).take (ns.map Int.toNat).sum).map (fun a => some (c.conv v a)) := by
    rw [List.map_map]
    have : (Prod.snd ∘ fun a : Int × List γ => (a.1, a.2.map some)) = (List.map some) ∘ Prod.snd := rfl
    rw [this, ← List.map_map, ← List.map_flatten, hcat]
    simp only [List.drop_zero, List.map_map]
    rfl
  refine ⟨_, e, hflat, ?_, ?_⟩
  · have : ∀ (ns : List Int) (p : Nat), ∀ a ∈ Spec.answers (trackFrames c) c.conv ⟨p, v⟩ (ns.map Call.read),
        a.1 = (a.2.length : Int) := by
      intro ns
      induction ns with
      | nil => intro p a ha; simp [Spec.answers] at ha
      | cons n ns ih =>
        intro p a ha
        simp only [List.map_cons, Spec.answers, List.mem_cons] at ha
        rcases ha with rfl | ha
        · rfl
        · exact ih _ a ha
    intro o ho
    obtain ⟨a, ha, rfl⟩ := List.mem_map.1 ho
    simpa using this ns 0 a ha
  · rw [C12_reading_refines_cursor c h v _ (by simp [Spec.InRange]), hflat]
    simp only [Spec.answers, Spec.answer, List.map_cons, List.map_nil, List.map_map, List.length_map, List.drop_zero, Int.toNat_natCast]
    rfl

example : observe blockDemo 0 [.read 2, .read 0, .read 2, .read 7]
    = .ok [(2, [some 10, some 11]), (0, []), (2, [some 12, some 20]), (1, [some 21])] := by
  rw [C12_reading_refines_cursor _ blockDemo_intact _ _ (by simp [Spec.InRange])]; decide

/-! ## C14 -/

/-- **C14.** Whatever was read, sought or reconfigured before, seeking to frame `k` (`0 ≤ k ≤` frame count)
returns `k`, and the following read delivers the track's frames from `k` on, in the format selected last. -/
theorem C14_seek_then_read (c : Cfg V α γ) (h : Intact c) (v : V) (ops : List (Op V))
    (hops : ∀ op ∈ ops, Spec.InRange (trackFrames c).length op)
    (k : Nat) (hk : k ≤ (trackFrames c).length) (n : Nat) :
    ∃ os, observe c v (ops ++ [.seek k, .read n]) = .ok (os ++
      [((k : Int), []),
       ((min n ((trackFrames c).length - k) : Nat),
        (((trackFrames c).drop k).take n).map
          (fun a => some (c.conv (ops.foldl (Spec.move (trackFrames c)) ⟨0, v⟩).fmt a)))]) := by
  have happ := answers_append (trackFrames c) c.conv
  rw [C12_reading_refines_cursor c h v]
  · rw [happ, List.map_append]
    refine ⟨expected (trackFrames c) c.conv ⟨0, v⟩ ops, ?_⟩
    unfold expected
    congr 2
    have : ¬ ((k : Int) < 0) := by omega
    have ht : Spec.target (trackFrames c).length k = k := by
      unfold Spec.target; rw [if_neg]; omega
    simp [Spec.answers, Spec.answer, Spec.move, this, ht]
    rfl
  · intro op ho
    rcases List.mem_append.1 ho with ho | ho
    · exact hops op ho
    · simp at ho
      rcases ho with rfl | rfl
      · left; simpa using hk
      · trivial

example : observe blockDemo 7 [.read 4, .seek 1, .seek 4, .setFormat 0, .seek 2, .read 2]
    = .ok [(4, [some 17, some 18, some 19, some 27]), (1, []), (4, []), (0, []), (2, []), (2, [some 12, some 20])] := by
  rw [C12_reading_refines_cursor _ blockDemo_intact _ _ (by simp [Spec.InRange]; decide)]; decide

/-! ## C15 -/

/-- The position a client computes from what the calls told it: a successful seek sets it to the returned
value, a read adds the returned count. -/
def bookkeeping (p : Int) : List (Op V × Obs γ) → Int
  | [] => p
  | (.read _, o) :: l => bookkeeping (p + o.1) l
  | (.seek f, o) :: l => bookkeeping (if f < 0 then p else o.1) l
  | (_, _) :: l => bookkeeping p l

theorem answers_length (F : List α) (conv : V → α → γ) (ops : List (Op V)) : ∀ cur,
    (Spec.answers F conv cur ops).length = ops.length := by
  induction ops with
  | nil => intro _; rfl
  | cons o l ih => intro cur; simp [Spec.answers, ih]

theorem target_bounds {n : Nat} {f : Int} (h0 : ¬ f < 0) (h : f ≤ n ∨ 0 < n) :
    0 ≤ Spec.target n f ∧ Spec.target n f ≤ n := by
  unfold Spec.target; split <;> omega

theorem bookkeeping_spec (F : List α) (conv : V → α → γ) (ops : List (Op V)) : ∀ cur : Cursor V,
    (∀ op ∈ ops, Spec.InRange F.length op) →
    bookkeeping (γ := γ) cur.pos (ops.zip ((Spec.answers F conv cur ops).map fun a => (a.1, a.2.map some)))
      = (ops.foldl (Spec.move F) cur).pos := by
  induction ops with
  | nil => intro cur _; rfl
  | cons o l ih =>
    intro cur hin
    have hl : ∀ op ∈ l, Spec.InRange F.length op := fun op h => hin op (by simp [h])
    simp only [Spec.answers, List.map_cons, List.zip_cons_cons, List.foldl_cons]
    rw [← ih (Spec.move F cur o) hl]
    cases o with
    | read n => simp [bookkeeping, Spec.answer, Spec.move]
    | seek f =>
      have hf := hin (.seek f) (by simp)
      by_cases h0 : f < 0
      · simp [bookkeeping, Spec.move, h0]
      · have hb := target_bounds h0 hf
        simp only [bookkeeping, Spec.answer, Spec.move, h0, if_false]
        congr 1; omega
    | tell => simp [bookkeeping, Spec.move]
    | count => simp [bookkeeping, Spec.move]
    | setFormat v => simp [bookkeeping, Spec.move]

theorem pos_le (F : List α) (ops : List (Op V)) : ∀ cur : Cursor V, cur.pos ≤ F.length →
    (∀ op ∈ ops, Spec.InRange F.length op) → (ops.foldl (Spec.move F) cur).pos ≤ F.length := by
  induction ops with
  | nil => intro cur h _; exact h
  | cons o l ih =>
    intro cur h hin
    rw [List.foldl_cons]
    apply ih _ _ (fun op ho => hin op (by simp [ho]))
    have hf := hin o (by simp)
    cases o with
    | read n => simp only [Spec.move, List.length_take, List.length_drop]; omega
    | seek f =>
      simp only [Spec.move]
      split
      · exact h
      · rename_i h0
        have hb := target_bounds h0 hf
        simp only; omega
    | tell => exact h
    | count => exact h
    | setFormat v => exact h

/-- **C15.** After any history, `afTellFrame` returns exactly the position the client computes from the
return values of its calls, this lies between 0 and the frame count, and `afGetFrameCount` returns the number
of frames of the track, unchanged by any history. -/
theorem C15_tell_is_bookkeeping (c : Cfg V α γ) (h : Intact c) (v : V) (ops : List (Op V))
    (hops : ∀ op ∈ ops, Spec.InRange (trackFrames c).length op) :
    ∃ os p, observe c v (ops ++ [.tell, .count]) = .ok (os ++ [(p, []), (c.totalf, [])])
      ∧ os.length = ops.length
      ∧ p = bookkeeping 0 (ops.zip os) ∧ 0 ≤ p ∧ p ≤ c.totalf := by
  have hlen : ((trackFrames c).length : Int) = c.totalf := by
    rw [frames_eq h, frames_length h]; have := h.total; omega
  have happ := answers_append (trackFrames c) c.conv
  refine ⟨expected (trackFrames c) c.conv ⟨0, v⟩ ops, ((ops.foldl (Spec.move (trackFrames c)) ⟨0, v⟩).pos : Int), ?_, ?_, ?_, by omega, ?_⟩
  · rw [C12_reading_refines_cursor c h v]
    · rw [happ, List.map_append]
      congr 2
      simp [Spec.answers, Spec.answer, hlen]
    · intro op ho
      rcases List.mem_append.1 ho with ho | ho
      · exact hops op ho
      · simp at ho; rcases ho with rfl | rfl <;> trivial
  · simp [expected, answers_length]
  · exact (bookkeeping_spec (trackFrames c) c.conv ops ⟨0, v⟩ hops).symm
  · have := pos_le (trackFrames c) ops ⟨0, v⟩ (by simp) hops
    omega

/-! ## C16 -/

/-- **C16** (non-empty track; the empty track is `C16_negation_…`). After any history, seeking beyond the end
goes to the last frame, which is then the one frame still to be read. -/
theorem C16_seek_past_end (c : Cfg V α γ) (h : Intact c) (v : V) (ops : List (Op V))
    (hops : ∀ op ∈ ops, Spec.InRange (trackFrames c).length op)
    (hne : 0 < c.totalf) (f : Int) (hf : c.totalf < f) (n : Nat) (hn : 0 < n) :
    ∃ os last, (trackFrames c).getLast? = some last ∧
      observe c v (ops ++ [.seek f, .read n, .tell]) = .ok (os ++
        [(c.totalf - 1, []), (1, [some (c.conv (ops.foldl (Spec.move (trackFrames c)) ⟨0, v⟩).fmt last)]),
         (c.totalf, [])]) := by
  have hlen : ((trackFrames c).length : Int) = c.totalf := by
    rw [frames_eq h, frames_length h]; have := h.total; omega
  have happ := answers_append (trackFrames c) c.conv
  obtain ⟨last, hl⟩ : ∃ last, (trackFrames c).getLast? = some last := by
    cases hh : (trackFrames c).getLast? with
    | none => rw [List.getLast?_eq_none_iff] at hh; rw [hh] at hlen; simp at hlen; omega
    | some x => exact ⟨x, rfl⟩
  refine ⟨expected (trackFrames c) c.conv ⟨0, v⟩ ops, last, hl, ?_⟩
  rw [C12_reading_refines_cursor c h v]
  · rw [happ, List.map_append]
    congr 2
    have h0 : ¬ f < 0 := by omega
    have ht : Spec.target (trackFrames c).length f = c.totalf - 1 := by
      unfold Spec.target; rw [if_pos (by omega)]; omega
    have hd : (trackFrames c).drop (c.totalf - 1).toNat = [last] := by
      have e1 : (c.totalf - 1).toNat = (trackFrames c).length - 1 := by omega
      obtain ⟨l', hl'⟩ := List.getLast?_eq_some_iff.1 hl
      rw [e1, hl']; simp
    have hn' : n = (n - 1) + 1 := by omega
    simp only [Spec.answers, Spec.answer, Spec.move, h0, if_false, ht, hd, Int.toNat_natCast]
    rw [hn']
    simp; omega
  · intro op ho
    rcases List.mem_append.1 ho with ho | ho
    · exact hops op ho
    · simp at ho
      rcases ho with rfl | rfl | rfl
      · right; omega
      · trivial
      · trivial

example : observe pcmDemo 0 [.read 1, .seek 99, .read 10]
    = .ok [(1, [some 1]), (4, []), (1, [some 5])] := by
  rw [C12_reading_refines_cursor _ pcmDemo_intact _ _ (by simp [Spec.InRange]; decide)]; decide

/-! ## Where the properties fail -/

/-- An empty PCM track (frame count 0) behind a 2-byte header. -/
def emptyPcm : Cfg Nat Nat Nat := { pcmDemo with file := [90, 91], totalf := 0 }
/-- An empty block-compressed track. -/
def emptyBlock : Cfg Nat Nat Nat := { blockDemo with file := [90, 91], totalf := 0 }

/-- **C16 is false for an empty track**, part 1: seeking past the end of an intact empty PCM track yields
position −1, and the next read delivers a byte of the file header as audio. -/
theorem C16_negation_empty_pcm_reads_header :
    Intact emptyPcm ∧
    observe emptyPcm 0 [.seek 1, .tell, .read 1] = .ok [(-1, []), (-1, []), (1, [some 91])] := by
  refine ⟨⟨by simp [emptyPcm, pcmDemo], by simp [emptyPcm, pcmDemo], by decide, by decide, by decide, rfl⟩, ?_⟩
  decide +kernel

/-- **C16 is false for an empty track**, part 2: on an empty block-compressed track the same calls end the
program (allocation of a negative number of bytes). -/
theorem C16_negation_empty_block_aborts :
    Intact emptyBlock ∧ observe emptyBlock 0 [.seek 1, .read 1] = .error .badAlloc := by
  refine ⟨⟨by simp [emptyBlock, blockDemo], by simp [emptyBlock, blockDemo], by decide, by decide, by decide, rfl⟩, ?_⟩
  decide +kernel

/-- A PCM file cut short: the header promises 5 frames, 3 are there. -/
def truncPcm : Cfg Nat Nat Nat := { pcmDemo with file := [90, 91, 1, 2, 3] }
/-- A block-compressed file cut short: the header promises 5 frames, one packet (3 frames) is there. -/
def truncBlock : Cfg Nat Nat Nat := { blockDemo with file := [90, 91, 10] }

/-- **C12 is false for truncated files** (a): one call for all frames delivers nothing, although the frames
present can be read by smaller requests. -/
theorem C12_negation_truncated_pcm :
    observe truncPcm 0 [.read 5] = .ok [(0, [])] ∧
    observe truncPcm 0 [.read 3, .read 2] = .ok [(3, [some 1, some 2, some 3]), (0, [])] := by
  constructor <;> decide +kernel

/-- **C12 is false for truncated files** (b): in a block-compressed file, too, one request for everything delivers
nothing; afterwards the frames that are present stay out of reach even after seeking to the current
position 0 (`afSeekFrame` to the current position does nothing), but not after seeking elsewhere first. -/
theorem C12_negation_truncated_block :
    observe truncBlock 0 [.read 3, .read 2] = .ok [(3, [some 10, some 11, some 12]), (0, [])] ∧
    observe truncBlock 0 [.read 5, .read 3, .seek 0, .read 3, .seek 1, .seek 0, .read 3]
      = .ok [(0, []), (0, []), (0, []), (0, []), (1, []), (0, []), (3, [some 10, some 11, some 12])] := by
  constructor <;> decide +kernel

/-- In a build with assertions a second call after the short one stops the program. -/
theorem C12_negation_truncated_block_asserts :
    observe { truncBlock with checks := true } 0 [.read 3, .read 2, .read 2] = .error .assertFailed := by
  decide +kernel

/-- Raw data on a non-seekable source: frame count unknown (−1), three frames present. -/
def rawPipe : Cfg Nat Nat Nat :=
  { pcmDemo with file := [1, 2, 3], fposFirst := 0, totalf := -1, seekok := false }

/-- **C15 is false when the length is unknown and a conversion is active**: at the end of the data each read
still claims to have delivered everything asked for, without having stored anything. -/
theorem C15_negation_unknown_length :
    observe rawPipe 0 [.read 2, .read 5, .read 5] = .ok [(2, [some 1, some 2]), (1, [some 3]), (0, [])] ∧
    observe rawPipe 7 [.read 2, .read 5, .read 5]
      = .ok [(2, [some 8, some 9]), (5, [some 10, none, none, none, none]), (5, [none, none, none, none, none])] := by
  constructor <;> decide +kernel

end AF.Reading
