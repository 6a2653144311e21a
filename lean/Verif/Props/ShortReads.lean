import Verif.Proof.ShortReads
import Verif.Props.Reading
/-!
# C69: reads that come short

`afReadFrames` never counts a wrong frame before, and in, the first call that comes short; a seek to another position or a new virtual
format finds the place again; in between anything may be delivered.
-/
namespace AF.ShortReads
open AF AF.Reading AF.Spec AF.Spec.ShortReads
variable {V α γ : Type} (seen : Nat → Nat)

/-- C69: whatever the reads deliver, no call leaves defined behaviour, and the answers are a conversation of the specification. -/
theorem C69_conversation (c : Cfg V α γ) (h : Intact c) (hc : c.checks = false) (v : V) (ops : List (Op V))
    (hops : ∀ op ∈ ops, InRange (trackFrames c).length op) :
    ∃ os, observe seen c v ops = .ok os ∧ Conversation (trackFrames c) c.conv ⟨⟨0, v⟩, false⟩ ops os := by
  rw [frames_eq h] at hops ⊢
  have hr := init_rel c h v
  obtain ⟨os, x', e1, c1⟩ := run_knows (seen := seen) c h hc ops ⟨init c v, 0⟩ ⟨⟨0, v⟩, false⟩ ⟨Alive.of_rel h hr, fun _ => hr⟩ hops
  exact ⟨os, by simp only [observe, e1, bind, Except.bind]; rfl, c1⟩

/-- Reads that are complete keep a reader that knows its place. -/
theorem conversation_reads {F : List α} {conv : V → α → γ} (v : V) : ∀ (ns : List Int) (os : List (Obs γ)) (n : Int) (o : Obs γ) (p : Nat),
    p ≤ F.length → Conversation F conv ⟨⟨p, v⟩, false⟩ (ns.map .read ++ [.read n]) (os ++ [o]) →
    os.map Prod.fst = ns → (∀ k ∈ ns, 0 < k) →
    (os ++ [o]).flatMap Prod.snd = ((F.drop p).take ((os ++ [o]).flatMap Prod.snd).length).map (fun a => some (conv v a)) ∧ o.1 ≤ max 0 n := by
  intro ns
  induction ns with
  | nil =>
    intro os n o p _ hcv he _
    obtain rfl : os = [] := by simpa using he
    obtain ⟨r', ⟨a1, a2, a3, a4⟩, -⟩ := hcv
    obtain ⟨a5, -⟩ := a4 rfl
    constructor
    · simp only [List.nil_append, List.flatMap_cons, List.flatMap_nil, List.append_nil]
      rw [due, ← List.map_take, List.take_take, List.map_map] at a5
      rw [due, List.length_map] at a2
      have : min o.2.length n.toNat = o.2.length := by
        rw [List.length_take] at a2; simp only at a2; omega
      rw [this] at a5
      exact a5
    · rw [due, List.length_map, List.length_take] at a2
      rw [a1]
      omega
  | cons k ns ih =>
    intro os n o p hp hcv he hpos
    cases os with
    | nil => simp at he
    | cons o1 os =>
      simp only [List.map_cons, List.cons.injEq] at he
      obtain ⟨he1, he2⟩ := he
      have hk := hpos k (by simp)
      obtain ⟨⟨⟨p', v'⟩, l'⟩, ⟨a1, a2, a3, a4⟩, hcv⟩ := hcv
      obtain ⟨a5, a6⟩ := a4 rfl
      have hlk : (o1.2.length : Int) = k := by rw [← a1, he1]
      have hfull : o1.2.length = (due F conv ⟨p, v⟩ k).length := by
        have : (due F conv ⟨p, v⟩ k).length ≤ k.toNat := by simp [due]; omega
        simp only at a2
        omega
      have hl' := a6 (by omega) hfull
      simp only at hl' a3
      subst hl'
      have hdl : (due F conv ⟨p, v⟩ k).length = min k.toNat (F.length - p) := by simp [due]
      simp only [Cursor.mk.injEq] at a3
      obtain ⟨rfl, rfl⟩ := a3
      obtain ⟨i1, i2⟩ := ih os n o (p + o1.2.length) (by omega) hcv he2 (fun q hq => hpos q (by simp [hq]))
      refine ⟨?_, i2⟩
      rw [List.cons_append, List.flatMap_cons, List.length_append, List.take_add, List.drop_drop, List.map_append, ← i1]
      congr 1
      rw [due, ← List.map_take, List.take_take, List.map_map] at a5
      have : min o1.2.length k.toNat = o1.2.length := by omega
      rw [this] at a5
      exact a5

/-- C69: a program that reads on and on, in requests of any size: up to and including the first call that delivers fewer frames than it
was asked for, all frames together are the first frames of the track, each in its place. -/
theorem C69_until_short (c : Cfg V α γ) (h : Intact c) (hc : c.checks = false) (v : V) (ns : List Int) (n : Int) (os : List (Obs γ)) (o : Obs γ)
    (hpos : ∀ k ∈ ns, 0 < k) (he : observe seen c v (ns.map .read ++ [.read n]) = .ok (os ++ [o])) (hfull : os.map Prod.fst = ns) :
    (os ++ [o]).flatMap Prod.snd
      = ((trackFrames c).take ((os ++ [o]).flatMap Prod.snd).length).map (fun a => some (c.conv v a)) ∧ o.1 ≤ max 0 n := by
  obtain ⟨os', e1, c1⟩ := C69_conversation seen c h hc v (ns.map .read ++ [.read n]) (by
    intro op ho
    rcases List.mem_append.1 ho with ho | ho
    · obtain ⟨k, -, rfl⟩ := List.mem_map.1 ho
      trivial
    · obtain rfl := List.mem_singleton.1 ho
      trivial)
  rw [he] at e1
  obtain rfl := Except.ok.inj e1
  exact conversation_reads v ns os n o 0 (by omega) c1 hfull hpos

/-- The delivery format after some calls. -/
def formatAfter (v : V) (ops : List (Op V)) : V := ops.foldl (fun v op => match op with | .setFormat w => w | _ => v) v

theorem conversation_append {F : List α} {conv : V → α → γ} : ∀ (pre rest : List (Op V)) (os : List (Obs γ)) (r : Reader V),
    Conversation F conv r (pre ++ rest) os →
    ∃ os1 os2 r', os = os1 ++ os2 ∧ os1.length = pre.length ∧ r'.cur.fmt = formatAfter r.cur.fmt pre ∧ Conversation F conv r' rest os2 := by
  intro pre
  induction pre with
  | nil => intro rest os r hcv; exact ⟨[], os, r, rfl, rfl, rfl, hcv⟩
  | cons op pre ih =>
    intro rest os r hcv
    cases os with
    | nil => exact hcv.elim
    | cons o os =>
      obtain ⟨r1, a1, hcv⟩ := hcv
      obtain ⟨os1, os2, r', rfl, hl, hf, hcv⟩ := ih rest os r1 hcv
      refine ⟨o :: os1, os2, r', rfl, by simp [hl], ?_, hcv⟩
      rw [hf]
      have hv : r1.cur.fmt = formatAfter r.cur.fmt [op] := by
        cases op with
        | read n => exact (by rw [a1.2.2.1]; rfl)
        | seek f =>
          rw [a1.2.1]
          simp only [move]
          split <;> rfl
        | tell => exact (by rw [a1.2.1]; rfl)
        | count => exact (by rw [a1.2.1]; rfl)
        | setFormat w => exact (by rw [a1.2.1]; rfl)
      rw [hv]
      rfl

theorem conversation_length {F : List α} {conv : V → α → γ} : ∀ (ops : List (Op V)) (os : List (Obs γ)) (r : Reader V),
    Conversation F conv r ops os → os.length = ops.length := by
  intro ops
  induction ops with
  | nil => intro os r h; cases os with | nil => rfl | cons o os => exact h.elim
  | cons op ops ih =>
    intro os r h
    cases os with
    | nil => exact h.elim
    | cons o os => obtain ⟨r', -, h⟩ := h; simp [ih os r' h]

/-- C69: whatever happened before: after a seek to another position than the one `afTellFrame` reports, the next read delivers the right
frames, possibly fewer than it was asked for. -/
theorem C69_recovers (c : Cfg V α γ) (h : Intact c) (hc : c.checks = false) (v : V) (pre : List (Op V)) (k n : Nat)
    (hops : ∀ op ∈ pre, InRange (trackFrames c).length op) (hk : k ≤ (trackFrames c).length)
    (os : List (Obs γ)) (p : Int) (a : Obs γ) (r : Int) (fs : List (Option γ))
    (he : observe seen c v (pre ++ [.tell, .seek k, .read n]) = .ok (os ++ [(p, []), a, (r, fs)])) (hp : p ≠ k) :
    a = ((k : Int), []) ∧ r = fs.length ∧ fs.length ≤ n ∧
    fs = (((trackFrames c).drop k).take fs.length).map (fun x => some (c.conv (formatAfter v pre) x)) := by
  obtain ⟨os', e1, c1⟩ := C69_conversation seen c h hc v (pre ++ [.tell, .seek k, .read n]) (by
    intro op ho
    rcases List.mem_append.1 ho with ho | ho
    · exact hops op ho
    · simp at ho
      rcases ho with rfl | rfl | rfl
      · trivial
      · exact Or.inl (by omega)
      · trivial)
  rw [he] at e1
  obtain rfl := Except.ok.inj e1
  obtain ⟨os1, os2, r1, e2, hl, hf, hcv⟩ := conversation_append _ _ _ _ c1
  have hl2 := conversation_length _ _ _ hcv
  obtain ⟨-, e3⟩ := List.append_inj' e2 (by rw [hl2]; rfl)
  subst e3
  obtain ⟨r2, ⟨t1, t2, -⟩, r3, ⟨s1, s2, s3⟩, r4, ⟨d1, d2, -, d4⟩, -⟩ := hcv
  have hpos : p = r1.cur.pos := (Prod.mk.inj t1).1
  have hlost : r3.lost = false := s3 (.inr ⟨by omega, by rw [t2, ← hpos]; exact fun q => hp q.symm⟩)
  have ht : target (trackFrames c).length (k : Int) = k := by unfold target; rw [if_neg]; omega
  have hneg : ¬ ((k : Int) < 0) := by omega
  have hcur : r3.cur = ⟨k, formatAfter v pre⟩ := by
    rw [s2]
    simp only [move, hneg, if_false, ht, Int.toNat_natCast, t2, hf]
  refine ⟨?_, d1, ?_, ?_⟩
  · rw [s1]
    simp only [answer, hneg, if_false, ht]
  · have : (due (trackFrames c) c.conv r3.cur (n : Int)).length ≤ n := by simp [due]; omega
    simp only at d2
    omega
  · obtain ⟨d5, -⟩ := d4 hlost
    simp only at d5 d2
    rw [hcur, due, ← List.map_take, List.take_take, List.map_map] at d5
    have : min fs.length (n : Int).toNat = fs.length := by
      rw [due, List.length_map, List.length_take] at d2
      omega
    rw [this] at d5
    exact d5

/-- C69: frames that are there can be read: if every read sees the packets of the first `E` frames, as in a file that was cut off behind
them, and the program asks for no frames beyond, then all answers are complete and right. With `E` the number of all frames this is
the fault-free case. -/
theorem C69_present (c : Cfg V α γ) (h : Intact c) (hc : c.checks = false) (v : V) (E : Nat)
    (hE : ∀ t, c.fposFirst + (c.bpp * ((E + c.fpp - 1) / c.fpp) : Nat) ≤ seen t) (ops : List (Op V))
    (hops : ∀ op ∈ ops, InRange (trackFrames c).length op) (hst : StaysBefore (trackFrames c) E ⟨0, v⟩ ops) :
    observe seen c v ops = .ok (expected (trackFrames c) c.conv ⟨0, v⟩ ops) := by
  rw [frames_eq h] at hops hst ⊢
  obtain ⟨x', e1⟩ := run_enough (seen := seen) c h hc E hE ops ⟨init c v, 0⟩ ⟨0, v⟩ (init_rel c h v) hops hst
  simp only [observe, e1, bind, Except.bind]
  rfl

/-- The demo file of packets, cut off after its first packet. -/
example : observe (fun _ => 3) blockDemo 7 [.read 2, .seek 0, .read 3] = .ok [(2, [some 17, some 18]), (0, []), (3, [some 17, some 18, some 19])] := by
  decide +kernel

/-- C69 says nothing about a reader that lost its place, and the library does deliver wrong frames then: of 5 frames only 2 come with the
first read; the program asks again and gets the frames from the third on as if they were the first. -/
theorem C69_negation_misplaced :
    observe (fun i => if i = 0 then 4 else 7) pcmDemo 0 [.read 5, .tell, .read 3] = .ok [(0, []), (0, []), (3, [some 3, some 4, some 5])] ∧
    observe (fun i => if i = 0 then 4 else 7) pcmDemo 0 [.read 5, .seek 0, .read 3] = .ok [(0, []), (0, []), (3, [some 3, some 4, some 5])] := by
  constructor <;> decide +kernel

/-- With a conversion between the file and the program, calls after a short one count frames that were never stored (`SimpleModule::runPull`
does not look at the number of frames it got): for the end of an uncompressed track, and for everything in an ADPCM track. -/
theorem C69_negation_phantom_frames :
    observe (fun i => if i = 0 then 4 else 7) pcmDemo 7 [.read 5, .read 5] = .ok [(0, []), (5, [some 10, some 11, some 12, none, none])] ∧
    observe (fun _ => 3) blockDemo 7 [.read 5, .read 5] = .ok [(0, []), (5, [none, none, none, none, none])] := by
  constructor <;> decide +kernel

/-- Frames of two bytes. -/
def pcmPairs : Cfg Nat Nat Nat where
  kind := .pcm
  fpp := 1
  bpp := 2
  fpp_pos := by decide
  bpp_pos := by decide
  decode p := [p.foldl (fun a b => 100 * a + b.toNat) 0]
  conv v x := v + x
  hasConv v := v != 0
  file := [90, 91, 1, 2, 3, 4, 5, 6, 7, 8]
  fposFirst := 2
  totalf := 4
  seekok := true
  checks := false

/-- A part of a frame that was delivered shifts all bytes that follow. -/
theorem C69_negation_shifted :
    observe (fun i => if i = 0 then 5 else 10) pcmPairs 0 [.read 4, .read 2] = .ok [(0, []), (2, [some 405, some 607])] ∧
    observe (fun _ => 10) pcmPairs 0 [.read 4] = .ok [(4, [some 102, some 304, some 506, some 708])] := by
  constructor <;> decide +kernel

/-- The seek that helps. -/
example : observe (fun i => if i = 0 then 5 else 10) pcmPairs 0 [.read 4, .tell, .seek 1, .read 3]
    = .ok [(0, []), (0, []), (1, []), (3, [some 304, some 506, some 708])] := by decide +kernel

end AF.ShortReads
