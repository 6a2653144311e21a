import Verif.Proof.Faults
import Verif.Props.Writing
/-!
# C68: a full disk

`afWriteFrames` counts the frames that reached the file, in chunks of 1024; nothing tells the program about frames that
`afSyncFile` or `afCloseFile` could not write.
-/
namespace AF.Faults
open AF AF.Writing AF.Spec.Faults
variable {V α γ ε : Type} (taken : Nat → Nat → Nat)

/-- The states that calls with success go through. -/
theorem reach (c : Cfg V α γ ε) (h : WF c) (hc : c.checks = false) (hk : c.kind ≠ .block) (e : ε) (v : V) (ops : List (Op V γ))
    (hp : ∀ a b, ops = a ++ .sync :: b → Place c (handed c.conv v a).length)
    (hs : AllSuccess ops (run taken c ⟨init e v, true, 0⟩ ops).1) :
    Inv c e False (run taken c ⟨init e v, true, 0⟩ ops).2.s (handed c.conv v ops) := by
  have hsim := run_sim c h hc ops (fun hb => absurd hb hk) ⟨init e v, true, 0⟩ hs
  have h1 := h.one hk
  obtain ⟨s', e1, -, i1⟩ := run_close c h e False ops (init e v) [] true (init_inv c False e v) ⟨.inl rfl, fun _ _ => rfl⟩
    (fun f => f.elim) (by rw [h1, hc]; exact syncOK_one _ c.conv ops 0 v (by simpa using hp))
  rw [hsim] at e1
  obtain rfl := Except.ok.inj e1
  rw [List.nil_append] at i1
  exact i1

/-- C68: uncompressed and G.711 tracks: if every call reports success, the file is the one that a disk with room for everything
would hold. -/
theorem C68_success (c : Cfg V α γ ε) (h : WF c) (hc : c.checks = false) (hk : c.kind ≠ .block) (e : ε) (v : V) (ops : List (Op V γ))
    (hs : AllSuccess ops (session taken c e v ops).1) :
    Writing.session c e v ops = .ok (session taken c e v ops).2.2 := by
  have hsim := run_sim c h hc ops (fun hb => absurd hb hk) ⟨init e v, true, 0⟩ hs
  unfold Writing.session
  simp only [bind, Except.bind, hsim]
  unfold Writing.close
  simp only [bind, Except.bind, (syncFile_sim (taken := taken) c hk hc _).2]
  rfl

/-- C68: uncompressed and G.711 tracks: up to the first call that does not report success (here the last), the file holds the
first bytes of what it should hold; among them are at least all frames that were counted; the header counts the frames that are
there as a whole; and all frames of the call are there exactly if it says so. -/
theorem C68_first_failure (c : Cfg V α γ ε) (h : WF c) (hc : c.checks = false) (hk : c.kind ≠ .block) (e : ε) (v : V)
    (pre : List (Op V γ)) (xs : List γ) (rs : List Int) (r r' : Int) (fin : Final)
    (hp : ∀ a b, pre = a ++ .sync :: b → Place c (handed c.conv v a).length)
    (he : session taken c e v (pre ++ [.write xs]) = (rs ++ [r], r', fin)) (hs : AllSuccess pre rs) :
    ∃ m k : Nat, r = k ∧ k ≤ xs.length ∧
      fin = ⟨(Spec.fileData c.fpp c.encode e c.junk (handed c.conv v (pre ++ [.write xs]))).take m, m, (m / c.bpp : Nat)⟩ ∧
      ((handed c.conv v pre).length + k) * c.bpp ≤ m ∧
      (k = xs.length ↔ m = (Spec.fileData c.fpp c.encode e c.junk (handed c.conv v (pre ++ [.write xs]))).length) := by
  have h1 := h.one hk
  unfold session at he
  rw [run_append] at he
  simp only [run, Prod.mk.injEq] at he
  obtain ⟨ers, ecl⟩ := he
  obtain ⟨ea, eb⟩ := List.append_inj' ers rfl
  have hsp : AllSuccess pre (run taken c ⟨init e v, true, 0⟩ pre).1 := by rw [ea]; exact hs
  have hinv := reach taken c h hc hk e v pre hp hsp
  have hxv := run_v (taken := taken) c pre ⟨init e v, true, 0⟩
  generalize (run taken c ⟨init e v, true, 0⟩ pre).2 = x at hinv eb ecl hxv
  obtain ⟨m, k, g1, g2, g3, g4, g5⟩ := writeFrames_part (taken := taken) c h hc hk e False xs x _ hinv
  have hv : x.s.v = formatAfter v pre := hxv
  have hF : handed c.conv v (pre ++ [.write xs]) = handed c.conv v pre ++ xs.map (c.conv x.s.v) := by rw [handed_snoc, hv]
  have hD : Spec.fileData c.fpp c.encode e c.junk (handed c.conv v (pre ++ [.write xs]))
      = (sp c (handed c.conv v (pre ++ [.write xs])).length e (handed c.conv v (pre ++ [.write xs]))).1 := by
    unfold Spec.fileData
    simp [h1, sp]
  have hDl : (Spec.fileData c.fpp c.encode e c.junk (handed c.conv v (pre ++ [.write xs]))).length
      = ((handed c.conv v pre).length + xs.length) * c.bpp := by
    rw [hD, sp_len h _ _ _ (by rw [h1]; omega), hF, List.length_append, List.length_map]
  rw [hDl]
  refine ⟨m, k, ?_, g2, ?_, g4, g5⟩
  · have := List.cons.inj eb
    exact this.1.symm.trans g1
  · have hcl : close taken c (writeFrames taken c xs x).2 = (r', fin) := ecl
    rw [close_nonblock c hk] at hcl
    have := (Prod.mk.inj hcl).2
    rw [← this, g3.data, g3.size, g3.totalf, hD, hF]

/-- C68: on a disk with room for everything the session is that of `Verif.Model.Writing`, for all kinds of tracks and all calls. -/
theorem C68_room (hr : Roomy taken) (c : Cfg V α γ ε) (h : WF c) (hc : c.checks = false) (e : ε) (v : V) (ops : List (Op V γ)) :
    Writing.session c e v ops = .ok (session taken c e v ops).2.2 := by
  unfold Writing.session
  simp only [bind, Except.bind, run_same hr c h hc ops ⟨init e v, true, 0⟩]
  unfold Writing.close
  simp only [bind, Except.bind, (syncFile_same hr c hc _).2]
  rfl

/-- C68: and all calls report success. -/
theorem C68_room_results (hr : Roomy taken) (c : Cfg V α γ ε) (h : WF c) (hc : c.checks = false) (e : ε) (v : V) (ops : List (Op V γ))
    (hs : SyncOK (Place c) c.fpp false 0 true ops) : AllSuccess ops (session taken c e v ops).1 := by
  have key : ∀ (ops : List (Op V γ)) (x : FSt V α ε) (X : List α) (ready : Bool), Inv c e False x.s X →
      SyncOK (Place c) c.fpp false X.length ready ops → AllSuccess ops (run taken c x ops).1 := by
    intro ops
    induction ops with
    | nil => intro x X _ _ _ p hp; cases hp
    | cons op ops ih =>
      intro x X ready hi hs p hp
      simp only [run, List.zip_cons_cons, List.mem_cons] at hp
      cases op with
      | write xs =>
        have hnn : 0 ≤ c.first + x.s.fposNext := by
          obtain ⟨⟨_, _, hcore, _⟩, _, _⟩ := hi
          have := hcore.fpos
          omega
        have hr1 := writeFrames_roomy hr c h xs x hnn
        rcases hp with rfl | hp
        · exact hr1
        · obtain ⟨s1, e1, -, -, -, -, i1⟩ := writeFrames_ok c h e False x.s X xs hi
          rw [writeFrames_sim c h hc xs x hr1] at e1
          have e2 := (Prod.mk.inj (Except.ok.inj e1)).2
          rw [← e2] at i1
          refine ih _ _ true i1 ?_ p hp
          rw [List.length_append, List.length_map]
          exact hs
      | sync =>
        obtain ⟨hr1, hm, hpl, hs⟩ := hs
        rcases hp with rfl | hp
        · exact (syncFile_same hr c hc x).1
        · obtain ⟨s1, e1, -, -, -, -, -, -, -, -, hp1⟩ := syncFile_ok c h e False x.s X hi (by rw [hc]; intro q; cases q) (held_len hi hm)
          obtain ⟨-, i1⟩ := hp1 hpl
          rw [(syncFile_same hr c hc x).2] at e1
          rw [← Except.ok.inj e1] at i1
          exact ih _ _ _ i1 hs p hp
      | setFormat w =>
        rcases hp with rfl | hp
        · rfl
        · refine ih _ X ready ?_ hs p hp
          have i1 : Inv c e False { x.s with v := w, dirty := true } X := by
            obtain ⟨⟨Y, k, hcore, hX, hh, hob⟩, hf, hnb⟩ := hi
            refine ⟨⟨Y, k, ⟨hcore.len, hcore.data, hcore.enc, hcore.fpos, hcore.size, hcore.nextf, hcore.totalf⟩, hX, hh, ?_⟩, ?_, hnb⟩
            · intro _ hd; exact absurd hd (by simp)
            · intro f; exact f.elim
          exact i1
  exact key ops ⟨init e v, true, 0⟩ [] true (init_inv c False e v) hs

/-- C68: packet codecs without `afSyncFile`: if every `afWriteFrames` counts all its frames, all whole packets are in the file; of the
last packet, which is written when the file is closed, only a part may be there, and then its frames are not counted. The result of
`afCloseFile` is 0 either way. -/
theorem C68_packets (c : Cfg V α γ ε) (h : WF c) (hc : c.checks = false) (hk : c.kind = .block) (e : ε) (v : V) (ops : List (Op V γ))
    (hn : ∀ op ∈ ops, op ≠ .sync) (hs : AllSuccess ops (session taken c e v ops).1) :
    ∃ (pad : List α) (m : Nat), pad.length = c.fpp ∧
      (session taken c e v ops).2 = (0, ⟨(Spec.fileData c.fpp c.encode e pad (handed c.conv v ops)).take m, m,
        if m = (Spec.fileData c.fpp c.encode e pad (handed c.conv v ops)).length then (handed c.conv v ops).length
        else ((handed c.conv v ops).length / c.fpp * c.fpp : Nat)⟩) ∧
      (handed c.conv v ops).length / c.fpp * c.bpp ≤ m ∧ m ≤ (Spec.fileData c.fpp c.encode e pad (handed c.conv v ops)).length := by
  have hsim := run_sim c h hc ops (fun _ => hn) ⟨init e v, true, 0⟩ hs
  obtain ⟨s', e1, r1, i1⟩ := run_close c h e False ops (init e v) [] true (init_inv c False e v) ⟨.inl rfl, fun _ _ => rfl⟩
    (fun f => f.elim) (syncOK_noSync _ _ _ _ hn 0)
  rw [hsim] at e1
  obtain rfl := Except.ok.inj e1
  rw [List.nil_append] at i1
  exact close_block c h hk e _ _ i1 r1.1

/-- Nothing has reached the file. -/
structure Blank (x : FSt V α ε) : Prop where
  data : x.s.data = []
  size : x.s.dataSize = 0
  fpos : x.s.fposNext = 0
  nextf : x.s.nextf = 0
  totalf : x.s.totalf = 0

theorem blank_init (e : ε) (v : V) : Blank (α := α) ⟨init e v, true, 0⟩ := ⟨rfl, rfl, rfl, rfl, rfl⟩

theorem filePush_full (c : Cfg V α γ ε) (hk : c.kind = .block) (buf : List α) (n : Nat) (x : FSt V α ε) (hb : Blank x) :
    Blank (filePush (fun _ _ => 0) c buf n x) := by
  unfold filePush fwrite Writing.fwrite
  simp only [hk]
  have hz : ∀ n, min 0 n = 0 := fun n => Nat.zero_min n
  simp only [hz, List.take_zero, List.drop_nil, List.length_nil, Nat.zero_div, Nat.zero_mul, Nat.zero_min]
  split <;> exact ⟨by simp [hb.data], by simp [hb.size], by simp [hb.fpos], by simp [hb.nextf], by simp [hb.nextf]⟩

theorem writeLoop_full (c : Cfg V α γ ε) (hk : c.kind = .block) : ∀ (m : Nat) (xs : List γ) (x : FSt V α ε), xs.length ≤ m → Blank x →
    x.happy = true → x.s.held.length + xs.length < c.fpp →
    ∃ y, writeLoop (fun _ _ => 0) c xs x = (xs.length, y) ∧ Blank y := by
  intro m
  induction m with
  | zero =>
    intro xs x hm hb _ _
    have : xs.length = 0 := by omega
    unfold writeLoop
    rw [dif_pos this]
    exact ⟨x, by rw [this], hb⟩
  | succ m ih =>
    intro xs x hm hb hh hl
    unfold writeLoop
    by_cases h0 : xs.length = 0
    · rw [dif_pos h0]
      exact ⟨x, by rw [h0], hb⟩
    · rw [dif_neg h0]
      have ec : chainPush (fun _ _ => 0) c (xs.take 1024) x
          = { x with s := { x.s with held := x.s.held ++ (xs.take 1024).map (c.conv x.s.v) } } := by
        unfold chainPush rebufPush
        simp only [hk]
        unfold pushLoop
        rw [dif_neg (by simp only [List.length_map, List.length_take]; omega)]
      rw [ec]
      obtain ⟨y, e1, b1⟩ := ih (xs.drop 1024) { x with s := { x.s with held := x.s.held ++ (xs.take 1024).map (c.conv x.s.v) } }
        (by simp; omega) ⟨hb.data, hb.size, hb.fpos, hb.nextf, hb.totalf⟩ hh
        (by simp only [List.length_append, List.length_map, List.length_take, List.length_drop]; omega)
      refine ⟨y, ?_, b1⟩
      dsimp only
      rw [if_pos hh, e1]
      simp only [List.length_take, List.length_drop]
      rw [show min 1024 xs.length + (xs.length - 1024) = xs.length by omega]

theorem writeFrames_full (c : Cfg V α γ ε) (hk : c.kind = .block) (xs : List γ) (x : FSt V α ε) (hb : Blank x)
    (hl : x.s.held.length + xs.length < c.fpp) (hf : 0 ≤ c.first) :
    ∃ y, writeFrames (fun _ _ => 0) c xs x = ((xs.length : Int), y) ∧ Blank y := by
  unfold writeFrames
  have hy : Blank (if x.s.dirty then { x with s := setup c x.s } else x) := by
    split
    · exact ⟨hb.data, hb.size, hb.fpos, hb.nextf, hb.totalf⟩
    · exact hb
  have hh : (if x.s.dirty then { x with s := setup c x.s } else x).s.held = x.s.held := by split <;> rfl
  dsimp only
  generalize (if x.s.dirty then { x with s := setup c x.s } else x) = y at hy hh
  rw [if_neg (by rw [hy.fpos]; omega)]
  obtain ⟨z, e1, b1⟩ := writeLoop_full c hk xs.length xs { y with s := { y.s with filePos := y.s.fposNext }, happy := true } (Nat.le_refl _)
    ⟨hy.data, hy.size, hy.fpos, hy.nextf, hy.totalf⟩ rfl (by rw [← hh] at hl; exact hl)
  rw [e1]
  exact ⟨_, rfl, b1.data, b1.size, b1.fpos, b1.nextf, b1.totalf⟩

theorem syncFile_full (c : Cfg V α γ ε) (hk : c.kind = .block) (x : FSt V α ε) (hb : Blank x) :
    (syncFile (fun _ _ => 0) c x).1 = 0 ∧ Blank (syncFile (fun _ _ => 0) c x).2 := by
  unfold syncFile
  have hy : Blank (if x.s.dirty then { x with s := setup c x.s } else x) := by
    split
    · exact ⟨hb.data, hb.size, hb.fpos, hb.nextf, hb.totalf⟩
    · exact hb
  dsimp only
  generalize (if x.s.dirty then { x with s := setup c x.s } else x) = y at hy
  unfold syncModules
  have b := filePush_full c hk (y.s.held ++ y.s.outBuf.drop y.s.held.length) y.s.held.length
    ⟨{ y.s with outBuf := y.s.held ++ y.s.outBuf.drop y.s.held.length }, true, y.tick⟩ ⟨hy.data, hy.size, hy.fpos, hy.nextf, hy.totalf⟩
  simp [hk]
  exact ⟨b.data, b.size, hy.fpos, hy.nextf, b.totalf⟩

/-- C68 is false for packet codecs beyond that: a disk that is full when the last packet comes makes neither `afWriteFrames` nor
`afSyncFile` nor `afCloseFile` report anything, but the frames of that packet are lost: `filemodhappy` is looked at before the packet
is written (ModuleState.cpp:236), and `afCloseFile` does not look at all. For every packet codec and any number of
frames that does not fill a packet. -/
theorem C68_negation_lost_silently (c : Cfg V α γ ε) (hk : c.kind = .block) (e : ε) (v : V) (xs : List γ) (hshort : xs.length < c.fpp) :
    session (fun _ _ => 0) c e v [.write xs] = ([(xs.length : Int)], 0, ⟨[], 0, 0⟩) ∧
    session (fun _ _ => 0) c e v [.write xs, .sync] = ([(xs.length : Int), 0], 0, ⟨[], 0, 0⟩) := by
  obtain ⟨x, e1, b1⟩ := writeFrames_full c hk xs ⟨init e v, true, 0⟩ (blank_init e v) (by simpa [init] using hshort) (by omega)
  obtain ⟨r2, b2⟩ := syncFile_full c hk x b1
  obtain ⟨r3, b3⟩ := syncFile_full c hk _ b2
  constructor
  · unfold session close
    simp only [run, step, e1]
    rw [b2.data, b2.size, b2.totalf]
  · unfold session close
    simp only [run, step, e1, r2]
    rw [b3.data, b3.size, b3.totalf]

/-- A track of two bytes per frame. -/
def wideDemo : Cfg Nat Nat Nat Unit where
  kind := .pcm
  fpp := 1
  bpp := 2
  fpp_pos := by decide
  bpp_pos := by decide
  first := 5
  encode _ fs := ([BitVec.ofNat 8 (fs.headD 0), 0], ())
  conv v x := v + x
  afterUpdate := some (-5)
  junk := [0]
  checks := false

theorem wideDemo_wf : WF wideDemo := ⟨by intros; rfl, by intros; rfl, rfl⟩

/-- C68 is false for programs that go on after a short count: the frames of an incomplete chunk that reached the file are not
counted, so that writing the rest again doubles them, and a part of a frame shifts all that follows. Here 3 of 8 bytes are taken,
`afWriteFrames` counts 0 of 4 frames, and the program writes the 4 frames again. -/
theorem C68_negation_retry : session (fun i n => if i = 0 then 3 else n) wideDemo () 0 [.write [1, 2, 3, 4], .write [1, 2, 3, 4]]
      = ([0, 4], 0, ⟨[1, 0, 2, 1, 0, 2, 0, 3, 0, 4, 0], 11, 5⟩) ∧
    Writing.session wideDemo () 0 [.write [1, 2, 3, 4]] = .ok ⟨[1, 0, 2, 0, 3, 0, 4, 0], 8, 4⟩ := by
  decide +kernel

/-- The disk is full after 5 bytes: one call that succeeds, one that fails. -/
example : session (fun i n => if i = 0 then n else 1) wideDemo () 0 [.write [1, 2], .sync, .write [3, 4]]
    = ([2, 0, 0], 0, ⟨[1, 0, 2, 0, 3], 5, 2⟩) := by decide +kernel

end AF.Faults
