import Verif.Proof.Writing
/-!
# C13, C17: writing

`Spec.fileData` (Verif/Spec/Written.lean) cuts the frame sequence into packets, independent of any buffering;
`handed` is the sequence of converted frames the calls hand over.
-/
namespace AF.Writing
variable {V α γ ε : Type}

/-! ## Concrete tracks -/

/-- 1-byte samples; `update()` leaves the file position 5 bytes before the data. -/
def pcmDemo : Cfg Nat Nat Nat Unit where
  kind := .pcm
  fpp := 1
  bpp := 1
  fpp_pos := by decide
  bpp_pos := by decide
  first := 5
  encode _ fs := ([BitVec.ofNat 8 (fs.headD 0)], ())
  conv v x := v + x
  afterUpdate := some (-5)
  junk := [0]
  checks := false

/-- Packets of 3 frames in 2 bytes: the sum of the samples, and the running total of all packets so far (the
codec state). -/
def blockDemo : Cfg Nat Nat Nat Nat where
  kind := .block
  fpp := 3
  bpp := 2
  fpp_pos := by decide
  bpp_pos := by decide
  first := 5
  encode e fs := ([BitVec.ofNat 8 fs.sum, BitVec.ofNat 8 (e + fs.sum)], e + fs.sum)
  conv v x := v + x
  afterUpdate := some (-5)
  junk := [99, 99, 99]
  checks := false

theorem pcmDemo_wf : WF pcmDemo := ⟨by intros; rfl, by intros; rfl, rfl⟩
theorem blockDemo_wf : WF blockDemo := ⟨by intros; rfl, by intro h; exact absurd rfl h, rfl⟩

/-- The calls that write the pieces `ps` one after the other. -/
def writes (ps : List (List γ)) : List (Op V γ) := ps.map .write

theorem handed_writes (conv : V → γ → α) (v : V) (ps : List (List γ)) :
    handed conv v (writes ps) = ps.flatten.map (conv v) := by
  induction ps with
  | nil => rfl
  | cons p ps ih => simp only [writes, List.map_cons, handed, List.flatten_cons, List.map_append] at *; rw [ih]

theorem syncOK_writes (place : Nat → Prop) (fpp : Nat) (m : Bool) (ps : List (List γ)) : ∀ n,
    SyncOK place fpp m n true (writes (V := V) ps) := by
  induction ps with
  | nil => intro n; rfl
  | cons p ps ih => intro n; exact ih _

/-! ## C13 -/

/-- **C13** (exact content). Whatever the pieces, the finished file holds exactly the packets of the whole frame
sequence; the recorded byte size is that of the data and the frame count is the number of frames handed over.
An incomplete last packet is completed with the previous packet's tail (`lastPacket`), or with what the
freshly allocated buffer contains if there is no previous packet. -/
theorem C13_written_file (c : Cfg V α γ ε) (h : WF c) (e : ε) (v : V) (ps : List (List γ)) :
    let F := ps.flatten.map (c.conv v)
    let D := Spec.fileData c.fpp c.encode e (Spec.lastPacket c.fpp c.junk F) F
    session c e v (writes ps) = .ok ⟨D, D.length, ps.flatten.length⟩ := by
  obtain ⟨pad, _, hp, hs⟩ := session_ok c h e True v (writes ps)
    (by intro _ op ho w he; simp [writes] at ho; obtain ⟨a, _, rfl⟩ := ho; cases he)
    (syncOK_writes _ _ _ ps 0)
  rw [hp trivial] at hs
  rw [handed_writes, List.length_map] at hs
  exact hs

/-- **C13.** Two ways to cut the same frames into calls leave the same file. -/
theorem C13_write_partition_independent (c : Cfg V α γ ε) (h : WF c) (e : ε) (v : V) (ps qs : List (List γ))
    (heq : ps.flatten = qs.flatten) : session c e v (writes ps) = session c e v (writes qs) := by
  rw [C13_written_file c h, C13_written_file c h, heq]

example : session blockDemo 0 1 (writes [[1], [2, 3, 4], [], [5]])
    = .ok ⟨[9, 9, 15, 24], 4, 5⟩ := by
  rw [C13_written_file _ blockDemo_wf]; decide
example : session blockDemo 0 1 (writes [[1, 2], [3], [4, 5]]) = session blockDemo 0 1 (writes [[1, 2, 3, 4, 5]]) :=
  C13_write_partition_independent _ blockDemo_wf _ _ _ _ rfl

/-- **C13 with virtual-format changes between the calls.** The file is still determined packet by packet by the
frames handed over, except for the padding of an incomplete last packet. -/
theorem C13_written_file_formats (c : Cfg V α γ ε) (h : WF c) (e : ε) (v : V) (ops : List (Op V γ))
    (hns : ∀ op ∈ ops, op ≠ .sync) :
    ∃ pad : List α, pad.length = c.fpp ∧
      session c e v ops = .ok ⟨Spec.fileData c.fpp c.encode e pad (handed c.conv v ops),
        (Spec.fileData c.fpp c.encode e pad (handed c.conv v ops)).length, (handed c.conv v ops).length⟩ := by
  have hok : ∀ (n : Nat) (m : Bool), SyncOK (V := V) (γ := γ) (Place c) c.fpp m n true ops := by
    clear v
    induction ops with
    | nil => intro n m; rfl
    | cons op ops ih =>
      intro n m
      have ih' := ih (fun o ho => hns o (List.mem_cons_of_mem _ ho))
      cases op with
      | write xs => exact ih' _ m
      | sync => exact absurd rfl (hns _ List.mem_cons_self)
      | setFormat w => exact ih' _ m
  obtain ⟨pad, hl, _, hs⟩ := session_ok c h e False v ops (fun f => f.elim) (hok 0 _)
  exact ⟨pad, hl, hs⟩

example : ∃ pad : List Nat, pad.length = 3 ∧
    session blockDemo 0 1 [.write [1, 2], .setFormat 10, .write [3, 4]]
      = .ok ⟨Spec.fileData 3 blockDemo.encode 0 pad [2, 3, 13, 14],
          (Spec.fileData 3 blockDemo.encode 0 pad [2, 3, 13, 14]).length, 4⟩ :=
  C13_written_file_formats _ blockDemo_wf _ _ _ (by simp)

/-- **Data beyond the frames handed over is not determined by them**: with fewer frames than one packet, the bytes of
the file depend on what the freshly allocated memory contained. -/
theorem C13_negation_uninitialised_padding :
    ∃ (c c' : Cfg Nat Nat Nat Nat), WF c ∧ WF c' ∧ c' = { c with junk := [1, 2, 3] } ∧
      session c 0 0 (writes [[7]]) ≠ session c' 0 0 (writes [[7]]) :=
  ⟨blockDemo, { blockDemo with junk := [1, 2, 3] }, blockDemo_wf,
    ⟨by intros; rfl, by intro h; exact absurd rfl h, rfl⟩, rfl, by decide +kernel⟩

/-! ## C17 -/

/-- The same calls without the `afSyncFile` ones. -/
def withoutSyncs : List (Op V γ) → List (Op V γ)
  | [] => []
  | .sync :: ops => withoutSyncs ops
  | op :: ops => op :: withoutSyncs ops

theorem handed_withoutSyncs (conv : V → γ → α) (ops : List (Op V γ)) : ∀ v,
    handed conv v (withoutSyncs ops) = handed conv v ops := by
  induction ops with
  | nil => intro v; rfl
  | cons op ops ih =>
    intro v
    cases op <;> simp [withoutSyncs, handed, ih]

theorem withoutSyncs_none (ops : List (Op V γ)) : ∀ op ∈ withoutSyncs ops, op ≠ .sync := by
  induction ops with
  | nil => simp [withoutSyncs]
  | cons op ops ih =>
    cases op <;> simp [withoutSyncs] <;> exact ih

theorem withoutSyncs_sub (ops : List (Op V γ)) : ∀ op ∈ withoutSyncs ops, op ∈ ops := by
  induction ops with
  | nil => simp [withoutSyncs]
  | cons o ops ih =>
    intro op ho
    cases o <;> simp only [withoutSyncs, List.mem_cons] at ho ⊢
    · rcases ho with h | h
      · exact .inl h
      · exact .inr (ih _ h)
    · exact .inr (ih _ ho)
    · rcases ho with h | h
      · exact .inl h
      · exact .inr (ih _ h)

theorem syncOK_noSync (place : Nat → Prop) (fpp : Nat) (m : Bool) (ops : List (Op V γ)) (h : ∀ op ∈ ops, op ≠ .sync) :
    ∀ n, SyncOK place fpp m n true ops := by
  induction ops with
  | nil => intro n; rfl
  | cons op ops ih =>
    intro n
    have ih' := ih (fun o ho => h o (List.mem_cons_of_mem _ ho))
    cases op with
    | write xs => exact ih' _
    | sync => exact absurd rfl (h _ List.mem_cons_self)
    | setFormat w => exact ih' _

/-- With one frame per packet nothing is ever padded. -/
theorem fileData_one (fpp : Nat) (h : fpp = 1) (encode : ε → List α → List Byte × ε) (e : ε) (p q fs : List α) :
    Spec.fileData fpp encode e p fs = Spec.fileData fpp encode e q fs := by
  subst h; simp [Spec.fileData]

/-- In the shipped build with one frame per packet, every placement of `afSyncFile` at which the place can be kept
is fine. -/
theorem syncOK_one (place : Nat → Prop) (conv : V → γ → α) (ops : List (Op V γ)) : ∀ n v,
    (∀ pre post, ops = pre ++ .sync :: post → place (n + (handed conv v pre).length)) →
    SyncOK place 1 false n true ops := by
  induction ops with
  | nil => intro n _ _; rfl
  | cons op ops ih =>
    intro n v h
    cases op with
    | write xs =>
      refine ih _ v fun pre post he => ?_
      have := h (.write xs :: pre) post (by rw [he]; rfl)
      simpa [handed, Nat.add_assoc] using this
    | sync =>
      exact ⟨rfl, Nat.mod_one n, by simpa [handed] using h [] ops rfl, ih _ v fun pre post he =>
        by simpa [handed] using h (.sync :: pre) post (by rw [he]; rfl)⟩
    | setFormat w =>
      exact ih _ w fun pre post he => by simpa [handed] using h (.setFormat w :: pre) post (by rw [he]; rfl)

/-- **C17 for PCM and G.711** (library built as shipped, without assertions): with any number of `afSyncFile`
calls, and any virtual-format changes, the finished file is the one without them — provided that, for PCM, the file
is below 2 GiB at each `afSyncFile` (`Place`; G.711 has no limit). -/
theorem C17_sync_transparent_pcm (c : Cfg V α γ ε) (h : WF c) (hk : c.kind ≠ .block) (hc : c.checks = false)
    (e : ε) (v : V) (ops : List (Op V γ))
    (hp : ∀ pre post, ops = pre ++ .sync :: post → Place c (handed c.conv v pre).length) :
    session c e v ops = session c e v (withoutSyncs ops) := by
  have h1 := h.one hk
  obtain ⟨p, _, _, hp⟩ := session_ok c h e False v ops (fun f => f.elim) (by
    rw [h1, hc]; exact syncOK_one _ c.conv ops 0 v (by simpa using hp))
  obtain ⟨q, _, _, hq⟩ := session_ok c h e False v (withoutSyncs ops) (fun f => f.elim)
    (syncOK_noSync _ _ _ _ (withoutSyncs_none ops) 0)
  rw [hp, hq, handed_withoutSyncs, fileData_one c.fpp h1 c.encode e p q]

/-- **C17 for G.711** without any restriction on the size. -/
theorem C17_sync_transparent_g711 (c : Cfg V α γ ε) (h : WF c) (hk : c.kind = .g711) (hc : c.checks = false)
    (e : ε) (v : V) (ops : List (Op V γ)) : session c e v ops = session c e v (withoutSyncs ops) :=
  C17_sync_transparent_pcm c h (by rw [hk]; simp) hc e v ops fun _ _ _ hk' => by rw [hk] at hk'; cases hk'

/-- The frames in front of an operation are among the frames of all of them. -/
theorem handed_prefix (conv : V → γ → α) (pre post : List (Op V γ)) : ∀ v,
    (handed conv v pre).length ≤ (handed conv v (pre ++ post)).length := by
  induction pre with
  | nil => intro v; simp [handed]
  | cons op pre ih => intro v; cases op <;> simp [handed] <;> exact ih _

/-- **C17 for PCM files below 2 GiB.** -/
theorem C17_sync_transparent_small (c : Cfg V α γ ε) (h : WF c) (hk : c.kind ≠ .block) (hc : c.checks = false)
    (e : ε) (v : V) (ops : List (Op V γ)) (hp : c.first + (handed c.conv v ops).length * c.bpp < 2 ^ 31) :
    session c e v ops = session c e v (withoutSyncs ops) :=
  C17_sync_transparent_pcm c h hk hc e v ops fun pre post he _ => by
    have := Nat.mul_le_mul_right c.bpp (handed_prefix c.conv pre (.sync :: post) v)
    rw [he] at hp
    omega

example : session pcmDemo () 1 [.sync, .write [1, 2], .sync, .sync, .write [3], .sync]
    = session pcmDemo () 1 [.write [1, 2], .write [3]] :=
  C17_sync_transparent_small _ pcmDemo_wf (by decide) rfl _ _ _ (by decide)
example : session { pcmDemo with kind := .g711 } () 1 [.sync, .write [1, 2], .sync, .sync, .write [3], .sync]
    = session { pcmDemo with kind := .g711 } () 1 [.write [1, 2], .write [3]] :=
  C17_sync_transparent_g711 _ ⟨by intros; rfl, by intros; rfl, rfl⟩ rfl rfl _ _ _

/-- **C17 for block codecs**: transparent when every `afSyncFile` comes at a whole number of packets
(`SyncOK`; and, in a build with assertions, never twice without a write between). Missing, and false (see the
negations): `afSyncFile` while an incomplete packet is pending. -/
theorem C17_sync_transparent_block (c : Cfg V α γ ε) (h : WF c) (e : ε) (v : V) (ops : List (Op V γ))
    (hf : ∀ op ∈ ops, ∀ w, op ≠ .setFormat w)
    (hs : SyncOK (Place c) c.fpp (c.checks && c.afterUpdate.isSome) 0 true ops) :
    session c e v ops = session c e v (withoutSyncs ops) := by
  obtain ⟨p, _, h1, hp⟩ := session_ok c h e True v ops (fun _ => hf) hs
  obtain ⟨q, _, h2, hq⟩ := session_ok c h e True v (withoutSyncs ops)
    (fun _ op ho => hf op (withoutSyncs_sub ops op ho)) (syncOK_noSync _ _ _ _ (withoutSyncs_none ops) 0)
  rw [hp, hq, h1 trivial, h2 trivial, handed_withoutSyncs]

example : session blockDemo 0 1 [.sync, .write [1, 2], .write [3], .sync, .write [4], .write [5, 6, 7]]
    = session blockDemo 0 1 [.write [1, 2], .write [3], .write [4], .write [5, 6, 7]] :=
  C17_sync_transparent_block _ blockDemo_wf _ _ _ (by simp)
    (by simp [SyncOK, blockDemo, Place])

/-- **C17 is false for block codecs**: `afSyncFile` with an incomplete packet pending leaves a recorded data size
larger than the data, and different audio data (the codec's state is not put back). -/
theorem C17_negation_pending_packet :
    session blockDemo 0 0 [.write [1], .sync, .write [2, 3]] = .ok ⟨[6, 205], 4, 3⟩ ∧
    session blockDemo 0 0 [.write [1], .write [2, 3]] = .ok ⟨[6, 6], 2, 3⟩ := by
  constructor <;> decide +kernel

/-- **C17 is false for block codecs** (b): `afSyncFile` immediately followed by `afCloseFile` writes the incomplete
last packet again at the position the header update left behind, i.e. over the header. -/
theorem C17_negation_sync_then_close :
    session blockDemo 0 0 [.write [1], .sync] = .ok ⟨[199, 199], 4, 1⟩ ∧
    (∀ s, run blockDemo (init 0 0) [.write [1], .sync] = .ok s → s.filePos = -5) := by
  constructor
  · decide +kernel
  · have : (run blockDemo (init 0 0) [.write [1], .sync]).map (fun s => s.filePos) = .ok (-5) := by decide +kernel
    intro s hs
    rw [hs] at this
    simpa [Except.map] using this

theorem close_pcm (c : Cfg V α γ ε) (hk : c.kind = .pcm) (hc : c.checks = false) (s : St V α ε) (hd : s.dirty = false) :
    close c s = .ok ⟨s.data, s.dataSize, s.totalf⟩ := by
  simp [close, syncFile, syncModules, hd, hk, hc, Reading.cAssert, bind, Except.bind, pure, Except.pure]

theorem lost_writes (c : Cfg V α γ ε) (s : St V α ε) (hd : s.dirty = false) (hn : c.first + s.fposNext < 0)
    (ps : List (List γ)) : run c s (writes ps) = .ok s := by
  induction ps with
  | nil => rfl
  | cons p ps ih =>
    show (do let s ← step c s (.write p); run c s (writes ps)) = _
    simp [step, writeFrames, hd, hn, bind, Except.bind, pure, Except.pure, ih]

/-- **C17 is false for PCM files beyond 2 GiB**: the position is saved in an `int`, so after an `afSyncFile` between 2
and 4 GiB it is negative; every later `afWriteFrames` fails (returns −1, `lost_call`) and the file closes without
those frames. -/
theorem C17_negation_large_pcm (c : Cfg V α γ ε) (h : WF c) (hk : c.kind = .pcm) (hc : c.checks = false)
    (e : ε) (v : V) (xs : List γ) (hlo : 2 ^ 31 ≤ c.first + xs.length * c.bpp)
    (hhi : c.first + xs.length * c.bpp < 2 ^ 32) :
    (∀ ps, session c e v (.write xs :: .sync :: writes ps) = session c e v [.write xs])
    ∧ ∀ s, run c (init e v) [.write xs, .sync] = .ok s → ∀ ys, writeFrames c ys s = .ok (-1, s) := by
  obtain ⟨s1, e1, p1, v1, d1, _, i1⟩ := writeFrames_ok c h e False (init e v) [] xs (init_inv c False e v)
  obtain ⟨Y, k, core, hX, hh, _⟩ := i1.core
  have hf := h.one (by rw [hk]; simp)
  have hheld : s1.held = [] := i1.nb (by rw [hk]; simp)
  obtain ⟨s2, e2, _, d2, _, _, _, _, _, f2, _⟩ := syncFile_ok c h e False s1 _ i1 (by rw [hc]; simp) hheld
  have hkl : k = xs.length := by
    have := congrArg List.length hX
    rw [hheld, List.append_nil, core.len, hf] at this
    simpa using this.symm
  have hneg : c.first + s2.fposNext < 0 := by
    rw [f2, if_pos hk, core.fpos, core.data, sp_len h k _ _ (by rw [core.len]; omega), hkl]
    have e1 : (c.first : Int) + ((xs.length * c.bpp : Nat) : Int) = ((c.first + xs.length * c.bpp : Nat) : Int) := by
      omega
    rw [e1]
    generalize c.first + xs.length * c.bpp = z at hlo hhi
    unfold wrapS
    have h1 := Int.emod_bmod (z : Int) (2 ^ 32)
    rw [Int.bmod_def]
    split <;> omega
  have hrun : run c (init e v) [.write xs, .sync] = .ok s2 := by
    simp only [run, step, bind, Except.bind, e1, pure, Except.pure, e2]
  refine ⟨fun ps => ?_, fun s hs ys => ?_⟩
  · have hl : session c e v (.write xs :: .sync :: writes ps) = .ok ⟨s2.data, s2.dataSize, s2.totalf⟩ := by
      simp only [session, run, step, bind, Except.bind, e1, pure, Except.pure, e2, lost_writes c s2 d2 hneg,
        close_pcm c hk hc s2 d2]
    rw [hl]
    simp only [session, run, step, bind, Except.bind, e1, pure, Except.pure, close, e2]
  · rw [hrun] at hs
    cases hs
    simp [writeFrames, d2, hneg, pure, Except.pure]

/-- 2 GiB of 1-byte samples, a synchronisation, and three more frames that never reach the file. -/
example : session pcmDemo () 1 [.write (List.replicate (2 ^ 31) 7), .sync, .write [1, 2, 3]]
    = session pcmDemo () 1 [.write (List.replicate (2 ^ 31) 7)] :=
  (C17_negation_large_pcm pcmDemo pcmDemo_wf rfl rfl () 1 (List.replicate (2 ^ 31) 7)
    (by rw [List.length_replicate]; decide) (by rw [List.length_replicate]; decide)).1 [[1, 2, 3]]

theorem sp_len_one {c : Cfg V α γ ε} (h : WF c) (hf : c.fpp = 1) (e : ε) (fs : List α) :
    (encodePackets c e fs).1.length = fs.length * c.bpp := by
  rw [encodePackets_eq, hf, Nat.div_one, sp_len h _ _ _ (by rw [hf]; omega)]

theorem push_over (c : Cfg V α γ ε) (h : WF c) (hk : c.kind = .pcm) (hc : c.checks = false) (s : St V α ε) (xs : List γ)
    (p : Nat) (hp : s.filePos = p) (hroom : p + xs.length * c.bpp ≤ s.data.length) :
    ∃ s', chainPush c xs s = .ok s' ∧ s'.dirty = s.dirty ∧ s'.filePos = (p + xs.length * c.bpp : Nat) ∧
      s'.data.length = s.data.length ∧ s'.data.take p = s.data.take p ∧
      s'.data.drop (p + xs.length * c.bpp) = s.data.drop (p + xs.length * c.bpp) ∧
      s'.dataSize = s.dataSize + xs.length * c.bpp := by
  have hf := h.one (by rw [hk]; simp)
  have hL := sp_len_one h hf s.enc (xs.map (c.conv s.v))
  rw [List.length_map] at hL
  unfold chainPush filePush
  simp only [hk, hc, Reading.cAssert, bind, Except.bind, pure, Except.pure, Bool.not_false, Bool.true_or, if_true]
  rw [List.take_length]
  generalize encodePackets c s.enc (xs.map (c.conv s.v)) = r at hL ⊢
  obtain ⟨bs, e⟩ := r
  dsimp only at hL ⊢
  refine ⟨_, rfl, rfl, ?_, ?_, ?_, ?_, ?_⟩
  · show s.filePos + bs.length = _
    rw [hp, hL]; omega
  rotate_right
  · show s.dataSize + bs.length = _
    rw [hL]
  all_goals
    unfold fwrite
    dsimp only
    rw [hp, show (-((p : Nat) : Int)).toNat = 0 by omega, Int.toNat_natCast, List.drop_zero]
  · simp only [List.length_append, List.length_take, List.length_drop]; omega
  · rw [List.append_assoc, List.take_append_of_le_length (by rw [List.length_take]; omega), List.take_take, Nat.min_self]
  · rw [List.drop_append, List.drop_eq_nil_of_le (by simp only [List.length_append, List.length_take]; omega), List.nil_append,
      List.drop_drop]
    congr 1
    simp only [List.length_append, List.length_take]; omega

theorem loop_over (c : Cfg V α γ ε) (h : WF c) (hk : c.kind = .pcm) (hc : c.checks = false) (n : Nat) :
    ∀ (s : St V α ε) (xs : List γ) (p : Nat), xs.length ≤ n → s.filePos = p → p + xs.length * c.bpp ≤ s.data.length →
    ∃ s', writeLoop c xs s = .ok s' ∧ s'.dirty = s.dirty ∧
      s'.data.length = s.data.length ∧ s'.data.take p = s.data.take p ∧
      s'.data.drop (p + xs.length * c.bpp) = s.data.drop (p + xs.length * c.bpp) ∧
      s'.dataSize = s.dataSize + xs.length * c.bpp := by
  induction n with
  | zero =>
    intro s xs p hn hp hroom
    have hx : xs = [] := List.eq_nil_of_length_eq_zero (by omega)
    subst hx
    unfold writeLoop
    exact ⟨s, by simp [pure, Except.pure], rfl, rfl, rfl, rfl, by simp⟩
  | succ n ih =>
    intro s xs p hn hp hroom
    by_cases hx : xs.length = 0
    · have hx : xs = [] := List.eq_nil_of_length_eq_zero (by omega)
      subst hx
      unfold writeLoop
      exact ⟨s, by simp [pure, Except.pure], rfl, rfl, rfl, rfl, by simp⟩
    have hsplit : (xs.take 1024).length * c.bpp + (xs.drop 1024).length * c.bpp = xs.length * c.bpp := by
      rw [← Nat.add_mul, ← List.length_append, List.take_append_drop]
    obtain ⟨s1, e1, d1, p1, l1, t1, r1, z1⟩ := push_over c h hk hc s (xs.take 1024) p hp (by omega)
    obtain ⟨s2, e2, d2, l2, t2, r2, z2⟩ := ih s1 (xs.drop 1024) _ (by simp; omega) p1 (by omega)
    refine ⟨s2, ?_, d2.trans d1, l2.trans l1, ?_, ?_, by omega⟩
    · unfold writeLoop
      rw [dif_neg hx, e1]
      exact e2
    · have := congrArg (List.take p) t2
      rw [List.take_take, List.take_take, Nat.min_eq_left (by omega)] at this
      rw [this, t1]
    · rw [show p + xs.length * c.bpp = p + (xs.take 1024).length * c.bpp + (xs.drop 1024).length * c.bpp by omega]
      rw [r2, ← List.drop_drop (i := (xs.drop 1024).length * c.bpp) (j := p + (xs.take 1024).length * c.bpp), r1, List.drop_drop]

/-- **C17 is false for PCM files beyond 4 GiB**, and worse: the saved position has lost its upper bits, so after an
`afSyncFile` the next frames are written over frames near the beginning of the file. Of the file's data no byte before and none
after the overwritten range changes, and the data is no longer than it was, although the header says it is. -/
theorem C17_negation_huge_pcm (c : Cfg V α γ ε) (h : WF c) (hk : c.kind = .pcm) (hc : c.checks = false)
    (e : ε) (v : V) (xs ys : List γ) (p : Nat) (hz : c.first + xs.length * c.bpp = 2 ^ 32 + (c.first + p))
    (hp : c.first + p < 2 ^ 31) (hys : ys.length * c.bpp ≤ 2 ^ 32) :
    ∃ F0 F, session c e v [.write xs] = .ok F0 ∧ session c e v [.write xs, .sync, .write ys] = .ok F ∧
      F.data.length = xs.length * c.bpp ∧ F.dataSize = (xs.length + ys.length) * c.bpp ∧
      F.data.take p = F0.data.take p ∧
      F.data.drop (p + ys.length * c.bpp) = F0.data.drop (p + ys.length * c.bpp) := by
  obtain ⟨s1, e1, p1, v1, d1, _, i1⟩ := writeFrames_ok c h e False (init e v) [] xs (init_inv c False e v)
  obtain ⟨Y, k, core, hX, hh, _⟩ := i1.core
  have hf := h.one (by rw [hk]; simp)
  have hheld : s1.held = [] := i1.nb (by rw [hk]; simp)
  obtain ⟨s2, e2, _, d2, _, _, _, ds2, dat2, f2, _⟩ := syncFile_ok c h e False s1 _ i1 (by rw [hc]; simp) hheld
  have hkl : k = xs.length := by
    have := congrArg List.length hX
    rw [hheld, List.append_nil, core.len, hf] at this
    simpa using this.symm
  have hpos : s2.fposNext = p := by
    rw [f2, if_pos hk, core.fpos, core.data, sp_len h k _ _ (by rw [core.len]; omega), hkl]
    have e1 : (c.first : Int) + ((xs.length * c.bpp : Nat) : Int) = 2 ^ 32 + (c.first + p : Nat) := by omega
    rw [e1]
    have e2 : wrapS 32 (2 ^ 32 + ((c.first + p : Nat) : Int)) = ((c.first + p : Nat) : Int) := by
      generalize c.first + p = z at hp
      unfold wrapS
      rw [Int.bmod_def]
      split <;> omega
    rw [e2]
    omega
  have hlen : s2.data.length = xs.length * c.bpp := by
    rw [dat2, sp_len h _ _ _ (by rw [hf]; simp), hf]; simp
  have hns : ¬ ((c.first : Int) + s2.fposNext < 0) := by rw [hpos]; omega
  obtain ⟨s3, e3, d3, l3, t3, r3, z3⟩ := loop_over c h hk hc ys.length { s2 with filePos := s2.fposNext } ys p (Nat.le_refl _) hpos
    (by show _ ≤ s2.data.length; omega)
  have hw : writeFrames c ys s2 = .ok ((ys.length : Int), { s3 with nextv := s3.nextv + ys.length, totalv := s3.totalv + ys.length }) := by
    unfold writeFrames
    rw [d2]
    simp only [hns, if_false, bind, Except.bind, pure, Except.pure, Bool.false_eq_true, e3]
  refine ⟨⟨s2.data, s2.dataSize, s2.totalf⟩, ⟨s3.data, s3.dataSize, s3.totalf⟩, ?_, ?_, ?_, ?_, t3, r3⟩
  · simp only [session, run, step, bind, Except.bind, e1, pure, Except.pure, close, e2]
  · simp only [session, run, step, bind, Except.bind, e1, pure, Except.pure, e2, hw]
    exact close_pcm c hk hc _ (d3.trans d2)
  · exact l3.trans hlen
  · have : s2.dataSize = xs.length * c.bpp := by rw [ds2]; exact hlen
    show s3.dataSize = _
    rw [z3, Nat.add_mul]
    show s2.dataSize + _ = _
    omega

/-- More than 4 GiB of 1-byte samples, a synchronisation, and three more frames, written over the first ones. -/
example (xs : List Nat) (hx : xs.length = 2 ^ 32 + 4) : ∃ F0 F, session pcmDemo () 1 [.write xs] = .ok F0 ∧
    session pcmDemo () 1 [.write xs, .sync, .write [1, 2, 3]] = .ok F ∧
      F.data.length = xs.length * 1 ∧ F.dataSize = (xs.length + 3) * 1 ∧
      F.data.take 4 = F0.data.take 4 ∧ F.data.drop (4 + 3 * 1) = F0.data.drop (4 + 3 * 1) :=
  C17_negation_huge_pcm pcmDemo pcmDemo_wf rfl rfl () 1 xs [1, 2, 3] 4
    (by rw [hx]; decide) (by decide) (by decide)
example : (List.replicate (2 ^ 32 + 4) 7).length = 2 ^ 32 + 4 := List.length_replicate

/-- In a build with assertions even PCM fails: `afSyncFile` then `afCloseFile` stops the program. -/
theorem C17_negation_assertions :
    session { pcmDemo with checks := true } () 0 [.write [1], .sync] = .error .assertFailed := by
  decide +kernel

end AF.Writing
