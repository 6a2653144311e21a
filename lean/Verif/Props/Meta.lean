import Verif.Proof.Meta
/-!
# C25–C28: metadata of an open file

`Spec.Meta` (Verif/Spec/Meta.lean) describes the calls over plain maps. `WF h` (Verif/Proof/Meta.lean) is what
`afOpenFile` establishes; `InRange` excludes only negative chunk seeks.
-/
namespace AF.Meta
open AF.Spec.Meta (State Stream upd1 upd2 limits hasParam)

/-! ## A concrete handle -/

/-- An AIFF file opened for writing: one track with markers 1, 2, 9; one instrument with loops 1, 2; chunks 5 (4
bytes) and 6 (2 bytes). -/
def demo : Handle where
  access := .write
  family := .aiff
  tracks := [{ id := 1001, markers := [⟨1, 0⟩, ⟨2, 0⟩, ⟨9, 0⟩], hasAES := true, aes := List.replicate 24 0 }]
  instruments := [{ id := 2001, loops := [⟨1, 0, 0, 1, 2, 1001⟩, ⟨2, 0, 0, 2, 9, 1001⟩],
                    values := [60, 0, 1, 127, 0, 127, 0, 0, 0] }]
  misc := [{ id := 5, type := 101, size := 4, buffer := none, position := 0 },
           { id := 6, type := 102, size := 2, buffer := none, position := 0 }]

/-- The same file opened for reading, its chunks loaded. -/
def demoR : Handle :=
  { demo with access := .read
              misc := [{ id := 5, type := 101, size := 4, buffer := some [1, 2, 3, 4], position := 0 },
                       { id := 6, type := 102, size := 2, buffer := some [5, 6], position := 0 }] }

theorem demo_wf : WF demo :=
  ⟨by simp [demo, Family.ids], by simp [demo], by simp [demo], by simp [demo], by simp [demo]⟩
theorem demoR_wf : WF demoR :=
  ⟨by simp [demo, demoR, Family.ids], by simp [demoR], by simp [demoR], by simp [demoR], by simp [demoR]⟩

/-- The last result of a history. -/
def lastResult (h : Handle) (ops : List Op) : Except Abort (Option Ret) := (run h ops).map (·.1.getLast?)

/-! ## Every history -/

/-- **C25–C28.** Every history of metadata calls gives exactly the results the maps of `Spec.Meta` give, and no call
goes outside a buffer. -/
theorem C25_history_refines (h : Handle) (hw : WF h) (ops : List Op) (ho : ∀ op ∈ ops, InRange op) :
    ∃ h', run h ops = .ok (((abs h).run ops).1, h') := by
  obtain ⟨rs, h', e, _, s⟩ := run_refines ops h hw ho
  exact ⟨h', by rw [s]; exact e⟩

theorem run_append (s : State) (a b : List Op) :
    s.run (a ++ b) = ((s.run a).1 ++ ((s.run a).2.run b).1, ((s.run a).2.run b).2) := by
  induction a generalizing s with
  | nil => rfl
  | cons op a ih => simp [State.run, ih]

theorem lastResult_abs (h : Handle) (hw : WF h) (ops : List Op) (ho : ∀ op ∈ ops, InRange op) (op : Op) (hop : InRange op) :
    lastResult h (ops ++ [op]) = .ok (some (((abs h).run ops).2.step op).1) := by
  obtain ⟨rs, h', e, _, s⟩ := run_refines (ops ++ [op]) h hw (by
    intro o hm; rcases List.mem_append.1 hm with hm | hm
    · exact ho o hm
    · simp at hm; subst hm; exact hop)
  rw [run_append] at s
  simp only [State.run] at s
  simp only [lastResult, e, Except.map]
  have : rs = (State.run (abs h) ops).1 ++ [(State.step (State.run (abs h) ops).2 op).1] := (congrArg Prod.fst s).symm
  simp [this]

/-! ## C25: miscellaneous chunks -/

/-- The bytes of a chunk, as saved by `AIFFFile::writeMiscellaneous` (AIFF.cpp:1153-1156): the buffer, or a gap of
zeros if nothing was written. -/
def chunkBytes (h : Handle) (id : Int) : Option (List Byte) :=
  (h.getMisc id).map fun m => m.buffer.getD (List.replicate m.size.toNat 0)

theorem chunkBytes_abs (h : Handle) (id : Int) : chunkBytes h id = ((abs h).misc id).map (·.data) := by
  unfold chunkBytes abs
  cases hm : h.getMisc id <;> simp [Misc.stream, hm]

/-- Writing at an offset: the bytes that fit replace those of the chunk from the offset on, the rest of this chunk and
every other chunk stay as they were. -/
theorem C25_write_at (h : Handle) (hw : WF h) (ha : h.access = .write) (id o : Int) (b old : List Byte)
    (hc : chunkBytes h id = some old) (ho : 0 ≤ o ∧ o < old.length) (hb : b ≠ []) :
    ∃ h', run h [.seekMisc id o, .writeMisc id b] = .ok ([.num o, .num (min b.length (old.length - o))], h') ∧ WF h' ∧
      chunkBytes h' id = some (old.take o.toNat ++ (b ++ old.drop (o.toNat + b.length)).take (old.length - o.toNat)) ∧
      ∀ id', id' ≠ id → chunkBytes h' id' = chunkBytes h id' := by
  obtain ⟨rs, h', e, hw', s⟩ := run_refines [.seekMisc id o, .writeMisc id b] h hw (by simp [InRange, ho.1])
  rw [chunkBytes_abs] at hc
  obtain ⟨c, hc', hcd⟩ := Option.map_eq_some_iff.1 hc
  subst hcd
  have hwr : (abs h).writable = true := by simp [abs, ha]
  simp only [State.run, State.step, hc', ho.2, if_true, upd1, hwr, hb, ne_eq, not_false_eq_true, and_self, Stream.write,
    Prod.mk.injEq] at s
  refine ⟨h', ?_, hw', ?_, ?_⟩
  · rw [e, ← s.1, show ((min b.length (c.data.length - o.toNat) : Nat) : Int) = min (b.length : Int) (c.data.length - o) by omega]
  · rw [chunkBytes_abs, ← s.2]
    simp only [upd1, if_true, Option.map_some, Option.some.injEq]
    rw [List.append_assoc]
    congr 1
    rw [List.take_append]
    have h1 : List.take (min b.length (c.data.length - o.toNat)) b = List.take (c.data.length - o.toNat) b := by
      rw [List.take_eq_take_iff]; omega
    rw [h1]
    congr 1
    by_cases hlt : b.length ≤ c.data.length - o.toNat
    · rw [show min b.length (c.data.length - o.toNat) = b.length by omega,
        List.take_of_length_le (l := List.drop (o.toNat + b.length) c.data) (by simp only [List.length_drop]; omega)]
    · rw [show c.data.length - o.toNat - b.length = 0 by omega, List.take_zero, List.drop_of_length_le (by omega)]
  · intro id' hid
    rw [chunkBytes_abs, chunkBytes_abs, ← s.2]
    simp [hid, upd1]

example : ∃ h', run demo [.seekMisc 5 2, .writeMisc 5 [7, 8, 9]] = .ok ([.num 2, .num 2], h') ∧
    chunkBytes h' 5 = some [0, 0, 7, 8] ∧ chunkBytes h' 6 = some [0, 0] := ⟨_, rfl, by decide, by decide⟩

/-- A call that can change the contents of chunk `id`. -/
def writesChunk (id : Int) : Op → Prop
  | .writeMisc i _ => i = id
  | _ => False

/-- A call that can move the position of chunk `id`. -/
def movesChunk (id : Int) : Op → Prop
  | .writeMisc i _ => i = id
  | .readMisc i _ => i = id
  | .seekMisc i _ => i = id
  | _ => False

theorem setParam_other (s : State) (i : Int) (its : List Pv.Item) :
    let s' := its.foldl (·.setParam i ·) s
    s'.misc = s.misc ∧ s'.writable = s.writable ∧ s'.mark = s.mark ∧ s'.loop = s.loop ∧ s'.aes = s.aes ∧ s'.legal = s.legal := by
  induction its generalizing s with
  | nil => simp
  | cons it its ih =>
    simp only [List.foldl_cons]
    have := ih (s.setParam i it)
    have h2 : (s.setParam i it).misc = s.misc ∧ (s.setParam i it).writable = s.writable ∧ (s.setParam i it).mark = s.mark ∧
        (s.setParam i it).loop = s.loop ∧ (s.setParam i it).aes = s.aes ∧ (s.setParam i it).legal = s.legal := by
      unfold State.setParam; split <;> simp
    simp only at this
    exact ⟨this.1.trans h2.1, this.2.1.trans h2.2.1, this.2.2.1.trans h2.2.2.1, this.2.2.2.1.trans h2.2.2.2.1,
      this.2.2.2.2.1.trans h2.2.2.2.2.1, this.2.2.2.2.2.trans h2.2.2.2.2.2⟩

theorem moveMark_other (s : State) (t m p : Int) :
    (s.moveMark t m p).misc = s.misc ∧ (s.moveMark t m p).writable = s.writable ∧ (s.moveMark t m p).loop = s.loop ∧
      (s.moveMark t m p).param = s.param ∧ (s.moveMark t m p).aes = s.aes ∧ (s.moveMark t m p).legal = s.legal := by
  unfold State.moveMark; split <;> simp

theorem setLoop_other (s : State) (f : LoopField) (i l v : Int) :
    let s' := (s.setLoop f i l v).2
    s'.misc = s.misc ∧ s'.writable = s.writable ∧ s'.param = s.param ∧ s'.aes = s.aes ∧ s'.legal = s.legal := by
  have hm := moveMark_other s
  unfold State.setLoop
  cases f <;> cases (if s.writable = true then s.loop i l else none) <;> simp only <;>
    (try (split)) <;> simp [hm]

theorem setAES_other (s : State) (t : Int) (b : List Byte) :
    let s' := (s.step (.setAES t b)).2
    s'.misc = s.misc ∧ s'.writable = s.writable ∧ s'.mark = s.mark ∧ s'.loop = s.loop ∧ s'.param = s.param ∧ s'.legal = s.legal := by
  simp only [State.step]
  cases s.aes t with
  | none => simp
  | some a => cases a <;> simp only <;> (try split) <;> simp

theorem step_misc (s : State) (op : Op) (id : Int) (hop : ¬ movesChunk id op) : (s.step op).2.misc id = s.misc id := by
  cases op with
  | setMark t m p => simp only [State.step]; rw [(moveMark_other ..).1]
  | setAES t b => rw [(setAES_other ..).1]
  | setLoop f i l v => simp only [State.step]; rw [(setLoop_other ..).1]
  | setParams i pv n => simp only [State.step]; split; rw [(setParam_other ..).1]; rfl
  | setParamLong i p v =>
    simp only [State.step]; split
    · have := (setParam_other s i [{ type := Pv.LONG, param := p, value := v }]).1
      simp only [List.foldl_cons, List.foldl_nil] at this
      rw [this]
    · rfl
  | writeMisc i b =>
    have : ¬ id = i := fun h => hop (by simp [movesChunk, h])
    simp only [State.step]; cases s.misc i <;> simp only <;> (try split) <;> simp [upd1, this]
  | readMisc i b =>
    have : ¬ id = i := fun h => hop (by simp [movesChunk, h])
    simp only [State.step]; cases s.misc i <;> simp only <;> (try split) <;> simp [upd1, this]
  | seekMisc i b =>
    have : ¬ id = i := fun h => hop (by simp [movesChunk, h])
    simp only [State.step]; cases s.misc i <;> simp only <;> (try split) <;> simp [upd1, this]
  | _ => rfl

theorem step_misc_data (s : State) (op : Op) (id : Int) (hop : ¬ writesChunk id op) :
    ((s.step op).2.misc id).map (·.data) = (s.misc id).map (·.data) := by
  by_cases hmv : movesChunk id op
  · cases op with
    | writeMisc i b => exact absurd hmv hop
    | readMisc i b =>
      simp only [movesChunk] at hmv; subst hmv
      simp only [State.step]
      cases hc : s.misc i with
      | none => simp [hc]
      | some c => simp only; split <;> simp [upd1, hc, Stream.read]
    | seekMisc i b =>
      simp only [movesChunk] at hmv; subst hmv
      simp only [State.step]
      cases hc : s.misc i with
      | none => simp [hc]
      | some c => simp only; split <;> simp [upd1, hc]
    | _ => simp [movesChunk] at hmv
  · rw [step_misc s op id hmv]

theorem run_ind (P : State → Prop) (Q : Op → Prop) (hstep : ∀ s op, P s → Q op → P (s.step op).2) (ops : List Op) :
    ∀ s, P s → (∀ op ∈ ops, Q op) → P (s.run ops).2 := by
  induction ops with
  | nil => intro s hs _; exact hs
  | cons op ops ih =>
    intro s hs hq
    simp only [State.run]
    exact ih _ (hstep s op hs (hq op (by simp))) (fun o ho => hq o (by simp [ho]))

/-- A chunk's contents change only by writing to it. -/
theorem C25_contents_kept (h : Handle) (hw : WF h) (id : Int) (ops : List Op) (ho : ∀ op ∈ ops, InRange op)
    (hn : ∀ op ∈ ops, ¬ writesChunk id op) :
    ∃ rs h', run h ops = .ok (rs, h') ∧ chunkBytes h' id = chunkBytes h id := by
  obtain ⟨rs, h', e, _, s⟩ := run_refines ops h hw ho
  refine ⟨rs, h', e, ?_⟩
  rw [chunkBytes_abs, chunkBytes_abs, show abs h' = ((abs h).run ops).2 by rw [s]]
  exact run_ind (fun s => (s.misc id).map (·.data) = ((abs h).misc id).map (·.data)) (fun op => ¬ writesChunk id op)
    (fun s op hs hq => (step_misc_data s op id hq).trans hs) ops _ rfl hn

/-- On a file opened for reading, after any calls, a seek and a read deliver the chunk's bytes at that place; whatever
calls were made on other things between the two do not matter. -/
theorem C25_read_at (h : Handle) (hw : WF h) (ha : h.access = .read) (id o n : Int) (data : List Byte)
    (hc : chunkBytes h id = some data) (ho : 0 ≤ o ∧ o < data.length) (hn : 0 < n) (pre mid : List Op)
    (hpre : ∀ op ∈ pre, InRange op) (hmid : ∀ op ∈ mid, InRange op ∧ ¬ movesChunk id op) :
    lastResult h (pre ++ .seekMisc id o :: mid ++ [.readMisc id n]) =
      .ok (some (.bytes ((data.drop o.toNat).take n.toNat).length ((data.drop o.toNat).take n.toNat))) := by
  rw [lastResult_abs h hw _ ?_ (.readMisc id n) trivial]
  · rw [chunkBytes_abs] at hc
    have hwr : (abs h).writable = false := by simp [abs, ha]
    -- before the seek
    have hP : ((fun s : State => s.writable = false ∧ (s.misc id).map (·.data) = some data)) ((abs h).run pre).2 := by
      refine run_ind (fun s => s.writable = false ∧ (s.misc id).map (·.data) = some data) (fun _ => True) ?_ pre _
        ⟨hwr, hc⟩ (by simp)
      rintro s op ⟨h1, h2⟩ -
      have hwn : (s.step op).2.writable = false := by
        cases op with
        | setMark t m p => simp only [State.step]; rw [(moveMark_other ..).2.1]; exact h1
        | setAES t b => rw [(setAES_other ..).2.1]; exact h1
        | setLoop f i l v => simp only [State.step]; rw [(setLoop_other ..).2.1]; exact h1
        | setParams i pv n => simp [State.step, h1]
        | setParamLong i p v => simp [State.step, h1]
        | writeMisc i b => simp only [State.step]; cases s.misc i <;> simp [h1]
        | readMisc i b => simp only [State.step]; cases s.misc i <;> simp only <;> (try split) <;> simp [h1]
        | seekMisc i b => simp only [State.step]; cases s.misc i <;> simp only <;> (try split) <;> simp [h1]
        | _ => exact h1
      refine ⟨hwn, ?_⟩
      by_cases hwc : writesChunk id op
      · cases op with
        | writeMisc i b =>
          simp only [State.step]
          cases hx : s.misc i <;> simp only [h1] <;> simpa using h2
        | _ => simp [writesChunk] at hwc
      · rw [step_misc_data s op id hwc]; exact h2
    obtain ⟨hs1, hs2⟩ := hP
    obtain ⟨c, hc2, hd⟩ := Option.map_eq_some_iff.1 hs2
    simp only [run_append, State.run]
    have hafter : (((abs h).run pre).2.step (.seekMisc id o)).2.misc id = some { data := data, pos := o.toNat } ∧
        (((abs h).run pre).2.step (.seekMisc id o)).2.writable = false := by
      simp [State.step, hc2, hd, ho.2, upd1, hs1]
    generalize hg : (((abs h).run pre).2.step (.seekMisc id o)).2 = s1 at hafter
    have hmidP := run_ind (fun s => s.misc id = some { data := data, pos := o.toNat } ∧ s.writable = false)
      (fun op => ¬ movesChunk id op) (by
        rintro s op ⟨h1, h2⟩ hq
        refine ⟨(step_misc s op id hq).trans h1, ?_⟩
        cases op with
        | setMark t m p => simp only [State.step]; rw [(moveMark_other ..).2.1]; exact h2
        | setAES t b => rw [(setAES_other ..).2.1]; exact h2
        | setLoop f i l v => simp only [State.step]; rw [(setLoop_other ..).2.1]; exact h2
        | setParams i pv n => simp [State.step, h2]
        | setParamLong i p v => simp [State.step, h2]
        | writeMisc i b => simp only [State.step]; cases s.misc i <;> simp [h2]
        | readMisc i b => simp only [State.step]; cases s.misc i <;> simp only <;> (try split) <;> simp [h2]
        | seekMisc i b => simp only [State.step]; cases s.misc i <;> simp only <;> (try split) <;> simp [h2]
        | _ => exact h2) mid s1 hafter (fun op hm => (hmid op hm).2)
    simp [State.step, hmidP.1, hmidP.2, hn, Stream.read]
  · intro op hm
    rcases List.mem_append.1 hm with hm | hm
    · exact hpre op hm
    · rcases List.mem_cons.1 hm with rfl | hm
      · exact ho.1
      · exact (hmid op hm).1

example : lastResult demoR ([.readMisc 5 3] ++ .seekMisc 5 2 :: [.readMisc 6 1, .setMark 1001 1 4] ++ [.readMisc 5 9]) =
    .ok (some (.bytes 2 [3, 4])) := by decide

/-- The position of every chunk stays within it. -/
theorem C25_position_in_chunk (h : Handle) (hw : WF h) (ops : List Op) (ho : ∀ op ∈ ops, InRange op) :
    ∃ rs h', run h ops = .ok (rs, h') ∧ ∀ m ∈ h'.misc, 0 ≤ m.position ∧ m.position ≤ m.size := by
  obtain ⟨rs, h', e, hw', _⟩ := run_refines ops h hw ho
  exact ⟨rs, h', e, hw'.pos⟩

/-- What the property would need and the code does not do: a negative offset is accepted, and the next write goes
below the buffer. This holds for every chunk of every writable file. -/
theorem C25_negative_seek_corrupts (h : Handle) (hw : WF h) (ha : h.access = .write) (id o : Int) (m : Misc)
    (hm : h.getMisc id = some m) (ho : o < 0) (b : List Byte) (hb : b ≠ []) :
    run h [.seekMisc id o, .writeMisc id b] = .error .bufferOverflow := by
  have hsz := hw.size m (List.mem_of_find?_eq_some hm)
  have hbl : 0 < b.length := List.length_pos_iff.2 hb
  have hg : (seekMisc h id o).2.getMisc id = some { m with position := o } := by
    unfold seekMisc; simp only [hm]; rw [if_neg (by omega)]
    simp only
    rw [getMisc_upd h id id (fun m => { m with position := o }) (by simp)]
    simp [hm]
  have hacc : (seekMisc h id o).2.access = .write := by
    unfold seekMisc; simp only [hm]; rw [if_neg (by omega)]; exact ha
  have e : writeMisc (seekMisc h id o).2 id b = .error .bufferOverflow := by
    unfold writeMisc
    rw [if_neg (by simp [hacc]), hg]
    simp only
    rw [if_neg (by omega), if_neg (by omega), if_pos (by omega)]
  simp [run, step, e, Except.map, bind, Except.bind]

example : run demo [.seekMisc 5 (-1), .writeMisc 5 [7]] = .error .bufferOverflow := by decide

/-! ## C26: markers -/

/-- A call that can move marker `m` of track `t`. -/
def movesMark (t m : Int) : Op → Prop
  | .setMark t' m' _ => t' = t ∧ m' = m
  | .setLoop f _ _ _ => f = .startFrame ∨ f = .endFrame
  | _ => False

theorem step_mark (s : State) (op : Op) (t m : Int) (hop : ¬ movesMark t m op) : (s.step op).2.mark t m = s.mark t m := by
  cases op with
  | setMark t' m' p =>
    have : ¬ (t = t' ∧ m = m') := fun h => hop (by simp [movesMark, h])
    simp only [State.step, State.moveMark]; split
    · simp [upd2, this]
    · rfl
  | setAES t b => rw [(setAES_other ..).2.2.1]
  | setLoop f i l v =>
    simp only [State.step, State.setLoop]
    cases f <;> first
      | (exfalso; apply hop; simp [movesMark]; done)
      | (cases (if s.writable = true then s.loop i l else none) <;> simp only <;> (try split) <;> rfl)
  | setParams i pv n => simp only [State.step]; split; rw [(setParam_other ..).2.2.1]; rfl
  | setParamLong i p v =>
    simp only [State.step]; split
    · have := (setParam_other s i [{ type := Pv.LONG, param := p, value := v }]).2.2.1
      simp only [List.foldl_cons, List.foldl_nil] at this
      rw [this]
    · rfl
  | writeMisc i b => simp only [State.step]; cases s.misc i <;> simp only <;> (try split) <;> rfl
  | readMisc i b => simp only [State.step]; cases s.misc i <;> simp only <;> (try split) <;> rfl
  | seekMisc i b => simp only [State.step]; cases s.misc i <;> simp only <;> (try split) <;> rfl
  | _ => rfl

theorem run_mark (s : State) (ops : List Op) (t m : Int) (hop : ∀ op ∈ ops, ¬ movesMark t m op) :
    (s.run ops).2.mark t m = s.mark t m :=
  run_ind (fun s' => s'.mark t m = s.mark t m) (fun op => ¬ movesMark t m op)
    (fun _ op hs hq => (step_mark _ op t m hq).trans hs) ops s rfl hop

theorem mark_exists (h : Handle) (t m : Int) (hm : m ∈ (getMarkIDs h t).2) : ((abs h).mark t m).isSome = true := by
  unfold getMarkIDs at hm
  cases ht : h.getTrack t with
  | none => simp [ht] at hm
  | some tr =>
    simp only [ht, List.mem_map] at hm
    obtain ⟨mk, hmem, hid⟩ := hm
    have : (tr.getMarker m).isSome := by
      unfold Track.getMarker
      rw [List.find?_isSome]
      exact ⟨mk, hmem, by simp [hid]⟩
    simp [abs, ht, this]

/-- `afGetMarkPosition` returns what `afSetMarkPosition` last set (0 for a negative position), whatever other calls
come between. -/
theorem C26_last_set_wins (h : Handle) (hw : WF h) (ha : h.access = .write) (t m p : Int)
    (hm : m ∈ (getMarkIDs h t).2) (ops : List Op) (ho : ∀ op ∈ ops, InRange op ∧ ¬ movesMark t m op) :
    lastResult h (.setMark t m p :: ops ++ [.getMark t m]) = .ok (some (.num (max p 0))) := by
  rw [lastResult_abs h hw _ ?_ (.getMark t m) trivial]
  · simp only [State.run, State.step, State.frameOf]
    rw [run_mark _ _ _ _ (fun op h => (ho op h).2)]
    have hwr : (abs h).writable = true := by simp [abs, ha]
    simp [State.moveMark, hwr, mark_exists h t m hm, upd2]
  · intro op hm
    rcases List.mem_cons.1 hm with rfl | hm
    · exact trivial
    · exact (ho op hm).1

example : (9 : Int) ∈ (getMarkIDs demo 1001).2 := by decide
example : lastResult demo (.setMark 1001 9 77 :: [.setMark 1001 1 5, .setLoop .start 2001 1 9] ++ [.getMark 1001 9]) =
    .ok (some (.num 77)) := by decide

/-- A marker's position does not change by calls that do not set it. -/
theorem C26_others_untouched (h : Handle) (hw : WF h) (t m : Int) (ops : List Op)
    (ho : ∀ op ∈ ops, InRange op ∧ ¬ movesMark t m op) :
    lastResult h (ops ++ [.getMark t m]) = .ok (some (.num (getMarkPosition h t m))) := by
  rw [lastResult_abs h hw _ (fun op h => (ho op h).1) (.getMark t m) trivial, getMark_abs]
  simp only [State.step, State.frameOf]
  rw [run_mark _ _ _ _ (fun op h => (ho op h).2)]

/-- Setting a marker that does not exist, or a marker of a file opened for reading, changes nothing at all. -/
theorem C26_refused (h : Handle) (t m p : Int) (hr : h.access = .read ∨ m ∉ (getMarkIDs h t).2) :
    step h (.setMark t m p) = .ok (.void, h) := by
  simp only [step, setMarkPosition]
  rcases hr with hr | hr
  · simp [hr]
  · split
    · rfl
    · cases ht : h.getTrack t with
      | none => rfl
      | some tr =>
        simp only
        cases hm : tr.getMarker m with
        | none => rfl
        | some mk =>
          exfalso; apply hr
          simp only [getMarkIDs, ht, List.mem_map]
          exact ⟨mk, List.mem_of_find?_eq_some hm, by simpa using List.find?_some hm⟩

/-- The positions reported for ids that do not exist are 0. -/
theorem C26_unknown_is_zero (h : Handle) (t m : Int) (hm : m ∉ (getMarkIDs h t).2) : getMarkPosition h t m = 0 := by
  unfold getMarkPosition
  cases ht : h.getTrack t with
  | none => rfl
  | some tr =>
    simp only
    cases hg : tr.getMarker m with
    | none => rfl
    | some mk =>
      exfalso; apply hm
      simp only [getMarkIDs, ht, List.mem_map]
      exact ⟨mk, List.mem_of_find?_eq_some hg, by simpa using List.find?_some hg⟩

/-! ## C27: loops -/

/-- A field of a loop that is stored in the loop (the frames are stored in the markers). -/
def Stored (f : LoopField) : Prop := f ≠ .startFrame ∧ f ≠ .endFrame

/-- Legal values: modes are 0 (no loop), 1 (forward), 2 (forward/backward), counts at least 1, ids arbitrary. -/
def LegalLoop : LoopField → Int → Prop
  | .mode, v => v = 0 ∨ v = 1 ∨ v = 2
  | .count, v => 1 ≤ v
  | .startFrame, v | .endFrame, v => 0 ≤ v
  | _, _ => True

/-- A call that sets field `f` of loop `l` of instrument `i`. -/
def setsLoop (f : LoopField) (i l : Int) : Op → Prop
  | .setLoop f' i' l' _ => f' = f ∧ i' = i ∧ l' = l
  | _ => False

theorem step_loop (s : State) (op : Op) (f : LoopField) (hf : Stored f) (i l : Int) (hop : ¬ setsLoop f i l op) :
    (s.step op).2.getLoop f i l = s.getLoop f i l := by
  have key : ∀ s' : State, s'.loop i l = s.loop i l → s'.getLoop f i l = s.getLoop f i l := by
    intro s' he
    unfold State.getLoop
    rw [he]
    cases s.loop i l with
    | none => rfl
    | some r => cases f <;> first | rfl | exact absurd rfl hf.1 | exact absurd rfl hf.2
  cases op with
  | setMark t' m' p => apply key; simp only [State.step]; rw [(moveMark_other ..).2.2.1]
  | setAES t b => apply key; rw [(setAES_other ..).2.2.2.1]
  | setLoop f' i' l' v =>
    simp only [State.step, State.setLoop]
    have hmv : ∀ t m p, (s.moveMark t m p).loop i l = s.loop i l := by
      intro t m p; rw [(moveMark_other ..).2.2.1]
    cases hx : (if s.writable = true then s.loop i' l' else none) with
    | none => cases f' <;> rfl
    | some r =>
      have hr : s.loop i' l' = some r := by split at hx <;> simp_all
      by_cases hil : i' = i ∧ l' = l
      · obtain ⟨rfl, rfl⟩ := hil
        cases f' <;> cases f <;> first
          | (exfalso; apply hop; simp [setsLoop]; done)
          | (exfalso; exact hf.1 rfl)
          | (exfalso; exact hf.2 rfl)
          | (simp only [State.getLoop, upd2, hr, and_self, if_true]; done)
          | (simp only; split <;> simp only [State.getLoop, upd2, hr, and_self, if_true]; done)
          | (simp only; split <;> first | rfl | (apply key; exact hmv ..))
      · have hil' : ¬ (i = i' ∧ l = l') := fun h => hil ⟨h.1.symm, h.2.symm⟩
        apply key
        cases f' <;> simp only <;> (try split) <;> first | (exact hmv ..) | simp [upd2, hil']
  | setParams i pv n => apply key; simp only [State.step]; split; rw [(setParam_other ..).2.2.2.1]; rfl
  | setParamLong i p v =>
    apply key
    simp only [State.step]; split
    · have := (setParam_other s i [{ type := Pv.LONG, param := p, value := v }]).2.2.2.1
      simp only [List.foldl_cons, List.foldl_nil] at this
      rw [this]
    · rfl
  | writeMisc i b => apply key; simp only [State.step]; cases s.misc i <;> simp only <;> (try split) <;> rfl
  | readMisc i b => apply key; simp only [State.step]; cases s.misc i <;> simp only <;> (try split) <;> rfl
  | seekMisc i b => apply key; simp only [State.step]; cases s.misc i <;> simp only <;> (try split) <;> rfl
  | _ => rfl

theorem run_loop (s : State) (ops : List Op) (f : LoopField) (hf : Stored f) (i l : Int)
    (hop : ∀ op ∈ ops, ¬ setsLoop f i l op) : (s.run ops).2.getLoop f i l = s.getLoop f i l :=
  run_ind (fun s' => s'.getLoop f i l = s.getLoop f i l) (fun op => ¬ setsLoop f i l op)
    (fun _ op hs hq => (step_loop _ op f hf i l hq).trans hs) ops s rfl hop

theorem loop_exists (h : Handle) (i l : Int) (hm : l ∈ (getLoopIDs h i).2) : ∃ r, (abs h).loop i l = some r := by
  unfold getLoopIDs at hm
  cases ht : h.getInstrument i with
  | none => simp [ht] at hm
  | some inst =>
    simp only [ht, List.mem_map] at hm
    obtain ⟨lp, hmem, hid⟩ := hm
    have : (inst.getLoop l).isSome := by
      unfold Instrument.getLoop
      rw [List.find?_isSome]
      exact ⟨lp, hmem, by simp [hid]⟩
    obtain ⟨lp', hlp⟩ := Option.isSome_iff_exists.1 this
    exact ⟨lp'.toRec, by simp [abs, ht, hlp]⟩

/-- A loop's mode, count, start marker, end marker and track are what was last set, whatever other calls come
between. -/
theorem C27_last_set_wins (h : Handle) (hw : WF h) (ha : h.access = .write) (f : LoopField) (hf : Stored f) (i l v : Int)
    (hl : l ∈ (getLoopIDs h i).2) (hv : LegalLoop f v) (ops : List Op)
    (ho : ∀ op ∈ ops, InRange op ∧ ¬ setsLoop f i l op) :
    lastResult h (.setLoop f i l v :: ops ++ [.getLoop f i l]) = .ok (some (.num v)) := by
  rw [lastResult_abs h hw _ ?_ (.getLoop f i l) trivial]
  · simp only [State.run, State.step]
    rw [run_loop _ _ _ hf _ _ (fun op h => (ho op h).2)]
    obtain ⟨r, hr⟩ := loop_exists h i l hl
    have hwr : (abs h).writable = true := by simp [abs, ha]
    cases f <;> first
      | exact absurd rfl hf.1
      | exact absurd rfl hf.2
      | (simp only [LegalLoop] at hv; simp [State.setLoop, State.getLoop, hwr, hr, upd2, hv]; done)
  · intro op hm
    rcases List.mem_cons.1 hm with rfl | hm
    · exact trivial
    · exact (ho op hm).1

example : (2 : Int) ∈ (getLoopIDs demo 2001).2 := by decide
example : lastResult demo (.setLoop .count 2001 2 7 :: [.setLoop .count 2001 1 3, .setLoop .mode 2001 2 1,
    .setLoop .startFrame 2001 2 44] ++ [.getLoop .count 2001 2]) = .ok (some (.num 7)) := by decide

/-- Setting one field of one loop does not change other fields or other loops. -/
theorem C27_others_untouched (h : Handle) (hw : WF h) (f : LoopField) (hf : Stored f) (i l : Int) (ops : List Op)
    (ho : ∀ op ∈ ops, InRange op ∧ ¬ setsLoop f i l op) :
    lastResult h (ops ++ [.getLoop f i l]) = .ok (some (.num (getLoopField h f i l))) := by
  rw [lastResult_abs h hw _ (fun op h => (ho op h).1) (.getLoop f i l) trivial, ← getLoop_abs]
  simp only [State.step]
  rw [run_loop _ _ _ hf _ _ (fun op h => (ho op h).2)]

/-- Illegal values, unknown loops and files opened for reading: nothing at all changes. -/
theorem C27_refused (h : Handle) (f : LoopField) (i l v : Int)
    (hr : h.access = .read ∨ l ∉ (getLoopIDs h i).2 ∨ ¬ LegalLoop f v) :
    ∃ r, step h (.setLoop f i l v) = .ok (r, h) ∧ (r = .void ∨ r = .num (-1)) := by
  have hnone : (h.access = .read ∨ l ∉ (getLoopIDs h i).2) → findLoop h i l true = none := by
    intro hr
    unfold findLoop
    rcases hr with hr | hr
    · simp [hr]
    · split
      · rfl
      · cases hi : h.getInstrument i with
        | none => rfl
        | some inst =>
          simp only
          cases hg : inst.getLoop l with
          | none => rfl
          | some lp =>
            exfalso; apply hr
            simp only [getLoopIDs, hi, List.mem_map]
            exact ⟨lp, List.mem_of_find?_eq_some hg, by simpa using List.find?_some hg⟩
  by_cases hn : findLoop h i l true = none
  · cases f <;> simp [step, setLoop, setLoopMode, setLoopCount, setLoopStart, setLoopEnd, setLoopTrack,
      setLoopStartFrame, setLoopEndFrame, hn]
  · have hv : ¬ LegalLoop f v := by
      rcases hr with hr | hr | hr
      · exact absurd (hnone (.inl hr)) hn
      · exact absurd (hnone (.inr hr)) hn
      · exact hr
    obtain ⟨lp, hlp⟩ := Option.ne_none_iff_exists'.1 hn
    cases f <;> simp only [LegalLoop, not_true_eq_false] at hv
    · refine ⟨.void, ?_, .inl rfl⟩
      simp only [step, setLoop, setLoopMode, hlp]; rw [if_pos (by omega)]
    · refine ⟨.num (-1), ?_, .inr rfl⟩
      simp only [step, setLoop, setLoopCount, hlp]; rw [if_pos (by omega)]
    · refine ⟨.num (-1), ?_, .inr rfl⟩
      simp only [step, setLoop, setLoopStartFrame, hlp]; rw [if_pos (by omega)]
    · refine ⟨.num (-1), ?_, .inr rfl⟩
      simp only [step, setLoop, setLoopEndFrame, hlp]; rw [if_pos (by omega)]

/-- Setting a loop's start or end frame sets the position of the marker the loop refers to, and no other marker's. -/
theorem C27_frames_are_markers (h : Handle) (hw : WF h) (ha : h.access = .write) (i l v : Int)
    (hl : l ∈ (getLoopIDs h i).2) (hv : 0 ≤ v) (atEnd : Bool)
    (hm : getLoopField h (if atEnd then .endd else .start) i l ∈ (getMarkIDs h (getLoopField h .track i l)).2) :
    let frame := if atEnd then LoopField.endFrame else .startFrame
    let mk := getLoopField h (if atEnd then .endd else .start) i l
    ∃ h', step h (.setLoop frame i l v) = .ok (.num 0, h') ∧ getLoopField h' frame i l = v ∧
      ∀ t m, getMarkPosition h' t m =
        if t = getLoopField h .track i l ∧ m = mk then v else getMarkPosition h t m := by
  obtain ⟨r, hr⟩ := loop_exists h i l hl
  have hwr : (abs h).writable = true := by simp [abs, ha]
  have hx := mark_exists h _ _ hm
  simp only [← getLoop_abs] at hx ⊢
  have es := setLoop_abs h (if atEnd then LoopField.endFrame else .startFrame) i l v
  have e0 : (setLoop h (if atEnd then LoopField.endFrame else .startFrame) i l v).1 = .num 0 := by
    rw [show (setLoop h (if atEnd then LoopField.endFrame else .startFrame) i l v).1 = _ from (congrArg Prod.fst es).symm]
    cases atEnd <;> simp [State.setLoop, hwr, hr, hv]
  refine ⟨_, by rw [step]; rw [← e0], ?_, ?_⟩
  all_goals
    cases atEnd
    all_goals
      simp only [Bool.false_eq_true, if_false, if_true, State.setLoop, hwr, hr, hv, Prod.mk.injEq] at es hx ⊢
      simp only [State.getLoop, hr] at hx
  case refine_1.false =>
    rw [← es.2]; simp [State.getLoop, (moveMark_other ..).2.2.1, hr, State.frameOf, State.moveMark, hwr, hx, upd2]
  case refine_1.true =>
    rw [← es.2]; simp [State.getLoop, (moveMark_other ..).2.2.1, hr, State.frameOf, State.moveMark, hwr, hx, upd2]
  case refine_2.false =>
    intro t m
    rw [getMark_abs, getMark_abs, ← es.2]
    simp only [State.getLoop, hr, State.moveMark, hwr, hx, and_self, if_true, State.frameOf, upd2]
    split <;> rfl
  case refine_2.true =>
    intro t m
    rw [getMark_abs, getMark_abs, ← es.2]
    simp only [State.getLoop, hr, State.moveMark, hwr, hx, and_self, if_true, State.frameOf, upd2]
    split <;> rfl

example : getLoopField demo .endd 2001 2 ∈ (getMarkIDs demo (getLoopField demo .track 2001 2)).2 := by decide

/-! ## C28: instrument parameters -/

/-- The value a list of items leaves in parameter `p`: that of the last item that names `p`, is a `long` and has a
legal value; the old value if there is none. -/
def lastLegal (legal : Int → Int → Bool) (p : Int) (old : BitVec 64) : List Pv.Item → BitVec 64
  | [] => old
  | it :: its =>
    lastLegal legal p (if it.param = p ∧ it.type = Pv.LONG ∧ legal p it.value.toInt then it.value else old) its

theorem setParam_get (s : State) (i : Int) (it : Pv.Item) (i' p : Int) :
    (s.setParam i it).param i' p =
      if i' = i ∧ it.param = p ∧ it.type = Pv.LONG ∧ s.legal p it.value.toInt then
        (s.param i' p).map fun _ => it.value else s.param i' p := by
  unfold State.setParam
  by_cases hc : i' = i ∧ it.param = p ∧ it.type = Pv.LONG ∧ s.legal p it.value.toInt = true
  · rw [if_pos hc]
    obtain ⟨rfl, rfl, h1, h2⟩ := hc
    cases hp : s.param i' it.param with
    | none => simp [hp]
    | some x => simp [h1, h2, upd2]
  · rw [if_neg hc]
    split
    · rename_i h
      simp only [upd2]
      rw [if_neg (fun e => hc ⟨e.1, e.2.symm, h.2.1, by rw [e.2]; exact h.2.2⟩)]
    · rfl

theorem setParam_legal (s : State) (i : Int) (it : Pv.Item) : (s.setParam i it).legal = s.legal := by
  unfold State.setParam; split <;> rfl

theorem foldl_setParam_get (its : List Pv.Item) (s : State) (i p : Int) :
    (its.foldl (·.setParam i ·) s).param i p = (s.param i p).map fun old => lastLegal s.legal p old its := by
  induction its generalizing s with
  | nil => simp [lastLegal]
  | cons it its ih =>
    simp only [List.foldl_cons, ih, setParam_get, setParam_legal, true_and, lastLegal]
    cases s.param i p with
    | none => simp
    | some x => split <;> simp [*]

theorem foldl_setParam_other (its : List Pv.Item) (s : State) (i i' p : Int)
    (h : i' ≠ i ∨ ∀ it ∈ its, it.param ≠ p) :
    (its.foldl (·.setParam i ·) s).param i' p = s.param i' p := by
  induction its generalizing s with
  | nil => rfl
  | cons it its ih =>
    simp only [List.foldl_cons]
    rw [ih _ (h.imp id fun h o ho => h o (by simp [ho])), setParam_get]
    rw [if_neg]
    rintro ⟨e1, e2, -⟩
    rcases h with h | h
    · exact h e1
    · exact h it (by simp) e2

/-- A call that can set parameter `p` of instrument `i`. -/
def setsParam (i p : Int) : Op → Prop
  | .setParams i' pv n => i' = i ∧ ∃ it ∈ AF.Spec.Meta.firstItems pv n, it.param = p
  | .setParamLong i' p' _ => i' = i ∧ p' = p
  | _ => False

theorem step_param (s : State) (op : Op) (i p : Int) (hop : ¬ setsParam i p op) :
    (s.step op).2.param i p = s.param i p := by
  cases op with
  | setMark t' m' q => simp only [State.step]; rw [(moveMark_other ..).2.2.2.1]
  | setAES t b => rw [(setAES_other ..).2.2.2.2.1]
  | setLoop f i l v => simp only [State.step]; rw [(setLoop_other ..).2.2.1]
  | setParams i' pv n =>
    simp only [State.step]
    split
    · apply foldl_setParam_other
      by_cases e : i' = i
      · exact .inr fun it hit hp => hop ⟨e, it, hit, hp⟩
      · exact .inl fun h => e h.symm
    · rfl
  | setParamLong i' p' v =>
    simp only [State.step]
    split
    · rw [setParam_get, if_neg]
      rintro ⟨e1, e2, -⟩
      exact hop ⟨e1.symm, e2⟩
    · rfl
  | writeMisc i b => simp only [State.step]; cases s.misc i <;> simp only <;> (try split) <;> rfl
  | readMisc i b => simp only [State.step]; cases s.misc i <;> simp only <;> (try split) <;> rfl
  | seekMisc i b => simp only [State.step]; cases s.misc i <;> simp only <;> (try split) <;> rfl
  | _ => rfl

theorem run_param (s : State) (ops : List Op) (i p : Int) (hop : ∀ op ∈ ops, ¬ setsParam i p op) :
    (s.run ops).2.param i p = s.param i p :=
  run_ind (fun s' => s'.param i p = s.param i p) (fun op => ¬ setsParam i p op)
    (fun _ op hs hq => (step_param _ op i p hq).trans hs) ops s rfl hop

theorem mem_ids {f : Family} {p : Int} : p ∈ f.ids ↔ hasParam f p := by
  cases f <;> simp [Family.ids, hasParam] <;> omega

theorem param_exists (h : Handle) (hw : WF h) (i p : Int) (hi : ∃ x ∈ h.instruments, x.id = i) (hp : hasParam h.family p) :
    ((abs h).param i p).isSome = true := by
  obtain ⟨x, hx, hid⟩ := hi
  have : (h.getInstrument i).isSome := by
    unfold Handle.getInstrument
    rw [List.find?_isSome]; exact ⟨x, hx, by simp [hid]⟩
  obtain ⟨inst, hinst⟩ := Option.isSome_iff_exists.1 this
  have hlen := hw.values inst (List.mem_of_find?_eq_some hinst)
  have hlt : h.family.ids.findIdx (· == p) < h.family.ids.length := by
    rw [List.findIdx_lt_length]; exact ⟨p, mem_ids.2 hp, by simp⟩
  have hidx : indexFromId h.family p = some (h.family.ids.findIdx (· == p)) := by
    unfold indexFromId; simp only; rw [if_neg (by omega)]
  simp [abs, hinst, hidx, hlen, hlt]

/-- `afGetInstParamLong` after `afSetInstParams` and any other calls returns the last legal value in the list, or the
value from before if there is none. -/
theorem C28_last_legal_wins (h : Handle) (hw : WF h) (ha : h.access = .write) (i p : Int)
    (hi : ∃ x ∈ h.instruments, x.id = i) (hp : hasParam h.family p) (l : List Pv.Item) (n : Int) (ops : List Op)
    (ho : ∀ op ∈ ops, InRange op ∧ ¬ setsParam i p op) :
    lastResult h (.setParams i (some l) n :: ops ++ [.getParamLong i p]) =
      .ok (some (.long (lastLegal (limits h.family) p (getInstParamLong h i p) (l.take n.toNat)))) := by
  rw [lastResult_abs h hw _ ?_ (.getParamLong i p) trivial]
  · simp only [State.run, State.step]
    rw [run_param _ _ _ _ (fun op h => (ho op h).2)]
    have hwr : (abs h).writable = true := by simp [abs, ha]
    obtain ⟨v, hv⟩ := Option.isSome_iff_exists.1 (param_exists h hw i p hi hp)
    rw [if_pos hwr, foldl_setParam_get, getInstParamLong_abs, hv]
    rfl
  · intro op hm
    rcases List.mem_cons.1 hm with rfl | hm
    · exact trivial
    · exact (ho op hm).1

/-- The same for `afSetInstParamLong`: a legal value is returned, an illegal one leaves the old value. -/
theorem C28_long_last_legal_wins (h : Handle) (hw : WF h) (ha : h.access = .write) (i p : Int)
    (hi : ∃ x ∈ h.instruments, x.id = i) (hp : hasParam h.family p) (v : BitVec 64) (ops : List Op)
    (ho : ∀ op ∈ ops, InRange op ∧ ¬ setsParam i p op) :
    lastResult h (.setParamLong i p v :: ops ++ [.getParamLong i p]) =
      .ok (some (.long (if limits h.family p v.toInt then v else getInstParamLong h i p))) := by
  rw [lastResult_abs h hw _ ?_ (.getParamLong i p) trivial]
  · simp only [State.run, State.step]
    rw [run_param _ _ _ _ (fun op h => (ho op h).2)]
    have hwr : (abs h).writable = true := by simp [abs, ha]
    obtain ⟨w, hw'⟩ := Option.isSome_iff_exists.1 (param_exists h hw i p hi hp)
    have hleg : (abs h).legal = limits h.family := rfl
    rw [if_pos hwr, setParam_get, getInstParamLong_abs, hw', hleg]
    simp only [true_and]
    split <;> simp
  · intro op hm
    rcases List.mem_cons.1 hm with rfl | hm
    · exact trivial
    · exact (ho op hm).1

example : ∃ x ∈ demo.instruments, x.id = 2001 := by decide
example : lastResult demo [.setParamLong 2001 301 61, .setParamLong 2001 301 128, .setParamLong 2001 302 5,
    .getParamLong 2001 301] = .ok (some (.long 61)) := by decide

/-- Parameters not named in a call keep their values. -/
theorem C28_others_untouched (h : Handle) (hw : WF h) (i p : Int) (ops : List Op)
    (ho : ∀ op ∈ ops, InRange op ∧ ¬ setsParam i p op) :
    lastResult h (ops ++ [.getParamLong i p]) = .ok (some (.long (getInstParamLong h i p))) := by
  rw [lastResult_abs h hw _ (fun op h => (ho op h).1) (.getParamLong i p) trivial, getInstParamLong_abs]
  simp only [State.step]
  rw [run_param _ _ _ _ (fun op h => (ho op h).2)]

/-- `afGetInstParams` fills every item of the first `n` that names a parameter of the format with that parameter's
value (the one `afGetInstParamLong` returns), and leaves the other items alone. -/
theorem C28_get_list (h : Handle) (hw : WF h) (i : Int) (hi : ∃ x ∈ h.instruments, x.id = i) (l : List Pv.Item) (n : Int) :
    getInstParams h i (some l) n = some (l.mapIdx fun k it =>
      if (k : Int) < n ∧ hasParam h.family it.param then
        { it with type := Pv.LONG, value := getInstParamLong h i it.param } else it) := by
  rw [getInstParams_abs]
  simp only [Option.map_some, Option.some.injEq]
  apply List.ext_getElem?; intro k
  simp only [List.getElem?_mapIdx]
  cases l[k]? with
  | none => rfl
  | some it =>
    simp only [Option.map_some, Option.some.injEq]
    by_cases hk : (k : Int) < n
    · simp only [hk, if_true, true_and]
      by_cases hp : hasParam h.family it.param
      · rw [if_pos hp, getInstParamLong_abs]
        obtain ⟨v, hv⟩ := Option.isSome_iff_exists.1 (param_exists h hw i it.param hi hp)
        simp [hv]
      · rw [if_neg hp]
        have : (abs h).param i it.param = none := by
          have : indexFromId h.family it.param = none := by
            unfold indexFromId; simp only
            rw [if_pos]
            rw [List.findIdx_eq_length]
            intro x hx; simp only [beq_eq_false_iff_ne]; rintro rfl; exact hp (mem_ids.1 hx)
          simp [abs, this]
        simp [this]
    · simp [hk]

example : getInstParams demo 2001 (some [⟨3, 301, 9⟩, ⟨1, 999, 9⟩, ⟨1, 302, 9⟩]) 2 =
    some [⟨1, 301, 60⟩, ⟨1, 999, 9⟩, ⟨1, 302, 9⟩] := by decide

end AF.Meta
