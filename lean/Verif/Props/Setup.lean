import Verif.Proof.Setup
import Verif.Spec.Setup
import Verif.Proof.Meta
/-! C30: id lists in setups. C31: sample formats in setups and virtual formats. C43 (values): what opening does to a
setup. -/
namespace AF.Setup
open AF.Meta (updFirst)
open AF.Spec.Setup (Lists)

/-! ## The lists after any history -/

/-- The model's lists are the specification's. -/
structure Rel (s : Setup) (l : Lists) : Prop where
  insts : l.insts = if s.instrumentSet then some (s.instruments.map (·.id)) else none
  loops : ∀ i, l.loops i = (s.instruments.find? (·.id == i)).map (·.loops)
  marks : ∀ tr ∈ s.tracks, l.marks = (if tr.markersSet then some (tr.markers.map (·.id)) else none) ∧
    (tr.markersSet = false → tr.markers.map (·.id) = [1, 2, 3, 4])
  misc : l.misc = if s.miscellaneousSet then some (s.miscellaneous.map (·.id)) else none

theorem find_updFirst {α : Type} (k : α → Int) (i j : Int) (g : α → α) (hg : ∀ a, k (g a) = k a) (l : List α) :
    (updFirst (fun a => k a == i) g l).find? (fun a => k a == j) =
      if j = i then (l.find? (fun a => k a == i)).map g else l.find? (fun a => k a == j) := by
  induction l with
  | nil => simp [updFirst]
  | cons a l ih =>
    unfold updFirst
    by_cases h : k a = i
    · rw [if_pos (by simpa using h)]
      by_cases hj : j = i
      · subst hj; simp [hg, h]
      · have hne : (k (g a) == j) = false := by rw [hg, h]; simpa using fun e => hj e.symm
        have hne' : (k a == j) = false := by rw [h]; simpa using fun e => hj e.symm
        simp [hj, hne, hne']
    · rw [if_neg (by simpa using h)]
      by_cases hj : k a = j
      · have : ¬ j = i := fun e => h (hj.trans e)
        simp [this, hj]
      · have hne : (k a == j) = false := by simpa using hj
        have hne' : (k a == i) = false := by simpa using h
        simp [hne, hne', ih]

theorem rel_onTrack {s : Setup} {l : Lists} (hr : Rel s l) (t : Int) (g : TrackSetup → TrackSetup)
    (h1 : ∀ x, (g x).markersSet = x.markersSet) (h2 : ∀ x, (g x).markers.map (·.id) = x.markers.map (·.id)) :
    Rel (s.onTrack t g) l := by
  refine ⟨hr.insts, hr.loops, ?_, hr.misc⟩
  have hm := hr.marks
  unfold Setup.onTrack
  dsimp only
  revert hm
  generalize s.tracks = ts
  intro hm
  induction ts with
  | nil => simpa [updFirst] using hm
  | cons a ts ih =>
    have hts : ∀ tr ∈ ts, _ := fun tr h => hm tr (List.mem_cons_of_mem _ h)
    unfold updFirst
    split
    · intro tr htr
      rcases List.mem_cons.1 htr with rfl | h
      · rw [h1, h2]; exact hm a (List.mem_cons_self ..)
      · exact hts _ h
    · intro tr htr
      rcases List.mem_cons.1 htr with rfl | h
      · exact hm _ (List.mem_cons_self ..)
      · exact ih hts _ h

theorem rel_new (h : Endian) : Rel (newSetup h) Lists.initial := by
  refine ⟨rfl, ?_, ?_, rfl⟩
  · intro i
    by_cases hi : i = 2001
    · subst hi; rfl
    · have : (DEFAULT_INST == i) = false := by
        simp only [beq_eq_false_iff_ne, ne_eq, DEFAULT_INST]; exact fun e => hi e.symm
      simp [Lists.initial, hi, newSetup, newInstruments, this]
  · intro tr htr
    have : tr = newTrack h 0 := by simpa [newSetup] using htr
    subst this
    exact ⟨rfl, fun _ => rfl⟩

theorem rel_step {s : Setup} {l : Lists} (hr : Rel s l) (hi : Inv s) (op : Op) : Rel (step s op) (l.step op) := by
  cases op with
  | fileFormat f =>
    simp only [step, initFileFormat]
    repeat' split
    all_goals exact ⟨hr.insts, hr.loops, hr.marks, hr.misc⟩
  | channels t n => exact rel_onTrack hr t _ (fun x => by dsimp only; split <;> rfl) (fun x => by dsimp only; split <;> rfl)
  | sampleFormat t f w => exact rel_onTrack hr t _ (fun x => rfl) (fun x => rfl)
  | byteOrder t o => exact rel_onTrack hr t _ (fun x => by dsimp only; split <;> rfl) (fun x => by dsimp only; split <;> rfl)
  | rate t r => exact rel_onTrack hr t _ (fun x => by dsimp only; split <;> rfl) (fun x => by dsimp only; split <;> rfl)
  | dataOffset t o => exact rel_onTrack hr t _ (fun x => by split <;> rfl) (fun x => by split <;> rfl)
  | frameCount t o => exact rel_onTrack hr t _ (fun x => by split <;> rfl) (fun x => by split <;> rfl)
  | compression t c => exact rel_onTrack hr t _ (fun x => by dsimp only; split <;> rfl) (fun x => by dsimp only; split <;> rfl)
  | pcmMapping t p => exact rel_onTrack hr t _ (fun x => rfl) (fun x => rfl)
  | aes t on => exact rel_onTrack hr t _ (fun x => rfl) (fun x => rfl)
  | markIDs t ids =>
    obtain ⟨tr, ht, hid⟩ := hi.track
    simp only [step, initMarkIDs]
    rw [onTrack_one ht]
    by_cases h : tr.id = t
    · have h' : t = 1001 := by rw [← h, hid]
      rw [if_pos h]
      simp only [Lists.step, h', if_true]
      refine ⟨hr.insts, hr.loops, ?_, hr.misc⟩
      intro x hx
      simp only [List.mem_singleton] at hx
      subst hx
      refine ⟨?_, fun h => by simp at h⟩
      simp only [if_true, List.map_map]
      congr 1
      exact (List.map_id ids).symm
    · have h' : ¬ t = 1001 := by intro e; exact h (by rw [hid, e])
      rw [if_neg h]
      simpa only [Lists.step, h', if_false] using hr
  | markName t m name => exact rel_onTrack hr t _ (fun x => rfl) (fun x => updFirst_map _ _ _ (by intro _; rfl) _)
  | markComment t m c => exact rel_onTrack hr t _ (fun x => rfl) (fun x => updFirst_map _ _ _ (by intro _; rfl) _)
  | instIDs ids =>
    simp only [step, initInstIDs, Lists.step]
    by_cases h : ids.Nodup
    · have hu := (uniqueIds_iff ids).2 h
      rw [if_neg (by simp [hu]), if_pos h, newInstruments_eq]
      refine ⟨?_, ?_, hr.marks, hr.misc⟩
      · simp only [if_true, List.map_map]
        congr 1
        exact (List.map_id ids).symm
      · intro i
        dsimp only
        clear hu h
        induction ids with
        | nil => simp
        | cons a ids ih =>
          by_cases hi : i = a
          · subst hi; simp
          · have : (a == i) = false := by simpa using fun e : a = i => hi e.symm
            simp only [List.map_cons, List.find?_cons, this, List.mem_cons, hi, false_or]
            exact ih
    · have hu : uniqueIds ids = false := by
        cases e : uniqueIds ids
        · rfl
        · exact absurd ((uniqueIds_iff ids).1 e) h
      rw [if_pos (by simp [hu]), if_neg h]
      exact hr
  | loopIDs i ids =>
    simp only [step, initLoopIDs, Lists.step]
    by_cases h : ids.Nodup
    · have hu := (uniqueIds_iff ids).2 h
      rw [if_neg (by simp [hu])]
      have hfind := fun j => find_updFirst InstrumentSetup.id i j (fun inst => { inst with loops := ids })
        (fun _ => rfl) s.instruments
      have hids : (updFirst (fun x : InstrumentSetup => x.id == i) (fun inst => { inst with loops := ids })
          s.instruments).map (·.id) = s.instruments.map (·.id) := updFirst_map _ _ _ (by intro _; rfl) _
      have hl := hr.loops i
      cases hf : s.instruments.find? (fun x => x.id == i) with
      | none =>
        rw [hf] at hl
        rw [if_neg (by simp [hl])]
        refine ⟨by rw [hr.insts, hids], ?_, hr.marks, hr.misc⟩
        intro j
        rw [hfind j]
        split
        · rename_i e; subst e; rw [hf, hl]; rfl
        · exact hr.loops j
      | some inst =>
        rw [hf] at hl
        rw [if_pos ⟨h, by simp [hl]⟩]
        refine ⟨by rw [hr.insts, hids], ?_, hr.marks, hr.misc⟩
        intro j
        rw [hfind j]
        dsimp only
        split
        · rw [hf]; rfl
        · exact hr.loops j
    · have hu : uniqueIds ids = false := by
        cases e : uniqueIds ids
        · rfl
        · exact absurd ((uniqueIds_iff ids).1 e) h
      rw [if_pos (by simp [hu]), if_neg (by simp [h])]
      exact hr
  | miscIDs ids =>
    refine ⟨hr.insts, hr.loops, hr.marks, ?_⟩
    simp only [step, initMiscIDs, Lists.step, if_true, List.map_map]
    congr 1
    exact (List.map_id ids).symm
  | miscType m t =>
    refine ⟨hr.insts, hr.loops, hr.marks, ?_⟩
    have e : (updFirst (fun x : MiscSetup => x.id == m) (fun x => { x with type := t }) s.miscellaneous).map (·.id) =
      s.miscellaneous.map (·.id) := updFirst_map _ _ _ (by intro _; rfl) _
    show l.misc = if s.miscellaneousSet then some (List.map (·.id) (updFirst _ _ s.miscellaneous)) else none
    rw [e]
    exact hr.misc
  | miscSize m t =>
    refine ⟨hr.insts, hr.loops, hr.marks, ?_⟩
    have e : (updFirst (fun x : MiscSetup => x.id == m) (fun x => { x with size := t }) s.miscellaneous).map (·.id) =
      s.miscellaneous.map (·.id) := updFirst_map _ _ _ (by intro _; rfl) _
    show l.misc = if s.miscellaneousSet then some (List.map (·.id) (updFirst _ _ s.miscellaneous)) else none
    rw [e]
    exact hr.misc

theorem rel_run (h : Endian) (ops : List Op) : Rel (run (newSetup h) ops) (Lists.after ops) := by
  have : ∀ (ops : List Op) (s : Setup) (l : Lists), Inv s → Rel s l → Rel (ops.foldl step s) (ops.foldl Lists.step l) := by
    intro ops
    induction ops with
    | nil => intro s l _ hr; exact hr
    | cons op ops ih => intro s l hi hr; exact ih _ _ (step_inv hi op) (rel_step hr hi op)
  exact this ops _ _ (newSetup_inv h) (rel_new h)

/-- Opening succeeds exactly with the completed copy. -/
theorem openWrite_some {h : Endian} {s s' : Setup} {o : Opened} (hi : Inv s) (ho : openWrite h s = (s', some o)) :
    ∃ tr f, s.tracks = [tr] ∧ tr.id = DEFAULT_TRACK ∧ s' = setF s tr f ∧ o.handle = initFromSetup (completed s tr f) ∧
      o.f = [f] ∧ complete h s = (s', some (completed s tr f)) := by
  obtain ⟨tr, ht, hid⟩ := hi.track
  obtain ⟨f, h1, h2⟩ := complete_shape h ht hid hi
  unfold openWrite at ho
  generalize hc : complete h s = p at ho h1 h2
  obtain ⟨a, c⟩ := p
  dsimp only at ho h1 h2
  simp only [Prod.mk.injEq, Option.map_eq_some_iff] at ho
  obtain ⟨rfl, c', hc', rfl⟩ := ho
  rcases h2 with h2 | h2
  · rw [h2] at hc'; cases hc'
  · rw [h2] at hc'
    cases hc'
    refine ⟨tr, f, ht, hid, h1, rfl, rfl, by rw [h2]⟩

/-! ## C30 -/

/-- C30: an instrument list with a repeated id changes nothing; any other list becomes the setup's list. -/
theorem C30_instrument_list_accepted_iff (s : Setup) (ids : List Int) :
    (¬ ids.Nodup → step s (.instIDs ids) = s) ∧
    (ids.Nodup → (step s (.instIDs ids)).instruments.map (·.id) = ids ∧ (step s (.instIDs ids)).instrumentSet = true) := by
  constructor
  · intro h
    have hu : uniqueIds ids = false := by
      cases e : uniqueIds ids
      · rfl
      · exact absurd ((uniqueIds_iff ids).1 e) h
    simp [step, initInstIDs, hu]
  · intro h
    have hu := (uniqueIds_iff ids).2 h
    simp only [step, initInstIDs, hu]
    exact ⟨newInstruments_ids _ _ rfl, rfl⟩

/-- C30: a loop list with a repeated id changes nothing; any other list becomes the loop list of the instrument, and
other instruments keep theirs. -/
theorem C30_loop_list_accepted_iff (s : Setup) (i : Int) (ids : List Int) :
    (¬ ids.Nodup → step s (.loopIDs i ids) = s) ∧
    (ids.Nodup → ∀ j inst, s.instruments.find? (·.id == j) = some inst →
      ((step s (.loopIDs i ids)).instruments.find? (·.id == j)).map (·.loops) = some (if j = i then ids else inst.loops)) := by
  constructor
  · intro h
    have hu : uniqueIds ids = false := by
      cases e : uniqueIds ids
      · rfl
      · exact absurd ((uniqueIds_iff ids).1 e) h
    simp [step, initLoopIDs, hu]
  · intro h j inst hj
    have hu := (uniqueIds_iff ids).2 h
    simp only [step, initLoopIDs, hu]
    simp only [Bool.not_true, Bool.false_eq_true, if_false]
    rw [find_updFirst InstrumentSetup.id i j (fun inst => { inst with loops := ids }) (fun _ => rfl)]
    split
    · rename_i e; subst e; rw [hj]; rfl
    · rw [hj]; rfl

example : [7, 9].Nodup ∧ ¬ [7, 9, 7].Nodup := by decide

/-- C30: after any history of setup calls, a file opened for writing reports the instruments of the last accepted
list, or the format's default if there was none. -/
theorem C30_instruments_reported (h : Endian) (ops : List Op) (s' : Setup) (o : Opened)
    (ho : openWrite h (run (newSetup h) ops) = (s', some o)) :
    getInstIDs o.handle = (Lists.after ops).insts.getD (Spec.Setup.defaultInsts (run (newSetup h) ops).fileFormat) := by
  have hi : Inv (run (newSetup h) ops) := foldl_inv (newSetup_inv h)
  have hr := rel_run h ops
  obtain ⟨tr, f, ht, hid, -, hh, -⟩ := openWrite_some hi ho
  rw [hh, hr.insts]
  simp only [getInstIDs, initFromSetup, completed, List.map_map]
  cases hs : (run (newSetup h) ops).instrumentSet
  · have := hi.noInst hs
    simp only [Bool.false_eq_true, if_false, Option.getD_none]
    have e : (run (newSetup h) ops).instruments.map (fun i => i.id) = [2001] := this
    have e' : ∀ n, List.map (fun i : InstrumentSetup => i.id) (List.take n (run (newSetup h) ops).instruments) = List.take n [2001] := by
      intro n; rw [List.map_take, e]
    refine (e' _).trans ?_
    cases (run (newSetup h) ops).fileFormat <;> rfl
  · simp only [if_true, Option.getD_some]
    rfl

/-- C30: and for each instrument, the loops of the last accepted list for it. -/
theorem C30_loops_reported (h : Endian) (ops : List Op) (s' : Setup) (o : Opened)
    (ho : openWrite h (run (newSetup h) ops) = (s', some o)) (i : Int) (hmem : i ∈ getInstIDs o.handle) :
    some (Meta.getLoopIDs o.handle i).2 = (Lists.after ops).loops i := by
  have hi : Inv (run (newSetup h) ops) := foldl_inv (newSetup_inv h)
  have hr := rel_run h ops
  obtain ⟨tr, f, ht, hid, -, hh, -⟩ := openWrite_some hi ho
  rw [hr.loops, hh]
  rw [hh] at hmem
  generalize run (newSetup h) ops = s at *
  -- the instruments taken over are a prefix of the setup's
  have hpre : (completed s tr f).instruments <+: s.instruments := by
    simp only [completed]
    split
    · exact List.prefix_refl _
    · exact List.take_prefix _ _
  have hmem' : i ∈ (completed s tr f).instruments.map (·.id) := by
    simpa [getInstIDs, initFromSetup, Function.comp_def] using hmem
  generalize (completed s tr f) = c at *
  obtain ⟨rest, hrest⟩ := hpre
  have hfind : s.instruments.find? (·.id == i) = c.instruments.find? (·.id == i) := by
    rw [← hrest, List.find?_append]
    obtain ⟨x, hx, hxi⟩ := List.mem_map.1 hmem'
    have : (c.instruments.find? (·.id == i)).isSome := List.find?_isSome.2 ⟨x, hx, by simpa using hxi⟩
    obtain ⟨y, hy⟩ := Option.isSome_iff_exists.1 this
    rw [hy]; rfl
  rw [hfind]
  simp only [Meta.getLoopIDs, Meta.Handle.getInstrument, initFromSetup]
  rw [List.find?_map]
  have hex : (c.instruments.find? (·.id == i)).isSome := by
    obtain ⟨x, hx, hxi⟩ := List.mem_map.1 hmem'
    exact List.find?_isSome.2 ⟨x, hx, by simpa using hxi⟩
  obtain ⟨y, hy⟩ := Option.isSome_iff_exists.1 hex
  have : List.find? ((fun x : Meta.Instrument => x.id == i) ∘ fun inst : InstrumentSetup =>
      { id := inst.id
        loops := inst.loops.mapIdx fun j l =>
          { id := l, mode := 0, count := 0, beginMarker := 2 * j + 1, endMarker := 2 * j + 2, trackid := DEFAULT_TRACK }
        values := paramDefaults c.fileFormat.family }) c.instruments = some y := hy
  rw [this, hy]
  simp only [Option.map_some]
  congr 1
  apply List.ext_getElem
  · simp
  · intro n h1 h2; simp

/-- C30: the markers reported are the last list set (or the format's default), each id cut to 16 bits. -/
theorem C30_markers_reported (h : Endian) (ops : List Op) (s' : Setup) (o : Opened)
    (ho : openWrite h (run (newSetup h) ops) = (s', some o)) :
    (Meta.getMarkIDs o.handle 1001).2 =
      ((Lists.after ops).marks.getD (Spec.Setup.defaultMarks (run (newSetup h) ops).fileFormat)).map (wrapS 16) := by
  have hi : Inv (run (newSetup h) ops) := foldl_inv (newSetup_inv h)
  have hr := rel_run h ops
  obtain ⟨tr, f, ht, hid, -, hh, -⟩ := openWrite_some hi ho
  obtain ⟨hm, hd⟩ := hr.marks tr (by simp [ht])
  rw [hh, hm]
  have hid' : (tr.id == 1001) = true := by simp [hid]
  simp only [Meta.getMarkIDs, Meta.Handle.getTrack, initFromSetup, completed, List.map_cons, List.map_nil, List.find?_cons, hid',
    copyMarkers, List.map_map]
  cases hs : tr.markersSet
  · have hd := hd hs
    simp only [Bool.false_eq_true, false_or, if_false, Option.getD_none]
    by_cases hk : keepsMarks (run (newSetup h) ops).fileFormat = true
    · rw [if_pos hk]
      have : List.map ((fun m : Meta.Marker => m.id) ∘ fun m : MarkerSetup => ({ id := wrapS 16 m.id, position := 0 } : Meta.Marker)) tr.markers
          = (tr.markers.map (·.id)).map (wrapS 16) := by simp [Function.comp_def]
      rw [this, hd]
      congr 1
      revert hk
      cases (run (newSetup h) ops).fileFormat <;> simp [keepsMarks, Spec.Setup.defaultMarks]
    · rw [if_neg hk]
      revert hk
      cases (run (newSetup h) ops).fileFormat <;> simp [keepsMarks, Spec.Setup.defaultMarks]
  · simp [Function.comp_def]

/-- C30: the miscellaneous chunks reported are the last list set. -/
theorem C30_misc_reported (h : Endian) (ops : List Op) (s' : Setup) (o : Opened)
    (ho : openWrite h (run (newSetup h) ops) = (s', some o)) :
    getMiscIDs o.handle = (Lists.after ops).misc.getD [] := by
  have hi : Inv (run (newSetup h) ops) := foldl_inv (newSetup_inv h)
  have hr := rel_run h ops
  obtain ⟨tr, f, ht, hid, -, hh, -⟩ := openWrite_some hi ho
  rw [hh, hr.misc]
  simp only [getMiscIDs, initFromSetup, completed, List.map_map]
  cases hs : (run (newSetup h) ops).miscellaneousSet
  · simp
  · simp [Function.comp_def]

/-- An AIFF file with an instrument, its two loops renamed, and markers. -/
def demoOps : List Op :=
  [.fileFormat 2, .instIDs [5, 5], .instIDs [5], .loopIDs 5 [8, 8], .loopIDs 5 [8, 3], .markIDs 1001 [10, 20, 30], .miscIDs [4],
   .miscType 4 203, .miscSize 4 12]

example : ∃ s' o, openWrite .little (run (newSetup .little) demoOps) = (s', some o) ∧ getInstIDs o.handle = [5] ∧
    (Meta.getLoopIDs o.handle 5).2 = [8, 3] ∧ (Meta.getMarkIDs o.handle 1001).2 = [10, 20, 30] ∧
    getMiscIDs o.handle = [4] := ⟨_, _, rfl, by decide, by decide, by decide, by decide⟩

/-- C30 fails for markers and miscellaneous chunks: lists with repeated ids are accepted, for every list. -/
theorem C30_repeated_ids_accepted (h : Endian) (ops : List Op) (ids : List Int) :
    (∀ tr ∈ (step (run (newSetup h) ops) (.markIDs 1001 ids)).tracks, tr.markers.map (·.id) = ids) ∧
    (step (run (newSetup h) ops) (.miscIDs ids)).miscellaneous.map (·.id) = ids := by
  have hi : Inv (run (newSetup h) ops) := foldl_inv (newSetup_inv h)
  constructor
  · obtain ⟨tr, ht, hid⟩ := hi.track
    simp only [step, initMarkIDs]
    rw [onTrack_one ht, if_pos hid]
    intro x hx
    simp only [List.mem_singleton] at hx
    subst hx
    simp [Function.comp_def]
  · simp [step, initMiscIDs, Function.comp_def]

/-- C30 fails for marker ids outside 16 bits: an accepted id above 32767 is not the id of any marker of the opened
file, in any format and after any history. -/
theorem C30_large_marker_id_lost (h : Endian) (ops : List Op) (s' : Setup) (o : Opened) (ids : List Int) (id : Int)
    (hl : (Lists.after ops).marks = some ids) (hid : id ∈ ids) (hbig : 32767 < id)
    (ho : openWrite h (run (newSetup h) ops) = (s', some o)) :
    id ∉ (Meta.getMarkIDs o.handle 1001).2 ∧ wrapS 16 id ∈ (Meta.getMarkIDs o.handle 1001).2 := by
  rw [C30_markers_reported h ops s' o ho, hl]
  refine ⟨?_, List.mem_map_of_mem hid⟩
  intro hm
  obtain ⟨x, -, hx⟩ := List.mem_map.1 hm
  have : wrapS 16 x ≤ 32767 := by
    have := Int.bmod_lt (x := x) (m := 2 ^ 16) (by decide)
    unfold wrapS
    omega
  omega

example : ∃ s' o, openWrite .little (run (newSetup .little) [.markIDs 1001 [40000, 65537, 1]]) = (s', some o) ∧
    (Lists.after [.markIDs 1001 [40000, 65537, 1]]).marks = some [40000, 65537, 1] ∧
    (Meta.getMarkIDs o.handle 1001).2 = [-25536, 1, 1] := ⟨_, _, rfl, rfl, by decide⟩

/-- Handles opened from a setup meet the hypothesis of the metadata theorems (C25-C28), when the sizes given for
miscellaneous chunks are not negative. -/
theorem C25_opened_handle_wf (h : Endian) (ops : List Op) (s' : Setup) (o : Opened)
    (hsz : ∀ m n, Op.miscSize m n ∈ ops → 0 ≤ n)
    (ho : openWrite h (run (newSetup h) ops) = (s', some o)) : Meta.WF o.handle := by
  have hi : Inv (run (newSetup h) ops) := foldl_inv (newSetup_inv h)
  have hsize : ∀ m ∈ (run (newSetup h) ops).miscellaneous, 0 ≤ m.size := by
    have : ∀ (ops : List Op) (s : Setup), (∀ m n, Op.miscSize m n ∈ ops → 0 ≤ n) → (∀ m ∈ s.miscellaneous, 0 ≤ m.size) →
        ∀ m ∈ (ops.foldl step s).miscellaneous, 0 ≤ m.size := by
      intro ops
      induction ops with
      | nil => intro s _ hs; exact hs
      | cons op ops ih =>
        intro s ho hs
        refine ih _ (fun m n hm => ho m n (List.mem_cons_of_mem _ hm)) ?_
        have hupd : ∀ (id : Int) (g : MiscSetup → MiscSetup), (∀ x, 0 ≤ x.size → 0 ≤ (g x).size) → ∀ l : List MiscSetup,
            (∀ m ∈ l, 0 ≤ m.size) → ∀ m ∈ updFirst (·.id == id) g l, 0 ≤ m.size := by
          intro id g hg l
          induction l with
          | nil => intro h; simp [updFirst]
          | cons a l ih =>
            intro hl
            unfold updFirst
            split
            · intro m hm
              rcases List.mem_cons.1 hm with rfl | hm
              · exact hg _ (hl _ (List.mem_cons_self ..))
              · exact hl _ (List.mem_cons_of_mem _ hm)
            · intro m hm
              rcases List.mem_cons.1 hm with rfl | hm
              · exact hl _ (List.mem_cons_self ..)
              · exact ih (fun m h => hl _ (List.mem_cons_of_mem _ h)) m hm
        cases op with
        | miscSize m n =>
          have hn := ho m n (List.mem_cons_self ..)
          exact hupd m _ (fun _ _ => hn) _ hs
        | miscType m n => exact hupd m (fun x => { x with type := n }) (fun _ h => h) _ hs
        | miscIDs ids => intro m hm; simp [step, initMiscIDs] at hm; obtain ⟨a, -, rfl⟩ := hm; simp
        | fileFormat f => (simp only [step, initFileFormat]; repeat' split) <;> exact hs
        | instIDs ids => simp only [step, initInstIDs]; split <;> exact hs
        | loopIDs i ids => simp only [step, initLoopIDs]; split <;> exact hs
        | _ => exact hs
    exact this ops _ hsz (by simp [newSetup])
  obtain ⟨tr, f, ht, hid, -, hh, -⟩ := openWrite_some hi ho
  rw [hh]
  generalize run (newSetup h) ops = s at *
  refine ⟨?_, ?_, ?_, ?_, ?_⟩
  · intro i hi
    simp only [initFromSetup, List.mem_map] at hi
    obtain ⟨x, -, rfl⟩ := hi
    show (paramDefaults (completed s tr f).fileFormat.family).length = (completed s tr f).fileFormat.family.ids.length
    cases (completed s tr f).fileFormat.family <;> rfl
  all_goals
    intro m hm
    simp only [initFromSetup, List.mem_map] at hm
    obtain ⟨x, hx, rfl⟩ := hm
    have hx' : 0 ≤ x.size := by
      refine hsize x ?_
      simp only [completed] at hx
      split at hx
      · exact hx
      · cases hx
  · exact hx'
  · exact ⟨Int.le_refl 0, hx'⟩
  · intro b hb; simp at hb
  · intro _; exact Or.inl rfl

example : ∃ s' o, openWrite .little (run (newSetup .little) demoOps) = (s', some o) ∧ Meta.WF o.handle :=
  ⟨_, _, rfl, C25_opened_handle_wf .little demoOps _ _ (by
    intro m n hm
    simp only [demoOps, List.mem_cons, reduceCtorEq, false_or, Op.miscSize.injEq, List.not_mem_nil, or_false] at hm
    omega) rfl⟩

/-! ## C31 -/

/-- C31: `_af_set_sample_format`, behind `afInitSampleFormat` and `afSetVirtualSampleFormat`, succeeds exactly for
integer samples of 1 to 32 bits and for float and double; then the width is legal, the sample size is the number of
whole bytes, the mapping is the default one for that number of bytes, and nothing else changes. A failure changes
nothing. -/
theorem C31_set_sample_format (f : AFmt) (sf sw : Int) :
    let r := setSampleFormat f sf sw
    (r.1 = true ↔ ((sf = 401 ∨ sf = 402) ∧ 1 ≤ sw ∧ sw ≤ 32) ∨ sf = 403 ∨ sf = 404) ∧
    (r.1 = false → r.2 = f) ∧
    (r.1 = true →
      r.2.sampleFormat = sf ∧ Spec.Setup.LegalWidth sf r.2.sampleWidth ∧ (sf = 401 ∨ sf = 402 → r.2.sampleWidth = sw) ∧
      sampleSizeUncompressed r.2 false = Spec.Setup.sampleBytes sf sw ∧
      frameSizeUncompressed r.2 false = Spec.Setup.sampleBytes sf sw * f.channels ∧
      r.2.channels = f.channels ∧ r.2.rate = f.rate ∧ r.2.byteOrder = f.byteOrder ∧ r.2.compression = f.compression ∧
      r.2.pcm =
        (let n := 8 * Spec.Setup.sampleBytes sf sw
         if sf = 401 then ⟨(2 ^ (n - 1) : Nat), 0, -((2 ^ (n - 1) : Nat) : Rat), ((2 ^ (n - 1) : Nat) : Rat) - 1⟩
         else if sf = 402 then ⟨(2 ^ (n - 1) : Nat), (2 ^ (n - 1) : Nat), 0, ((2 ^ n : Nat) : Rat) - 1⟩
         else ⟨1, 0, 0, 0⟩)) := by
  dsimp only
  unfold setSampleFormat
  simp only [TWOSCOMP, UNSIGNED, FLOAT, DOUBLE]
  by_cases h1 : sf = 402 ∨ sf = 401
  · rw [if_pos h1]
    have hi : ¬ sf = 403 := by omega
    have hj : ¬ sf = 404 := by omega
    have hsz : ∀ (g : AFmt), g.sampleFormat = sf → g.sampleWidth = sw → 1 ≤ sw →
        sampleSizeUncompressed g false = Spec.Setup.sampleBytes sf sw := by
      intro g e1 e2 hw
      simp only [sampleSizeUncompressed, Spec.Setup.sampleBytes, e1, e2, FLOAT, DOUBLE, hi, hj, if_false]
      rw [if_neg (by simp)]
      have : (sw + 7).tdiv 8 = (sw + 7) / 8 := Int.tdiv_eq_ediv_of_nonneg (by omega)
      rw [this]
      omega
    by_cases h2 : sw < 1 ∨ sw > 32
    · rw [if_pos h2]
      refine ⟨⟨by simp, by omega⟩, by simp, by simp⟩
    · rw [if_neg h2]
      have hs := hsz { f with sampleFormat := sf, sampleWidth := sw } rfl rfl (by omega)
      rw [hs]
      have hlw : Spec.Setup.LegalWidth sf sw := Or.inl ⟨by omega, by omega, by omega⟩
      by_cases h3 : sf = 401
      · rw [if_pos h3]
        refine ⟨⟨fun _ => by omega, fun _ => rfl⟩, by simp, fun _ =>
          ⟨rfl, hlw, fun _ => rfl, hsz _ rfl rfl (by omega), ?_, rfl, rfl, rfl, rfl, ?_⟩⟩
        · simp only [frameSizeUncompressed]; rw [hsz _ rfl rfl (by omega)]
        · rw [if_pos h3]; rfl
      · rw [if_neg h3]
        refine ⟨⟨fun _ => by omega, fun _ => rfl⟩, by simp, fun _ =>
          ⟨rfl, hlw, fun _ => rfl, hsz _ rfl rfl (by omega), ?_, rfl, rfl, rfl, rfl, ?_⟩⟩
        · simp only [frameSizeUncompressed]; rw [hsz _ rfl rfl (by omega)]
        · rw [if_neg h3, if_pos (by omega)]; rfl
  · rw [if_neg h1]
    by_cases h2 : sf = 403
    · rw [if_pos h2]
      subst h2
      refine ⟨⟨fun _ => by omega, fun _ => rfl⟩, by simp, fun _ =>
        ⟨rfl, Or.inr (Or.inl ⟨rfl, rfl⟩), by omega, rfl, rfl, rfl, rfl, rfl, rfl, by simp⟩⟩
    · rw [if_neg h2]
      by_cases h3 : sf = 404
      · rw [if_pos h3]
        subst h3
        refine ⟨⟨fun _ => by omega, fun _ => rfl⟩, by simp, fun _ =>
          ⟨rfl, Or.inr (Or.inr ⟨rfl, rfl⟩), by omega, rfl, rfl, rfl, rfl, rfl, rfl, by simp⟩⟩
      · rw [if_neg h3]
        refine ⟨⟨by simp, by omega⟩, by simp, by simp⟩

example : (setSampleFormat (newTrack .little 0).f 402 20).1 = true ∧
    (setSampleFormat (newTrack .little 0).f 401 33).1 = false := by decide +kernel

/-- C31: after any history of setup calls, with any arguments, the setup's sample width belongs to its sample format,
there is at least one channel, the rate is positive, and byte order and compression are known ones. -/
theorem C31_setup_always_legal (h : Endian) (ops : List Op) :
    ∀ tr ∈ (run (newSetup h) ops).tracks,
      Spec.Setup.LegalWidth tr.f.sampleFormat tr.f.sampleWidth ∧ 1 ≤ tr.f.channels ∧ 0 < tr.f.rate ∧
      (tr.f.byteOrder = 501 ∨ tr.f.byteOrder = 502) ∧ tr.f.compression ∈ [0, 502, 503, 519, 523, 530, 540] := by
  intro tr htr
  have := run_legal (newSetup_legal h) (ops := ops) tr htr
  exact ⟨this.sample, this.channels, this.rate, this.order, this.compression⟩

/-- C31: and so has the track of any file opened for writing; its frame size is that of its uncompressed frames over
the compression ratio. -/
theorem C31_opened_format_legal (h : Endian) (ops : List Op) (s' : Setup) (o : Opened)
    (ho : openWrite h (run (newSetup h) ops) = (s', some o)) :
    ∃ f, o.f = [f] ∧ Spec.Setup.LegalWidth f.sampleFormat f.sampleWidth ∧ 1 ≤ f.channels ∧ 0 < f.rate ∧
      (f.byteOrder = 501 ∨ f.byteOrder = 502) ∧ f.compression ∈ [0, 502, 503, 519, 523, 530, 540] ∧
      ∃ ratio : Rat, frameSize f false =
        some ((Spec.Setup.sampleBytes f.sampleFormat f.sampleWidth * f.channels : Int) / ratio) ∧
        (ratio = if f.compression = 502 ∨ f.compression = 503 then 2 else if f.compression = 519 ∨ f.compression = 523 then 4 else 1) := by
  have hi : Inv (run (newSetup h) ops) := foldl_inv (newSetup_inv h)
  have hl := run_legal (newSetup_legal h) (ops := ops)
  obtain ⟨tr, f, ht, hid, hs', hh, hf, hc⟩ := openWrite_some hi ho
  have hl' := complete_legal h hi hl
  rw [hc, hs'] at hl'
  have hf' : Legal f := hl' { tr with f := f } (by simp [setF])
  refine ⟨f, hf, hf'.sample, hf'.channels, hf'.rate, hf'.order, hf'.compression, _, ?_, rfl⟩
  have hsz : sampleSizeUncompressed f false = Spec.Setup.sampleBytes f.sampleFormat f.sampleWidth := by
    have h1 := hf'.sample
    simp only [sampleSizeUncompressed, Spec.Setup.sampleBytes, FLOAT, DOUBLE]
    by_cases e1 : f.sampleFormat = 403
    · simp [e1]
    · by_cases e2 : f.sampleFormat = 404
      · simp [e2]
      · rw [if_neg e1, if_neg e2, if_neg e1, if_neg e2, if_neg (by simp)]
        have : (f.sampleWidth + 7).tdiv 8 = (f.sampleWidth + 7) / 8 := Int.tdiv_eq_ediv_of_nonneg (by omega)
        rw [this]
        omega
  unfold frameSize frameSizeUncompressed
  rw [hsz]
  have hcm := hf'.compression
  simp only [List.mem_cons, List.not_mem_nil, or_false] at hcm
  rcases hcm with e | e | e | e | e | e | e <;> rw [e] <;> rfl

example : ∃ s' o, openWrite .big (run (newSetup .big) [.fileFormat 4, .sampleFormat 1001 401 8, .channels 1001 0,
    .channels 1001 3]) = (s', some o) ∧ o.f.map (fun f => (f.sampleFormat, f.sampleWidth, f.channels, f.byteOrder)) =
    [(402, 8, 3, 502)] := ⟨_, _, rfl, by decide +kernel⟩

/-- C31 fails for the channel count and rate of the virtual format: every channel count, also zero and negative ones,
is accepted and gives a frame size of no or a negative number of bytes; and a rate of zero is accepted. -/
theorem C31_virtual_channels_unchecked (v : AFmt) (n : Int) (hn : n ≤ 0) (hv : Legal v) :
    (setVirtualChannels v n).1 = 0 ∧ frameSizeUncompressed (setVirtualChannels v n).2 true ≤ 0 ∧
    (setVirtualRate v 0).1 = 0 ∧ (setVirtualRate v 0).2.rate = 0 := by
  refine ⟨rfl, ?_, by simp [setVirtualRate, show ¬ (0:Rat) < 0 from by decide +kernel], by
    simp [setVirtualRate, show ¬ (0:Rat) < 0 from by decide +kernel]⟩
  have hs := hv.sample
  have hpos : 0 ≤ sampleSizeUncompressed { v with channels := n } true := by
    simp only [sampleSizeUncompressed, FLOAT, DOUBLE]
    have h1 : (v.sampleWidth + 7).tdiv 8 = (v.sampleWidth + 7) / 8 := Int.tdiv_eq_ediv_of_nonneg (by omega)
    rw [h1]
    have h2 : 0 ≤ (v.sampleWidth + 7) / 8 := Int.ediv_nonneg (by omega) (by omega)
    split
    · omega
    · split
      · omega
      · split
        · omega
        · exact h2
  exact Int.mul_nonpos_of_nonneg_of_nonpos hpos hn

example : frameSizeUncompressed (setVirtualChannels (newTrack .little 0).f (-1)).2 true = -2 := by decide +kernel

/-! ## C43, values -/

/-- C43: opening a file for writing changes nothing in the caller's setup but the sample format, width, mapping,
byte order, channel count of its track: lists, flags, rate, compression, markers and their names, data offset and
frame count stay. (This includes opens that are refused.) -/
theorem C43_open_changes_only_the_format (h : Endian) (ops : List Op) :
    let s := run (newSetup h) ops
    let s' := (openWrite h s).1
    s'.fileFormat = s.fileFormat ∧ s'.instruments = s.instruments ∧ s'.instrumentSet = s.instrumentSet ∧
    s'.miscellaneous = s.miscellaneous ∧ s'.miscellaneousSet = s.miscellaneousSet ∧
    ∃ tr f, s.tracks = [tr] ∧ s'.tracks = [{ tr with f := f }] ∧ f.rate = tr.f.rate ∧
      f.compression = tr.f.compression := by
  have hi : Inv (run (newSetup h) ops) := foldl_inv (newSetup_inv h)
  obtain ⟨tr, ht, hid⟩ := hi.track
  obtain ⟨f, h1, -⟩ := complete_shape h ht hid hi
  have : (openWrite h (run (newSetup h) ops)).1 = setF (run (newSetup h) ops) tr f := h1
  have hsame := complete_pred (closed_same tr.f) h hi (by
    intro x hx
    rw [ht, List.mem_singleton] at hx
    subst hx
    exact ⟨rfl, rfl⟩)
  rw [h1] at hsame
  have hs2 : SameRC tr.f f := hsame { tr with f := f } (by simp [setF])
  generalize run (newSetup h) ops = s at *
  intro s₀ s'
  have e : s' = setF s tr f := this
  clear_value s'
  subst e
  exact ⟨rfl, rfl, rfl, rfl, rfl, tr, f, ht, rfl, hs2⟩

end AF.Setup
