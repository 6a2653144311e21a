import Verif.Proof.Heap.Alone
/-! C64: setups and handles in memory. C43: a setup is captured when a file is opened. -/
namespace AF.Heap

theorem ran {e : Endian} {ops : List WOp} {W : World} {rs : List (Option Meta.Ret)} (h : World.new.run e ops = some (W, rs)) :
    ∃ R st, execAll e ⟨[], []⟩ ops start = .ok ((R, rs), st) ∧ ownWorld R W st.mem := by
  obtain ⟨x, st, h1, -, h3⟩ := t_execAll (R := ⟨[], []⟩) world_new_good h emp start (fun _ _ => rfl) (by
    rw [sep_emp]
    show (emp ∗ emp) _
    rw [sep_emp]
    rfl)
  rw [sep_emp] at h3
  obtain ⟨h4, h5⟩ := fact_sep.1 h3
  obtain ⟨R, r⟩ := x
  dsimp only at h4 h5
  subst h4
  exact ⟨R, st, h1, h5⟩

/-- C64: whatever proper history of calls a program makes on setups and on handles opened for writing — it uses neither what
it has freed nor what it never had, and does not write outside a miscellaneous chunk — the calls touch only memory they own:
no pointer is followed that is null, dangling or beyond its block, and nothing is freed twice. Every call answers what it
answers if each setup and each handle is a plain value of its own, and the memory consists of the blocks of the setups and
handles that have not been freed. -/
theorem C64_memory_is_used_properly (e : Endian) (ops : List WOp) (W : World) (rs : List (Option Meta.Ret))
    (h : World.new.run e ops = some (W, rs)) :
    ∃ R st, execAll e ⟨[], []⟩ ops start = .ok ((R, rs), st) ∧ ownWorld R W st.mem := ran h

theorem each_dead {α : Type} {own : Ptr → α → SL} : ∀ {rs : List Ptr} {vs : List (Obj α)} (m : Mem), (∀ v ∈ vs, v = .null ∨ v = .gone) →
    each (ownObj own) rs vs m → m = Mem.empty
  | [], [], m, _, h => h
  | [], _ :: _, m, _, h => h.elim
  | _ :: _, [], m, _, h => h.elim
  | r :: rs, v :: vs, m, hd, h => by
    obtain ⟨a, b, -, rfl, ha, hb⟩ := h
    have eb := each_dead b (fun v hv => hd v (List.mem_cons_of_mem _ hv)) hb
    have ea : a = Mem.empty := by
      rcases hd v (List.mem_cons_self ..) with rfl | rfl
      · exact ha.2
      · exact ha
    rw [ea, eb]
    exact join_empty _

/-- C64: nothing is lost: when all setups are freed and all handles closed, whichever opens failed and however, every block
has been freed. -/
theorem C64_nothing_leaks (e : Endian) (ops : List WOp) (W : World) (rs : List (Option Meta.Ret))
    (h : World.new.run e ops = some (W, rs)) (hs : ∀ x ∈ W.setups, x = .null ∨ x = .gone) (hh : ∀ x ∈ W.handles, x = .null ∨ x = .gone) :
    ∃ R st, execAll e ⟨[], []⟩ ops start = .ok ((R, rs), st) ∧ ∀ p, st.mem p = none := by
  obtain ⟨R, st, h1, a, b, -, h2, ha, hb⟩ := ran h
  refine ⟨R, st, h1, fun p => ?_⟩
  rw [h2, each_dead a hs ha, each_dead b hh hb]
  rfl

/-- C43: a file is opened with a setup after some history `pre`, and more calls follow, on any setups and handles: among them
the setup may be changed or freed, and the handle closed. The calls on the metadata of the new handle answer exactly what they
answer on the handle as it was opened if none of the other calls is made. -/
theorem C43_handle_is_independent_of_its_setup (e : Endian) (pre post : List WOp) (i : Nat) (W : World) (rs : List (Option Meta.Ret))
    (S : Setup.Setup) (o : Setup.Opened) (W' : World) (rs' : List (Option Meta.Ret)) (hpre : World.new.run e pre = some (W, rs))
    (hS : W.setups[i]? = some (.live S)) (ho : (Setup.openWrite e S).2 = some o)
    (hpost : World.run e W (.openWrite i true true :: post) = some (W', rs')) :
    ∃ R st H, execAll e ⟨[], []⟩ (pre ++ .openWrite i true true :: post) start = .ok ((R, rs ++ rs'), st) ∧
      Meta.run o.handle (callsOn W.handles.length post) = .ok (answersOn W.handles.length post rs'.tail, H) := by
  obtain ⟨R, st, h1, -⟩ := ran (run_append hpre hpost)
  obtain ⟨W1, r, rs1, hs, hr, rfl⟩ := run_cons hpost
  unfold World.step at hs
  dsimp only at hs
  rw [hS] at hs
  dsimp only at hs
  rw [if_pos ⟨rfl, rfl⟩, ho] at hs
  cases hs
  obtain ⟨H, h2, -⟩ := live_calls (j := W.handles.length) (V := HandleVal.ofOpened o) (by dsimp only; rw [List.getElem?_append_right (Nat.le_refl _), Nat.sub_self]; rfl) rfl hr
  rw [metadata_opened ho] at h2
  exact ⟨R, st, H, h1, h2⟩

/-- C43: likewise for everything else the handle has: unless it has been closed, the memory contains the handle, with the
formats and marker names it was opened with, the virtual formats changed only by the calls on it, and the metadata changed
only by the calls on it. -/
theorem C43_handle_in_memory (e : Endian) (pre post : List WOp) (i : Nat) (W : World) (rs : List (Option Meta.Ret))
    (S : Setup.Setup) (o : Setup.Opened) (W' : World) (rs' : List (Option Meta.Ret)) (hpre : World.new.run e pre = some (W, rs))
    (hS : W.setups[i]? = some (.live S)) (ho : (Setup.openWrite e S).2 = some o)
    (hpost : World.run e W (.openWrite i true true :: post) = some (W', rs')) (hopen : .close W.handles.length ∉ post) :
    ∃ R st p V H, execAll e ⟨[], []⟩ (pre ++ .openWrite i true true :: post) start = .ok ((R, rs ++ rs'), st) ∧
      R.handles[W.handles.length]? = some p ∧ (∃ rest, (ownHandle p V ∗ rest) st.mem) ∧
      Meta.run o.handle (callsOn W.handles.length post) = .ok (answersOn W.handles.length post rs'.tail, H) ∧ V.metadata = H ∧
      V.tracks.map (fun x => (x.f, x.v, x.names, x.matrix)) =
        (post.foldl (WOp.onFormats W.handles.length) (HandleVal.ofOpened o).tracks).map (fun x => (x.f, x.v, x.names, x.matrix)) := by
  obtain ⟨R, st, h1, hm⟩ := ran (run_append hpre hpost)
  obtain ⟨W1, r, rs1, hs, hr, rfl⟩ := run_cons hpost
  unfold World.step at hs
  dsimp only at hs
  rw [hS] at hs
  dsimp only at hs
  rw [if_pos ⟨rfl, rfl⟩, ho] at hs
  cases hs
  have h0 : (World.handles ⟨W.setups.set i (.live (Setup.openWrite e S).1), W.handles ++ [.live (HandleVal.ofOpened o)]⟩)[W.handles.length]? =
      some (.live (HandleVal.ofOpened o)) := by dsimp only; rw [List.getElem?_append_right (Nat.le_refl _), Nat.sub_self]; rfl
  obtain ⟨H, h2, h3⟩ := live_calls (j := W.handles.length) (V := HandleVal.ofOpened o) h0 rfl hr
  rw [metadata_opened ho] at h2
  rcases h3 with h3 | ⟨V, h3, h4, h5⟩
  · exact absurd h3 (still_open h0 hopen hr)
  · obtain ⟨a, b, hab, hj, ha, hb⟩ := hm
    have hlen := each_length b hb
    have hlt := (List.getElem?_eq_some_iff.1 h3).1
    obtain ⟨E, he, -⟩ := each_split (P := ownObj ownHandle) (List.getElem?_eq_getElem (l := R.handles) (i := W.handles.length) (by omega)) h3
    refine ⟨R, st, R.handles[W.handles.length], V, H, h1, List.getElem?_eq_getElem (by omega), ⟨E ∗ each (ownObj ownSetup) R.setups W'.setups, ?_⟩, h2, h4, ?_⟩
    · rw [← sep_assoc, sep_comm]
      refine ⟨a, b, hab, hj, ha, ?_⟩
      rw [he] at hb
      exact hb
    · have := congrArg (List.map (fun x : Int × _ => x.2)) h5
      unfold formats at this
      simpa only [List.map_map, Function.comp_def] using this
where
  still_open {e : Endian} {j : Nat} : ∀ {ops : List WOp} {W W' : World} {rs : List (Option Meta.Ret)} {V : HandleVal},
      W.handles[j]? = some (.live V) → .close j ∉ ops → W.run e ops = some (W', rs) → W'.handles[j]? ≠ some .gone
    | [], W, W', rs, V, hj, _, h => by cases h; rw [hj]; intro h; cases h
    | op :: ops, W, W', rs, V, hj, hc, h => by
      obtain ⟨W1, r, rs', hs, hr, rfl⟩ := run_cons h
      have hlt := (List.getElem?_eq_some_iff.1 hj).1
      have hc' : .close j ∉ ops := fun h => hc (List.mem_cons_of_mem _ h)
      by_cases h1 : ∃ c, op = .call j c
      · obtain ⟨c, rfl⟩ := h1
        unfold World.step at hs
        dsimp only at hs
        rw [hj] at hs
        dsimp only at hs
        split at hs
        · cases hs
          exact still_open (by dsimp only; rw [List.getElem?_set_self hlt]) hc' hr
        · cases hs
      by_cases h2 : ∃ c, op = .virt j c
      · obtain ⟨c, rfl⟩ := h2
        unfold World.step at hs
        dsimp only at hs
        rw [hj] at hs
        cases hs
        exact still_open (by dsimp only; rw [List.getElem?_set_self hlt]) hc' hr
      exact still_open (step_other hj hs (fun c h => h1 ⟨c, h⟩) (fun c h => h2 ⟨c, h⟩) (fun h => hc (h ▸ List.mem_cons_self ..))) hc' hr

/-- C43: a setup, unless it is freed, is in memory at the end, with the value that the calls on it and the opens with it give
alone (what an open changes is `C43_open_changes_only_the_format`): what happens to the handles that were opened with it, and
to other setups, does not matter. -/
theorem C43_setup_is_independent_of_its_handles (e : Endian) (pre post : List WOp) (i : Nat) (W : World) (rs : List (Option Meta.Ret))
    (S : Setup.Setup) (W' : World) (rs' : List (Option Meta.Ret)) (hpre : World.new.run e pre = some (W, rs)) (hS : W.setups[i]? = some (.live S))
    (hpost : World.run e W post = some (W', rs')) :
    ∃ R st, execAll e ⟨[], []⟩ (pre ++ post) start = .ok ((R, rs ++ rs'), st) ∧
      (W'.setups[i]? = some .gone ∨ ∃ p, R.setups[i]? = some p ∧ ∃ rest, (ownSetup p (post.foldl (WOp.onSetup e i) S) ∗ rest) st.mem) := by
  obtain ⟨R, st, h1, a, b, hab, hj, ha, hb⟩ := ran (run_append hpre hpost)
  refine ⟨R, st, h1, ?_⟩
  rcases live_setup hS hpost with h | h
  · exact Or.inl h
  · have hlen := each_length a ha
    have hlt := (List.getElem?_eq_some_iff.1 h).1
    obtain ⟨E, he, -⟩ := each_split (P := ownObj ownSetup) (List.getElem?_eq_getElem (l := R.setups) (i := i) (by omega)) h
    refine Or.inr ⟨R.setups[i], List.getElem?_eq_getElem (by omega), E ∗ each (ownObj ownHandle) R.handles W'.handles, ?_⟩
    rw [← sep_assoc]
    refine ⟨a, b, hab, hj, ?_, hb⟩
    rw [he] at ha
    exact ha

/-! ## Examples -/

/-- A WAVE file with markers, a loop and a chunk; the setup is changed and freed while the file is open. -/
def wavProgram : List WOp :=
  [.new, .set 0 (.fileFormat 4), .set 0 (.channels 1001 2), .set 0 (.markIDs 1001 [1, 2]), .set 0 (.markName 1001 1 [65, 66]),
   .set 0 (.instIDs [2001]), .set 0 (.loopIDs 2001 [1]), .set 0 (.miscIDs [5]), .set 0 (.miscType 5 203), .set 0 (.miscSize 5 4),
   .openWrite 0 true true,
   .set 0 (.markIDs 1001 [7]), .set 0 (.miscIDs []), .call 0 (.setMark 1001 2 44), .openWrite 0 true false, .freeSetup 0,
   .virt 0 (.matrix 1001 (some [0, 0, 0, 0])), .call 0 (.writeMisc 5 [1, 2, 3]), .call 0 (.setParamLong 2001 301 60),
   .call 0 (.getMark 1001 2), .call 1 (.getMark 1001 2), .virt 0 (.channels 1001 1), .close 0]

/-- The program is proper; its calls answer as expected, and at the end everything has been freed: the theorems apply to it. -/
theorem wavProgram_proper : ∃ W, World.new.run .little wavProgram = some (W,
    [none, none, none, none, none, none, none, none, none, none, none, none, none, some .void, none, none, none, some (.num 3), some .void,
     some (.num 44), none, none, none]) ∧ W.setups.length = 1 ∧ W.handles.length = 2 ∧ (∀ x ∈ W.setups, x = .null ∨ x = .gone) ∧
      ∀ x ∈ W.handles, x = .null ∨ x = .gone := by
  refine ⟨⟨[.gone], [.gone, .null]⟩, by decide +kernel, by simp, by simp, by simp, by simp⟩

example : ∃ R rs st, execAll .little ⟨[], []⟩ wavProgram start = .ok ((R, rs), st) ∧ ∀ p, st.mem p = none := by
  obtain ⟨W, h, -, -, hs, hh⟩ := wavProgram_proper
  obtain ⟨R, st, h1, h2⟩ := C64_nothing_leaks .little _ _ _ h hs hh
  exact ⟨R, _, st, h1, h2⟩

/-- The answers of the calls on a handle after it was opened with setup 0, as the program gives them and as the handle alone
gives them. -/
def openedAnswers (pre post : List WOp) : Option (List Meta.Ret × List Meta.Ret) :=
  match World.new.run .little pre with
  | none => none
  | some (W, _) =>
    match W.setups[0]? with
    | some (Obj.live S) =>
      match (Setup.openWrite .little S).2, World.run .little W (.openWrite 0 true true :: post) with
      | some o, some (_, rs) =>
        match Meta.run o.handle (callsOn W.handles.length post) with
        | .ok (r, _) => some (answersOn W.handles.length post rs.tail, r)
        | .error _ => none
      | _, _ => none
    | _ => none

/-- The hypotheses of C43 hold of the program: the file is opened by the eleventh call. -/
example : openedAnswers (wavProgram.take 10) (wavProgram.drop 11) =
    some ([.void, .num 3, .void, .num 44], [.void, .num 3, .void, .num 44]) := by decide +kernel

end AF.Heap
