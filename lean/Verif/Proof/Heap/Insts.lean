import Verif.Proof.Heap.Calls
/-! Instruments and miscellaneous data of setups, in memory. -/
namespace AF.Heap
open AF.Meta (updFirst)

variable {α β ρ ν : Type}

/-- The first record with a property is found and changed. -/
theorem t_updFound [Content (List ρ)] {P : ρ → ν → SL} {p : Ptr} {n : Nat} {vs : List ν} {found : ρ → Bool} {q : ν → Bool} {g : ν → ν}
    {k : Option Nat → M Unit} {C : SL} (hpq : ∀ r v m, P r v m → found r = q v) (h0 : k none = pure ())
    (h1 : ∀ i r v (l : List ρ), vs.findIdx? q = some i → vs[i]? = some v → l[i]? = some r →
      Triple ((p ↦ l) ∗ P r v ∗ C) (k (some i)) (fun _ => ex fun r' => (p ↦ l.set i r') ∗ P r' (g v) ∗ C)) :
    Triple (array P p n vs ∗ C) (findAt p n found >>= k) (fun _ => array P p n (updFirst q g vs) ∗ C) := by
  refine t_findAt hpq ?_ ?_
  · intro hn
    rw [h0]
    exact t_ret fun m hm => by rw [updFirst_none hn]; exact hm
  · intro j w rs mk hj hw _ hr hn hl hne
    obtain ⟨R, e, e'⟩ := each_split (P := P) hr hw
    rw [e]
    refine Triple.imp ((h1 j mk w rs hj hw hr).frame R) (imp_eq (by ac_rfl)) fun _ => ?_
    rw [ex_sep]
    rintro m ⟨mk', hm⟩
    rw [updFirst_set hj hw]
    have hlen : (vs.set j (g w)).length = vs.length := List.length_set
    have hne' : vs.set j (g w) ≠ [] := by
      intro h; apply hne; apply List.eq_nil_of_length_eq_zero; rw [← hlen, h]; rfl
    have hm' := imp_eq (show _ = (((p ↦ rs.set j mk') ∗ (P mk' (g w) ∗ R)) ∗ C) by ac_rfl) m hm
    rw [← e'] at hm'
    have := imp_sep (array_intro hne') imp_rfl m hm'
    rw [hlen, ← hn] at this
    exact this

theorem t_updFirst [Content (List ρ)] {P : ρ → ν → SL} {p : Ptr} {n : Nat} {vs : List ν} {found : ρ → Bool} {q : ν → Bool} {g : ν → ν}
    {k : Option Nat → M Unit} {C : SL} (hpq : ∀ r v m, P r v m → found r = q v) (h0 : k none = pure ())
    (h1 : ∀ i r v (l : List ρ), vs[i]? = some v → l[i]? = some r →
      Triple ((p ↦ l) ∗ P r v ∗ C) (k (some i)) (fun _ => ex fun r' => (p ↦ l.set i r') ∗ P r' (g v) ∗ C)) :
    Triple (array P p n vs ∗ C) (findAt p n found >>= k) (fun _ => array P p n (updFirst q g vs) ∗ C) :=
  t_updFound hpq h0 fun i r v l _ => h1 i r v l

/-- A loop that changes each record. -/
theorem t_each [Content (List ρ)] {P P' : ρ → ν → SL} {p : Ptr} {n : Nat} {vs vs' : List ν} {C : SL} {body : Nat → M Unit}
    (hl' : vs.length = vs'.length)
    (hb : ∀ i r v v', vs[i]? = some v → vs'[i]? = some v' → ∀ l : List ρ, l[i]? = some r →
      Triple ((p ↦ l) ∗ P r v ∗ C) (body i) (fun _ => ex fun r' => (p ↦ l.set i r') ∗ P' r' v' ∗ C)) :
    Triple (array P p n vs ∗ C) (forRange n body) (fun _ => array P' p n vs' ∗ C) := by
  by_cases hv : vs = []
  · subst hv
    have : vs' = [] := List.eq_nil_of_length_eq_zero (by simpa using hl'.symm)
    subst this
    rw [array_nil]
    refine t_fact fun h => ?_
    rw [h.2]
    exact t_ret fun m hm => by rw [array_nil]; exact fact_sep.2 ⟨⟨h.1, rfl⟩, hm⟩
  · have hv' : vs' ≠ [] := by
      rintro rfl; exact hv (List.eq_nil_of_length_eq_zero (by simpa using hl'))
    rw [array_some hv, ex_sep]
    refine t_ex fun rs => ?_
    rw [sep_assoc, sep_assoc]
    refine t_fact fun hn => ?_
    subst hn
    refine Triple.by ?_ (show _ = (each P rs vs ∗ (p ↦ rs) ∗ C) by ac_rfl)
    refine t_know each_length fun hl => ?_
    refine Triple.imp (t_forRange (fun i => ex fun ls => fact (ls.length = i) ∗ (p ↦ ls ++ rs.drop i) ∗ each P' ls (vs'.take i) ∗
      each P (rs.drop i) (vs.drop i) ∗ C) ?_) ?_ ?_
    · intro i hi
      refine t_ex fun ls => t_fact fun hls => ?_
      subst hls
      have hi' : ls.length < rs.length := by omega
      have hi2 : ls.length < vs'.length := by omega
      have hget : rs[ls.length]? = some rs[ls.length] := List.getElem?_eq_getElem hi'
      have hgetv : vs[ls.length]? = some vs[ls.length] := List.getElem?_eq_getElem hi
      have hgetv' : vs'[ls.length]? = some vs'[ls.length] := List.getElem?_eq_getElem hi2
      have := hb ls.length rs[ls.length] _ _ hgetv hgetv' (ls ++ rs.drop ls.length) (by
        rw [List.getElem?_append_right (Nat.le_refl _)]; simp [hget])
      have e0 : each P (rs.drop ls.length) (vs.drop ls.length) =
          (P rs[ls.length] vs[ls.length] ∗ each P (rs.drop (ls.length + 1)) (vs.drop (ls.length + 1))) := by
        rw [List.drop_eq_getElem_cons hi', List.drop_eq_getElem_cons hi]; rfl
      rw [e0]
      refine Triple.imp (this.frame (each P' ls (vs'.take ls.length) ∗ each P (rs.drop (ls.length + 1)) (vs.drop (ls.length + 1))))
        (imp_eq (by ac_rfl)) fun _ => ?_
      rw [ex_sep]
      rintro m ⟨r, hm⟩
      refine ⟨ls ++ [r], fact_sep.2 ⟨by simp, ?_⟩⟩
      have e1 : (ls ++ rs.drop ls.length).set ls.length r = (ls ++ [r]) ++ rs.drop (ls.length + 1) := by
        rw [List.set_append_right _ _ (Nat.le_refl _), Nat.sub_self, List.drop_eq_getElem_cons hi', List.set_cons_zero, List.append_assoc]
        rfl
      have e2 : vs'.take (ls.length + 1) = vs'.take ls.length ++ [vs'[ls.length]] := by
        rw [List.take_add_one, hgetv']; rfl
      rw [e1] at hm
      rw [e2, each_append _ _ (by simp; omega), each_one]
      exact (imp_eq (by ac_rfl)) m hm
    · intro m hm
      refine ⟨[], fact_sep.2 ⟨rfl, ?_⟩⟩
      simp only [List.nil_append, List.drop_zero, List.take_zero]
      rw [show each P' ([] : List ρ) ([] : List ν) = emp from rfl, emp_sep]
      exact imp_eq (by ac_rfl) m hm
    · rintro _ m ⟨ls, hm⟩
      obtain ⟨hlen, hm⟩ := fact_sep.1 hm
      rw [List.drop_eq_nil_of_le (by omega), List.append_nil, List.drop_eq_nil_of_le (Nat.le_refl _),
        show each P ([] : List ρ) ([] : List ν) = emp from rfl, emp_sep, List.take_of_length_le (by omega), ← sep_assoc] at hm
      have := imp_sep (array_intro hv') imp_rfl m hm
      rw [← hl'] at this
      exact this

/-! ## Loops -/

theorem step_freeLoops {p : Ptr} {l : List InstRec} {i : Nat} {r : InstRec} {vs : List Int} {R : SL} {k : Unit → M β} {Q : β → SL}
    (hi : l[i]? = some r) (h : Triple ((p ↦ l.set i { r with loops := 0, loopCount := 0 }) ∗ R) (k ()) Q) :
    Triple ((p ↦ l) ∗ array same r.loops r.loopCount vs ∗ R) (freeLoops p i >>= k) Q := by
  unfold freeLoops
  simp only [bind_assoc]
  refine step_get hi ?_
  rw [array_same]
  refine Triple.by ?_ (show _ = (fact (r.loopCount = vs.length) ∗ (cloned r.loops vs ∗ ((p ↦ l) ∗ R))) by ac_rfl)
  refine t_fact fun _ => Triple.bind (t_freeSame (fun h _ => by simp [h]) fun h _ => h) fun _ => ?_
  exact step_put hi h

theorem instsetupNew_eq (n : Nat) : instsetupNew n = (do
    let p ← calloc n ({} : InstRec)
    forRange n fun i => do
      setAt (ρ := InstRec) p i fun _ => { id := Setup.DEFAULT_INST + i, loopCount := 2, loops := 0, loopSet := false }
      let q ← calloc 2 (0 : Int)
      setAt (ρ := InstRec) p i fun r => { r with loops := q }
      forRange 2 fun j => setAt (ρ := Int) q j fun _ => (j : Int) + 1
    return p) := by
  unfold instsetupNew calloc
  by_cases h : n = 0
  · rw [if_pos h, if_pos h, h]; rfl
  · rw [if_neg h, if_neg h]

/-- The loop that writes ids into a new array of loops. -/
theorem t_fillLoops {q : Ptr} {n : Nat} {vs : List Int} {C : SL} {f : Nat → Int} (hn : n = vs.length) (hf : ∀ i v, vs[i]? = some v → f i = v) :
    Triple (blank q n (0 : Int) ∗ C) (forRange n fun j => setAt (ρ := Int) q j fun _ => f j) (fun _ => array same q n vs ∗ C) := by
  refine t_fill_blank hn fun i v hv l hl => ?_
  refine lastly (step_put hl (t_ret fun m hm => ⟨f i, ?_⟩))
  dsimp only
  unfold same
  rw [fact_true (hf i v hv), emp_sep]
  exact hm

theorem t_instsetupNew {n : Nat} : Triple emp (instsetupNew n) (fun q => array ownInst q n (Setup.newInstruments n)) := by
  rw [instsetupNew_eq]
  refine step_calloc fun p => ?_
  refine Triple.bind (t_fill_blank (P := ownInst) (vs := Setup.newInstruments n) (by simp [Setup.newInstruments]) ?_) fun _ => t_ret (imp_eq (sep_emp _))
  intro i v hv l hl
  refine step_put hl (step_calloc fun q => ?_)
  refine Triple.by ?_ (show _ = ((p ↦ _) ∗ (blank q 2 (0 : Int) ∗ emp)) by ac_rfl)
  refine step_put (get_set hl) ?_
  rw [List.set_set]
  refine Triple.by ?_ (show _ = (blank q 2 (0 : Int) ∗ ((p ↦ _) ∗ emp)) by ac_rfl)
  refine (t_fillLoops (f := fun j => (j : Int) + 1) (vs := [1, 2]) rfl ?_).imp imp_rfl fun _ m hm => ?_
  · intro i v h
    rcases i with _ | _ | i <;> simp at h
    · omega
    · omega
  have hvv : v = { id := Setup.DEFAULT_INST + i, loops := [1, 2], loopSet := false } := by
    unfold Setup.newInstruments at hv
    rw [List.getElem?_map] at hv
    cases hg : (List.range n)[i]? with
    | none => rw [hg] at hv; cases hv
    | some a =>
      rw [hg] at hv
      cases hv
      have := List.getElem?_range (n := n) (i := i)
      have hlt : i < n := by
        rcases Nat.lt_or_ge i n with h | h
        · exact h
        · rw [List.getElem?_eq_none (by simpa using h)] at hg; cases hg
      rw [this hlt] at hg
      cases hg; rfl
  refine ⟨{ id := Setup.DEFAULT_INST + i, loopCount := 2, loops := q, loopSet := false }, ?_⟩
  dsimp only
  unfold ownInst
  rw [hvv, fact_true ⟨rfl, rfl⟩, emp_sep]
  exact imp_eq (by ac_rfl) m hm

theorem step_freeInstruments {s : Ptr} {r : SetupRec} {vs : List Setup.InstrumentSetup} {R : SL} {k : Unit → M β} {Q : β → SL}
    (h : Triple ((s ↦ { r with instruments := 0, instrumentCount := 0 }) ∗ R) (k ()) Q) :
    Triple ((s ↦ r) ∗ array ownInst r.instruments r.instrumentCount vs ∗ R) (setupFreeInstruments s >>= k) Q := by
  unfold setupFreeInstruments
  simp only [bind_assoc]
  refine step_load ?_
  refine Triple.by ?_ (show _ = (array ownInst r.instruments r.instrumentCount vs ∗ ((s ↦ r) ∗ R)) by ac_rfl)
  refine Triple.bind (t_freeArray (C := (s ↦ r) ∗ R) ?_ ?_) fun _ => ?_
  · intro m hm; have := (array_count m hm).2; simp [this]
  · intro j x w hw l' hl'
    unfold ownInst
    refine Triple.by ?_ (show _ = (fact (x.id = w.id ∧ x.loopSet = w.loopSet) ∗ (r.instruments ↦ l') ∗ array same x.loops x.loopCount w.loops ∗ ((s ↦ r) ∗ R)) by ac_rfl)
    refine t_fact fun _ => lastly (step_freeLoops hl' (t_ret fun m hm => ⟨_, hm⟩))
  exact step_store h

theorem t_initInstIDs {s : Ptr} {S : Setup.Setup} {ids : List Int} :
    Triple (ownSetup s S) (initInstIDs s ids) (fun _ => ownSetup s (Setup.initInstIDs S ids)) := by
  unfold initInstIDs Setup.initInstIDs
  refine t_ite (fun h => ?_) (fun h => ?_)
  · rw [if_pos h]; exact t_ret imp_rfl
  · rw [if_neg h]
    unfold ownSetup
    refine t_ex fun r => t_fact fun hf => ?_
    refine Triple.by ?_ (show _ = ((s ↦ r) ∗ array ownInst r.instruments r.instrumentCount S.instruments ∗
      (array ownTrack r.tracks r.trackCount S.tracks ∗ array same r.miscellaneous r.miscellaneousCount S.miscellaneous)) by ac_rfl)
    refine step_freeInstruments (step_load (step_store ?_))
    refine Triple.by ?_ (emp_sep _).symm
    refine t_instsetupNew.call fun q => ?_
    refine Triple.by ?_ (show _ = ((s ↦ _) ∗ (array ownInst q ids.length (Setup.newInstruments ids.length) ∗
      (array ownTrack r.tracks r.trackCount S.tracks ∗ array same r.miscellaneous r.miscellaneousCount S.miscellaneous))) by ac_rfl)
    refine step_load (step_store ?_)
    dsimp only
    refine Triple.by ?_ (show _ = (array ownInst q ids.length (Setup.newInstruments ids.length) ∗ ((s ↦ _) ∗
      (array ownTrack r.tracks r.trackCount S.tracks ∗ array same r.miscellaneous r.miscellaneousCount S.miscellaneous))) by ac_rfl)
    refine (t_each (P' := ownInst) (vs' := (Setup.newInstruments ids.length).zipWith (fun inst id => { inst with id := id }) ids)
      (by simp [Setup.newInstruments]) ?_).imp imp_rfl fun _ m hm => ?_
    · intro i x v v' hv hv' l hl
      refine lastly (step_put hl (t_ret fun m hm => ⟨{ x with id := ids.getD i 0 }, ?_⟩))
      refine imp_sep imp_rfl (imp_sep ?_ imp_rfl) m hm
      intro m hm
      unfold ownInst at hm ⊢
      obtain ⟨h1, h2⟩ := fact_sep.1 hm
      rw [List.getElem?_zipWith, hv] at hv'
      cases hi : ids[i]? with
      | none => rw [hi] at hv'; cases hv'
      | some a =>
        rw [hi] at hv'
        cases hv'
        exact fact_sep.2 ⟨⟨by simp [hi], h1.2⟩, h2⟩
    · refine ⟨{ r with instruments := q, instrumentCount := ids.length, instrumentSet := true }, fact_sep.2 ⟨⟨hf.1, hf.2, rfl, hf.4⟩, ?_⟩⟩
      exact imp_eq (by ac_rfl) m hm

theorem t_initLoopIDs {s : Ptr} {S : Setup.Setup} {inst : Int} {ids : List Int} :
    Triple (ownSetup s S) (initLoopIDs s inst ids) (fun _ => ownSetup s (Setup.initLoopIDs S inst ids)) := by
  unfold initLoopIDs Setup.initLoopIDs
  refine t_ite (fun h => ?_) (fun h => ?_)
  · rw [if_pos h]; exact t_ret imp_rfl
  · rw [if_neg h]
    unfold ownSetup
    refine t_ex fun r => t_fact fun hf => step_load ?_
    refine Triple.by ?_ (show _ = (array ownInst r.instruments r.instrumentCount S.instruments ∗ ((s ↦ r) ∗
      (array ownTrack r.tracks r.trackCount S.tracks ∗ array same r.miscellaneous r.miscellaneousCount S.miscellaneous))) by ac_rfl)
    refine (t_updFirst (P := ownInst) (q := fun x => x.id == inst) (g := fun x => { x with loops := ids }) ?_ rfl ?_).imp imp_rfl fun _ m hm => ?_
    · intro x v m hm
      have := (fact_sep.1 hm).1.1
      rw [this]
    · intro i x v l hv hl
      dsimp only
      unfold ownInst
      generalize ((s ↦ r) ∗ (array ownTrack r.tracks r.trackCount S.tracks ∗ array same r.miscellaneous r.miscellaneousCount S.miscellaneous)) = R
      refine Triple.by ?_ (show _ = (fact (x.id = v.id ∧ x.loopSet = v.loopSet) ∗ (r.instruments ↦ l) ∗ array same x.loops x.loopCount v.loops ∗ R) by ac_rfl)
      refine t_fact fun hx => step_freeLoops hl ?_
      unfold allocateLoops
      simp only [bind_assoc]
      have hl2 := get_set (a := ({ x with loops := 0, loopCount := 0 } : InstRec)) hl
      refine Triple.by ?_ (show _ = ((r.instruments ↦ _) ∗ array same (0 : Ptr) 0 ([] : List Int) ∗ R) by
        rw [array_nil, fact_true ⟨rfl, rfl⟩, emp_sep])
      refine step_freeLoops (r := { x with loops := 0, loopCount := 0 }) hl2 ?_
      rw [List.set_set]
      refine step_calloc fun q => ?_
      refine Triple.by ?_ (show _ = ((r.instruments ↦ _) ∗ blank q ids.length (0 : Int) ∗ R) by ac_rfl)
      refine step_put (get_set hl) ?_
      rw [List.set_set]
      by_cases h0 : ids.length = 0
      · have hids : ids = [] := List.eq_nil_of_length_eq_zero h0
        subst hids
        refine Triple.by ?_ (show _ = (fact (q = 0) ∗ ((r.instruments ↦ _) ∗ R)) by
          rw [show blank q ([] : List Int).length (0 : Int) = fact (q = 0) from if_pos rfl]; ac_rfl)
        refine t_fact fun hq => ?_
        subst hq
        rw [if_neg (by simp)]
        refine t_ret fun m hm => ⟨{ x with loops := 0, loopCount := 0 }, ?_⟩
        dsimp only
        rw [array_nil, fact_true hx, fact_true ⟨rfl, rfl⟩, emp_sep, emp_sep]
        exact hm
      · refine Triple.by ?_ (show _ = (blank q ids.length (0 : Int) ∗ ((r.instruments ↦ _) ∗ R)) by ac_rfl)
        refine t_know (φ := q ≠ 0) (fun m hm => by unfold blank at hm; rw [if_neg h0] at hm; exact hm.1) fun hq => ?_
        rw [if_pos hq]
        refine Triple.by ?_ (show _ = ((r.instruments ↦ _) ∗ blank q ids.length (0 : Int) ∗ R) by ac_rfl)
        simp only [bind_assoc, pure_bind]
        refine step_put (get_set hl) ?_
        rw [List.set_set, if_pos trivial]
        refine step_get (get_set hl) ?_
        refine Triple.by ?_ (show _ = (blank q ids.length (0 : Int) ∗ ((r.instruments ↦ _) ∗ R)) by ac_rfl)
        refine (t_fillLoops (vs := ids) rfl ?_).imp imp_rfl fun _ m hm => ⟨{ x with loops := q, loopCount := ids.length }, ?_⟩
        · intro i v hi; simp [hi]
        · dsimp only
          rw [fact_true hx, emp_sep]
          exact imp_eq (by ac_rfl) m hm
    · refine ⟨r, fact_sep.2 ⟨⟨hf.1, hf.2, hf.3, hf.4⟩, ?_⟩⟩
      exact imp_eq (by ac_rfl) m hm

/-! ## Miscellaneous data, the file format -/

theorem t_initMiscIDs {s : Ptr} {S : Setup.Setup} {ids : List Int} :
    Triple (ownSetup s S) (initMiscIDs s ids) (fun _ => ownSetup s (Setup.initMiscIDs S ids)) := by
  unfold initMiscIDs ownSetup
  refine t_ex fun r => t_fact fun hf => step_load ?_
  generalize hR : (array ownTrack r.tracks r.trackCount S.tracks ∗ array ownInst r.instruments r.instrumentCount S.instruments) = R
  refine Triple.by ?_ (show _ = (array same r.miscellaneous r.miscellaneousCount S.miscellaneous ∗ ((s ↦ r) ∗ R)) by rw [← hR]; ac_rfl)
  rw [array_same, sep_assoc]
  refine t_fact fun _ => Triple.bind (t_freeSame (fun h _ => by simp [h]) fun h _ => h) fun _ => ?_
  refine step_calloc fun q => ?_
  refine Triple.by ?_ (show _ = ((s ↦ r) ∗ blank q ids.length (⟨0, 0, 0⟩ : Setup.MiscSetup) ∗ R) by ac_rfl)
  refine step_store ?_
  refine Triple.by ?_ (show _ = (blank q ids.length (⟨0, 0, 0⟩ : Setup.MiscSetup) ∗ ((s ↦ _) ∗ R)) by ac_rfl)
  refine (t_fill_blank (P := same) (vs := ids.map fun id => ⟨id, 0, 0⟩) (by simp) ?_).imp imp_rfl fun _ m hm => ?_
  · intro i v hv l hl
    refine lastly (step_put hl (t_ret fun m hm => ⟨⟨ids.getD i 0, 0, 0⟩, ?_⟩))
    dsimp only
    unfold same
    rw [fact_true, emp_sep]
    · exact hm
    · rw [List.getElem?_map] at hv
      cases hi : ids[i]? with
      | none => rw [hi] at hv; cases hv
      | some a => rw [hi] at hv; cases hv; simp [hi]
  · refine ⟨{ r with miscellaneousCount := ids.length, miscellaneous := q, miscellaneousSet := true }, fact_sep.2 ⟨⟨hf.1, hf.2, hf.3, rfl⟩, ?_⟩⟩
    refine imp_eq ?_ m hm
    rw [← hR]
    dsimp only [Setup.initMiscIDs]
    ac_rfl

theorem t_setMisc {s : Ptr} {S : Setup.Setup} {mid : Int} {g : Setup.MiscSetup → Setup.MiscSetup} :
    Triple (ownSetup s S) (setMisc s mid g) (fun _ => ownSetup s { S with miscellaneous := updFirst (fun x => x.id == mid) g S.miscellaneous }) := by
  unfold setMisc ownSetup
  refine t_ex fun r => t_fact fun hf => step_load ?_
  generalize hR : ((s ↦ r) ∗ array ownTrack r.tracks r.trackCount S.tracks ∗ array ownInst r.instruments r.instrumentCount S.instruments) = R
  refine Triple.by ?_ (show _ = (array same r.miscellaneous r.miscellaneousCount S.miscellaneous ∗ R) by rw [← hR]; ac_rfl)
  refine (t_updFirst (P := same) (q := fun x => x.id == mid) (g := g) ?_ rfl ?_).imp imp_rfl fun _ m hm => ?_
  · intro x v m hm
    rw [show x = v from hm.1]
  · intro i x v l hv hl
    dsimp only
    unfold same
    refine lastly (step_put hl (t_ret fun m hm => ⟨g x, imp_sep imp_rfl (imp_sep ?_ imp_rfl) m hm⟩))
    rintro m ⟨e, hm⟩
    exact ⟨by rw [e], hm⟩
  · refine ⟨r, fact_sep.2 ⟨⟨hf.1, hf.2, hf.3, hf.4⟩, ?_⟩⟩
    rw [← hR] at hm
    exact imp_eq (by ac_rfl) m hm

theorem t_initFileFormat {s : Ptr} {S : Setup.Setup} {f : Int} :
    Triple (ownSetup s S) (initFileFormat s f) (fun _ => ownSetup s (Setup.initFileFormat S f)) := by
  unfold initFileFormat Setup.initFileFormat
  refine t_ite (fun h => ?_) (fun h => ?_)
  · rw [if_pos h]; exact t_ret imp_rfl
  rw [if_neg h]
  cases Setup.FileFormat.all[f.toNat]? with
  | none => exact t_ret imp_rfl
  | some u =>
    dsimp only
    refine t_ite (fun h => ?_) (fun h => ?_)
    · rw [if_pos h]; exact t_ret imp_rfl
    rw [if_neg h]
    unfold ownSetup
    refine t_ex fun r => t_fact fun hf => step_load (lastly (step_store (t_ret fun m hm => ?_)))
    exact ⟨{ r with fileFormat := u }, fact_sep.2 ⟨⟨rfl, hf.2, hf.3, hf.4⟩, hm⟩⟩

theorem scalar_spec (S : Setup.Setup) {op : Setup.Op} {t : Int} {g : Setup.TrackSetup → Setup.TrackSetup} (h : scalar op = some (t, g)) :
    Setup.step S op = S.onTrack t g ∧ ∀ tr ms, g (withMarkers tr ms) = withMarkers (g tr) ms := by
  cases op <;> simp only [scalar, Option.some.injEq, Prod.mk.injEq, reduceCtorEq] at h
  all_goals
    obtain ⟨rfl, rfl⟩ := h
    refine ⟨rfl, fun tr ms => ?_⟩
    first
      | rfl
      | (dsimp only [withMarkers]; split <;> rfl)

/-- Every call on a setup does in memory what it does to the value. -/
theorem t_setupCall {s : Ptr} {S : Setup.Setup} (op : Setup.Op) :
    Triple (ownSetup s S) (setupCall s op) (fun _ => ownSetup s (Setup.step S op)) := by
  unfold setupCall
  cases hs : scalar op with
  | some p =>
    obtain ⟨t, g⟩ := p
    obtain ⟨e, hg⟩ := scalar_spec S hs
    rw [e]
    exact t_setScalar hg
  | none =>
    cases op <;> simp only [scalar, reduceCtorEq] at hs
    case fileFormat => exact t_initFileFormat
    case markIDs => exact t_initMarkIDs
    case markName => exact t_initMarkName
    case markComment => exact t_initMarkComment
    case instIDs => exact t_initInstIDs
    case loopIDs => exact t_initLoopIDs
    case miscIDs => exact t_initMiscIDs
    case miscType => exact t_setMisc
    case miscSize => exact t_setMisc

end AF.Heap
