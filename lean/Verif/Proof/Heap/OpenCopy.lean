import Verif.Proof.Heap.Handle
import Verif.Proof.Setup
/-! The copy of the setup that opening a file makes. -/
namespace AF.Heap
open AF.Setup (Inv completed copy_eq setF complete_shape)

variable {α β ρ ν : Type}

theorem step_peek [Content (List ρ)] {P : ρ → ν → SL} {p : Ptr} {n : Nat} {vs : List ν} {i : Nat} {v : ν} {R : SL} {k : ρ → M β} {Q : β → SL}
    (hv : vs[i]? = some v) (h : ∀ r, (∃ m, P r v m) → Triple (array P p n vs ∗ R) (k r) Q) :
    Triple (array P p n vs ∗ R) (getAt p i >>= k) Q := by
  refine t_openArray fun rs hn hl => ?_
  have hi : i < rs.length := by rw [hl]; exact (List.getElem?_eq_some_iff.1 hv).1
  have hr : rs[i]? = some rs[i] := List.getElem?_eq_getElem hi
  refine step_getC hr ?_
  obtain ⟨R', e, -⟩ := each_split (P := P) hr hv
  have hk := h rs[i]
  generalize rs[i] = r at *
  rw [e]
  refine Triple.by ?_ (show _ = (P r v ∗ (cloned p rs ∗ R' ∗ R)) by ac_rfl)
  refine t_know (φ := ∃ m, P r v m) (fun m hm => ⟨m, hm⟩) fun hm => ?_
  refine (hk hm).pre fun m hm => ?_
  have hm := imp_eq (show _ = ((cloned p rs ∗ (P r v ∗ R')) ∗ R) by ac_rfl) m hm
  rw [← e] at hm
  exact imp_sep (closeArray hn hl) imp_rfl m hm

/-- No instrument says that its loops were set. No call says so. -/
def NoLoopSet (s : Setup.Setup) : Prop := ∀ x ∈ s.instruments, x.loopSet = false

theorem NoLoopSet.new (h : Endian) : NoLoopSet (Setup.newSetup h) := by
  intro x hx
  simp [Setup.newSetup, Setup.newInstruments] at hx
  subst hx; rfl

theorem onTrack_insts (s : Setup.Setup) (t : Int) (g : Setup.TrackSetup → Setup.TrackSetup) : (s.onTrack t g).instruments = s.instruments := by
  unfold Setup.Setup.onTrack
  rfl

theorem mem_updFirst {α : Type} {p : α → Bool} {f : α → α} : ∀ {l : List α} {x : α}, x ∈ Meta.updFirst p f l → x ∈ l ∨ ∃ y ∈ l, x = f y
  | [], _, h => by simp [Meta.updFirst] at h
  | a :: l, x, h => by
    unfold Meta.updFirst at h
    split at h
    · rcases List.mem_cons.1 h with e | e
      · exact Or.inr ⟨a, by simp, e⟩
      · exact Or.inl (by simp [e])
    · rcases List.mem_cons.1 h with e | e
      · exact Or.inl (by simp [e])
      · rcases mem_updFirst e with e | ⟨y, hy, e⟩
        · exact Or.inl (by simp [e])
        · exact Or.inr ⟨y, by simp [hy], e⟩

theorem NoLoopSet.step {s : Setup.Setup} (hs : NoLoopSet s) (op : Setup.Op) : NoLoopSet (Setup.step s op) := by
  have key : ∀ s', s'.instruments = s.instruments → NoLoopSet s' := fun s' e x hx => hs x (e ▸ hx)
  cases hsc : scalar op with
  | some q => 
    obtain ⟨t, g⟩ := q
    rw [(scalar_spec s hsc).1]
    exact key _ (onTrack_insts _ _ _)
  | none =>
    cases op <;> simp only [scalar, reduceCtorEq] at hsc
    all_goals simp only [Setup.step]
    case fileFormat f =>
      apply key
      unfold Setup.initFileFormat
      repeat' split
      all_goals rfl
    case instIDs ids =>
      unfold Setup.initInstIDs
      split
      · exact hs
      · intro x hx
        simp only [List.mem_iff_getElem?] at hx
        obtain ⟨i, hx⟩ := hx
        simp only [List.getElem?_zipWith] at hx
        split at hx
        · rename_i a b ha hb
          cases hx
          have := List.mem_of_getElem? ha
          simp [Setup.newInstruments] at this
          obtain ⟨j, -, rfl⟩ := this
          rfl
        · cases hx
    case loopIDs i ids =>
      unfold Setup.initLoopIDs
      split
      · exact hs
      · intro x hx
        rcases mem_updFirst hx with h | ⟨y, hy, rfl⟩
        · exact hs x h
        · exact hs y hy
    all_goals first
      | exact key _ (onTrack_insts _ _ _)
      | (apply key; rfl)
      | (apply key; unfold Setup.initMarkIDs; split <;> first | rfl | exact onTrack_insts _ _ _)
      | (apply key; unfold Setup.initMiscIDs; split <;> rfl)

theorem NoLoopSet.run {ops : List Setup.Op} : ∀ {s : Setup.Setup}, NoLoopSet s → NoLoopSet (Setup.run s ops) := by
  induction ops with
  | nil => exact fun h => h
  | cons op ops ih => exact fun h => ih (h.step op)

theorem t_waveCopy {s : Ptr} {S : Setup.Setup} (hi : Inv S) (hn : NoLoopSet S) :
    Triple (ownSetup s S) (waveCopy s) (fun q => ownSetup q (Setup.filesetupCopy S .wave 0 false) ∗ ownSetup s S) := by
  unfold waveCopy
  refine Triple.bind (t_filesetupCopy hi (fun _ => Nat.zero_le _)) fun q => ?_
  refine Triple.by ?_ (sep_comm _ _)
  refine t_openSetup fun r hf => step_load ?_
  refine t_ite (fun hc => ?_) (fun hc => ?_)
  · refine Triple.by ?_ (sl3 _ _ _ _)
    refine t_know (φ := r.instrumentCount = S.instruments.length) (fun m hm => (array_count m hm).1) fun hl => ?_
    have h0 : 0 < S.instruments.length := by omega
    refine step_peek (List.getElem?_eq_getElem h0) fun x hx => ?_
    obtain ⟨m, hm⟩ := hx
    have := (fact_sep.1 hm).1.2
    rw [hn _ (List.getElem_mem h0)] at this
    unfold onlyIf
    rw [if_neg (by simp [this]), pure_bind]
    refine t_ret fun m hm => ?_
    have hm := imp_eq (show _ = (((s ↦ r) ∗ array ownTrack r.tracks r.trackCount S.tracks ∗ array ownInst r.instruments r.instrumentCount S.instruments ∗
      array same r.miscellaneous r.miscellaneousCount S.miscellaneous) ∗ ownSetup q (Setup.filesetupCopy S .wave 0 false)) by ac_rfl) m hm
    rw [sep_comm]
    exact imp_sep (closeSetup hf) imp_rfl m hm
  · refine t_ret fun m hm => ?_
    have hm := imp_eq (show _ = (((s ↦ r) ∗ array ownTrack r.tracks r.trackCount S.tracks ∗ array ownInst r.instruments r.instrumentCount S.instruments ∗
      array same r.miscellaneous r.miscellaneousCount S.miscellaneous) ∗ ownSetup q (Setup.filesetupCopy S .wave 0 false)) by ac_rfl) m hm
    rw [sep_comm]
    exact imp_sep (closeSetup hf) imp_rfl m hm

theorem Inv.setF {S : Setup.Setup} {tr : Setup.TrackSetup} (hi : Inv S) (hid : tr.id = Setup.DEFAULT_TRACK) (f : Setup.AFmt) : Inv (setF S tr f) :=
  ⟨⟨_, rfl, hid⟩, hi.insts, hi.noInst, hi.noMisc, hi.implemented⟩

theorem t_copySetup {e : Endian} {s : Ptr} {S c : Setup.Setup} (hi : Inv S) (hn : NoLoopSet S) (hc : (Setup.complete e S).2 = some c) :
    Triple (ownSetup s (Setup.complete e S).1) (copySetup s S.fileFormat) (fun q => ownSetup q c ∗ ownSetup s (Setup.complete e S).1) := by
  obtain ⟨tr, ht, hid⟩ := hi.track
  obtain ⟨f, h1, h2⟩ := complete_shape e ht hid hi
  rw [hc] at h2
  have h2 : c = completed S tr f := by
    rcases h2 with h | h
    · cases h
    · exact Option.some.inj h
  have hlen : S.instrumentSet = false → 1 ≤ S.instruments.length := by
    intro h
    have := congrArg List.length (hi.noInst h)
    simp at this; omega
  have hi' := Inv.setF hi hid f
  have key : ∀ fmt k b, fmt = (if S.fileFormat = .aiffc then .aiff else S.fileFormat) → k = Setup.defaultInsts S.fileFormat →
      b = Setup.keepsMarks S.fileFormat → Setup.filesetupCopy (setF S tr f) fmt k b = c := by
    intro fmt k b h1 h2' h3
    rw [copy_eq (s := setF S tr f) (tr := { tr with f := f }) rfl, h2]
    subst h1 h2' h3
    rfl
  have one : (∀ fmt k b, k ≤ 1 → fmt = (if S.fileFormat = .aiffc then .aiff else S.fileFormat) → k = Setup.defaultInsts S.fileFormat →
      b = Setup.keepsMarks S.fileFormat →
      Triple (ownSetup s (Setup.complete e S).1) (filesetupCopy s fmt k b) (fun q => ownSetup q c ∗ ownSetup s (Setup.complete e S).1)) := by
    intro fmt k b hk h3 h4 h5
    rw [← key fmt k b h3 h4 h5, h1]
    exact t_filesetupCopy hi' (fun h => Nat.le_trans hk (hlen h))
  cases hf : S.fileFormat
  all_goals unfold copySetup
  case raw =>
    have hraw := hc
    unfold Setup.complete at hraw
    rw [hf] at hraw
    dsimp only at hraw
    unfold Setup.completeRaw at hraw
    rw [Setup.theTrack_one ht hid] at hraw
    dsimp only at hraw
    split at hraw
    · cases hraw
    · have : c = { fileFormat := .raw, trackSet := true, instrumentSet := true, miscellaneousSet := true
                   tracks := [{ ({ tr with f := f } : Setup.TrackSetup) with markers := [] }], instruments := [], miscellaneous := [] } := by
        have e2 := Option.some.inj hraw
        have e3 : c.tracks = [({ tr with f := f, markers := if tr.markersSet ∨ Setup.keepsMarks S.fileFormat then tr.markers else [] } : Setup.TrackSetup)] := by
          rw [h2]; rfl
        rw [← e2] at e3 ⊢
        simp only [ht, List.take_succ_cons, List.take_zero, List.map_cons, List.map_nil, List.cons.injEq, and_true] at e3 ⊢
        have : tr.f = f := congrArg Setup.TrackSetup.f e3
        rw [← this]
      rw [this, h1]
      exact t_rawCopy (tr := { tr with f := f }) rfl
  case wave =>
    rw [← key .wave 0 false (by simp [hf]) (by simp [hf, Setup.defaultInsts]) (by simp [hf, Setup.keepsMarks]), h1]
    exact t_waveCopy hi' hn
  all_goals first
    | (exact one _ _ _ (by omega) (by simp [hf]) (by simp [hf, Setup.defaultInsts]) (by simp [hf, Setup.keepsMarks]))
    | (exfalso; unfold Setup.complete at hc; rw [hf] at hc; cases hc)

end AF.Heap
