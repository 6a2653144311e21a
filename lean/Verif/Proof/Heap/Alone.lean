import Verif.Proof.Heap.World
/-! The value of a handle or a setup depends only on the calls on it. -/
namespace AF.Heap
open AF.Setup (AFmt Inv)
open AF.Meta (updFirst)

/-- What no call on the metadata changes. -/
structure Kept (H H' : Meta.Handle) : Prop where
  access : H'.access = H.access
  family : H'.family = H.family
  tracks : H'.tracks.length = H.tracks.length
  ids : H'.tracks.map (·.id) = H.tracks.map (·.id)

theorem Kept.rfl {H : Meta.Handle} : Kept H H := ⟨Eq.refl _, Eq.refl _, Eq.refl _, Eq.refl _⟩

theorem kept_upd {H H' : Meta.Handle} {p : Meta.Track → Bool} {f : Meta.Track → Meta.Track} (hf : ∀ x, (f x).id = x.id) (h1 : H'.access = H.access)
    (h2 : H'.family = H.family) (h3 : H'.tracks = updFirst p f H.tracks) : Kept H H' :=
  ⟨h1, h2, by rw [h3, Meta.length_updFirst], by rw [h3]; exact Meta.map_updFirst (fun x : Meta.Track => x.id) p f hf _⟩

theorem kept_setMark (H : Meta.Handle) (t m p : Int) : Kept H (Meta.setMarkPosition H t m p) := by
  unfold Meta.setMarkPosition
  split
  · exact .rfl
  split
  · exact .rfl
  split
  · exact .rfl
  · exact kept_upd (fun x => by rfl) rfl rfl rfl

theorem kept_setLoop (H : Meta.Handle) (f : Meta.LoopField) (i l v : Int) : Kept H (Meta.setLoop H f i l v).2 := by
  have hu : ∀ g, Kept H (Meta.updLoop H i l g) := fun g => ⟨rfl, rfl, rfl, rfl⟩
  unfold Meta.setLoop
  cases f <;> dsimp only
  · unfold Meta.setLoopMode; repeat' split
    all_goals first | exact .rfl | exact hu _
  · unfold Meta.setLoopCount; repeat' split
    all_goals first | exact .rfl | exact hu _
  · unfold Meta.setLoopStart; repeat' split
    all_goals first | exact .rfl | exact hu _
  · unfold Meta.setLoopEnd; repeat' split
    all_goals first | exact .rfl | exact hu _
  · unfold Meta.setLoopTrack; repeat' split
    all_goals first | exact .rfl | exact hu _
  · unfold Meta.setLoopStartFrame; repeat' split
    all_goals first | exact .rfl | exact kept_setMark ..
  · unfold Meta.setLoopEndFrame; repeat' split
    all_goals first | exact .rfl | exact kept_setMark ..

theorem kept_step {H H' : Meta.Handle} {op : Meta.Op} {r : Meta.Ret} (h : Meta.step H op = .ok (r, H')) : Kept H H' := by
  cases op
  case setMark t m p => cases h; exact kept_setMark ..
  case setAES t b =>
    cases h
    unfold Meta.setAES
    repeat' split
    all_goals first | exact .rfl | exact kept_upd (fun x => by rfl) rfl rfl rfl
  case setLoop f i l v =>
    have : H' = (Meta.setLoop H f i l v).2 := by rw [Except.ok.inj h]
    rw [this]
    exact kept_setLoop ..
  case setParams i pv n =>
    cases h
    unfold Meta.setInstParams
    repeat' split
    all_goals exact ⟨rfl, rfl, rfl, rfl⟩
  case setParamLong i p v =>
    cases h
    unfold Meta.setInstParamLong Meta.setInstParams
    repeat' split
    all_goals exact ⟨rfl, rfl, rfl, rfl⟩
  case writeMisc id b =>
    change (Meta.writeMisc H id b).map _ = _ at h
    cases hw : Meta.writeMisc H id b with
    | error a => rw [hw] at h; cases h
    | ok R =>
      rw [hw] at h
      cases h
      unfold Meta.writeMisc at hw
      dsimp only at hw
      repeat' split at hw
      all_goals first | (cases hw; exact ⟨rfl, rfl, rfl, rfl⟩) | cases hw
  case readMisc id n =>
    change (Meta.readMisc H id n).map _ = _ at h
    cases hw : Meta.readMisc H id n with
    | error a => rw [hw] at h; cases h
    | ok R =>
      rw [hw] at h
      cases h
      unfold Meta.readMisc at hw
      dsimp only at hw
      repeat' split at hw
      all_goals first | (cases hw; exact ⟨rfl, rfl, rfl, rfl⟩) | cases hw
  case seekMisc id o =>
    cases h
    unfold Meta.seekMisc
    repeat' split
    all_goals exact ⟨rfl, rfl, rfl, rfl⟩
  all_goals cases h; exact .rfl

theorem zipWith_track : ∀ {l : List TrackVal} {l' : List Meta.Track}, l'.length = l.length →
    (l.zipWith (fun x t => ({ x with track := t } : TrackVal)) l').map (·.track) = l'
  | [], l', h => by
    have : l' = [] := List.eq_nil_of_length_eq_zero (by simpa using h)
    rw [this]; rfl
  | x :: l, [], h => by simp at h
  | x :: l, t :: l', h => by
    rw [List.zipWith_cons_cons, List.map_cons, zipWith_track (by simpa using h)]

theorem metadata_withMeta {V : HandleVal} {H : Meta.Handle} (h : Kept V.metadata H) : (V.withMeta H).metadata = H := by
  unfold HandleVal.withMeta HandleVal.metadata
  dsimp only
  have hl : H.tracks.length = V.tracks.length := by have := h.tracks; unfold HandleVal.metadata at this; simpa using this
  rw [zipWith_track hl]
  have h1 : V.access = H.access := h.access.symm
  have h2 : V.family = H.family := h.family.symm
  rw [h1, h2]

theorem onTrack_track (op : VOp) (x : TrackVal) : (op.onTrack x).track = x.track := by cases op <;> rfl

theorem metadata_virt (V : HandleVal) (op : VOp) : (V.virt op).metadata = V.metadata := by
  unfold HandleVal.virt HandleVal.metadata
  dsimp only
  rw [Meta.map_updFirst (fun x : TrackVal => x.track) _ _ (onTrack_track op)]

theorem zip4 {γ δ ε ζ η : Type} (a : γ → δ) (b : γ → ε) (c : γ → ζ) (d : γ → η) : ∀ l : List γ,
    ((l.map a).zip ((l.map b).zip ((l.map c).zip (l.map d)))) = l.map fun x => (a x, b x, c x, d x)
  | [] => rfl
  | x :: l => by simp only [List.map_cons, List.zip_cons_cons, zip4 a b c d l]

theorem metadata_opened {e : Endian} {S : Setup.Setup} {o : Setup.Opened} (h : (Setup.openWrite e S).2 = some o) : (HandleVal.ofOpened o).metadata = o.handle := by
  unfold Setup.openWrite at h
  dsimp only at h
  cases hc : (Setup.complete e S).2 with
  | none => rw [hc] at h; cases h
  | some c =>
    rw [hc] at h
    cases h
    unfold HandleVal.ofOpened HandleVal.metadata Setup.initFromSetup
    dsimp only
    rw [zip4]
    simp only [List.map_map]
    congr 1

/-! ## Handles -/

theorem run_cons {e : Endian} {W W' : World} {op : WOp} {ops : List WOp} {rs : List (Option Meta.Ret)} (h : W.run e (op :: ops) = some (W', rs)) :
    ∃ W1 r rs', W.step e op = some (W1, r) ∧ W1.run e ops = some (W', rs') ∧ rs = r :: rs' := by
  unfold World.run at h
  split at h
  · cases h
  rename_i W1 r hs
  split at h
  · cases h
  rename_i W2 rs' hr
  cases h
  exact ⟨W1, r, rs', hs, hr, rfl⟩

theorem run_append {e : Endian} : ∀ {a b : List WOp} {W W1 W2 : World} {r1 r2 : List (Option Meta.Ret)}, W.run e a = some (W1, r1) → W1.run e b = some (W2, r2) →
    W.run e (a ++ b) = some (W2, r1 ++ r2)
  | [], b, W, W1, W2, r1, r2, h1, h2 => by cases h1; exact h2
  | op :: a, b, W, W1, W2, r1, r2, h1, h2 => by
    obtain ⟨W', r, rs, hs, hr, rfl⟩ := run_cons h1
    rw [List.cons_append]
    unfold World.run
    rw [hs]
    dsimp only
    rw [run_append hr h2]
    rfl

/-- Another call leaves the handle as it is. -/
theorem step_other {e : Endian} {W W' : World} {op : WOp} {r : Option Meta.Ret} {j : Nat} {x : Obj HandleVal} (hj : W.handles[j]? = some x)
    (hs : W.step e op = some (W', r)) (h1 : ∀ c, op ≠ .call j c) (h2 : ∀ c, op ≠ .virt j c) (h3 : op ≠ .close j) : W'.handles[j]? = some x := by
  have hset : ∀ k y, k ≠ j → (W.handles.set k y)[j]? = some x := fun k y hk => by rw [List.getElem?_set_ne hk]; exact hj
  cases op <;> unfold World.step at hs <;> dsimp only at hs
  case new => cases hs; exact hj
  case set i op => split at hs; · cases hs; exact hj
                   · cases hs
  case freeSetup i => split at hs; · cases hs; exact hj
                      · cases hs
  case openWrite i w c =>
    split at hs
    · cases hs
      dsimp only
      rw [List.getElem?_append_left (List.getElem?_eq_some_iff.1 hj).1]
      exact hj
    · cases hs
  case call k c =>
    have hk : k ≠ j := fun h => h1 c (h ▸ rfl)
    repeat' split at hs
    all_goals first | (cases hs; first | exact hj | exact hset _ _ hk) | cases hs
  case virt k c =>
    have hk : k ≠ j := fun h => h2 c (h ▸ rfl)
    repeat' split at hs
    all_goals first | (cases hs; first | exact hj | exact hset _ _ hk) | cases hs
  case close k =>
    have hk : k ≠ j := fun h => h3 (h ▸ rfl)
    repeat' split at hs
    all_goals first | (cases hs; first | exact hj | exact hset _ _ hk) | cases hs

/-- After a handle is closed no call on it is made, if the history is proper. -/
theorem gone_calls {e : Endian} {j : Nat} : ∀ {ops : List WOp} {W W' : World} {rs : List (Option Meta.Ret)}, W.handles[j]? = some .gone →
    W.run e ops = some (W', rs) → callsOn j ops = [] ∧ answersOn j ops rs = [] ∧ W'.handles[j]? = some .gone
  | [], W, W', rs, hj, h => by cases h; exact ⟨rfl, rfl, hj⟩
  | op :: ops, W, W', rs, hj, h => by
    obtain ⟨W1, r, rs', hs, hr, rfl⟩ := run_cons h
    have h1 : ∀ c, op ≠ .call j c := by rintro c rfl; unfold World.step at hs; dsimp only at hs; rw [hj] at hs; cases hs
    have h2 : ∀ c, op ≠ .virt j c := by rintro c rfl; unfold World.step at hs; dsimp only at hs; rw [hj] at hs; cases hs
    have h3 : op ≠ .close j := by rintro rfl; unfold World.step at hs; dsimp only at hs; rw [hj] at hs; cases hs
    obtain ⟨i1, i2, i3⟩ := gone_calls (step_other hj hs h1 h2 h3) hr
    refine ⟨?_, ?_, i3⟩
    · unfold callsOn at i1 ⊢
      rw [List.filterMap_cons, i1]
      cases op <;> dsimp only
      case call k c => rw [if_neg (fun e : k = j => h1 c (by rw [e]))]
    · unfold answersOn at i2 ⊢
      rw [List.zip_cons_cons, List.filterMap_cons, i2]
      cases op <;> dsimp only
      case call k c => rw [if_neg (fun e : k = j => h1 c (by rw [e]))]

theorem callsOn_other {j : Nat} {op : WOp} {ops : List WOp} (h : ∀ c, op ≠ .call j c) : callsOn j (op :: ops) = callsOn j ops := by
  unfold callsOn
  rw [List.filterMap_cons]
  cases op <;> dsimp only
  case call k c => rw [if_neg (fun e : k = j => h c (by rw [e]))]

theorem answersOn_other {j : Nat} {op : WOp} {ops : List WOp} {r : Option Meta.Ret} {rs : List (Option Meta.Ret)} (h : ∀ c, op ≠ .call j c) :
    answersOn j (op :: ops) (r :: rs) = answersOn j ops rs := by
  unfold answersOn
  rw [List.zip_cons_cons, List.filterMap_cons]
  cases op <;> dsimp only
  case call k c => rw [if_neg (fun e : k = j => h c (by rw [e]))]

/-- Formats and matrices, without the metadata. -/
def formats (T : List TrackVal) : List (Int × AFmt × AFmt × List (List Byte × List Byte) × Option (List (BitVec 64))) :=
  T.map fun x => (x.track.id, x.f, x.v, x.names, x.matrix)

theorem formats_withMeta : ∀ {l : List TrackVal} {l' : List Meta.Track}, l'.map (·.id) = l.map (·.track.id) →
    formats (l.zipWith (fun x t => ({ x with track := t } : TrackVal)) l') = formats l
  | [], l', h => by
    have : l' = [] := by simpa using h
    rw [this]; rfl
  | x :: l, [], h => by simp at h
  | x :: l, t :: l', h => by
    simp only [List.map_cons, List.cons.injEq] at h
    unfold formats
    rw [List.zipWith_cons_cons, List.map_cons, List.map_cons, ← formats, ← formats, formats_withMeta h.2, h.1]

/-- The change of a track's formats, on the formats. -/
theorem formats_virt (op : VOp) : ∀ {T T' : List TrackVal}, formats T = formats T' →
    formats (updFirst (fun x => x.track.id == op.track) op.onTrack T) = formats (updFirst (fun x => x.track.id == op.track) op.onTrack T')
  | [], [], _ => rfl
  | [], _ :: _, h => by simp [formats] at h
  | _ :: _, [], h => by simp [formats] at h
  | x :: T, x' :: T', h => by
    unfold formats at h
    rw [List.map_cons, List.map_cons, List.cons.injEq] at h
    obtain ⟨h1, h2⟩ := h
    simp only [Prod.mk.injEq] at h1
    obtain ⟨hid, hf, hv, hn, hm⟩ := h1
    unfold updFirst
    rw [hid]
    split
    · unfold formats
      rw [List.map_cons, List.map_cons, h2]
      congr 1
      rw [onTrack_track, onTrack_track, hid]
      cases op <;> simp only [VOp.onTrack] <;> rw [hf, hv, hn] <;> first | rw [hm] | rfl
    · unfold formats
      rw [List.map_cons, List.map_cons, ← formats, ← formats, formats_virt op h2, hid, hf, hv, hn, hm]

/-- The handle `j`, its metadata and its formats, after a history: only the calls on it matter. -/
theorem live_calls {e : Endian} {j : Nat} : ∀ {ops : List WOp} {W W' : World} {rs : List (Option Meta.Ret)} {V : HandleVal} {T : List TrackVal},
    W.handles[j]? = some (.live V) → formats V.tracks = formats T → W.run e ops = some (W', rs) →
    ∃ H, Meta.run V.metadata (callsOn j ops) = .ok (answersOn j ops rs, H) ∧
      (W'.handles[j]? = some .gone ∨ ∃ V', W'.handles[j]? = some (.live V') ∧ V'.metadata = H ∧
        formats V'.tracks = formats (ops.foldl (WOp.onFormats j) T))
  | [], W, W', rs, V, T, hj, hT, h => by cases h; exact ⟨V.metadata, rfl, Or.inr ⟨V, hj, rfl, hT⟩⟩
  | op :: ops, W, W', rs, V, T, hj, hT, h => by
    obtain ⟨W1, r, rs', hs, hr, rfl⟩ := run_cons h
    have hlt := (List.getElem?_eq_some_iff.1 hj).1
    rw [List.foldl_cons]
    by_cases hc : ∃ c, op = .call j c
    · obtain ⟨c, rfl⟩ := hc
      unfold World.step at hs
      dsimp only at hs
      rw [hj] at hs
      dsimp only at hs
      split at hs
      · rename_i r1 H1 hstep
        cases hs
        have hk := kept_step hstep
        obtain ⟨H, i1, i2⟩ := live_calls (T := T) (show (World.handles _)[j]? = some (.live (V.withMeta H1)) by dsimp only; rw [List.getElem?_set_self hlt])
          (by
            rw [← hT]
            unfold HandleVal.withMeta
            refine formats_withMeta ?_
            rw [hk.ids]
            unfold HandleVal.metadata
            simp) hr
        refine ⟨H, ?_, i2⟩
        rw [metadata_withMeta hk] at i1
        have e1 : callsOn j (.call j c :: ops) = c :: callsOn j ops := by unfold callsOn; rw [List.filterMap_cons]; simp
        have e2 : answersOn j (.call j c :: ops) (some r1 :: rs') = r1 :: answersOn j ops rs' := by
          unfold answersOn; rw [List.zip_cons_cons, List.filterMap_cons]; simp
        rw [e1, e2]
        unfold Meta.run
        rw [hstep]
        show (Meta.run H1 (callsOn j ops) >>= fun x => pure (r1 :: x.1, x.2)) = _
        rw [i1]
        rfl
      · cases hs
    have h1 : ∀ c, op ≠ .call j c := fun c h => hc ⟨c, h⟩
    rw [callsOn_other h1, answersOn_other h1]
    by_cases hv : ∃ c, op = .virt j c
    · obtain ⟨c, rfl⟩ := hv
      unfold World.step at hs
      dsimp only at hs
      rw [hj] at hs
      cases hs
      obtain ⟨H, i1, i2⟩ := live_calls (T := WOp.onFormats j T (.virt j c)) (show (World.handles _)[j]? = some (.live (V.virt c)) by dsimp only; rw [List.getElem?_set_self hlt])
        (by
          unfold WOp.onFormats HandleVal.virt
          dsimp only
          rw [if_pos rfl]
          exact formats_virt c hT) hr
      rw [metadata_virt] at i1
      exact ⟨H, i1, i2⟩
    have h2 : ∀ c, op ≠ .virt j c := fun c h => hv ⟨c, h⟩
    have eT : WOp.onFormats j T op = T := by
      unfold WOp.onFormats
      cases op <;> try rfl
      case virt k c => dsimp only; rw [if_neg (fun e : k = j => h2 c (by rw [e]))]
    rw [eT]
    by_cases h3 : op = .close j
    · subst h3
      unfold World.step at hs
      dsimp only at hs
      rw [hj] at hs
      cases hs
      obtain ⟨i1, i2, i3⟩ := gone_calls (show (World.handles _)[j]? = some .gone by dsimp only; rw [List.getElem?_set_self hlt]) hr
      rw [i1, i2]
      exact ⟨V.metadata, rfl, Or.inl i3⟩
    · exact live_calls (step_other hj hs h1 h2 h3) hT hr

/-! ## Setups -/

theorem gone_setup {e : Endian} {i : Nat} : ∀ {ops : List WOp} {W W' : World} {rs : List (Option Meta.Ret)}, W.setups[i]? = some .gone →
    W.run e ops = some (W', rs) → W'.setups[i]? = some .gone
  | [], W, W', rs, hj, h => by cases h; exact hj
  | op :: ops, W, W', rs, hj, h => by
    obtain ⟨W1, r, rs', hs, hr, rfl⟩ := run_cons h
    refine gone_setup (i := i) ?_ hr
    have hset : ∀ k x y, W.setups[k]? = some (.live x) → (W.setups.set k y)[i]? = some .gone := fun k x y hk => by
      have : k ≠ i := by rintro rfl; rw [hj] at hk; cases hk
      rw [List.getElem?_set_ne this]; exact hj
    cases op <;> unfold World.step at hs <;> dsimp only at hs
    case new => cases hs; dsimp only; rw [List.getElem?_append_left (List.getElem?_eq_some_iff.1 hj).1]; exact hj
    all_goals
      repeat' split at hs
      all_goals first | (cases hs; first | exact hj | exact hset _ _ _ (by assumption)) | cases hs

theorem live_setup {e : Endian} {i : Nat} : ∀ {ops : List WOp} {W W' : World} {rs : List (Option Meta.Ret)} {S : Setup.Setup}, W.setups[i]? = some (.live S) →
    W.run e ops = some (W', rs) → W'.setups[i]? = some .gone ∨ W'.setups[i]? = some (.live (ops.foldl (WOp.onSetup e i) S))
  | [], W, W', rs, S, hj, h => by cases h; exact Or.inr hj
  | op :: ops, W, W', rs, S, hj, h => by
    obtain ⟨W1, r, rs', hs, hr, rfl⟩ := run_cons h
    have hlt := (List.getElem?_eq_some_iff.1 hj).1
    rw [List.foldl_cons]
    have hset : ∀ k y, k ≠ i → (W.setups.set k y)[i]? = some (.live S) := fun k y hk => by rw [List.getElem?_set_ne hk]; exact hj
    by_cases hf : op = .freeSetup i
    · subst hf
      unfold World.step at hs
      dsimp only at hs
      rw [hj] at hs
      cases hs
      exact Or.inl (gone_setup (show (World.setups _)[i]? = some .gone by dsimp only; rw [List.getElem?_set_self hlt]) hr)
    refine live_setup (S := WOp.onSetup e i S op) ?_ hr
    cases op <;> unfold World.step at hs <;> unfold WOp.onSetup <;> dsimp only at hs ⊢
    case new => cases hs; dsimp only; rw [List.getElem?_append_left hlt]; exact hj
    case set k op =>
      by_cases hk : k = i
      · subst hk
        rw [hj] at hs
        cases hs
        dsimp only
        rw [List.getElem?_set_self hlt, if_pos rfl]
      · rw [if_neg hk]
        split at hs
        · cases hs; exact hset _ _ hk
        · cases hs
    case freeSetup k =>
      have hk : k ≠ i := fun h => hf (h ▸ rfl)
      split at hs
      · cases hs; exact hset _ _ hk
      · cases hs
    case openWrite k w c =>
      by_cases hk : k = i
      · subst hk
        rw [hj] at hs
        cases hs
        dsimp only
        rw [List.getElem?_set_self hlt, if_pos rfl]
      · rw [if_neg hk]
        split at hs
        · cases hs; exact hset _ _ hk
        · cases hs
    all_goals
      repeat' split at hs
      all_goals first | (cases hs; exact hj) | cases hs

end AF.Heap
