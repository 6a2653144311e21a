import Verif.Proof.Meta
/-!
# What metadata calls do not change: the number, order, ids, types and sizes of everything
-/
namespace AF.Meta

/-- Lists of the same length, related element by element. -/
inductive All2 {α β : Type} (R : α → β → Prop) : List α → List β → Prop
  | nil : All2 R [] []
  | cons {a b l l'} : R a b → All2 R l l' → All2 R (a :: l) (b :: l')

theorem All2.refl {α : Type} {R : α → α → Prop} (h : ∀ a, R a a) : ∀ l, All2 R l l
  | [] => .nil
  | a :: l => .cons (h a) (All2.refl h l)

theorem All2.trans {α : Type} {R : α → α → Prop} (h : ∀ a b c, R a b → R b c → R a c) {l l' l'' : List α}
    (h1 : All2 R l l') (h2 : All2 R l' l'') : All2 R l l'' := by
  induction h1 generalizing l'' with
  | nil => cases h2; exact .nil
  | cons hab _ ih => cases h2 with | cons hbc h2 => exact .cons (h _ _ _ hab hbc) (ih h2)

theorem All2.length {α β : Type} {R : α → β → Prop} {l : List α} {l' : List β} (h : All2 R l l') :
    l.length = l'.length := by
  induction h with
  | nil => rfl
  | cons _ _ ih => simp [ih]

theorem All2.mem {α β : Type} {R : α → β → Prop} {l : List α} {l' : List β} (h : All2 R l l') {b : β} (hb : b ∈ l') :
    ∃ a ∈ l, R a b := by
  induction h with
  | nil => cases hb
  | cons hab _ ih =>
    rcases List.mem_cons.1 hb with rfl | hb
    · exact ⟨_, by simp, hab⟩
    · obtain ⟨a, h1, h2⟩ := ih hb; exact ⟨a, by simp [h1], h2⟩

theorem All2.updFirst {α : Type} {R : α → α → Prop} (hr : ∀ a, R a a) (p : α → Bool) (f : α → α) (l : List α)
    (h : ∀ a, l.find? p = some a → R a (f a)) : All2 R l (updFirst p f l) := by
  induction l with
  | nil => exact .nil
  | cons a l ih =>
    unfold Meta.updFirst
    by_cases hp : p a = true
    · rw [if_pos hp]
      exact .cons (h a (by simp [List.find?_cons, hp])) (All2.refl hr l)
    · rw [if_neg hp]
      exact .cons (hr a) (ih fun b hb => h b (by rw [List.find?_cons]; simp [hp, hb]))

/-- The buffer, if there is one, has the declared size. -/
def Misc.Good (m : Misc) : Prop := ∀ b, m.buffer = some b → (b.length : Int) = m.size

structure MiscOver (m m' : Misc) : Prop where
  id : m'.id = m.id
  type : m'.type = m.type
  size : m'.size = m.size
  null : m'.buffer = none → m.buffer = none
  good : m.Good → m'.Good

theorem MiscOver.refl (m : Misc) : MiscOver m m := ⟨rfl, rfl, rfl, fun h => h, fun h => h⟩
theorem MiscOver.trans (a b c : Misc) (h1 : MiscOver a b) (h2 : MiscOver b c) : MiscOver a c :=
  ⟨h2.id.trans h1.id, h2.type.trans h1.type, h2.size.trans h1.size, fun h => h1.null (h2.null h), fun h => h2.good (h1.good h)⟩

/-- Ids of the tracks and their markers. -/
def markShape (h : Handle) : List (Int × List Int) := h.tracks.map fun t => (t.id, t.markers.map (·.id))

/-- No marker is before the beginning. -/
def MarksOK (h : Handle) : Prop := ∀ t ∈ h.tracks, ∀ m ∈ t.markers, 0 ≤ m.position

/-- What the instruments of an AIFF file always meet: the values of parameters that the library checks are in range. -/
structure InstOK (i : Instrument) : Prop where
  length : i.values.length = 9
  range : ∀ j v, i.values[j]? = some v → (j = 0 ∨ j = 2 ∨ j = 3 ∨ j = 4 ∨ j = 5 → 0 ≤ v.toInt ∧ v.toInt ≤ 127) ∧
    (j = 1 → -50 ≤ v.toInt ∧ v.toInt ≤ 50)
  mode : ∀ l ∈ i.loops, 0 ≤ l.mode ∧ l.mode ≤ 2

def InstsOK (h : Handle) : Prop := h.family = .aiff ∧ ∀ i ∈ h.instruments, InstOK i

/-- `b` is `a` after some calls. -/
structure Over (a b : Handle) : Prop where
  misc : All2 MiscOver a.misc b.misc
  marks : markShape b = markShape a
  pos : MarksOK a → MarksOK b
  aes : b.tracks.map (·.hasAES) = a.tracks.map (·.hasAES)
  inst : InstsOK a → InstsOK b

theorem updFirst_mem {α : Type} {p : α → Bool} {f : α → α} {l : List α} {x : α} (h : x ∈ updFirst p f l) :
    x ∈ l ∨ ∃ y ∈ l, x = f y := by
  induction l with
  | nil => simp [updFirst] at h
  | cons a l ih =>
    unfold Meta.updFirst at h
    split at h
    · rcases List.mem_cons.1 h with rfl | h
      · exact Or.inr ⟨a, by simp, rfl⟩
      · exact Or.inl (by simp [h])
    · rcases List.mem_cons.1 h with rfl | h
      · exact Or.inl (by simp)
      · rcases ih h with h | ⟨y, hy, e⟩
        · exact Or.inl (by simp [h])
        · exact Or.inr ⟨y, by simp [hy], e⟩

theorem Over.refl (h : Handle) : Over h h := ⟨All2.refl MiscOver.refl _, rfl, fun h => h, rfl, fun h => h⟩
theorem Over.trans {a b c : Handle} (h1 : Over a b) (h2 : Over b c) : Over a c :=
  ⟨h1.misc.trans MiscOver.trans h2.misc, h2.marks.trans h1.marks, fun h => h2.pos (h1.pos h), h2.aes.trans h1.aes, fun h => h2.inst (h1.inst h)⟩

theorem Over.of_eq {a b : Handle} (h1 : b.misc = a.misc) (h2 : b.tracks = a.tracks) (h3 : InstsOK a → InstsOK b) : Over a b :=
  ⟨by rw [h1]; exact All2.refl MiscOver.refl _, by rw [markShape, markShape, h2], by unfold MarksOK; rw [h2]; exact fun h => h, by rw [h2], h3⟩

theorem instsOK_upd {h : Handle} {p : Instrument → Bool} {f : Instrument → Instrument} (hf : ∀ i, InstOK i → InstOK (f i))
    (ho : InstsOK h) : InstsOK { h with instruments := updFirst p f h.instruments } := by
  refine ⟨ho.1, fun i hi => ?_⟩
  rcases updFirst_mem hi with h1 | ⟨y, hy, rfl⟩
  · exact ho.2 i h1
  · exact hf y (ho.2 y hy)

theorem instsOK_loop {h : Handle} {i l : Int} {f : Loop → Loop} (hf : ∀ x : Loop, 0 ≤ x.mode ∧ x.mode ≤ 2 → 0 ≤ (f x).mode ∧ (f x).mode ≤ 2)
    (ho : InstsOK h) : InstsOK (updLoop h i l f) := by
  refine instsOK_upd (fun x hx => ⟨hx.length, hx.range, fun y hy => ?_⟩) ho
  rcases updFirst_mem hy with h1 | ⟨z, hz, rfl⟩
  · exact hx.mode y h1
  · exact hf z (hx.mode z hz)

theorem setOne_ok {i : Instrument} {it : Pv.Item} (hi : InstOK i) : InstOK { i with values := setOne .aiff i.values it } := by
  unfold setOne
  split
  · exact hi
  rename_i j hj
  split
  · rename_i hv
    refine ⟨by simp [hi.length], fun k v hk => ?_, hi.mode⟩
    dsimp only at hk
    rw [List.getElem?_set] at hk
    split at hk
    · rename_i e
      subst e
      split at hk
      · cases hk
        have hid : ∀ n : Nat, j = n → (Family.ids .aiff).findIdx (· == it.param) = n := by
          intro n hn
          unfold indexFromId at hj
          dsimp only at hj
          split at hj
          · cases hj
          · cases hj; exact hn
        simp only [Family.ids, List.findIdx_cons, List.findIdx_nil] at hid
        unfold isInstrumentParameterValid at hv
        by_cases hl : it.type ≠ Pv.LONG
        · rw [if_pos hl] at hv; cases hv
        rw [if_neg hl] at hv
        dsimp only at hv
        by_cases h1 : it.param = 301
        · rw [h1] at hv hid
          have := hid j rfl
          simp at this hv
          omega
        by_cases h2 : it.param = 302
        · rw [h2] at hv hid
          have := hid j rfl
          simp at this hv
          omega
        by_cases h3 : it.param = 305
        · rw [h3] at hv hid
          have := hid j rfl
          simp at this hv
          omega
        by_cases h4 : it.param = 306
        · rw [h4] at hv hid
          have := hid j rfl
          simp at this hv
          omega
        by_cases h5 : it.param = 303
        · rw [h5] at hv hid
          have := hid j rfl
          simp at this hv
          omega
        by_cases h6 : it.param = 304
        · rw [h6] at hv hid
          have := hid j rfl
          simp at this hv
          omega
        have h0 := hid j rfl
        have e1 : ((301 : Int) == it.param) = false := by simp; omega
        have e2 : ((302 : Int) == it.param) = false := by simp; omega
        have e3 : ((305 : Int) == it.param) = false := by simp; omega
        have e4 : ((306 : Int) == it.param) = false := by simp; omega
        have e5 : ((303 : Int) == it.param) = false := by simp; omega
        have e6 : ((304 : Int) == it.param) = false := by simp; omega
        simp only [e1, e2, e3, e4, e5, e6, cond_false] at h0
        omega
      · cases hk
    · exact hi.range k v hk
  · exact hi

theorem setAll_ok (its : List Pv.Item) : ∀ {i : Instrument}, InstOK i → InstOK { i with values := its.foldl (setOne .aiff) i.values } := by
  induction its with
  | nil => intro i hi; exact hi
  | cons it its ih => intro i hi; exact ih (setOne_ok (it := it) hi)

theorem setMark_over (h : Handle) (t m p : Int) : Over h (setMarkPosition h t m p) := by
  unfold setMarkPosition
  split
  · exact .refl h
  split
  · exact .refl h
  split
  · exact .refl h
  refine ⟨All2.refl MiscOver.refl _, ?_, ?_, by dsimp only; apply map_updFirst; intro _; rfl, fun h => h⟩
  · unfold markShape
    dsimp only
    rw [map_updFirst]
    intro a
    dsimp only
    congr 1
    apply map_updFirst
    intro b; rfl
  · intro hok tr htr mk hmk
    rcases updFirst_mem htr with h1 | ⟨y, hy, rfl⟩
    · exact hok _ h1 _ hmk
    · rcases updFirst_mem hmk with h2 | ⟨z, hz, rfl⟩
      · exact hok _ hy _ h2
      · dsimp only; split <;> omega

theorem setAES_over (h : Handle) (t : Int) (b : List Byte) : Over h (setAES h t b) := by
  unfold setAES
  split
  · exact .refl h
  split
  · exact .refl h
  split
  · refine ⟨All2.refl MiscOver.refl _, ?_, ?_, by dsimp only; apply map_updFirst; intro _; rfl, fun h => h⟩
    · unfold markShape
      dsimp only
      rw [map_updFirst]
      intro a; rfl
    · intro hok tr htr mk hmk
      rcases updFirst_mem htr with h1 | ⟨y, hy, rfl⟩
      · exact hok _ h1 _ hmk
      · exact hok _ hy _ hmk
  · exact .refl h

theorem setLoop_over (h : Handle) (f : LoopField) (i l v : Int) : Over h (setLoop h f i l v).2 := by
  cases f <;> simp only [setLoop, setLoopMode, setLoopCount, setLoopStart, setLoopEnd, setLoopTrack, setLoopStartFrame,
    setLoopEndFrame] <;> repeat' split
  all_goals first
    | exact .refl h
    | exact setMark_over h _ _ _
    | (refine Over.of_eq rfl rfl (instsOK_loop fun x hx => ?_); dsimp only; omega)

theorem setInstParams_over (h : Handle) (i : Int) (pv : Pv.PvList) (n : Int) : Over h (setInstParams h i pv n) := by
  unfold setInstParams
  split
  · exact .refl h
  split
  · exact .refl h
  · refine Over.of_eq rfl rfl fun ho => ?_
    refine instsOK_upd (fun x hx => ?_) ho
    rw [ho.1]
    exact setAll_ok _ hx

theorem updMisc_over (h : Handle) (id : Int) (f : Misc → Misc) (hf : ∀ m, h.getMisc id = some m → MiscOver m (f m)) :
    Over h { h with misc := updFirst (·.id == id) f h.misc } :=
  ⟨All2.updFirst MiscOver.refl _ _ _ hf, rfl, fun h => h, rfl, fun h => h⟩

theorem writeMisc_over {h h' : Handle} {id r : Int} {buf : List Byte} (he : writeMisc h id buf = .ok (r, h')) : Over h h' := by
  unfold writeMisc at he
  split at he
  · cases he; exact .refl h
  split at he
  · cases he; exact .refl h
  rename_i m hm
  split at he
  · cases he; exact .refl h
  rename_i h1
  split at he
  · cases he; exact .refl h
  rename_i h2
  dsimp only at he
  split at he
  · cases he
  rename_i h3
  cases he
  refine updMisc_over h id _ fun m' hm' => ?_
  have e : m' = m := by rw [hm] at hm'; cases hm'; rfl
  subst e
  refine ⟨rfl, rfl, rfl, ?_, ?_⟩
  · dsimp only
    unfold Misc.alloc
    intro hn
    cases hb : m'.buffer with
    | none => rfl
    | some b => rw [hb] at hn; simp at hn
  · intro hg b hb
    dsimp only at hb ⊢
    match ha : m'.alloc with
    | none => rw [ha] at hb; cases hb
    | some c =>
      rw [ha] at hb
      cases hb
      have hc : (c.length : Int) = m'.size := by
        unfold Misc.alloc at ha
        split at ha
        · rename_i hz
          cases ha
          rw [List.length_replicate]
          have := hz.1
          have : ¬ m'.size < 0 := fun h => h2 ⟨hz.1, h⟩
          omega
        · exact hg c ha
      by_cases hz : min (buf.length : Int) (m'.size - m'.position) = 0
      · rw [hz]
        simp
        have : m'.position.toNat ≤ c.length := by omega
        omega
      · have : ¬ (m'.position < 0 ∨ min (buf.length : Int) (m'.size - m'.position) < 0) := fun h => h3 ⟨hz, h⟩
        simp only [List.length_append, List.length_take, List.length_drop]
        omega

theorem readMisc_over {h h' : Handle} {id n r : Int} {b : List Byte} (he : readMisc h id n = .ok (r, b, h')) : Over h h' := by
  unfold readMisc at he
  split at he
  · cases he; exact .refl h
  split at he
  · cases he; exact .refl h
  split at he
  · cases he; exact .refl h
  dsimp only at he
  split at he
  · cases he
  cases he
  exact updMisc_over h id _ fun m' _ => ⟨rfl, rfl, rfl, fun h => h, fun h => h⟩

theorem seekMisc_over (h : Handle) (id o : Int) : Over h (seekMisc h id o).2 := by
  unfold seekMisc
  split
  · exact .refl h
  split
  · exact .refl h
  · exact updMisc_over h id _ fun m' _ => ⟨rfl, rfl, rfl, fun h => h, fun h => h⟩

theorem step_over {h h' : Handle} {op : Op} {r : Ret} (he : step h op = .ok (r, h')) : Over h h' := by
  cases op <;> unfold step at he <;> dsimp only at he
  case writeMisc id b =>
    match hw : writeMisc h id b with
    | .error e => rw [hw] at he; cases he
    | .ok (r', h'') => rw [hw] at he; cases he; exact writeMisc_over hw
  case readMisc id b =>
    match hw : readMisc h id b with
    | .error e => rw [hw] at he; cases he
    | .ok (r', b', h'') => rw [hw] at he; cases he; exact readMisc_over hw
  case setLoop f i l v =>
    have h1 := setLoop_over h f i l v
    rw [Except.ok.inj he] at h1
    exact h1
  all_goals cases he
  all_goals first
    | exact Over.refl _
    | exact setMark_over _ _ _ _
    | exact setAES_over _ _ _
    | exact setLoop_over _ _ _ _ _
    | exact setInstParams_over _ _ _ _
    | exact seekMisc_over _ _ _

end AF.Meta
