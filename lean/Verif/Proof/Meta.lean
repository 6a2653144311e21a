import Verif.Spec.Meta
/-! # Refinement of the metadata calls -/
namespace AF.Meta
open AF.Spec.Meta (State Stream LoopRec upd1 upd2)

section updFirst
variable {α : Type}

theorem find?_updFirst (key : α → Int) (f : α → α) (hk : ∀ a, key (f a) = key a) (k k' : Int) (l : List α) :
    (updFirst (fun a => key a == k) f l).find? (fun a => key a == k') =
      if k' = k then (l.find? (fun a => key a == k')).map f else l.find? (fun a => key a == k') := by
  induction l with
  | nil => simp [updFirst]
  | cons a l ih =>
    by_cases h1 : key a = k
    · by_cases h2 : k' = k
      · simp [updFirst, h1, h2, hk, List.find?_cons]
      · have h3 : ¬ key a = k' := fun h => h2 (by omega)
        have h4 : ¬ k = k' := fun h => h2 h.symm
        simp [updFirst, h1, h2, hk, List.find?_cons, h4]
    · by_cases h2 : key a = k'
      · have h3 : ¬ k' = k := fun h => h1 (by omega)
        simp [updFirst, h1, List.find?_cons, h2, h3]
      · by_cases h3 : k' = k
        · subst h3; simpa [updFirst, h1, List.find?_cons] using ih
        · simpa [updFirst, h1, List.find?_cons, h2, h3] using ih

theorem map_updFirst {β : Type} (g : α → β) (p : α → Bool) (f : α → α) (hg : ∀ a, g (f a) = g a) (l : List α) :
    (updFirst p f l).map g = l.map g := by
  induction l with
  | nil => rfl
  | cons a l ih => simp only [updFirst]; split <;> simp [hg, ih]

theorem length_updFirst (p : α → Bool) (f : α → α) (l : List α) : (updFirst p f l).length = l.length := by
  induction l with
  | nil => rfl
  | cons a l ih => simp only [updFirst]; split <;> simp [ih]

theorem mem_updFirst (p : α → Bool) (f : α → α) (l : List α) (a : α) (h : a ∈ updFirst p f l) :
    a ∈ l ∨ ∃ b ∈ l, a = f b := by
  induction l with
  | nil => simp [updFirst] at h
  | cons b l ih =>
    simp only [updFirst] at h
    split at h
    · rcases List.mem_cons.1 h with h | h
      · exact .inr ⟨b, by simp, h⟩
      · exact .inl (List.mem_cons_of_mem _ h)
    · rcases List.mem_cons.1 h with h | h
      · exact .inl (by simp [h])
      · rcases ih h with h | ⟨c, h, e⟩
        · exact .inl (List.mem_cons_of_mem _ h)
        · exact .inr ⟨c, List.mem_cons_of_mem _ h, e⟩

theorem mem_updFirst_find (p : α → Bool) (f : α → α) (l : List α) (a : α) (h : a ∈ updFirst p f l) :
    a ∈ l ∨ ∃ b, l.find? p = some b ∧ a = f b := by
  induction l with
  | nil => simp [updFirst] at h
  | cons b l ih =>
    simp only [updFirst] at h
    split at h
    · rename_i hp
      rcases List.mem_cons.1 h with h | h
      · exact .inr ⟨b, by simp [hp], h⟩
      · exact .inl (List.mem_cons_of_mem _ h)
    · rename_i hp
      rcases List.mem_cons.1 h with h | h
      · exact .inl (by simp [h])
      · rcases ih h with h | ⟨c, h, e⟩
        · exact .inl (List.mem_cons_of_mem _ h)
        · exact .inr ⟨c, by simp [List.find?_cons, hp, h], e⟩

end updFirst

/-- A handle as `afOpenFile` makes it: parameter arrays as long as the format's table (FileHandle.cpp:303-320,
AIFF.cpp:216), AES data 24 bytes, miscellaneous chunks of nonnegative size whose buffer, if allocated, has that size.
Files opened for reading have all buffers allocated. -/
structure WF (h : Handle) : Prop where
  values : ∀ i ∈ h.instruments, i.values.length = h.family.ids.length
  size : ∀ m ∈ h.misc, 0 ≤ m.size
  pos : ∀ m ∈ h.misc, 0 ≤ m.position ∧ m.position ≤ m.size
  buffer : ∀ m ∈ h.misc, ∀ b, m.buffer = some b → (b.length : Int) = m.size
  nobuffer : ∀ m ∈ h.misc, m.buffer = none → h.access = .write ∨ m.size = 0

/-- A chunk as a stream; an unallocated buffer reads as zeros. -/
def Misc.stream (m : Misc) : Stream :=
  { data := m.buffer.getD (List.replicate m.size.toNat 0), pos := m.position.toNat }

def Loop.toRec (l : Loop) : LoopRec :=
  { mode := l.mode, count := l.count, start := l.beginMarker, endd := l.endMarker, track := l.trackid }

/-- The metadata a handle stands for. -/
def abs (h : Handle) : State where
  writable := h.access == .write
  mark t m := ((h.getTrack t).bind (·.getMarker m)).map (·.position)
  aes t := (h.getTrack t).map fun tr => if tr.hasAES then some tr.aes else none
  loop i l := ((h.getInstrument i).bind (·.getLoop l)).map (·.toRec)
  param i p := (h.getInstrument i).bind fun inst => (indexFromId h.family p).bind (inst.values[·]?)
  misc id := (h.getMisc id).map (·.stream)
  legal := AF.Spec.Meta.limits h.family
  markIDs t := (h.getTrack t).map fun tr => tr.markers.map (·.id)
  loopIDs i := (h.getInstrument i).map fun inst => inst.loops.map (·.id)
  instIDs := h.instruments.map (·.id)
  miscIDs := h.misc.map (·.id)
  miscType id := ((h.getMisc id).map (·.type)).getD (-1)

theorem legal_iff (f : Family) (it : Pv.Item) (j : Nat) (_h : indexFromId f it.param = some j) :
    isInstrumentParameterValid f it = (decide (it.type = Pv.LONG) && AF.Spec.Meta.limits f it.param it.value.toInt) := by
  unfold isInstrumentParameterValid AF.Spec.Meta.limits
  by_cases ht : it.type = Pv.LONG
  · simp only [ht, ne_eq, not_true_eq_false, if_false, decide_true, Bool.true_and]
    cases f with
    | other => rfl
    | aiff =>
      simp only
      by_cases h1 : it.param = 301 <;> by_cases h2 : it.param = 302 <;> by_cases h3 : it.param = 303 <;>
        by_cases h4 : it.param = 304 <;> by_cases h5 : it.param = 305 <;> by_cases h6 : it.param = 306 <;>
        first
          | omega
          | simp [h1, h2, h3, h4, h5, h6]
    | wave =>
      simp only
      by_cases h1 : it.param = 301 <;> by_cases h2 : it.param = 302 <;> by_cases h3 : it.param = 303 <;>
        by_cases h4 : it.param = 304 <;> by_cases h5 : it.param = 305 <;> by_cases h6 : it.param = 306 <;>
        first
          | omega
          | simp [h1, h2, h3, h4, h5, h6]
  · simp [ht]

theorem getTrack_upd (h : Handle) (t t' : Int) (f : Track → Track) (hf : ∀ x, (f x).id = x.id) :
    ({ h with tracks := updFirst (·.id == t) f h.tracks } : Handle).getTrack t' =
      if t' = t then (h.getTrack t').map f else h.getTrack t' :=
  find?_updFirst Track.id f hf t t' h.tracks

theorem getInstrument_upd (h : Handle) (t t' : Int) (f : Instrument → Instrument) (hf : ∀ x, (f x).id = x.id) :
    ({ h with instruments := updFirst (·.id == t) f h.instruments } : Handle).getInstrument t' =
      if t' = t then (h.getInstrument t').map f else h.getInstrument t' :=
  find?_updFirst Instrument.id f hf t t' h.instruments

theorem getMisc_upd (h : Handle) (t t' : Int) (f : Misc → Misc) (hf : ∀ x, (f x).id = x.id) :
    ({ h with misc := updFirst (·.id == t) f h.misc } : Handle).getMisc t' =
      if t' = t then (h.getMisc t').map f else h.getMisc t' :=
  find?_updFirst Misc.id f hf t t' h.misc

theorem getMarker_upd (tr : Track) (m m' : Int) (f : Marker → Marker) (hf : ∀ x, (f x).id = x.id) :
    ({ tr with markers := updFirst (·.id == m) f tr.markers } : Track).getMarker m' =
      if m' = m then (tr.getMarker m').map f else tr.getMarker m' :=
  find?_updFirst Marker.id f hf m m' tr.markers

theorem getLoop_upd (tr : Instrument) (m m' : Int) (f : Loop → Loop) (hf : ∀ x, (f x).id = x.id) :
    ({ tr with loops := updFirst (·.id == m) f tr.loops } : Instrument).getLoop m' =
      if m' = m then (tr.getLoop m').map f else tr.getLoop m' :=
  find?_updFirst Loop.id f hf m m' tr.loops

theorem State.ext' {a b : State} (h1 : a.writable = b.writable) (h2 : a.mark = b.mark) (h3 : a.aes = b.aes)
    (h4 : a.loop = b.loop) (h5 : a.param = b.param) (h6 : a.misc = b.misc) (h7 : a.legal = b.legal)
    (h8 : a.markIDs = b.markIDs) (h9 : a.loopIDs = b.loopIDs) (h10 : a.instIDs = b.instIDs)
    (h11 : a.miscIDs = b.miscIDs) (h12 : a.miscType = b.miscType) : a = b := by
  cases a; cases b; simp_all

/-- Changing one track. -/
theorem abs_updTrack (h : Handle) (t : Int) (f : Track → Track) (hf : ∀ x, (f x).id = x.id)
    (hid : ∀ x, (f x).markers.map (·.id) = x.markers.map (·.id)) (tr : Track) (ht : h.getTrack t = some tr) :
    abs { h with tracks := updFirst (·.id == t) f h.tracks } =
      { abs h with
        mark := fun t' m => if t' = t then ((f tr).getMarker m).map (·.position) else (abs h).mark t' m
        aes := upd1 (abs h).aes t (some (if (f tr).hasAES then some (f tr).aes else none)) } := by
  apply State.ext' <;> try rfl
  · funext t' m
    simp only [abs, getTrack_upd h t _ f hf]
    by_cases e : t' = t
    · subst e; simp [ht]
    · simp [e]
  · funext t'
    simp only [abs, getTrack_upd h t _ f hf, upd1]
    by_cases e : t' = t
    · subst e; simp [ht]
    · simp [e]
  · funext t'
    simp only [abs, getTrack_upd h t _ f hf]
    by_cases e : t' = t
    · subst e; simpa [ht] using hid tr
    · simp [e]

/-- Changing one instrument. -/
theorem abs_updInst (h : Handle) (i : Int) (f : Instrument → Instrument) (hf : ∀ x, (f x).id = x.id)
    (hid : ∀ x, (f x).loops.map (·.id) = x.loops.map (·.id)) (inst : Instrument) (hi : h.getInstrument i = some inst) :
    abs { h with instruments := updFirst (·.id == i) f h.instruments } =
      { abs h with
        loop := fun i' l => if i' = i then ((f inst).getLoop l).map (·.toRec) else (abs h).loop i' l
        param := fun i' p => if i' = i then (indexFromId h.family p).bind ((f inst).values[·]?) else (abs h).param i' p } := by
  apply State.ext' <;> try rfl
  · funext t' m
    simp only [abs, getInstrument_upd h i _ f hf]
    by_cases e : t' = i
    · subst e; simp [hi]
    · simp [e]
  · funext t' m
    simp only [abs, getInstrument_upd h i _ f hf]
    by_cases e : t' = i
    · subst e; simp [hi]
    · simp [e]
  · funext t'
    simp only [abs, getInstrument_upd h i _ f hf]
    by_cases e : t' = i
    · subst e; simpa [hi] using hid inst
    · simp [e]
  · exact map_updFirst _ _ _ hf _

/-- Changing one chunk. -/
theorem abs_updMisc (h : Handle) (i : Int) (f : Misc → Misc) (hf : ∀ x, (f x).id = x.id)
    (hty : ∀ x, (f x).type = x.type) (m : Misc) (hi : h.getMisc i = some m) :
    abs { h with misc := updFirst (·.id == i) f h.misc } =
      { abs h with misc := upd1 (abs h).misc i (some (f m).stream) } := by
  apply State.ext' <;> try rfl
  · funext t'
    simp only [abs, getMisc_upd h i _ f hf, upd1]
    by_cases e : t' = i
    · subst e; simp [hi]
    · simp [e]
  · exact map_updFirst _ _ _ hf _
  · funext t'
    simp only [abs, getMisc_upd h i _ f hf]
    by_cases e : t' = i
    · subst e; simp [hi, hty]
    · simp [e]

theorem abs_setMark (h : Handle) (t m p : Int) :
    abs (setMarkPosition h t m p) = (abs h).moveMark t m (max p 0) := by
  unfold setMarkPosition State.moveMark
  by_cases ha : h.access = .write
  · rw [if_neg (by simp [ha])]
    cases ht : h.getTrack t with
    | none => simp [abs, ht]
    | some tr =>
      simp only
      cases hm : tr.getMarker m with
      | none => simp [abs, ht, hm]
      | some mk =>
        have hcond : (abs h).writable = true ∧ ((abs h).mark t m).isSome = true := by
          simp [abs, ha, ht, hm]
        rw [if_pos hcond]
        have hp : (if p < 0 then 0 else p) = max p 0 := by split <;> omega
        simp only [hp]
        have e0 : h.getTrack t = h.tracks.find? (·.id == t) := rfl
        rw [abs_updTrack h t _ (by simp) (fun x => map_updFirst Marker.id (·.id == m) (fun mk => { mk with position := max p 0 }) (fun _ => rfl) x.markers) tr ht]
        apply State.ext' <;> try rfl
        · funext t' m'
          simp only [upd2]
          by_cases e1 : t' = t
          · subst e1
            have := getMarker_upd tr m m' (fun mk => { mk with position := max p 0 }) (fun _ => rfl)
            simp only [if_true, this]
            by_cases e2 : m' = m
            · subst e2; simp [hm]
            · simp [e2, abs, ht]
          · simp [e1]
        · funext t'
          simp only [upd1]
          by_cases e1 : t' = t
          · subst e1; simp [abs, ht]
          · simp [e1]
  · have : (abs h).writable = false := by simp [abs, ha]
    simp [ha, this]

theorem abs_setAES (h : Handle) (t : Int) (b : List Byte) :
    abs (setAES h t b) = ((abs h).step (.setAES t b)).2 := by
  unfold setAES State.step
  cases ht : h.getTrack t with
  | none => simp [abs, ht]
  | some tr =>
    by_cases ha : h.access = .write
    · simp only [ha, ne_eq, not_true_eq_false, if_false]
      cases hA : tr.hasAES with
      | false => simp [abs, ht, hA]
      | true =>
        have e1 : (abs h).aes t = some (some tr.aes) := by simp [abs, ht, hA]
        have e2 : (abs h).writable = true := by simp [abs, ha]
        simp only [e1, if_true]
        rw [if_pos e2, ← ha, abs_updTrack h t _ (by simp) (by simp) tr ht]
        apply State.ext' <;> try rfl
        · funext t' m'
          by_cases e1 : t' = t
          · subst e1; simp [abs, ht, Track.getMarker]
          · simp [e1]
        · funext t'
          by_cases e1 : t' = t
          · subst e1; simp [hA, upd1]
          · simp [e1, upd1]
    · have : (abs h).writable = false := by simp [abs, ha]
      simp only [ha, ne_eq, not_false_eq_true, if_true, this]
      split <;> simp

theorem abs_updLoop (h : Handle) (i l : Int) (f : Loop → Loop) (hf : ∀ x, (f x).id = x.id) (lp : Loop)
    (hl : (h.getInstrument i).bind (·.getLoop l) = some lp) :
    abs (updLoop h i l f) = { abs h with loop := upd2 (abs h).loop i l (some (f lp).toRec) } := by
  obtain ⟨inst, hi, hl'⟩ := Option.bind_eq_some_iff.1 hl
  unfold updLoop
  rw [abs_updInst h i _ (by simp) (fun x => map_updFirst _ _ _ hf _) inst hi]
  apply State.ext' <;> try rfl
  · funext i' l'
    simp only [upd2]
    by_cases e1 : i' = i
    · subst e1
      simp only [if_true, getLoop_upd inst l l' f hf]
      by_cases e2 : l' = l
      · subst e2; simp [hl']
      · simp [e2, abs, hi]
    · simp [e1]
  · funext i' p
    by_cases e1 : i' = i
    · subst e1; simp [abs, hi]
    · simp [e1]

theorem findLoop_true (h : Handle) (i l : Int) :
    (findLoop h i l true).map Loop.toRec = if (abs h).writable then (abs h).loop i l else none := by
  unfold findLoop
  by_cases ha : h.access = .write
  · simp only [ha, Bool.true_and, ne_eq, not_true_eq_false, decide_false, Bool.false_eq_true, if_false, abs, beq_self_eq_true, if_true]
    cases h.getInstrument i <;> simp
  · simp [ha, abs]

theorem findLoop_false (h : Handle) (i l : Int) :
    (findLoop h i l false).map Loop.toRec = (abs h).loop i l := by
  unfold findLoop
  simp only [Bool.false_and, Bool.false_eq_true, if_false, abs]
  cases h.getInstrument i <;> simp

theorem findLoop_bind (h : Handle) (i l : Int) (b : Bool) (lp : Loop) (hf : findLoop h i l b = some lp) :
    (h.getInstrument i).bind (·.getLoop l) = some lp := by
  unfold findLoop at hf
  split at hf
  · simp at hf
  · cases hi : h.getInstrument i <;> simp_all

theorem getMark_abs (h : Handle) (t m : Int) : getMarkPosition h t m = (abs h).frameOf t m := by
  unfold getMarkPosition State.frameOf abs
  cases ht : h.getTrack t with
  | none => simp [ht]
  | some tr => cases hm : tr.getMarker m <;> simp [ht, hm]

theorem setLoop_abs (h : Handle) (f : LoopField) (i l v : Int) :
    (abs h).setLoop f i l v = ((setLoop h f i l v).1, abs (setLoop h f i l v).2) := by
  have key := findLoop_true h i l
  unfold State.setLoop
  simp only [← key]
  cases hl : findLoop h i l true with
  | none =>
    cases f <;> simp [setLoop, hl, setLoopMode, setLoopCount, setLoopStart, setLoopEnd, setLoopTrack,
      setLoopStartFrame, setLoopEndFrame]
  | some lp =>
    have hb := findLoop_bind h i l true lp hl
    cases f with
    | mode =>
      simp only [Option.map_some, setLoop, setLoopMode, hl]
      by_cases hv : v = 0 ∨ v = 1 ∨ v = 2
      · rw [if_pos hv, if_neg (by omega), abs_updLoop h i l _ (by simp) lp hb]
        rfl
      · rw [if_neg hv, if_pos (by omega)]
    | count =>
      simp only [Option.map_some, setLoop, setLoopCount, hl]
      by_cases hv : 1 ≤ v
      · rw [if_pos hv, if_neg (by omega)]
        simp only
        rw [abs_updLoop h i l _ (by simp) lp hb]
        rfl
      · rw [if_neg hv, if_pos (by omega)]
    | start =>
      simp only [Option.map_some, setLoop, setLoopStart, hl]
      rw [abs_updLoop h i l _ (by simp) lp hb]; rfl
    | endd =>
      simp only [Option.map_some, setLoop, setLoopEnd, hl]
      rw [abs_updLoop h i l _ (by simp) lp hb]; rfl
    | track =>
      simp only [Option.map_some, setLoop, setLoopTrack, hl]
      rw [abs_updLoop h i l _ (by simp) lp hb]; rfl
    | startFrame =>
      simp only [Option.map_some, setLoop, setLoopStartFrame, hl]
      by_cases hv : 0 ≤ v
      · rw [if_pos hv, if_neg (by omega)]
        simp only
        rw [abs_setMark, show max v 0 = v by omega]; rfl
      · rw [if_neg hv, if_pos (by omega)]
    | endFrame =>
      simp only [Option.map_some, setLoop, setLoopEndFrame, hl]
      by_cases hv : 0 ≤ v
      · rw [if_pos hv, if_neg (by omega)]
        simp only
        rw [abs_setMark, show max v 0 = v by omega]; rfl
      · rw [if_neg hv, if_pos (by omega)]

theorem getLoop_abs (h : Handle) (f : LoopField) (i l : Int) :
    (abs h).getLoop f i l = getLoopField h f i l := by
  have key := findLoop_false h i l
  unfold State.getLoop
  rw [← key]
  cases hl : findLoop h i l false with
  | none =>
    cases f <;> simp [getLoopField, hl, getLoopMode, getLoopCount, getLoopStart, getLoopEnd, getLoopTrack,
      getLoopStartFrame, getLoopEndFrame]
  | some lp =>
    cases f <;> simp [getLoopField, hl, getLoopMode, getLoopCount, getLoopStart, getLoopEnd, getLoopTrack,
      getLoopStartFrame, getLoopEndFrame, Loop.toRec, getMark_abs]

/-! ## Parameters -/

theorem idx_inj (f : Family) (p q : Int) (j : Nat) (hp : indexFromId f p = some j) (hq : indexFromId f q = some j) :
    p = q := by
  unfold indexFromId at hp hq
  simp only at hp hq
  split at hp
  · simp at hp
  split at hq
  · simp at hq
  rename_i h1 h2
  simp only [Option.some.injEq] at hp hq
  have l1 : f.ids.findIdx (· == p) < f.ids.length := by
    have := List.findIdx_le_length (p := (· == p)) (xs := f.ids); omega
  have l2 : f.ids.findIdx (· == q) < f.ids.length := by
    have := List.findIdx_le_length (p := (· == q)) (xs := f.ids); omega
  have a1 := List.findIdx_getElem (w := l1)
  have a2 := List.findIdx_getElem (w := l2)
  simp only [beq_iff_eq] at a1 a2
  rw [← a1, ← a2]
  congr 1
  omega

theorem idx_lt (f : Family) (p : Int) (j : Nat) (hp : indexFromId f p = some j) : j < f.ids.length := by
  unfold indexFromId at hp
  simp only at hp
  split at hp
  · simp at hp
  simp only [Option.some.injEq] at hp
  have := List.findIdx_le_length (p := (· == p)) (xs := f.ids); omega

theorem setOne_length (f : Family) (vs : List (BitVec 64)) (it : Pv.Item) : (setOne f vs it).length = vs.length := by
  unfold setOne
  split
  · rfl
  · split <;> simp

theorem foldl_setOne_length (f : Family) (its : List Pv.Item) (vs : List (BitVec 64)) :
    (its.foldl (setOne f) vs).length = vs.length := by
  induction its generalizing vs with
  | nil => rfl
  | cons it its ih => simp [ih, setOne_length]

/-- The state in which instrument `i` has values `vs`. -/
def withValues (f : Family) (s : State) (i : Int) (vs : List (BitVec 64)) : State :=
  { s with param := fun i' p => if i' = i then (indexFromId f p).bind (vs[·]?) else s.param i' p }

theorem withValues_setParam (f : Family) (s : State) (hs : s.legal = AF.Spec.Meta.limits f) (i : Int) (vs : List (BitVec 64))
    (hl : vs.length = f.ids.length) (it : Pv.Item) :
    (withValues f s i vs).setParam i it = withValues f s i (setOne f vs it) := by
  unfold State.setParam setOne
  cases hj : indexFromId f it.param with
  | none => simp [withValues, hj]
  | some j =>
    have hjl := idx_lt f _ j hj
    have hsome : (withValues f s i vs).param i it.param = some (vs[j]'(by omega)) := by
      simp [withValues, hj, List.getElem?_eq_getElem (show j < vs.length by omega)]
    have hleg : (withValues f s i vs).legal = AF.Spec.Meta.limits f := hs
    simp only [hsome, Option.isSome_some, true_and, legal_iff f it j hj]
    rw [hleg]
    by_cases hc : it.type = Pv.LONG ∧ AF.Spec.Meta.limits f it.param it.value.toInt = true
    · rw [if_pos hc, if_pos (by simpa using hc)]
      apply State.ext' <;> try first | rfl | exact hs.symm
      funext i' p
      simp only [withValues, upd2]
      by_cases e1 : i' = i
      · subst e1
        by_cases e2 : p = it.param
        · subst e2; simp [hj, List.getElem?_set, show j < vs.length by omega]
        · simp only [e2, and_false, if_false, if_true]
          cases hj' : indexFromId f p with
          | none => rfl
          | some j' =>
            have : j ≠ j' := fun e => e2 (idx_inj f p it.param j (e ▸ hj') hj)
            simp [List.getElem?_set, this]
      · simp [e1]
    · rw [if_neg hc, if_neg (by simpa using hc)]

theorem foldl_setParam (f : Family) (s : State) (hs : s.legal = AF.Spec.Meta.limits f) (i : Int) (its : List Pv.Item)
    (vs : List (BitVec 64)) (hl : vs.length = f.ids.length) :
    its.foldl (·.setParam i ·) (withValues f s i vs) = withValues f s i (its.foldl (setOne f) vs) := by
  induction its generalizing vs with
  | nil => rfl
  | cons it its ih =>
    simp only [List.foldl_cons]
    rw [withValues_setParam f s hs i vs hl it, ih _ (by simp [setOne_length, hl])]

theorem setParam_none (s : State) (i : Int) (hn : ∀ p, s.param i p = none) (its : List Pv.Item) :
    its.foldl (·.setParam i ·) s = s := by
  induction its generalizing s with
  | nil => rfl
  | cons it its ih => simp only [List.foldl_cons]; rw [show s.setParam i it = s by simp [State.setParam, hn]]; exact ih s hn

theorem pvTake_eq (pv : Pv.PvList) (n : Int) : pvTake pv n = AF.Spec.Meta.firstItems pv n := by
  cases pv <;> simp [pvTake, AF.Spec.Meta.firstItems]

theorem abs_setInstParams (h : Handle) (hw : WF h) (i : Int) (pv : Pv.PvList) (n : Int) :
    abs (setInstParams h i pv n) =
      if (abs h).writable then (AF.Spec.Meta.firstItems pv n).foldl (·.setParam i ·) (abs h) else abs h := by
  unfold setInstParams
  by_cases ha : h.access = .write
  · have e2 : (abs h).writable = true := by simp [abs, ha]
    rw [if_neg (by simp [ha]), if_pos e2, pvTake_eq]
    cases hi : h.getInstrument i with
    | none => simp only; rw [setParam_none]; intro p; simp [abs, hi]
    | some inst =>
      simp only
      have hlen := hw.values inst (List.mem_of_find?_eq_some hi)
      have e3 : abs h = withValues h.family (abs h) i inst.values := by
        apply State.ext' <;> try rfl
        funext i' p
        simp only [withValues]
        by_cases e1 : i' = i
        · subst e1; simp [abs, hi]
        · simp [e1]
      conv => rhs; rw [e3]
      rw [foldl_setParam h.family (abs h) rfl i _ _ hlen, abs_updInst h i _ (by simp) (by simp) inst hi]
      apply State.ext' <;> try rfl
      funext i' l
      by_cases e1 : i' = i
      · subst e1; simp [withValues, abs, hi, Instrument.getLoop]
      · simp [e1, withValues]
  · have : (abs h).writable = false := by simp [abs, ha]
    simp [ha, this]

theorem getOne_abs (h : Handle) (i : Int) (inst : Instrument) (hi : h.getInstrument i = some inst) (it : Pv.Item) :
    getOne h.family inst.values it = match (abs h).param i it.param with
      | none => it
      | some v => { it with type := Pv.LONG, value := v } := by
  unfold getOne
  simp only [abs, hi, Option.bind_some]
  cases indexFromId h.family it.param with
  | none => rfl
  | some j => simp only [Option.bind_some]; cases inst.values[j]? <;> rfl

theorem getInstParams_abs (h : Handle) (i : Int) (pv : Pv.PvList) (n : Int) :
    getInstParams h i pv n = pv.map fun l => l.mapIdx fun k it => if (k : Int) < n then
        match (abs h).param i it.param with
        | none => it
        | some v => { it with type := Pv.LONG, value := v } else it := by
  unfold getInstParams
  cases pv with
  | none => cases h.getInstrument i <;> rfl
  | some l =>
    cases hi : h.getInstrument i with
    | none =>
      simp only [Option.map_some, Option.some.injEq]
      apply List.ext_getElem? ; intro k
      have : ∀ p, (abs h).param i p = none := by intro p; simp [abs, hi]
      simp only [List.getElem?_mapIdx, this]
      cases l[k]? <;> simp
    | some inst =>
      simp only [Option.map_some, Option.some.injEq, pvTake]
      apply List.ext_getElem?; intro k
      simp only [List.getElem?_mapIdx, List.length_take]
      by_cases hk : k < l.length
      · by_cases hk2 : (k : Int) < n
        · rw [List.getElem?_append_left (by simp; omega)]
          simp only [List.getElem?_map, List.getElem?_take, show k < n.toNat by omega, if_true, hk2]
          cases l[k]? with
          | none => rfl
          | some it => simp [getOne_abs h i inst hi]
        · rw [List.getElem?_append_right (by simp; omega)]
          simp only [List.length_map, List.length_take, List.getElem?_drop, hk2, if_false]
          rw [show min n.toNat l.length + (k - min n.toNat l.length) = k by omega]
          simp
      · rw [List.getElem?_eq_none (by simp; omega)]
        simp [hk]

theorem getInstParamLong_abs (h : Handle) (i p : Int) :
    getInstParamLong h i p = ((abs h).param i p).getD 0 := by
  unfold getInstParamLong
  rw [getInstParams_abs]
  simp only [Option.map_some, List.mapIdx_cons, List.mapIdx_nil]
  cases (abs h).param i p <;> simp

/-! ## Chunks -/

theorem stream_len (h : Handle) (hw : WF h) (id : Int) (m : Misc) (hm : h.getMisc id = some m) :
    (m.stream.data.length : Int) = m.size := by
  have mem := List.mem_of_find?_eq_some hm
  unfold Misc.stream
  cases hb : m.buffer with
  | none => have := hw.size m mem; simp; omega
  | some b => simpa using hw.buffer m mem b hb

theorem alloc_length (h : Handle) (hw : WF h) (m : Misc) (mem : m ∈ h.misc) (b : List Byte) (hb : m.alloc = some b) :
    (b.length : Int) = m.size := by
  have := hw.size m mem
  unfold Misc.alloc at hb
  split at hb
  · simp only [Option.some.injEq] at hb; subst hb; simp; omega
  · exact hw.buffer m mem b hb

theorem alloc_data (h : Handle) (hw : WF h) (m : Misc) (mem : m ∈ h.misc) : m.alloc.getD [] = m.stream.data := by
  have := hw.size m mem
  unfold Misc.alloc Misc.stream
  by_cases hz : m.size = 0
  · simp [hz]
  · cases m.buffer <;> simp [hz]

theorem writeMisc_abs (h : Handle) (hw : WF h) (id : Int) (buf : List Byte) :
    ∃ n h', writeMisc h id buf = .ok (n, h') ∧ WF h' ∧ (abs h).step (.writeMisc id buf) = (.num n, abs h') := by
  unfold writeMisc State.step
  by_cases ha : h.access = .write
  · have e2 : (abs h).writable = true := by simp [abs, ha]
    rw [if_neg (by simp [ha])]
    cases hm : h.getMisc id with
    | none => exact ⟨-1, h, rfl, hw, by simp [abs, hm]⟩
    | some m =>
      have e3 : (abs h).misc id = some m.stream := by simp [abs, hm]
      have mem := List.mem_of_find?_eq_some hm
      have hsz := hw.size m mem
      have hps := hw.pos m mem
      have hlen := stream_len h hw id m hm
      simp only [e3]
      by_cases hb : buf = []
      · subst hb
        exact ⟨-1, h, by simp, hw, by simp⟩
      · have hbl : 0 < buf.length := List.length_pos_iff.2 hb
        rw [if_neg (by omega), if_neg (by omega), if_neg (by omega), if_pos (And.intro e2 hb)]
        refine ⟨_, _, rfl, ?_, ?_⟩
        · refine ⟨hw.values, ?_, ?_, ?_, ?_⟩
          · intro x hx
            rcases mem_updFirst_find _ _ _ _ hx with hx | ⟨y, hy, rfl⟩
            · exact hw.size x hx
            · exact hw.size y (List.mem_of_find?_eq_some hy)
          · intro x hx
            rcases mem_updFirst_find _ _ _ _ hx with hx | ⟨y, hy, rfl⟩
            · exact hw.pos x hx
            · have : y = m := by rw [Handle.getMisc, hy] at hm; simpa using hm
              subst this; simp only; omega
          · intro x hx b hb'
            rcases mem_updFirst_find _ _ _ _ hx with hx | ⟨y, hy, rfl⟩
            · exact hw.buffer x hx b hb'
            · have : y = m := by rw [Handle.getMisc, hy] at hm; simpa using hm
              subst this
              simp only [Option.map_eq_some_iff] at hb'
              obtain ⟨b0, hb0, rfl⟩ := hb'
              have hb0l : (b0.length : Int) = y.size := alloc_length h hw y mem b0 hb0
              simp only [List.length_append, List.length_take, List.length_drop]
              omega
          · intro x hx _; exact .inl ha
        · rw [abs_updMisc h id _ (by simp) (by simp) m hm]
          have e4 : m.stream.pos = m.position.toNat := rfl
          have hk : min (buf.length : Int) (m.size - m.position) =
              ((min buf.length (m.stream.data.length - m.stream.pos) : Nat) : Int) := by omega
          simp only [hk, Stream.write]
          generalize hkk : min buf.length (m.stream.data.length - m.stream.pos) = k
          simp only [Prod.mk.injEq, true_and, Int.toNat_natCast]
          have hA := alloc_data h hw m mem
          congr 2
          unfold Misc.stream
          simp only [Option.some.injEq, Stream.mk.injEq]
          constructor
          · cases hal : m.alloc with
            | none =>
              have hz : m.size = 0 := by
                have := hw.size m mem
                unfold Misc.alloc at hal; split at hal
                · simp at hal
                · rename_i h1; rw [hal] at h1; simp at h1; exact h1
              have hk0 : k = 0 := by omega
              have hp0 : m.position = 0 := by omega
              have hbn : m.buffer = none := by
                unfold Misc.alloc at hal; split at hal
                · simp at hal
                · exact hal
              simp [hz, hk0, hp0, hbn]
            | some b =>
              rw [hal] at hA
              have hA' : m.buffer.getD (List.replicate m.size.toNat 0) = b := by simpa [Misc.stream] using hA.symm
              simp only [hA', Option.map_some, Option.getD_some]
          · omega
  · have : (abs h).writable = false := by simp [abs, ha]
    rw [if_pos (by simp [ha])]
    refine ⟨-1, h, rfl, hw, ?_⟩
    cases hx : (abs h).misc id <;> simp [this, hx]

theorem readMisc_abs (h : Handle) (hw : WF h) (id n : Int) :
    ∃ k b h', readMisc h id n = .ok (k, b, h') ∧ WF h' ∧ (abs h).step (.readMisc id n) = (.bytes k b, abs h') := by
  unfold readMisc State.step
  by_cases ha : h.access = .read
  · have e2 : (abs h).writable = false := by simp [abs, ha]
    rw [if_neg (by simp [ha])]
    cases hm : h.getMisc id with
    | none => exact ⟨-1, [], h, rfl, hw, by simp [abs, hm]⟩
    | some m =>
      have e3 : (abs h).misc id = some m.stream := by simp [abs, hm]
      have mem := List.mem_of_find?_eq_some hm
      have hsz := hw.size m mem
      have hps := hw.pos m mem
      have hlen := stream_len h hw id m hm
      simp only [e3]
      by_cases hn : n ≤ 0
      · rw [if_pos hn, if_neg (by omega)]
        exact ⟨-1, [], h, rfl, hw, rfl⟩
      · have hnb : m.buffer = none → m.size = 0 := by
          intro hb
          rcases hw.nobuffer m mem hb with h1 | h1
          · rw [ha] at h1; simp at h1
          · exact h1
        rw [if_neg hn, if_neg (by
          rintro ⟨h1, h2 | h2 | h2⟩
          · omega
          · omega
          · have := hnb h2; omega), if_pos ⟨e2, by omega⟩]
        refine ⟨_, _, _, rfl, ?_, ?_⟩
        · refine ⟨hw.values, ?_, ?_, ?_, ?_⟩
          · intro x hx
            rcases mem_updFirst_find _ _ _ _ hx with hx | ⟨y, hy, rfl⟩
            · exact hw.size x hx
            · exact hw.size y (List.mem_of_find?_eq_some hy)
          · intro x hx
            rcases mem_updFirst_find _ _ _ _ hx with hx | ⟨y, hy, rfl⟩
            · exact hw.pos x hx
            · have : y = m := by rw [Handle.getMisc, hy] at hm; simpa using hm
              subst this; simp only; omega
          · intro x hx b hb'
            rcases mem_updFirst_find _ _ _ _ hx with hx | ⟨y, hy, rfl⟩
            · exact hw.buffer x hx b hb'
            · exact hw.buffer y (List.mem_of_find?_eq_some hy) b hb'
          · intro x hx hb'
            rcases mem_updFirst_find _ _ _ _ hx with hx | ⟨y, hy, rfl⟩
            · exact hw.nobuffer x hx hb'
            · exact hw.nobuffer y (List.mem_of_find?_eq_some hy) hb'
        · rw [abs_updMisc h id _ (by simp) (by simp) m hm]
          have hd : m.buffer.getD [] = m.stream.data := by
            cases hb : m.buffer with
            | none => simp [Misc.stream, hb, hnb hb]
            | some b => simp [Misc.stream, hb]
          have hrl : (((m.stream.data.drop m.stream.pos).take n.toNat).length : Int) = min n (m.size - m.position) := by
            have e4 : m.stream.pos = m.position.toNat := rfl
            simp only [List.length_take, List.length_drop]; omega
          simp only [Stream.read, hrl, hd]
          have htk : (m.stream.data.drop m.position.toNat).take (min n (m.size - m.position)).toNat =
              (m.stream.data.drop m.stream.pos).take n.toNat := by
            have e4 : m.stream.pos = m.position.toNat := rfl
            rw [e4, List.take_eq_take_iff]
            simp only [List.length_drop]; omega
          rw [htk]
          simp only [Prod.mk.injEq, true_and]
          congr 2
          simp only [Misc.stream, Option.some.injEq, Stream.mk.injEq, true_and]
          have e5 : (List.take n.toNat (List.drop m.position.toNat (m.buffer.getD (List.replicate m.size.toNat 0)))).length = (min n (m.size - m.position)).toNat := by
            have : (m.buffer.getD (List.replicate m.size.toNat 0)) = m.stream.data := rfl
            rw [this]
            simp only [List.length_take, List.length_drop]; omega
          rw [e5]; omega
  · have : (abs h).writable = true := by cases hx : h.access <;> simp_all [abs]
    rw [if_pos (by simp [ha])]
    refine ⟨-1, [], h, rfl, hw, ?_⟩
    cases hx : (abs h).misc id <;> simp [this, hx]

theorem seekMisc_abs (h : Handle) (hw : WF h) (id o : Int) (ho : 0 ≤ o) :
    WF (seekMisc h id o).2 ∧ (abs h).step (.seekMisc id o) = (.num (seekMisc h id o).1, abs (seekMisc h id o).2) := by
  unfold seekMisc State.step
  cases hm : h.getMisc id with
  | none => exact ⟨hw, by simp [abs, hm]⟩
  | some m =>
    have e3 : (abs h).misc id = some m.stream := by simp [abs, hm]
    have hlen := stream_len h hw id m hm
    have mem := List.mem_of_find?_eq_some hm
    simp only [e3]
    by_cases hc : o ≥ m.size
    · rw [if_pos hc, if_neg (by omega)]; exact ⟨hw, rfl⟩
    · rw [if_neg hc, if_pos (by omega)]
      constructor
      · refine ⟨hw.values, ?_, ?_, ?_, ?_⟩
        · intro x hx
          rcases mem_updFirst_find _ _ _ _ hx with hx | ⟨y, hy, rfl⟩
          · exact hw.size x hx
          · exact hw.size y (List.mem_of_find?_eq_some hy)
        · intro x hx
          rcases mem_updFirst_find _ _ _ _ hx with hx | ⟨y, hy, rfl⟩
          · exact hw.pos x hx
          · have : y = m := by rw [Handle.getMisc, hy] at hm; simpa using hm
            subst this; simp only; omega
        · intro x hx b hb'
          rcases mem_updFirst_find _ _ _ _ hx with hx | ⟨y, hy, rfl⟩
          · exact hw.buffer x hx b hb'
          · exact hw.buffer y (List.mem_of_find?_eq_some hy) b hb'
        · intro x hx hb'
          rcases mem_updFirst_find _ _ _ _ hx with hx | ⟨y, hy, rfl⟩
          · exact hw.nobuffer x hx hb'
          · exact hw.nobuffer y (List.mem_of_find?_eq_some hy) hb'
      · simp only
        rw [abs_updMisc h id _ (by simp) (by simp) m hm]
        rfl

/-! ## All calls -/

theorem WF.of_eq {h h' : Handle} (hw : WF h) (h1 : h'.access = h.access) (h2 : h'.family = h.family)
    (h3 : h'.instruments = h.instruments) (h4 : h'.misc = h.misc) : WF h' :=
  ⟨by rw [h3, h2]; exact hw.values, by rw [h4]; exact hw.size, by rw [h4]; exact hw.pos, by rw [h4]; exact hw.buffer,
    by rw [h4, h1]; exact hw.nobuffer⟩

theorem setMark_wf {h : Handle} (hw : WF h) (t m p : Int) : WF (setMarkPosition h t m p) := by
  unfold setMarkPosition
  split
  · exact hw
  · split
    · exact hw
    · split
      · exact hw
      · exact hw.of_eq rfl rfl rfl rfl

theorem setAES_wf {h : Handle} (hw : WF h) (t : Int) (b : List Byte) : WF (setAES h t b) := by
  unfold setAES
  split
  · exact hw
  · split
    · exact hw
    · split
      · exact hw.of_eq rfl rfl rfl rfl
      · exact hw

theorem updInst_wf {h : Handle} (hw : WF h) (i : Int) (f : Instrument → Instrument)
    (hf : ∀ x, (f x).values.length = x.values.length) :
    WF { h with instruments := updFirst (·.id == i) f h.instruments } := by
  refine ⟨?_, hw.size, hw.pos, hw.buffer, hw.nobuffer⟩
  intro x hx
  rcases mem_updFirst _ _ _ _ hx with hx | ⟨y, hy, rfl⟩
  · exact hw.values x hx
  · rw [hf]; exact hw.values y hy

theorem updLoop_wf {h : Handle} (hw : WF h) (i l : Int) (f : Loop → Loop) : WF (updLoop h i l f) :=
  updInst_wf hw i _ (by simp)

theorem setLoop_wf {h : Handle} (hw : WF h) (f : LoopField) (i l v : Int) : WF (setLoop h f i l v).2 := by
  cases f <;> simp only [setLoop, setLoopMode, setLoopCount, setLoopStart, setLoopEnd, setLoopTrack, setLoopStartFrame,
    setLoopEndFrame] <;> split <;>
    first
      | exact hw
      | exact updLoop_wf hw ..
      | (split <;> first | exact hw | exact updLoop_wf hw .. | exact setMark_wf hw ..)

theorem setInstParams_wf {h : Handle} (hw : WF h) (i : Int) (pv : Pv.PvList) (n : Int) : WF (setInstParams h i pv n) := by
  unfold setInstParams
  split
  · exact hw
  · split
    · exact hw
    · exact updInst_wf hw i _ (by simp [foldl_setOne_length])

/-- A call is in range unless it seeks to a negative offset of a chunk. -/
def InRange : Op → Prop
  | .seekMisc _ o => 0 ≤ o
  | _ => True

theorem step_refines (h : Handle) (hw : WF h) (op : Op) (ho : InRange op) :
    ∃ r h', step h op = .ok (r, h') ∧ WF h' ∧ (abs h).step op = (r, abs h') := by
  cases op with
  | setMark t m p => exact ⟨_, _, rfl, setMark_wf hw .., by simp [State.step, abs_setMark]⟩
  | getMark t m => exact ⟨_, _, rfl, hw, by simp [State.step, getMark_abs]⟩
  | markIDs t =>
    refine ⟨_, _, rfl, hw, ?_⟩
    simp only [State.step, getMarkIDs]
    cases ht : h.getTrack t <;> simp [abs, ht]
  | setAES t b =>
    refine ⟨_, _, rfl, setAES_wf hw .., ?_⟩
    rw [abs_setAES]; rfl
  | getAES t =>
    refine ⟨_, _, rfl, hw, ?_⟩
    simp only [State.step, getAES]
    cases ht : h.getTrack t with
    | none => simp [abs, ht]
    | some tr => cases hA : tr.hasAES <;> simp [abs, ht, hA]
  | setLoop f i l v =>
    refine ⟨_, _, rfl, setLoop_wf hw .., ?_⟩
    simp only [State.step]; exact setLoop_abs h f i l v
  | getLoop f i l => exact ⟨_, _, rfl, hw, by simp [State.step, getLoop_abs]⟩
  | loopIDs i =>
    refine ⟨_, _, rfl, hw, ?_⟩
    simp only [State.step, getLoopIDs]
    cases ht : h.getInstrument i <;> simp [abs, ht]
  | setParams i pv n => exact ⟨_, _, rfl, setInstParams_wf hw .., by simp only [State.step, abs_setInstParams h hw]⟩
  | getParams i pv n => exact ⟨_, _, rfl, hw, by rw [getInstParams_abs]; rfl⟩
  | setParamLong i p v =>
    refine ⟨_, _, rfl, setInstParams_wf hw .., ?_⟩
    simp only [State.step, setInstParamLong, abs_setInstParams h hw]
    rfl
  | getParamLong i p => exact ⟨_, _, rfl, hw, by simp [State.step, getInstParamLong_abs]⟩
  | instIDs => exact ⟨_, _, rfl, hw, by simp [State.step, abs]⟩
  | miscIDs => exact ⟨_, _, rfl, hw, by simp [State.step, abs]⟩
  | writeMisc id b =>
    obtain ⟨n, h', e, hw', es⟩ := writeMisc_abs h hw id b
    exact ⟨_, _, by simp [step, e, Except.map], hw', es⟩
  | readMisc id n =>
    obtain ⟨n, b, h', e, hw', es⟩ := readMisc_abs h hw id n
    exact ⟨_, _, by simp [step, e, Except.map], hw', es⟩
  | seekMisc id o =>
    have := seekMisc_abs h hw id o ho
    exact ⟨_, _, rfl, this.1, this.2⟩
  | miscSize id =>
    refine ⟨_, _, rfl, hw, ?_⟩
    simp only [State.step, getMiscSize]
    cases hm : h.getMisc id with
    | none => simp [abs, hm]
    | some m => simp [abs, hm, stream_len h hw id m hm]
  | miscType id =>
    refine ⟨_, _, rfl, hw, ?_⟩
    simp only [State.step, getMiscType]
    cases hm : h.getMisc id <;> simp [abs, hm]

theorem run_refines (ops : List Op) (h : Handle) (hw : WF h) (ho : ∀ op ∈ ops, InRange op) :
    ∃ rs h', run h ops = .ok (rs, h') ∧ WF h' ∧ (abs h).run ops = (rs, abs h') := by
  induction ops generalizing h with
  | nil => exact ⟨[], h, rfl, hw, rfl⟩
  | cons op ops ih =>
    obtain ⟨r, h1, e1, hw1, s1⟩ := step_refines h hw op (ho op (by simp))
    obtain ⟨rs, h2, e2, hw2, s2⟩ := ih h1 hw1 (fun o ho' => ho o (by simp [ho']))
    refine ⟨r :: rs, h2, ?_, hw2, ?_⟩
    · simp [run, e1, e2, bind, Except.bind, pure, Except.pure]
    · simp [State.run, s1, s2]

end AF.Meta
