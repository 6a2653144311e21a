import Verif.Model.Setup
/-! Invariants of setups and the shape of completed setups. -/
namespace AF.Setup
open AF.Meta (updFirst)

/-! ## `updFirst` -/

theorem updFirst_map {α β : Type} (p : α → Bool) (g : α → α) (k : α → β) (hk : ∀ a, k (g a) = k a) (l : List α) :
    (updFirst p g l).map k = l.map k := by
  induction l with
  | nil => rfl
  | cons a l ih =>
    unfold updFirst
    split
    · simp [hk]
    · simp [ih]

theorem uniqueIds_iff (ids : List Int) : uniqueIds ids = true ↔ ids.Nodup := by
  unfold uniqueIds
  rw [List.nodup_iff_pairwise_ne, List.pairwise_iff_getElem]
  simp only [List.all_eq_true, List.mem_range, bne_iff_ne, ne_eq]
  constructor
  · intro h i j hi hj hij he
    refine h j hj i hij ?_
    simp [List.getElem?_eq_getElem, hi, hj, he]
  · intro h i hi j hj he
    have hj' : j < ids.length := by omega
    refine h j i hj' hi hj ?_
    simpa [List.getElem?_eq_getElem, hi, hj'] using he.symm

/-! ## The one track of a setup -/

/-- What every setup reached by setup calls looks like. -/
structure Inv (s : Setup) : Prop where
  track : ∃ tr, s.tracks = [tr] ∧ tr.id = DEFAULT_TRACK
  insts : (s.instruments.map (·.id)).Nodup
  noInst : s.instrumentSet = false → s.instruments.map (·.id) = [DEFAULT_INST]
  noMisc : s.miscellaneousSet = false → s.miscellaneous = []
  implemented : s.fileFormat.implemented = true

theorem onTrack_one {s : Setup} {tr : TrackSetup} (ht : s.tracks = [tr]) (t : Int) (g : TrackSetup → TrackSetup) :
    s.onTrack t g = if tr.id = t then { s with tracks := [g tr] } else s := by
  unfold Setup.onTrack
  by_cases h : tr.id = t
  · simp [ht, updFirst, h]
  · have : updFirst (fun x : TrackSetup => x.id == t) g s.tracks = s.tracks := by
      simp [ht, updFirst, h]
    simp [this, h]

theorem inv_onTrack {s : Setup} (hs : Inv s) (t : Int) (g : TrackSetup → TrackSetup) (hg : ∀ x, (g x).id = x.id) :
    Inv (s.onTrack t g) := by
  obtain ⟨tr, ht, hid⟩ := hs.track
  rw [onTrack_one ht]
  split
  · exact ⟨⟨g tr, rfl, by rw [hg, hid]⟩, hs.insts, hs.noInst, hs.noMisc, hs.implemented⟩
  · exact hs

theorem newSetup_inv (h : Endian) : Inv (newSetup h) := by
  refine ⟨⟨newTrack h 0, rfl, rfl⟩, ?_, ?_, ?_, ?_⟩
  · show (List.map InstrumentSetup.id [_]).Nodup
    simp
  · intro _; rfl
  · intro _; rfl
  · cases h <;> rfl

theorem newInstruments_ids (n : Nat) (ids : List Int) (hn : n = ids.length) :
    ((newInstruments n).zipWith (fun inst id => { inst with id := id }) ids).map (·.id) = ids := by
  subst hn
  apply List.ext_getElem
  · simp [newInstruments]
  · intro i h1 h2
    simp

theorem newInstruments_eq (ids : List Int) :
    (newInstruments ids.length).zipWith (fun inst id => { inst with id := id }) ids =
      ids.map fun id => { id := id, loops := [1, 2], loopSet := false } := by
  apply List.ext_getElem
  · simp [newInstruments]
  · intro i h1 h2
    simp [newInstruments]

theorem step_inv {s : Setup} (hs : Inv s) (op : Op) : Inv (step s op) := by
  cases op with
  | fileFormat f =>
    simp only [step, initFileFormat]
    split
    · exact hs
    · split
      · exact hs
      · split
        · exact hs
        · rename_i u _ h
          exact ⟨hs.track, hs.insts, hs.noInst, hs.noMisc, by simpa using h⟩
  | channels t n => exact inv_onTrack hs t _ (by intro x; dsimp only; split <;> rfl)
  | sampleFormat t f w => exact inv_onTrack hs t _ (by intro x; rfl)
  | byteOrder t o => exact inv_onTrack hs t _ (by intro x; dsimp only; split <;> rfl)
  | rate t r => exact inv_onTrack hs t _ (by intro x; dsimp only; split <;> rfl)
  | dataOffset t o => exact inv_onTrack hs t _ (by intro x; split <;> rfl)
  | frameCount t n => exact inv_onTrack hs t _ (by intro x; split <;> rfl)
  | compression t c => exact inv_onTrack hs t _ (by intro x; dsimp only; split <;> rfl)
  | pcmMapping t p => exact inv_onTrack hs t _ (by intro x; rfl)
  | aes t on => exact inv_onTrack hs t _ (by intro x; rfl)
  | markIDs t ids => exact inv_onTrack hs t _ (by intro x; rfl)
  | markName t m name => exact inv_onTrack hs t _ (by intro x; rfl)
  | markComment t m c => exact inv_onTrack hs t _ (by intro x; rfl)
  | instIDs ids =>
    simp only [step, initInstIDs]
    by_cases h : uniqueIds ids = true
    · rw [if_neg (by simp [h])]
      exact ⟨hs.track, by rw [newInstruments_ids _ _ rfl]; exact (uniqueIds_iff ids).1 h, by intro h; simp at h,
        hs.noMisc, hs.implemented⟩
    · rw [if_pos (by simpa using h)]
      exact hs
  | loopIDs i ids =>
    simp only [step, initLoopIDs]
    split
    · exact hs
    · exact ⟨hs.track, by rw [updFirst_map _ _ _ (by intro a; rfl)]; exact hs.insts,
        by intro h; rw [updFirst_map _ _ _ (by intro a; rfl)]; exact hs.noInst h, hs.noMisc, hs.implemented⟩
  | miscIDs ids => exact ⟨hs.track, hs.insts, hs.noInst, by intro h; simp [step, initMiscIDs] at h, hs.implemented⟩
  | miscType m t =>
    exact ⟨hs.track, hs.insts, hs.noInst, by intro h; simp [step, initMiscType, hs.noMisc h, updFirst], hs.implemented⟩
  | miscSize m t =>
    exact ⟨hs.track, hs.insts, hs.noInst, by intro h; simp [step, initMiscSize, hs.noMisc h, updFirst], hs.implemented⟩

theorem foldl_inv {ops : List Op} : ∀ {s : Setup}, Inv s → Inv (run s ops) := by
  induction ops with
  | nil => intro s hs; exact hs
  | cons op ops ih => intro s hs; exact ih (step_inv hs op)

/-! ## Completed setups -/

/-- Whether a format keeps the default markers of a setup whose marker list was never set. -/
def keepsMarks : FileFormat → Bool
  | .aiff | .aiffc | .iff | .ircam | .nist | .smp | .voc | .caf => true
  | _ => false

/-- How many instruments a format takes from a setup whose instrument list was never set. -/
def defaultInsts : FileFormat → Nat
  | .aiff | .aiffc | .smp | .voc | .caf => 1
  | _ => 0

theorem theTrack_one {s : Setup} {tr : TrackSetup} (ht : s.tracks = [tr]) (hid : tr.id = DEFAULT_TRACK) :
    theTrack s = some tr := by
  simp [theTrack, ht, hid]

theorem withFormat_one {s : Setup} {tr : TrackSetup} (ht : s.tracks = [tr]) (hid : tr.id = DEFAULT_TRACK) (f : AFmt) :
    s.withFormat f = { s with tracks := [{ tr with f := f }] } := by
  unfold Setup.withFormat
  rw [onTrack_one ht, if_pos hid]

/-- The completed copy, in terms of the caller's setup and the corrected format. -/
def completed (s : Setup) (tr : TrackSetup) (f : AFmt) : Setup :=
  { fileFormat := if s.fileFormat = .aiffc then .aiff else s.fileFormat
    trackSet := true, instrumentSet := true, miscellaneousSet := true
    tracks := [{ tr with f := f, markers := if tr.markersSet ∨ keepsMarks s.fileFormat then tr.markers else [] }]
    instruments := if s.instrumentSet then s.instruments else s.instruments.take (defaultInsts s.fileFormat)
    miscellaneous := if s.miscellaneousSet then s.miscellaneous else [] }

theorem copy_eq {s : Setup} {tr : TrackSetup} (ht : s.tracks = [tr]) (fmt : FileFormat) (n : Nat) (b : Bool) :
    filesetupCopy s fmt n b =
      { fileFormat := fmt, trackSet := true, instrumentSet := true, miscellaneousSet := true
        tracks := [{ tr with markers := if tr.markersSet ∨ b then tr.markers else [] }]
        instruments := if s.instrumentSet then s.instruments else s.instruments.take n
        miscellaneous := if s.miscellaneousSet then s.miscellaneous else [] } := by
  unfold filesetupCopy
  have : List.take (if s.trackSet then s.tracks.length else 1) s.tracks = [tr] := by
    rw [ht]; split <;> rfl
  simp only [this]
  congr 1
  · cases tr with
    | mk id f a1 a2 a3 a4 a5 a6 a7 m a9 a10 mk d fc => cases m <;> cases b <;> simp
  · by_cases h : s.instrumentSet = true <;> simp [h]
  · by_cases h : s.miscellaneousSet = true <;> simp [h]

/-- `s` with its one track's format replaced. -/
def setF (s : Setup) (tr : TrackSetup) (f : AFmt) : Setup := { s with tracks := [{ tr with f := f }] }

/-- What `complete` does to the caller's setup and what it returns. -/
def Shape (s : Setup) (tr : TrackSetup) (p : Setup × Option Setup) : Prop :=
  ∃ f, p.1 = setF s tr f ∧ (p.2 = none ∨ p.2 = some (completed s tr f))

theorem setF_self {s : Setup} {tr : TrackSetup} (ht : s.tracks = [tr]) : setF s tr tr.f = s := by
  cases s; simp_all [setF]

theorem Shape.self {s : Setup} {tr : TrackSetup} (ht : s.tracks = [tr]) : Shape s tr (s, none) :=
  ⟨tr.f, (setF_self ht).symm, Or.inl rfl⟩

theorem Shape.refuse {s : Setup} {tr : TrackSetup} (f : AFmt) : Shape s tr (setF s tr f, none) :=
  ⟨f, rfl, Or.inl rfl⟩

theorem Shape.accept {s : Setup} {tr : TrackSetup} (f : AFmt) (fmt : FileFormat) (n : Nat) (b : Bool)
    (h1 : fmt = if s.fileFormat = .aiffc then .aiff else s.fileFormat) (h2 : n = defaultInsts s.fileFormat)
    (h3 : b = keepsMarks s.fileFormat) :
    Shape s tr (setF s tr f, some (filesetupCopy (setF s tr f) fmt n b)) := by
  refine ⟨f, rfl, Or.inr ?_⟩
  rw [copy_eq (s := setF s tr f) (tr := { tr with f := f }) rfl]
  subst h1 h2 h3
  rfl

theorem Shape.acceptSelf {s : Setup} {tr : TrackSetup} (ht : s.tracks = [tr]) (fmt : FileFormat) (n : Nat) (b : Bool)
    (h1 : fmt = if s.fileFormat = .aiffc then .aiff else s.fileFormat) (h2 : n = defaultInsts s.fileFormat)
    (h3 : b = keepsMarks s.fileFormat) :
    Shape s tr (s, some (filesetupCopy s fmt n b)) := by
  have := Shape.accept (s := s) (tr := tr) tr.f fmt n b h1 h2 h3
  rwa [setF_self ht] at this

theorem Shape.ite {s : Setup} {tr : TrackSetup} {c : Prop} [Decidable c] {a b : Setup × Option Setup}
    (ha : Shape s tr a) (hb : Shape s tr b) : Shape s tr (if c then a else b) := by
  split
  · exact ha
  · exact hb

theorem Shape.matchOpt {s : Setup} {tr : TrackSetup} {o : Option AFmt} {a : Setup × Option Setup}
    {b : AFmt → Setup × Option Setup} (ha : Shape s tr a) (hb : ∀ f, Shape s tr (b f)) :
    Shape s tr (match o with | none => a | some f => b f) := by
  cases o
  · exact ha
  · exact hb _

theorem ite_setF (s : Setup) (tr : TrackSetup) (c : Prop) [Decidable c] (f g : AFmt) :
    (if c then setF s tr f else setF s tr g) = setF s tr (if c then f else g) := by
  split <;> rfl

theorem complete_shape (h : Endian) {s : Setup} {tr : TrackSetup} (ht : s.tracks = [tr]) (hid : tr.id = DEFAULT_TRACK)
    (hi : Inv s) : Shape s tr (complete h s) := by
  have hw : ∀ f, s.withFormat f = setF s tr f := withFormat_one ht hid
  have hw2 : ∀ f g, (setF s tr f).withFormat g = setF s tr g :=
    fun f g => withFormat_one (s := setF s tr f) (tr := { tr with f := f }) rfl hid g
  have htt := theTrack_one ht hid
  unfold complete
  split <;> rename_i hf
  · unfold completeRaw
    rw [htt]
    dsimp only
    split
    · exact .self ht
    · rename_i hm
      refine ⟨tr.f, (setF_self ht).symm, Or.inr ?_⟩
      have hm : noMetadata s tr = true := by
        cases h : noMetadata s tr
        · simp [h] at hm
        · rfl
      simp only [noMetadata, Bool.and_eq_true, Bool.not_eq_true', bne_eq_false_iff_eq, Bool.and_eq_false_imp,
        List.length_eq_zero_iff] at hm
      obtain ⟨⟨⟨h1, h2⟩, h3⟩, h4⟩ := hm
      have e1 : (if tr.markersSet = true ∨ keepsMarks s.fileFormat = true then tr.markers else []) = [] := by
        simp only [hf, keepsMarks]
        split
        · rename_i hms; exact h2 (by simpa using hms)
        · rfl
      have e2 : (if s.instrumentSet = true then s.instruments else List.take (defaultInsts s.fileFormat) s.instruments) = [] := by
        split
        · rename_i hms; exact h3 hms
        · simp [hf, defaultInsts]
      have e3 : (if s.miscellaneousSet = true then s.miscellaneous else []) = [] := by
        split
        · rename_i hms; exact h4 hms
        · rfl
      unfold completed
      rw [e1, e2, e3]
      simp [ht, hf]
  all_goals try exact .self ht
  all_goals
    first
      | unfold completeAIFF
      | unfold completeNeXT
      | unfold completeWAVE
      | unfold completeIRCAM
      | unfold completeAVR
      | unfold completeIFF
      | unfold completeSMP
      | unfold completeVOC
      | unfold completeNIST
      | unfold completeCAF
    rw [htt]
    simp only [hw, hw2, ite_setF]
    repeat'
      first
        | exact .self ht
        | exact .refuse _
        | apply Shape.ite
        | (refine .accept _ _ _ _ ?_ ?_ ?_ <;> simp [hf, defaultInsts, keepsMarks]; done)
        | (refine .acceptSelf ht _ _ _ ?_ ?_ ?_ <;> simp [hf, defaultInsts, keepsMarks]; done)
        | apply Shape.matchOpt
        | intro _

/-! ## Legal formats -/

/-- The sample width belongs to the sample format, and the other settings are in range. -/
structure Legal (f : AFmt) : Prop where
  sample : ((f.sampleFormat = 401 ∨ f.sampleFormat = 402) ∧ 1 ≤ f.sampleWidth ∧ f.sampleWidth ≤ 32) ∨
    (f.sampleFormat = 403 ∧ f.sampleWidth = 32) ∨ (f.sampleFormat = 404 ∧ f.sampleWidth = 64)
  channels : 1 ≤ f.channels
  rate : 0 < f.rate
  order : f.byteOrder = 501 ∨ f.byteOrder = 502
  compression : f.compression ∈ [0, 502, 503, 519, 523, 530, 540]

theorem Legal.set {f : AFmt} (hf : Legal f) (a b : Int) : Legal (setSampleFormat f a b).2 := by
  unfold setSampleFormat
  dsimp only
  repeat' split
  all_goals first | exact hf | skip
  all_goals simp only [TWOSCOMP, UNSIGNED, FLOAT, DOUBLE] at *
  all_goals exact ⟨by dsimp only; omega, hf.channels, hf.rate, hf.order, hf.compression⟩

theorem Legal.ite {f g : AFmt} {c : Prop} [Decidable c] (hf : Legal f) (hg : Legal g) : Legal (if c then f else g) := by
  split
  · exact hf
  · exact hg

theorem Legal.big {f : AFmt} (hf : Legal f) : Legal { f with byteOrder := BIG } :=
  ⟨hf.sample, hf.channels, hf.rate, Or.inl rfl, hf.compression⟩

theorem Legal.little {f : AFmt} (hf : Legal f) : Legal { f with byteOrder := LITTLE } :=
  ⟨hf.sample, hf.channels, hf.rate, Or.inr rfl, hf.compression⟩

theorem Legal.native {f : AFmt} (hf : Legal f) (h : Endian) : Legal { f with byteOrder := native h } :=
  ⟨hf.sample, hf.channels, hf.rate, by cases h <;> simp [Setup.native], hf.compression⟩

theorem Legal.mono {f : AFmt} (hf : Legal f) : Legal { f with byteOrder := BIG, channels := 1 } :=
  ⟨hf.sample, by simp, hf.rate, Or.inl rfl, hf.compression⟩

theorem compressionUnit_mem {c : Int} {q : Rat} (h : compressionUnit c = some q) :
    c ∈ [0, 502, 503, 519, 523, 530, 540] := by
  unfold compressionUnit compressionUnits at h
  simp only [Option.map_eq_some_iff] at h
  obtain ⟨x, hx, -⟩ := h
  have h1 := List.mem_of_find?_eq_some hx
  have h2 := List.find?_some hx
  simp only [beq_iff_eq] at h2
  subst h2
  exact List.mem_map_of_mem (f := Prod.fst) h1

/-- The track of `s` has a legal format. -/
def LegalS (s : Setup) : Prop := ∀ tr ∈ s.tracks, Legal tr.f

theorem legal_onTrack {s : Setup} (hs : LegalS s) (t : Int) (g : TrackSetup → TrackSetup)
    (hg : ∀ x, Legal x.f → Legal (g x).f) : LegalS (s.onTrack t g) := by
  unfold LegalS Setup.onTrack at *
  dsimp only
  revert hs
  generalize s.tracks = l
  intro hs
  induction l with
  | nil => simpa [updFirst] using hs
  | cons a l ih =>
    have hl : ∀ tr ∈ l, Legal tr.f := fun tr h => hs tr (List.mem_cons_of_mem _ h)
    unfold updFirst
    split
    · intro tr htr
      rcases List.mem_cons.1 htr with rfl | h
      · exact hg _ (hs a (List.mem_cons_self ..))
      · exact hl _ h
    · intro tr htr
      rcases List.mem_cons.1 htr with rfl | h
      · exact hs _ (List.mem_cons_self ..)
      · exact ih hl _ h

theorem newSetup_legal (h : Endian) : LegalS (newSetup h) := by
  intro tr htr
  have : tr = newTrack h 0 := by simpa [newSetup] using htr
  subst this
  refine Legal.set ⟨?_, ?_, ?_, ?_, ?_⟩ _ _
  · simp
  · simp
  · show (0 : Rat) < 44100; decide +kernel
  · cases h <;> simp [native]
  · simp

theorem step_legal {s : Setup} (hs : LegalS s) (op : Op) : LegalS (step s op) := by
  cases op with
  | fileFormat f =>
    simp only [step, initFileFormat]
    repeat' split
    all_goals exact hs
  | channels t n =>
    refine legal_onTrack hs t _ fun x hx => ?_
    dsimp only
    split
    · exact hx
    · exact ⟨hx.sample, by dsimp only; omega, hx.rate, hx.order, hx.compression⟩
  | sampleFormat t f w => exact legal_onTrack hs t _ fun x hx => hx.set _ _
  | byteOrder t o =>
    refine legal_onTrack hs t _ fun x hx => ?_
    dsimp only
    split
    · exact hx
    · rename_i h
      exact ⟨hx.sample, hx.channels, hx.rate, by simp only [BIG, LITTLE] at h; dsimp only; omega, hx.compression⟩
  | rate t r =>
    refine legal_onTrack hs t _ fun x hx => ?_
    dsimp only
    split
    · exact hx
    · rename_i h
      exact ⟨hx.sample, hx.channels, Rat.not_le.1 h, hx.order, hx.compression⟩
  | dataOffset t o => refine legal_onTrack hs t _ fun x hx => ?_; split <;> exact hx
  | frameCount t o => refine legal_onTrack hs t _ fun x hx => ?_; split <;> exact hx
  | compression t c =>
    refine legal_onTrack hs t _ fun x hx => ?_
    dsimp only
    split
    · exact hx
    · rename_i q h
      exact ⟨hx.sample, hx.channels, hx.rate, hx.order, compressionUnit_mem h⟩
  | pcmMapping t p => exact legal_onTrack hs t _ fun x hx => ⟨hx.sample, hx.channels, hx.rate, hx.order, hx.compression⟩
  | aes t on => exact legal_onTrack hs t _ fun x hx => hx
  | markIDs t ids => exact legal_onTrack hs t _ fun x hx => hx
  | markName t m name => exact legal_onTrack hs t _ fun x hx => hx
  | markComment t m c => exact legal_onTrack hs t _ fun x hx => hx
  | instIDs ids => simp only [step, initInstIDs]; split <;> exact hs
  | loopIDs i ids => simp only [step, initLoopIDs]; split <;> exact hs
  | miscIDs ids => exact hs
  | miscType m t => exact hs
  | miscSize m t => exact hs

theorem run_legal {ops : List Op} : ∀ {s : Setup}, LegalS s → LegalS (run s ops) := by
  induction ops with
  | nil => intro s hs; exact hs
  | cons op ops ih => intro s hs; exact ih (step_legal hs op)

/-! ## What `complete` can do to a format -/

/-- Properties of formats kept by the corrections that `completeSetup` makes. -/
structure Closed (P : AFmt → Prop) : Prop where
  set : ∀ f a b, P f → P (setSampleFormat f a b).2
  order : ∀ f o, P f → (o = 501 ∨ o = 502) → P { f with byteOrder := o }
  mono : ∀ f, P f → P { f with byteOrder := BIG, channels := 1 }
  sf : ∀ f a, P f → (a = 401 ∨ a = 402) → 1 ≤ f.sampleWidth → f.sampleWidth ≤ 32 → P { f with sampleFormat := a }
  cd : ∀ f, P f → P { f with sampleWidth := 16, sampleFormat := TWOSCOMP }

theorem Closed.ite {P : AFmt → Prop} {f g : AFmt} {c : Prop} [Decidable c] (hf : P f) (hg : P g) : P (if c then f else g) := by
  split
  · exact hf
  · exact hg

theorem closed_legal : Closed Legal where
  set := fun _ _ _ h => h.set _ _
  order := fun _ _ h ho => ⟨h.sample, h.channels, h.rate, ho, h.compression⟩
  mono := fun _ h => h.mono
  sf := fun _ _ h ha h1 h2 => ⟨Or.inl ⟨ha, h1, h2⟩, h.channels, h.rate, h.order, h.compression⟩
  cd := fun _ h => ⟨Or.inl ⟨Or.inl rfl, by simp, by simp⟩, h.channels, h.rate, h.order, h.compression⟩

/-- Rate and compression are `g`'s. -/
def SameRC (g f : AFmt) : Prop := f.rate = g.rate ∧ f.compression = g.compression

theorem closed_same (g : AFmt) : Closed (SameRC g) where
  set := fun f a b h => by
    unfold setSampleFormat
    dsimp only
    repeat' split
    all_goals exact h
  order := fun _ _ h _ => h
  mono := fun _ h => h
  sf := fun _ _ h _ _ _ => h
  cd := fun _ h => h

/-- The track of `s` has a format with property `P`. -/
def AllS (P : AFmt → Prop) (s : Setup) : Prop := ∀ tr ∈ s.tracks, P tr.f

theorem AllS.ite {P : AFmt → Prop} {c : Prop} [Decidable c] {a b : Setup × Option Setup} (ha : AllS P a.1) (hb : AllS P b.1) :
    AllS P (if c then a else b).1 := by
  split
  · exact ha
  · exact hb

theorem AllS.setF {P : AFmt → Prop} {s : Setup} {tr : TrackSetup} {f : AFmt} (hf : P f) (o : Option Setup) :
    AllS P (setF s tr f, o).1 := by
  intro x hx
  simp only [Setup.setF, List.mem_singleton] at hx
  subst hx
  exact hf

theorem AllS.matchOpt {P : AFmt → Prop} {o : Option AFmt} {a : Setup × Option Setup} {b : AFmt → Setup × Option Setup}
    (ha : AllS P a.1) (ho : ∀ f, o = some f → P f) (hb : ∀ f, P f → AllS P (b f).1) :
    AllS P (match o with | none => a | some f => b f).1 := by
  cases o
  · exact ha
  · exact hb _ (ho _ rfl)

theorem native_order (h : Endian) : native h = 501 ∨ native h = 502 := by cases h <;> simp [native]

theorem complete_pred {P : AFmt → Prop} (hP : Closed P) (h : Endian) {s : Setup} (hi : Inv s) (hl : AllS P s) :
    AllS P (complete h s).1 := by
  obtain ⟨tr, ht, hid⟩ := hi.track
  have hw : ∀ f, s.withFormat f = setF s tr f := withFormat_one ht hid
  have hw2 : ∀ f g, (setF s tr f).withFormat g = setF s tr g :=
    fun f g => withFormat_one (s := setF s tr f) (tr := { tr with f := f }) rfl hid g
  have htt := theTrack_one ht hid
  have hlf : P tr.f := hl tr (by simp [ht])
  unfold complete
  split
  all_goals try exact hl
  all_goals
    first
      | unfold completeRaw
      | unfold completeAIFF
      | unfold completeNeXT
      | unfold completeWAVE
      | unfold completeIRCAM
      | unfold completeAVR
      | unfold completeIFF
      | unfold completeSMP
      | unfold completeVOC
      | unfold completeNIST
      | unfold completeCAF
    rw [htt]
    simp only [hw, hw2, ite_setF]
    repeat'
      first
        | exact hl
        | exact hlf
        | assumption
        | apply AllS.ite
        | apply AllS.setF
        | apply hP.set
        | (refine hP.order _ _ ?_ (native_order h))
        | (refine hP.order _ BIG ?_ (Or.inl rfl))
        | (refine hP.order _ LITTLE ?_ (Or.inr rfl))
        | apply hP.mono
        | apply Closed.ite
  refine AllS.matchOpt hl (fun f hf => ?_) fun f hf => ?_
  · repeat' split at hf
    all_goals simp only [Option.some.injEq, reduceCtorEq] at hf
    all_goals first | subst hf | skip
    all_goals
      first
        | exact hlf
        | exact hP.set _ _ _ hlf
        | exact hP.cd _ hlf
        | exact hP.sf _ _ hlf (Or.inl rfl) (by omega) (by omega)
        | exact hP.sf _ _ hlf (Or.inr rfl) (by omega) (by omega)
  · repeat'
      first
        | exact hl
        | assumption
        | apply AllS.ite
        | apply AllS.setF
        | (refine hP.order _ LITTLE ?_ (Or.inr rfl))
        | apply Closed.ite

theorem complete_legal (h : Endian) {s : Setup} (hi : Inv s) (hl : LegalS s) : LegalS (complete h s).1 :=
  complete_pred closed_legal h hi hl

end AF.Setup
