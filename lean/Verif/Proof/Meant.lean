import Verif.Proof.CreateFormats
import Verif.Proof.Files.Post
import Verif.Props.Setup
/-!
Sample values have their usual meaning in a file made from a setup without `afInitPCMMapping`.
-/
namespace AF.Setup
open AF AF.Convert AF.Spec.Setup AF.Spec.Formats
open AF.Files (set_legal)

/-- The mapping that goes with the sample format. -/
def Meant (f : AFmt) : Prop := LegalWidth f.sampleFormat f.sampleWidth ∧ f.pcm = defaultMapping f.sampleFormat f.sampleWidth

theorem Meant.set {f : AFmt} (hf : Meant f) (a b : Int) : Meant (setSampleFormat f a b).2 := by
  by_cases hl : LegalWidth a b
  · obtain ⟨m, h1, h2⟩ := set_legal f hl
    rw [h2]
    exact ⟨hl, h1⟩
  · unfold LegalWidth at hl
    unfold setSampleFormat
    simp only [UNSIGNED, TWOSCOMP, FLOAT, DOUBLE] at *
    split
    · split
      · exact hf
      · exfalso; omega
    · split
      · exact ⟨.inr (.inl ⟨by assumption, rfl⟩), by subst a; rfl⟩
      · split
        · exact ⟨.inr (.inr ⟨by assumption, rfl⟩), by subst a; rfl⟩
        · exact hf

theorem meant_onTrack {s : Setup} (hs : AllS Meant s) (t : Int) (g : TrackSetup → TrackSetup) (hg : ∀ tr, Meant tr.f → Meant (g tr).f) :
    AllS Meant (s.onTrack t g) := by
  intro x hx
  unfold Setup.onTrack at hx
  have : ∀ (l : List TrackSetup), (∀ y ∈ l, Meant y.f) → ∀ y ∈ AF.Meta.updFirst (fun x : TrackSetup => x.id == t) g l, Meant y.f := by
    intro l
    induction l with
    | nil => intro _ y hy; cases hy
    | cons a l ih =>
      intro hl y hy
      unfold AF.Meta.updFirst at hy
      split at hy
      · rcases List.mem_cons.1 hy with rfl | hy
        · exact hg a (hl a List.mem_cons_self)
        · exact hl y (List.mem_cons_of_mem _ hy)
      · rcases List.mem_cons.1 hy with rfl | hy
        · exact hl _ List.mem_cons_self
        · exact ih (fun z hz => hl z (List.mem_cons_of_mem _ hz)) y hy
  exact this _ hs x hx

theorem step_meant {s : Setup} (hs : AllS Meant s) (op : Op) (hno : ∀ t p, op ≠ .pcmMapping t p) : AllS Meant (step s op) := by
  cases op with
  | fileFormat f =>
    simp only [step, initFileFormat]
    repeat' split
    all_goals exact hs
  | channels t n => refine meant_onTrack hs t _ fun x hx => ?_; split <;> exact hx
  | sampleFormat t f w => exact meant_onTrack hs t _ fun x hx => hx.set _ _
  | byteOrder t o => refine meant_onTrack hs t _ fun x hx => ?_; split <;> exact hx
  | rate t r => refine meant_onTrack hs t _ fun x hx => ?_; split <;> exact hx
  | dataOffset t o => refine meant_onTrack hs t _ fun x hx => ?_; split <;> exact hx
  | frameCount t o => refine meant_onTrack hs t _ fun x hx => ?_; split <;> exact hx
  | compression t c => refine meant_onTrack hs t _ fun x hx => ?_; split <;> exact hx
  | pcmMapping t p => exact absurd rfl (hno t p)
  | aes t on => exact meant_onTrack hs t _ fun x hx => hx
  | markIDs t ids => exact meant_onTrack hs t _ fun x hx => hx
  | markName t m name => exact meant_onTrack hs t _ fun x hx => hx
  | markComment t m c => exact meant_onTrack hs t _ fun x hx => hx
  | instIDs ids => simp only [step, initInstIDs]; split <;> exact hs
  | loopIDs i ids => simp only [step, initLoopIDs]; split <;> exact hs
  | miscIDs ids => exact hs
  | miscType m t => exact hs
  | miscSize m t => exact hs

theorem run_meant {ops : List Op} : ∀ {s : Setup}, AllS Meant s → (∀ op ∈ ops, ∀ t p, op ≠ .pcmMapping t p) → AllS Meant (run s ops) := by
  induction ops with
  | nil => intro s hs _; exact hs
  | cons op ops ih =>
    intro s hs hno
    exact ih (step_meant hs op (hno op List.mem_cons_self)) fun x hx => hno x (List.mem_cons_of_mem _ hx)

theorem new_meant (h : Endian) : AllS Meant (newSetup h) := by
  intro tr htr
  have : tr = newTrack h 0 := List.mem_singleton.1 htr
  subst this
  cases h <;> exact ⟨.inl ⟨.inl rfl, by decide, by decide⟩, rfl⟩

/-- The format that WAVE makes of a track's. -/
theorem wave_meant {s : Setup} (hl : AllS Meant s) {tr : TrackSetup} (ht : s.tracks = [tr]) (hid : tr.id = DEFAULT_TRACK)
    (hk : tr.sampleFormatSet = false → tr.f.sampleFormat = 401 ∧ tr.f.sampleWidth = 16)
    (hw' : tr.sampleWidthSet = tr.sampleFormatSet) : AllS Meant (completeWAVE s).1 := by
  have hw : ∀ f, s.withFormat f = setF s tr f := withFormat_one ht hid
  have hw2 : ∀ f g, (setF s tr f).withFormat g = setF s tr g :=
    fun f g => withFormat_one (s := setF s tr f) (tr := { tr with f := f }) rfl hid g
  have htt := theTrack_one ht hid
  have hlf : Meant tr.f := hl tr (by simp [ht])
  unfold completeWAVE
  rw [htt]
  simp only [hw, hw2, ite_setF]
  refine AllS.matchOpt hl (fun f hf => ?_) fun f hf => ?_
  · by_cases hset : tr.sampleFormatSet = true
    · simp only [hw', hset, if_true, Bool.not_true, Bool.false_eq_true, if_false, true_and] at hf
      repeat' split at hf
      all_goals simp only [Option.some.injEq, reduceCtorEq] at hf
      all_goals subst hf
      all_goals
        first
          | exact hlf
          | exact hlf.set _ _
    · have hset : tr.sampleFormatSet = false := by simpa using hset
      obtain ⟨h1, h2⟩ := hk hset
      simp only [hw', hset, if_true, Bool.not_false, Bool.false_eq_true, if_false] at hf
      split at hf
      · cases hf
        exact hlf.set _ _
      · cases hf
        obtain ⟨a, b⟩ := hlf
        refine ⟨.inl ⟨.inl rfl, (by decide : (1 : Int) ≤ 16), (by decide : (16 : Int) ≤ 32)⟩, ?_⟩
        rw [h1, h2] at b
        exact b
  · repeat'
      first
        | exact hl
        | assumption
        | apply AllS.ite
        | apply AllS.setF
        | apply Closed.ite

/-- The corrections that `completeSetup` makes keep it. -/
theorem complete_meant (h : Endian) {s : Setup} (hi : Inv s) (hl : AllS Meant s)
    (hk : ∀ tr ∈ s.tracks, tr.sampleFormatSet = false → tr.f.sampleFormat = 401 ∧ tr.f.sampleWidth = 16)
    (hw' : ∀ tr ∈ s.tracks, tr.sampleWidthSet = tr.sampleFormatSet) :
    AllS Meant (complete h s).1 := by
  obtain ⟨tr, ht, hid⟩ := hi.track
  have hw : ∀ f, s.withFormat f = setF s tr f := withFormat_one ht hid
  have hw2 : ∀ f g, (setF s tr f).withFormat g = setF s tr g :=
    fun f g => withFormat_one (s := setF s tr f) (tr := { tr with f := f }) rfl hid g
  have htt := theTrack_one ht hid
  have hlf : Meant tr.f := hl tr (by simp [ht])
  have hwav := wave_meant hl ht hid (hk tr (by simp [ht])) (hw' tr (by simp [ht]))
  clear hk hw'
  have key : ∀ (f : AFmt) (o : Int) (c : Int), Meant f → Meant { f with byteOrder := o, channels := c } := fun f o c hf => hf
  have set := fun (f : AFmt) (a b : Int) (hf : Meant f) => Meant.set hf a b
  have order : ∀ (f : AFmt) (o : Int), Meant f → Meant { f with byteOrder := o } := fun f o hf => hf
  have ite := fun {f g : AFmt} {c : Prop} (_ : Decidable c) => @Closed.ite Meant f g c _
  generalize Meant = P at *
  unfold complete
  split
  all_goals try exact hl
  all_goals try exact hwav
  all_goals
    first
      | unfold completeRaw
      | unfold completeAIFF
      | unfold completeNeXT
      | unfold completeIRCAM
      | unfold completeAVR
      | unfold completeIFF
      | unfold completeSMP
      | unfold completeVOC
      | unfold completeNIST
      | unfold completeCAF
    rw [htt]
    simp only [hw, hw2, ite_setF]
    repeat'
      first
        | exact hl
        | exact hlf
        | assumption
        | apply AllS.ite
        | apply AllS.setF
        | apply set
        | (refine order _ BIG ?_)
        | (refine order _ LITTLE ?_)
        | (refine order _ (native h) ?_)
        | apply Closed.ite
        | (refine key _ BIG 1 ?_)

/-- In a file made from a setup on which `afInitPCMMapping` was not called, sample values have their usual meaning. -/
theorem opened_meant {h : Endian} {ops : List Op} (hno : ∀ op ∈ ops, ∀ t p, op ≠ .pcmMapping t p) {s' : Setup} {o : Opened} {f : AFmt}
    (ho : openWrite h (run (newSetup h) ops) = (s', some o)) (hf : o.f = [f]) : f.pcm = defaultMapping f.sampleFormat f.sampleWidth := by
  have hi : Inv (run (newSetup h) ops) := foldl_inv (newSetup_inv h)
  obtain ⟨tr, f', ht, hid, hs, -, hf', hc⟩ := openWrite_some hi ho
  rw [hf'] at hf
  obtain rfl : f' = f := by simpa using hf
  obtain ⟨tr', ht', hr⟩ := (Create.run_holds h ops).track
  obtain rfl : tr' = tr := by rw [ht] at ht'; exact (List.cons.inj ht').1.symm
  have hk := Create.known hr
  have := complete_meant h hi (run_meant (new_meant h) hno) (by rw [ht]; intro x hx; rw [List.mem_singleton.1 hx]; exact hk.fmt)
    (by rw [ht]; intro x hx; rw [List.mem_singleton.1 hx]; exact hk.width)
  rw [hc, hs] at this
  exact (this { tr' with f := f' } (by simp [setF])).2

end AF.Setup
