import Verif.Model.Access
import Verif.Props.Meta
import Verif.Props.Reading
/-!
# C42: access modes are enforced
-/
namespace AF.Access
open AF.Meta (Access)
variable {V α γ ε : Type}

/-- Calls that write: audio data, marker positions, AES data, loops, instrument parameters, chunk contents. -/
def Writes : Call V γ → Bool
  | .writeFrames .. => true
  | .info (.setMark ..) | .info (.setAES ..) | .info (.setLoop ..) | .info (.setParams ..)
  | .info (.setParamLong ..) | .info (.writeMisc ..) => true
  | _ => false

/-- Calls that read audio data or chunk contents. -/
def Reads : Call V γ → Bool
  | .readFrames .. | .seekFrame .. | .info (.readMisc ..) => true
  | _ => false

/-- Return values that mean failure; calls declared `void` report nothing. -/
def Failed : Ret γ → Prop
  | .frames n fs => n = -1 ∧ fs = []
  | .num n => n = -1
  | .info r => r = .void ∨ r = .num (-1) ∨ r = .bytes (-1) []

/-- Only `void` functions return `void`. -/
def isVoid : Call V γ → Bool
  | .info (.setMark ..) | .info (.setAES ..) | .info (.setLoop .mode ..) | .info (.setLoop .start ..)
  | .info (.setLoop .endd ..) | .info (.setLoop .track ..) | .info (.setParams ..) | .info (.setParamLong ..) => true
  | _ => false

/-- **C42.** A writing call on a file opened for reading fails and changes nothing: not the audio state, not the
metadata, not any position. -/
theorem C42_write_refused (f : File V α γ ε) (hf : f.info.access = .read) (c : Call V γ) (hc : Writes c = true) :
    ∃ r, step f c = .ok (r, f) ∧ Failed r ∧ (r = .info .void → isVoid c = true) := by
  have hne : ¬ f.info.access = .write := by rw [hf]; simp
  cases c with
  | info op =>
    cases op <;> simp [Writes] at hc
    case setMark t m p =>
      exact ⟨.info .void, by simp [step, Meta.step, Meta.setMarkPosition, hf, bind, Except.bind, pure, Except.pure], .inl rfl, fun _ => rfl⟩
    case setAES t b =>
      refine ⟨.info .void, ?_, .inl rfl, fun _ => rfl⟩
      have : Meta.setAES f.info t b = f.info := by
        unfold Meta.setAES; split
        · rfl
        · rw [if_pos hne]
      simp [step, Meta.step, this, bind, Except.bind, pure, Except.pure]
    case setLoop fl i l v =>
      have hn : Meta.findLoop f.info i l true = none := by simp [Meta.findLoop, hf]
      cases fl
      case count =>
        exact ⟨.info (.num (-1)), by simp [step, Meta.step, Meta.setLoop, Meta.setLoopCount, hn, bind, Except.bind, pure, Except.pure], .inr (.inl rfl), by simp⟩
      case startFrame =>
        exact ⟨.info (.num (-1)), by simp [step, Meta.step, Meta.setLoop, Meta.setLoopStartFrame, hn, bind, Except.bind, pure, Except.pure], .inr (.inl rfl), by simp⟩
      case endFrame =>
        exact ⟨.info (.num (-1)), by simp [step, Meta.step, Meta.setLoop, Meta.setLoopEndFrame, hn, bind, Except.bind, pure, Except.pure], .inr (.inl rfl), by simp⟩
      all_goals
        exact ⟨.info .void, by simp [step, Meta.step, Meta.setLoop, Meta.setLoopMode, Meta.setLoopStart, Meta.setLoopEnd,
          Meta.setLoopTrack, hn, bind, Except.bind, pure, Except.pure], .inl rfl, fun _ => rfl⟩
    case setParams i pv n =>
      exact ⟨.info .void, by simp [step, Meta.step, Meta.setInstParams, hf, bind, Except.bind, pure, Except.pure], .inl rfl, fun _ => rfl⟩
    case setParamLong i p v =>
      exact ⟨.info .void, by simp [step, Meta.step, Meta.setInstParamLong, Meta.setInstParams, hf, bind, Except.bind, pure, Except.pure], .inl rfl, fun _ => rfl⟩
    case writeMisc i b =>
      exact ⟨.info (.num (-1)), by simp [step, Meta.step, Meta.writeMisc, hf, Except.map, bind, Except.bind, pure, Except.pure], .inr (.inl rfl), by simp⟩
  | writeFrames t xs => exact ⟨.num (-1), by simp [step, hf], rfl, by simp⟩
  | readFrames => simp [Writes] at hc
  | seekFrame => simp [Writes] at hc
  | sync => simp [Writes] at hc

/-- **C42.** A reading call on a file opened for writing fails and changes nothing. -/
theorem C42_read_refused (f : File V α γ ε) (hf : f.info.access = .write) (c : Call V γ) (hc : Reads c = true) :
    ∃ r, step f c = .ok (r, f) ∧ Failed r ∧ r ≠ .info .void := by
  cases c with
  | info op =>
    cases op <;> simp [Reads] at hc
    case readMisc i n =>
      exact ⟨.info (.bytes (-1) []), by simp [step, Meta.step, Meta.readMisc, hf, Except.map, bind, Except.bind, pure, Except.pure],
        .inr (.inr rfl), by simp⟩
  | readFrames t n => exact ⟨.frames (-1) [], by simp [step, hf], ⟨rfl, rfl⟩, by simp⟩
  | seekFrame t n => exact ⟨.num (-1), by simp [step, hf], rfl, by simp⟩
  | writeFrames => simp [Reads] at hc
  | sync => simp [Reads] at hc

/-- The results of the calls not selected by `p`. -/
def others (p : Call V γ → Bool) : List (Call V γ) → List (Ret γ) → List (Ret γ)
  | c :: cs, r :: rs => if p c then others p cs rs else r :: others p cs rs
  | _, _ => []

/-- The access mode never changes. -/
theorem access_step (f f' : File V α γ ε) (c : Call V γ) (r : Ret γ) (h : step f c = .ok (r, f')) :
    f'.info.access = f.info.access := by
  cases c with
  | info op =>
    have key : ∀ r h', Meta.step f.info op = .ok (r, h') → h'.access = f.info.access := by
      intro r h' e
      have hm : ∀ (g : Meta.Handle) t m p, (Meta.setMarkPosition g t m p).access = g.access := by
        intro g t m p; unfold Meta.setMarkPosition; split; · rfl
        split; · rfl
        split <;> rfl
      have hp : ∀ (g : Meta.Handle) i pv n, (Meta.setInstParams g i pv n).access = g.access := by
        intro g i pv n; unfold Meta.setInstParams; split; · rfl
        split <;> rfl
      cases op with
      | setMark t m p => simp only [Meta.step, Except.ok.injEq, Prod.mk.injEq] at e; rw [← e.2]; exact hm ..
      | setAES t b =>
        simp only [Meta.step, Except.ok.injEq, Prod.mk.injEq] at e; rw [← e.2]
        unfold Meta.setAES; split; · rfl
        split; · rfl
        split <;> rfl
      | setLoop fl i l v =>
        simp only [Meta.step, Except.ok.injEq] at e
        rw [show h' = (Meta.setLoop f.info fl i l v).2 by rw [e]]
        cases fl <;> simp only [Meta.setLoop, Meta.setLoopMode, Meta.setLoopCount, Meta.setLoopStart, Meta.setLoopEnd,
          Meta.setLoopTrack, Meta.setLoopStartFrame, Meta.setLoopEndFrame] <;> split <;>
          first | rfl | (split <;> first | rfl | exact hm ..)
      | setParams i pv n => simp only [Meta.step, Except.ok.injEq, Prod.mk.injEq] at e; rw [← e.2]; exact hp ..
      | setParamLong i p v => simp only [Meta.step, Except.ok.injEq, Prod.mk.injEq] at e; rw [← e.2]; exact hp ..
      | writeMisc id b =>
        simp only [Meta.step] at e
        cases hw : Meta.writeMisc f.info id b with
        | error => simp [hw, Except.map] at e
        | ok x =>
          simp only [hw, Except.map, Except.ok.injEq, Prod.mk.injEq] at e
          rw [← e.2]
          unfold Meta.writeMisc at hw
          split at hw
          · cases hw; rfl
          split at hw
          · cases hw; rfl
          split at hw
          · cases hw; rfl
          split at hw
          · cases hw; rfl
          simp only at hw
          split at hw
          · cases hw
          · cases hw; rfl
      | readMisc id b =>
        simp only [Meta.step] at e
        cases hw : Meta.readMisc f.info id b with
        | error => simp [hw, Except.map] at e
        | ok x =>
          simp only [hw, Except.map, Except.ok.injEq, Prod.mk.injEq] at e
          rw [← e.2]
          unfold Meta.readMisc at hw
          split at hw
          · cases hw; rfl
          split at hw
          · cases hw; rfl
          split at hw
          · cases hw; rfl
          simp only at hw
          split at hw
          · cases hw
          · cases hw; rfl
      | seekMisc id o =>
        simp only [Meta.step, Except.ok.injEq, Prod.mk.injEq] at e; rw [← e.2]
        unfold Meta.seekMisc; split; · rfl
        split <;> rfl
      | _ => simp only [Meta.step, Except.ok.injEq, Prod.mk.injEq] at e; rw [← e.2]
    simp only [step, bind, Except.bind, pure, Except.pure] at h
    cases hs : Meta.step f.info op with
    | error => simp [hs] at h
    | ok x =>
      simp only [hs, Except.ok.injEq, Prod.mk.injEq] at h
      rw [← h.2]; exact key x.1 x.2 hs
  | readFrames t n =>
    simp only [step] at h
    split at h
    · cases h; rfl
    split at h
    · cases h; rfl
    · simp only [bind, Except.bind, pure, Except.pure] at h
      split at h
      · cases h
      · cases h; rfl
  | writeFrames t n =>
    simp only [step] at h
    split at h
    · cases h; rfl
    split at h
    · cases h; rfl
    · simp only [bind, Except.bind, pure, Except.pure] at h
      split at h
      · cases h
      · cases h; rfl
  | seekFrame t n =>
    simp only [step] at h
    split at h
    · cases h; rfl
    split at h
    · cases h; rfl
    · cases h; rfl
  | sync =>
    simp only [step, bind, Except.bind, pure, Except.pure] at h
    split at h
    · split at h
      · cases h
      · cases h; rfl
    · cases h; rfl

theorem run_without (p : Call V γ → Bool) (a : Access)
    (hp : ∀ (f : File V α γ ε) c, f.info.access = a → p c = true → ∃ r, step f c = .ok (r, f))
    (cs : List (Call V γ)) (f : File V α γ ε) (hf : f.info.access = a) :
    run f (cs.filter (! p ·)) = (run f cs).map fun x => (others p cs x.1, x.2) := by
  induction cs generalizing f with
  | nil => rfl
  | cons c cs ih =>
    cases hc : p c with
    | true =>
      obtain ⟨r, hr⟩ := hp f c hf hc
      simp only [List.filter_cons, hc, Bool.not_true, Bool.false_eq_true, if_false, ih f hf, run, hr, bind, Except.bind,
        pure, Except.pure]
      cases run f cs <;> simp [Except.map, others, hc]
    | false =>
      simp only [List.filter_cons, hc, Bool.not_false, if_true, run, bind, Except.bind, pure, Except.pure]
      cases hs : step f c with
      | error => rfl
      | ok x =>
        simp only
        rw [ih x.2 ((access_step f x.2 c x.1 hs).trans hf)]
        cases run x.2 cs <;> simp [Except.map, others, hc]

/-- **C42, histories.** On a file opened for reading, all other calls of any history give the same results, and leave
the same state, as if the writing calls had not been made. -/
theorem C42_writes_invisible (f : File V α γ ε) (hf : f.info.access = .read) (cs : List (Call V γ)) :
    run f (cs.filter (! Writes ·)) = (run f cs).map fun x => (others Writes cs x.1, x.2) :=
  run_without Writes .read (fun f c hf hc => (C42_write_refused f hf c hc).imp fun _ h => h.1) cs f hf

/-- **C42, histories.** The same for reading calls on a file opened for writing. -/
theorem C42_reads_invisible (f : File V α γ ε) (hf : f.info.access = .write) (cs : List (Call V γ)) :
    run f (cs.filter (! Reads ·)) = (run f cs).map fun x => (others Reads cs x.1, x.2) :=
  run_without Reads .write (fun f c hf hc => (C42_read_refused f hf c hc).imp fun _ h => h.1) cs f hf

/-- `afSyncFile` does nothing to a file opened for reading. -/
theorem C42_sync_read_only (f : File V α γ ε) (hf : f.info.access = .read) : step f .sync = .ok (.num 0, f) := by
  simp [step, hf]

/-! Hypotheses are met: the demo file of C25–C28 with the 5-frame PCM track of C12. -/
def demoW : Writing.Cfg Nat Nat Nat Unit where
  kind := .pcm
  fpp := 1
  bpp := 1
  fpp_pos := by decide
  bpp_pos := by decide
  first := 0
  encode e fs := (fs.map (BitVec.ofNat 8), e)
  conv v x := v + x
  junk := []
  checks := false
  afterUpdate := none

def demoFile : File Nat Nat Nat Unit where
  info := Meta.demoR
  rcfg := Reading.pcmDemo
  rd := Reading.init Reading.pcmDemo 0
  wcfg := demoW
  wr := Writing.init () 0

example : demoFile.info.access = .read := rfl
example : (run demoFile [.writeFrames 1001 [7], .readFrames 1001 2, .info (.setMark 1001 1 9), .info (.getMark 1001 1)]).map
    (·.1.map fun | .frames n fs => (n, fs) | .num n => (n, []) | .info (.num n) => (n, []) | .info _ => (0, [])) =
    .ok [(-1, []), (2, [some 1, some 2]), (0, []), (0, [])] := by decide +kernel

end AF.Access
