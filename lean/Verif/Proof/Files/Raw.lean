import Verif.Proof.Files.Simple
import Verif.Proof.Files.Accept
import Verif.Model.Files.Raw
import Verif.Spec.Files
/-!
# Raw files: proofs
-/
namespace AF.Files
open AF AF.Setup AF.Spec.Files

/-- Data offsets and frame counts of setups are not negative. -/
def Offsets (s : Setup) : Prop := ∀ tr ∈ s.tracks, 0 ≤ tr.dataOffset ∧ 0 ≤ tr.frameCount

theorem offsets_onTrack {s : Setup} (hs : Offsets s) (t : Int) (g : TrackSetup → TrackSetup)
    (hg : ∀ x : TrackSetup, 0 ≤ x.dataOffset ∧ 0 ≤ x.frameCount → 0 ≤ (g x).dataOffset ∧ 0 ≤ (g x).frameCount) : Offsets (s.onTrack t g) := by
  unfold Offsets Setup.onTrack at *
  dsimp only
  revert hs
  generalize s.tracks = l
  intro hs
  induction l with
  | nil => simpa [Meta.updFirst] using hs
  | cons a l ih =>
    have hl : ∀ tr ∈ l, 0 ≤ tr.dataOffset ∧ 0 ≤ tr.frameCount := fun tr h => hs tr (List.mem_cons_of_mem _ h)
    unfold Meta.updFirst
    split
    · intro tr htr
      rcases List.mem_cons.1 htr with rfl | h
      · exact hg _ (hs a (List.mem_cons_self ..))
      · exact hl _ h
    · intro tr htr
      rcases List.mem_cons.1 htr with rfl | h
      · exact hs _ (List.mem_cons_self ..)
      · exact ih hl _ h

theorem step_offsets {s : Setup} (hs : Offsets s) (op : Op) : Offsets (Setup.step s op) := by
  cases op with
  | fileFormat f =>
    simp only [Setup.step, initFileFormat]
    repeat' split
    all_goals exact hs
  | instIDs ids => simp only [Setup.step, initInstIDs]; split <;> exact hs
  | loopIDs i ids => simp only [Setup.step, initLoopIDs]; split <;> exact hs
  | miscIDs ids => exact hs
  | miscType m t => exact hs
  | miscSize m t => exact hs
  | dataOffset t o =>
    refine offsets_onTrack hs t _ fun x hx => ?_
    split
    · exact hx
    · exact ⟨by dsimp only; omega, hx.2⟩
  | frameCount t o =>
    refine offsets_onTrack hs t _ fun x hx => ?_
    split
    · exact hx
    · exact ⟨hx.1, by dsimp only; omega⟩
  | channels t n => refine offsets_onTrack hs t _ fun x hx => ?_; dsimp only; split <;> exact hx
  | sampleFormat t f w => exact offsets_onTrack hs t _ fun x hx => hx
  | byteOrder t o => refine offsets_onTrack hs t _ fun x hx => ?_; dsimp only; split <;> exact hx
  | rate t r => refine offsets_onTrack hs t _ fun x hx => ?_; dsimp only; split <;> exact hx
  | compression t c => refine offsets_onTrack hs t _ fun x hx => ?_; dsimp only; split <;> exact hx
  | pcmMapping t p => exact offsets_onTrack hs t _ fun x hx => hx
  | aes t on => exact offsets_onTrack hs t _ fun x hx => hx
  | markIDs t ids => exact offsets_onTrack hs t _ fun x hx => hx
  | markName t m name => exact offsets_onTrack hs t _ fun x hx => hx
  | markComment t m c => exact offsets_onTrack hs t _ fun x hx => hx

theorem run_offsets {ops : List Op} : ∀ {s : Setup}, Offsets s → Offsets (run s ops) := by
  induction ops with
  | nil => intro s hs; exact hs
  | cons op ops ih => intro s hs; exact ih (step_offsets hs op)

theorem newSetup_offsets (h : Endian) : Offsets (newSetup h) := by
  intro tr htr
  have : tr = newTrack h 0 := by simpa [newSetup] using htr
  subst this
  exact ⟨Int.le_refl _, Int.le_refl _⟩

/-- The file a session leaves: nothing, or zeros up to the offset and the data. -/
theorem raw_file (tr : TrackSetup) (h0 : 0 ≤ rawFirst tr) (evs : List Ev) :
    session rawUpdate (rawInit tr) evs = if dataOf evs = [] then [] else List.replicate (rawFirst tr).toNat 0 ++ dataOf evs := by
  obtain ⟨d, t, x, ⟨h1, h2, h3⟩, hs⟩ := session_induct rawUpdate
    (fun d t _ D _ => t.first = rawFirst tr ∧ t.dataSize = D.length ∧
      d.bytes = if D = [] then [] else List.replicate (rawFirst tr).toNat 0 ++ D) (rawInit tr) evs
    ⟨rfl, rfl, rfl⟩
    (by
      intro d t x D n bs k _ ⟨h1, h2, h3⟩
      refine ⟨h1, by dsimp only; rw [h2, List.length_append]; omega, ?_⟩
      by_cases hb : bs = []
      · subst hb
        rw [Disk.write_nil, List.append_nil]
        exact h3
      · rw [if_neg (by simp [hb])]
        have e : (t.first + t.dataSize).toNat = (rawFirst tr).toNat + D.length := by omega
        rw [e]
        by_cases hD : D = []
        · subst hD
          rw [if_pos rfl] at h3
          rw [Disk.write_bytes hb]
          simp [h3]
        · rw [if_neg hD] at h3
          rw [Disk.write_end (d := d.seek _) (by simp [h3])]
          simp [h3])
    (by intro d t x D n hP; exact hP)
  rw [hs]
  exact h3

theorem rawFrameBytes_eq {f : AFmt} (hl : Legal f) (hc : f.compression = NONE ∨ (f.compression = ULAW ∨ f.compression = ALAW) ∧ 8 < f.sampleWidth ∧ f.sampleWidth ≤ 16) :
    rawFrameBytes f = bytesPerFrame f ∧ 0 < bytesPerFrame f := by
  have hch := hl.channels
  have hsz : sampleSizeUncompressed f false = (f.sampleWidth + 7) / 8 := by
    unfold sampleSizeUncompressed
    rcases hl.sample with ⟨h1, h2, h3⟩ | ⟨h1, h2⟩ | ⟨h1, h2⟩
    · rw [if_neg (by simp only [FLOAT]; omega), if_neg (by simp only [DOUBLE]; omega)]
      simp only [Bool.false_eq_true, and_false, if_false]
      rw [Int.tdiv_eq_ediv_of_nonneg (by omega)]
    · rw [if_pos (by simp only [FLOAT]; omega), h2]; rfl
    · rw [if_neg (by simp only [FLOAT]; omega), if_pos (by simp only [DOUBLE]; omega), h2]; rfl
  have h8 : 1 ≤ (f.sampleWidth + 7) / 8 := by have := hl.sample; omega
  have hpos : 0 < (f.sampleWidth + 7) / 8 * f.channels := Int.mul_pos (by omega) (by omega)
  rcases hc with hc | ⟨hc, hw1, hw2⟩
  · have e : frameSize f false = some (((f.sampleWidth + 7) / 8 * f.channels : Int) : Rat) := by
      unfold frameSize frameSizeUncompressed
      rw [hc, show compressionUnit NONE = some 1 from by decide, hsz]
      simp [Rat.div_def, show (1 : Rat)⁻¹ = 1 from by decide +kernel, Rat.mul_one]
    unfold rawFrameBytes bytesPerFrame
    rw [e, if_pos hc]
    dsimp only
    rw [Rat.floor_intCast]
    omega
  · have e2 : (f.sampleWidth + 7) / 8 = 2 := by omega
    have e : frameSize f false = some ((f.channels : Int) : Rat) := by
      unfold frameSize frameSizeUncompressed
      rw [hsz, e2, show compressionUnit f.compression = some 2 from by rcases hc with hc | hc <;> rw [hc] <;> decide]
      simp only [Option.map_some, Option.some.injEq, Rat.intCast_mul, Rat.intCast_ofNat]
      rw [Rat.mul_comm, Rat.div_def, Rat.mul_assoc, show (2 : Rat) * 2⁻¹ = 1 from by decide +kernel, Rat.mul_one]
    unfold rawFrameBytes bytesPerFrame
    have hn : f.compression ≠ NONE := by simp only [NONE, ULAW, ALAW] at *; omega
    rw [e, if_neg hn]
    dsimp only
    rw [Rat.floor_intCast]
    omega

end AF.Files
