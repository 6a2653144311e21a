import Verif.Proof.Files.Formats
import Verif.Model.Codec
import Verif.Proof.Bytes
import Verif.Spec.Counts
/-!
# The numbers of frames and bytes and the data offsets that the readers report, for any file
-/
namespace AF.Files
open AF AF.Setup AF.Spec.Setup AF.Spec.Counts

theorem wrapU64_nonneg (x : Int) : 0 ≤ wrapU 64 x := by unfold wrapU; omega

theorem wrapU64_id {x : Int} (h0 : 0 ≤ x) (h1 : x < 2 ^ 63) : wrapU 64 x = x := by unfold wrapU; omega

theorem wrapS64_id {x : Int} (h0 : 0 ≤ x) (h1 : x < 2 ^ 63) : wrapS 64 x = x := by unfold wrapS Int.bmod; dsimp only; omega

theorem quotient_le {d b : Int} (h0 : 0 ≤ d) (hb : 0 ≤ b) : 0 ≤ d / b ∧ d / b ≤ d := ⟨Int.ediv_nonneg h0 hb, Int.ediv_le_self _ h0⟩

/-- With one frame in a packet there are at most as many frames as bytes. -/
theorem total_one {t : Trk} (hf : t.fpp = 1) (h0 : 0 ≤ t.dataSize) (h1 : t.dataSize < 2 ^ 63) (hn : t.frames = 0) :
    0 ≤ t.computeTotalFileFrames.frames ∧ t.computeTotalFileFrames.frames ≤ t.dataSize := by
  unfold Trk.computeTotalFileFrames
  split
  · dsimp only
    obtain ⟨h2, h3⟩ := quotient_le h0 (wrapU64_nonneg t.bpp)
    have e : wrapU 64 (1 : Int) = 1 := by decide
    rw [hf, e, Int.mul_one, wrapU64_id h0 h1, wrapS64_id h2 (by omega)]
    exact ⟨h2, h3⟩
  · omega

theorem total_small {t : Trk} (hf : 0 ≤ t.fpp) (hf' : t.fpp < 2 ^ 16) (h0 : 0 ≤ t.dataSize) (h1 : t.dataSize < 2 ^ 32) (hn : FrameCountOK t) :
    FrameCountOK t.computeTotalFileFrames := by
  unfold Trk.computeTotalFileFrames
  split
  · unfold FrameCountOK
    dsimp only
    obtain ⟨h2, h3⟩ := quotient_le h0 (wrapU64_nonneg t.bpp)
    rw [wrapU64_id h0 (by omega), wrapU64_id hf (by omega)]
    generalize t.dataSize / wrapU 64 t.bpp = q at *
    have h4 : 0 ≤ q * t.fpp := Int.mul_nonneg h2 hf
    have h5 : q * t.fpp ≤ (2 ^ 32 - 1) * (2 ^ 16 - 1) := Int.mul_le_mul (by omega) (by omega) hf (by omega)
    rw [wrapS64_id h4 (by omega)]
    omega
  · exact hn

theorem total_first (t : Trk) : t.computeTotalFileFrames.first = t.first := by
  unfold Trk.computeTotalFileFrames; split <;> rfl

theorem total_size (t : Trk) : t.computeTotalFileFrames.dataSize = t.dataSize := by
  unfold Trk.computeTotalFileFrames; split <;> rfl

/-- What the formats with a size in their header report. -/
structure Reported (t : Trk) : Prop where
  offset : OffsetOK t
  count : FrameCountOK t
  bytes : BytesOK t

theorem fresh_reported (f : AFmt) : Reported (Trk.ofFormat f) := ⟨Int.le_refl 0, ⟨Int.le_refl 0, by unfold Trk.ofFormat; dsimp only; omega⟩, Int.le_refl 0⟩

theorem next_counts (h : Endian) : Post (nextRead h) Reported := by
  unfold nextRead
  refine .bind' fun _ => .bind' fun _ => .bind' fun off => .bind (.field _ _ _) fun len hl => .bind' fun enc => .bind' fun rate => ?_
  refine .bind' fun n => .ite (fun _ => .fail) fun h0 => .bind' fun fl => ?_
  dsimp only
  have hl' : len < 2 ^ 32 := hl
  generalize hd : (if len = 0xffffffff ∨ (len : Int) > (fl : Int) - off then wrapU 32 ((fl : Int) - off) else (len : Int)) = d
  have h1 : 0 ≤ d ∧ d < 2 ^ 32 := by
    rw [← hd]
    split
    · unfold wrapU; omega
    · omega
  split
  · exact .fail
  · refine .pure ⟨?_, total_small (by dsimp only; omega) (by dsimp only; omega) h1.1 h1.2 ⟨by dsimp only; omega, by dsimp only; omega⟩, ?_⟩
    · unfold OffsetOK; rw [total_first]; dsimp only; omega
    · unfold BytesOK; rw [total_size]; exact h1.1

theorem avr_counts (h : Endian) : Post (avrRead h) Reported := by
  unfold avrRead
  refine .bind' fun _ => .bind' fun m => .ite (fun _ => .fail) fun _ => ?_
  refine .bind' fun _ => .bind' fun mono => .bind' fun res => .bind' fun sign => .bind' fun _ => .bind' fun _ => ?_
  refine .bind' fun rate => .bind (.field _ _ _) fun size hs => .bind' fun _ => .bind' fun _ => .bind' fun _ => .bind' fun _ => ?_
  refine .ite (fun _ => .fail) fun _ => .ite (fun _ => .fail) fun hr => .ite (fun _ => .fail) fun _ => ?_
  dsimp only
  refine .bind' fun first => ?_
  have hs' : size < 2 ^ 32 := hs
  have hl : LegalWidth (if sign = 0 then UNSIGNED else TWOSCOMP) (res : Int) := by
    unfold LegalWidth UNSIGNED TWOSCOMP
    have : res = 8 ∨ res = 16 := by omega
    split <;> omega
  obtain ⟨m, hd, hm⟩ := set_legal ({ rate := ((rate % 2 ^ 24 : Nat) : Rat), sampleFormat := if sign = 0 then UNSIGNED else TWOSCOMP, sampleWidth := res, byteOrder := BIG, pcm := ⟨0, 0, 0, 0⟩, channels := if mono = 0 then 1 else 2, compression := NONE } : AFmt) hl
  rw [hm]
  refine .pure ⟨by unfold OffsetOK; dsimp only; omega, ⟨by dsimp only; omega, by dsimp only; omega⟩, ?_⟩
  unfold BytesOK
  dsimp only
  refine Int.mul_nonneg (by omega) ?_
  unfold frameSizeUncompressed sampleSizeUncompressed
  dsimp only
  have : res = 8 ∨ res = 16 := by omega
  rcases this with rfl | rfl <;> by_cases hm0 : mono = 0 <;> by_cases hs0 : sign = 0 <;> simp only [hm0, hs0, if_true, if_false] <;> decide

theorem smp_counts (h : Endian) : Post (smpRead h) fun t => Reported t.1 := by
  unfold smpRead
  refine .bind' fun _ => .bind' fun m => .ite (fun _ => .fail) fun _ => .bind' fun _ => .ite (fun _ => .fail) fun _ => ?_
  refine .bind' fun _ => .bind' fun _ => .bind (.field _ _ _) fun n hn => .bind' fun first => ?_
  dsimp only
  iterate 8 refine .bind' fun _ => ?_
  have hn' : n < 2 ^ 32 := hn
  exact .pure ⟨by unfold OffsetOK; dsimp only; omega, ⟨by dsimp only; omega, by dsimp only; omega⟩, by unfold BytesOK; dsimp only; omega⟩

theorem u32Init_post (h o : Endian) : Post (Rd.u32Init h o) fun x => x < 2 ^ 32 := by
  intro file p a p' ha
  unfold Rd.u32Init at ha
  split at ha
  · rename_i x _ _
    injection ha with ha
    injection ha with ha
    exact ha ▸ x.isLt
  · rename_i hn
    injection ha with ha
    injection ha with ha
    have hl : (file.drop p).length < 4 := by
      unfold readField at hn
      split at hn
      · cases hn
      · rename_i h4
        exact Nat.lt_of_not_le h4
    obtain ⟨h1, h2⟩ := uintOf_bounds h (file.drop p ++ List.replicate (4 - (file.drop p).length) 0)
    rw [List.length_append, List.length_replicate, show (file.drop p).length + (4 - (file.drop p).length) = 4 by omega] at h2
    have h3 : (256 : Int) ^ 4 = 2 ^ 32 := by decide
    rw [h3] at h2
    rw [← ha]
    omega

/-- A round of the walk through the chunks of a FORM file, with chunk sizes below 2^32. -/
theorem form_round32 {σ : Type} {I : σ → Prop} {chunk : List Byte → Nat → σ → Rd σ} (h : Endian) (size : Nat)
    (hc : ∀ id n s, n < 2 ^ 32 → I s → Post (chunk id n s) I) (s : Nat × σ) (hs : I s.2) :
    Post (formRound chunk h size s) (Post.Next (fun s => I s.2) I) := by
  unfold formRound
  exact .ite (fun _ => .bind' fun id => .bind (u32Init_post _ _) fun n hn => .bind (hc id n s.2 hn hs) fun x hx => .bind' fun _ => .pure hx) fun _ => .pure hs

theorem iff_counts (h : Endian) (fuel : Nat) : Post (iffRead h fuel) fun s => Reported s.t := by
  unfold iffRead
  refine .bind' fun _ => .bind' fun _ => .bind' fun size => .bind' fun ft => .ite (fun _ => .fail) fun _ => ?_
  refine .bind (P := fun s : IffRead => Reported s.t) (.loop (fun s : Nat × IffRead => Reported s.2.t)
    (form_round32 (I := fun s : IffRead => Reported s.t) h size ?_) fuel (fresh_reported _)) fun s hs => ?_
  · intro id n s hn hs
    unfold iffChunk
    refine .ite (fun _ => ?_) fun _ => .ite (fun _ => ?_) fun _ => ?_
    · unfold iffParseVHDR
      iterate 7 refine .bind' fun _ => ?_
      exact .pure ⟨hs.1, hs.2, hs.3⟩
    · unfold iffParseBODY
      exact .bind' fun p => .pure ⟨by unfold OffsetOK; dsimp only; omega, ⟨by dsimp only; omega, by dsimp only; omega⟩, by unfold BytesOK; dsimp only; omega⟩
    · cases iffMiscType id with
      | some type => exact .bind' fun _ => .pure hs
      | none => exact .pure hs
  · exact .ite (fun _ => .undefined) fun hf => .pure hs

/-! ### AIFF: the number of bytes can be negative -/

/-- What an AIFF file reports. -/
structure AiffReported (t : Trk) : Prop where
  offset : OffsetOK t
  count : FrameCountOK t
  bytes : -(2 ^ 32 + 8) < t.dataSize

theorem aiffFormat_frames {h : Endian} {f g : AFmt} {n fpp bpp n' : Int} {id : List Byte} (h0 : 0 ≤ n) (h1 : n < 2 ^ 32)
    (hg : aiffFormat h f n id = some (g, fpp, bpp, n')) : 0 ≤ n' ∧ n' < 2 ^ 48 := by
  unfold aiffFormat at hg
  repeat' split at hg
  all_goals first
    | (cases hg; omega)
    | cases hg

theorem aiff_counts (rnd : Rat → Convert.Dbl) (h : Endian) (fuel : Nat) : Post (aiffRead rnd h fuel) fun s => AiffReported s.t := by
  unfold aiffRead
  refine .bind' fun _ => .bind' fun _ => .bind' fun size => .bind' fun ft => .ite (fun _ => .fail) fun _ => ?_
  refine .bind (P := fun s : AiffRead => AiffReported s.t) (.loop (fun s : Nat × AiffRead => AiffReported s.2.t)
    (form_round32 (I := fun s : AiffRead => AiffReported s.t) h size ?_) fuel ⟨(fresh_reported _).1, (fresh_reported _).2, by unfold Trk.ofFormat; dsimp only; omega⟩) fun s hs => ?_
  · intro id n s hn hs
    unfold aiffChunk
    refine .ite (fun _ => ?_) fun _ => .ite (fun _ => .bind' fun _ => .pure hs) fun _ => .ite (fun _ => ?_) fun _ =>
      .ite (fun _ => ?_) fun _ => .ite (fun _ => ?_) fun _ => ?_
    · unfold aiffParseCOMM
      refine .bind' fun n => .ite (fun _ => .fail) fun h0 => .bind (.field _ _ _) fun fr hfr => .bind' fun w => .bind' fun rate => .ite (fun _ => .undefined) fun _ => .bind' fun id => ?_
      dsimp only
      split
      · exact .fail
      · rename_i hg
        have hfr' : fr < 2 ^ 32 := hfr
        have := aiffFormat_frames (by omega) (by omega) hg
        exact .ite (fun _ => .fail) fun _ => .pure ⟨hs.1, this, hs.3⟩
    · unfold aiffParseINST
      iterate 13 refine .bind' fun _ => ?_
      exact .pure hs
    · unfold aiffParseMARK
      exact .bind' fun _ => .bind' fun _ => .pure hs
    · unfold aiffParseAESD
      exact .bind' fun _ => .pure hs
    · cases aiffMiscType id with
      | some type => exact .bind' fun _ => .pure hs
      | none =>
        refine .ite (fun _ => .ite (fun _ => .fail) fun _ => ?_) fun _ => .pure hs
        unfold aiffParseSSND
        refine .bind (.field _ _ _) fun off ho => .bind' fun _ => .bind' fun p => ?_
        have ho' : off < 2 ^ 32 := ho
        exact .pure ⟨by unfold OffsetOK; dsimp only; omega, hs.2, by dsimp only; omega⟩
  · exact .ite (fun _ => .undefined) fun hf => .pure hs

/-! ### WAVE -/

theorem waveSwitch_fpp {h : Endian} {f : AFmt} (ba : Option Nat) (tg : Nat) :
    Post (waveSwitch h f ba tg) fun r => 0 ≤ r.2.1 ∧ r.2.1 < 2 ^ 16 := by
  have one : ∀ (g : AFmt) (b : Int), 0 ≤ ((g, (1 : Int), b) : AFmt × Int × Int).2.1 ∧ ((g, (1 : Int), b) : AFmt × Int × Int).2.1 < 2 ^ 16 :=
    fun _ _ => ⟨by dsimp only; omega, by dsimp only; omega⟩
  have sp : ∀ (g : AFmt) (n : Nat) (b : Int), n < 2 ^ 16 → 0 ≤ ((g, (n : Int), b) : AFmt × Int × Int).2.1 ∧ ((g, (n : Int), b) : AFmt × Int × Int).2.1 < 2 ^ 16 :=
    fun _ _ _ _ => ⟨by dsimp only; omega, by dsimp only; omega⟩
  unfold waveSwitch
  refine .ite (fun _ => ?_) fun _ => .ite (fun _ => .pure (one _ _)) fun _ =>
    .ite (fun _ => .pure (one _ _)) fun _ => .ite (fun _ => ?_) fun _ => .ite (fun _ => ?_) fun _ =>
    .ite (fun _ => ?_) fun _ => .ite (fun _ => ?_) fun _ => .fail
  · refine .bind' fun bits => ?_
    split
    · exact .fail
    · exact .pure (one _ _)
  · exact .bind' fun bits => .pure (one _ _)
  · refine .bind' fun _ => .bind' fun _ => .bind (.field _ _ _) fun spb hs => .bind' fun nc => .ite (fun _ => .undefined) fun _ => .bind' fun _ => ?_
    cases ba with
    | none => exact .undefined
    | some b => exact .pure (sp _ _ _ hs)
  · refine .bind' fun _ => .bind' fun _ => .bind (.field _ _ _) fun spb hs => ?_
    cases ba with
    | none => exact .undefined
    | some b => exact .pure (sp _ _ _ hs)
  · refine .bind' fun bits => .bind' fun _ => .bind' fun rs => .bind' fun _ => .bind' fun guid => ?_
    refine .ite (fun _ => .undefined) fun _ => .ite (fun _ => ?_) fun _ => .ite (fun _ => .pure (one _ _)) fun _ =>
      .ite (fun _ => .pure (one _ _)) fun _ => .ite (fun _ => .pure (one _ _)) fun _ => .fail
    dsimp only
    split
    · exact .fail
    · exact .pure (one _ _)

/-- What the walk through the chunks of a WAVE file keeps. -/
structure WaveCounts (t : Trk) : Prop where
  reported : Reported t
  size : t.dataSize < 2 ^ 32
  fpp : 0 ≤ t.fpp ∧ t.fpp < 2 ^ 16

theorem wave_chunk_counts (h : Endian) (fuel : Nat) (id : List Byte) (size : Nat) (s : WaveRead) (hz : size < 2 ^ 32) (hs : WaveCounts s.t) :
    Post (waveChunk h fuel id size s) fun s => WaveCounts s.t := by
  unfold waveChunk
  refine .ite (fun _ => ?_) fun _ => .ite (fun _ => .ite (fun _ => .fail) fun _ => ?_) fun _ => .ite (fun _ => .bind' fun _ => .pure hs) fun _ =>
    .ite (fun _ => ?_) fun _ => .ite (fun _ => ?_) fun _ => .ite (fun _ => ?_) fun _ => .ite (fun _ => .bind' fun _ => .pure hs) fun _ =>
    .ite (fun _ => ?_) fun _ => .pure hs
  · unfold waveParseFormat
    refine .bind' fun tg => .bind' fun n => .bind' fun rate => .bind' fun _ => .bind' fun ba => .ite (fun _ => .fail) fun h0 => ?_
    cases tg with
    | none => exact .undefined
    | some tg =>
    cases rate with
    | none => exact .undefined
    | some rate =>
      dsimp only
      refine .bind (waveSwitch_fpp ba tg) fun r hr => ?_
      exact .pure ⟨⟨hs.1.1, hs.1.2, hs.1.3⟩, hs.2, hr⟩
  · unfold waveParseData
    exact .bind' fun _ => .pure ⟨⟨by unfold OffsetOK; dsimp only; omega, hs.1.2, by unfold BytesOK; dsimp only; omega⟩, by dsimp only; omega, hs.3⟩
  · unfold waveParseFact
    refine .bind (.field _ _ _) fun n hn => ?_
    have hn' : n < 2 ^ 32 := hn
    exact .pure ⟨⟨hs.1.1, ⟨by dsimp only; omega, by dsimp only; omega⟩, hs.1.3⟩, hs.2, hs.3⟩
  · unfold waveParseCues
    exact .bind' fun _ => .bind' fun _ => .pure hs
  · unfold waveParseList
    refine .bind' fun _ => .bind' fun _ => .ite (fun _ => .bind' fun _ => .pure hs) fun _ =>
      .ite (fun _ => .bind' fun _ => .pure hs) fun _ => .bind' fun _ => .pure hs
  · unfold wavePlayList
    exact .bind' fun _ => .bind' fun _ => .pure hs

theorem wave_counts (h : Endian) (fuel : Nat) : Post (waveRead h fuel) fun s => Reported s.t := by
  unfold waveRead
  refine .bind' fun _ => .bind' fun _ => .bind' fun size => .bind' fun _ => ?_
  refine .bind (P := fun s : WaveRead => WaveCounts s.t) (.loop (fun s : WaveRead => WaveCounts s.t) ?_ fuel
    ⟨fresh_reported _, by unfold Trk.ofFormat; dsimp only; omega, by unfold Trk.ofFormat; dsimp only; omega⟩) fun s hs => ?_
  · intro s hs
    unfold waveRound
    refine .ite (fun _ => .bind' fun id => .bind (u32Init_post _ _) fun cs hcs => .bind (wave_chunk_counts h fuel id cs s hcs hs) fun s hs => ?_) fun _ => .pure hs
    exact .bind' fun _ => .pure hs
  · refine .ite (fun _ => .fail) fun hf => ?_
    refine .ite (fun _ => .ite (fun _ => .pure ⟨?_, ?_, ?_⟩) fun _ => .fail) fun _ => .pure hs.1
    · unfold OffsetOK; rw [total_first]; exact hs.1.1
    · exact total_small hs.3.1 hs.3.2 hs.1.3 hs.2 hs.1.2
    · unfold BytesOK; rw [total_size]; exact hs.1.3

/-! ### CAF: only the offset -/

theorem caf_offset (F : Float64) (h : Endian) (fuel : Nat) : Post (cafRead F h fuel) fun s => OffsetOK s.t := by
  unfold cafRead
  refine .bind' fun _ => .bind' fun n => ?_
  refine .bind (P := fun s : CafRead => OffsetOK s.t) (.loop (fun s : Int × CafRead => OffsetOK s.2.t) ?_ fuel (fresh_reported _).1) fun s hs => ?_
  · intro s hs
    unfold cafRound
    refine .ite (fun _ => .bind' fun id => .bind' fun l => ?_) fun _ => .pure hs
    refine .bind (P := fun s : CafRead => OffsetOK s.t) ?_ fun x hx => ?_
    · unfold cafChunk
      refine .ite (fun _ => ?_) fun _ => .ite (fun _ => ?_) fun _ => .ite (fun _ => ?_) fun _ => .ite (fun _ => ?_) fun _ => .pure hs
      · unfold cafParseDesc
        refine .bind' fun rate => ?_
        cases rate with
        | none => exact .fail
        | some rate =>
        refine .bind' fun id => .bind' fun fl => .bind' fun _ => .bind' fun fpp => .bind' fun ch => .bind' fun bits => .ite (fun _ => .fail) fun _ => ?_
        dsimp only
        split
        · rename_i hg
          refine .pure ?_
          unfold cafFormat at hg
          dsimp only at hg
          repeat' split at hg
          all_goals first
            | (injection hg with hg; rw [← hg]; exact hs)
            | cases hg
            | (obtain ⟨w, -, hg⟩ := Option.map_eq_some_iff.mp hg; rw [← hg]; exact hs)
        · exact .fail
      · unfold cafParseData
        refine .bind' fun _ => .bind' fun p => .ite (fun _ => .undefined) fun _ => .pure ?_
        unfold OffsetOK
        rw [total_first]
        dsimp only
        omega
      · unfold cafParseTable
        refine .ite (fun _ => .fail) fun _ => .bind' fun _ => .bind' fun _ => .bind' fun _ => .bind' fun _ => .ite (fun _ => .pure hs) fun _ => ?_
        exact .bind' fun _ => .ite (fun _ => .fail) fun _ => .pure hs
      · unfold cafParseCookie
        exact .ite (fun _ => .undefined) fun _ => .bind' fun _ => .ite (fun _ => .fail) fun _ => .pure hs
    · exact .ite (fun _ => .undefined) fun _ => .ite (fun _ => .pure hx) fun _ => .bind' fun _ => .pure hx
  · exact .ite (fun _ => .undefined) fun hf => .pure hs

/-! ### Formats whose sizes come from the length of the file -/

/-- Read from position `p` of `file`, a result and the position behind it satisfy `Q`. -/
def At {α : Type} (file : List Byte) (p : Nat) (m : Rd α) (Q : α → Nat → Prop) : Prop := ∀ a p', m file p = .ok (a, p') → Q a p'

namespace At
variable {α β : Type} {file : List Byte} {p : Nat}

theorem bind {m : Rd α} {g : α → Rd β} {P : α → Nat → Prop} {Q : β → Nat → Prop} (h1 : At file p m P)
    (h2 : ∀ a q, P a q → At file q (g a) Q) : At file p (m >>= g) Q := by
  intro b p' hb
  have hb' : (match m file p with | .ok (a, p) => g a file p | .error e => .error e) = Except.ok (b, p') := hb
  cases hm : m file p with
  | error e => rw [hm] at hb'; cases hb'
  | ok x =>
    obtain ⟨a, q⟩ := x
    rw [hm] at hb'
    exact h2 a q (h1 _ _ hm) _ _ hb'

theorem bind' {m : Rd α} {g : α → Rd β} {Q : β → Nat → Prop} (h2 : ∀ a q, At file q (g a) Q) : At file p (m >>= g) Q :=
  bind (P := fun _ _ => True) (fun _ _ _ => trivial) fun a q _ => h2 a q

theorem pure {a : α} {Q : α → Nat → Prop} (h : Q a p) : At file p (Pure.pure a : Rd α) Q := by
  intro b p' hb
  have : (Except.ok (a, p) : Except Err (α × Nat)) = .ok (b, p') := hb
  injection this with this
  injection this with h1 h2
  exact h1 ▸ h2 ▸ h

theorem fail {Q : α → Nat → Prop} : At file p (Rd.fail : Rd α) Q := fun _ _ h => by cases h
theorem undefined {Q : α → Nat → Prop} : At file p (Rd.undefined : Rd α) Q := fun _ _ h => by cases h

theorem ite {c : Prop} [Decidable c] {m1 m2 : Rd α} {Q : α → Nat → Prop} (h1 : c → At file p m1 Q) (h2 : ¬ c → At file p m2 Q) :
    At file p (if c then m1 else m2) Q := by
  by_cases hc : c
  · rw [if_pos hc]; exact h1 hc
  · rw [if_neg hc]; exact h2 hc

theorem length : At file p Rd.length fun a _ => a = file.length := by
  intro a p' h
  injection h with h
  injection h with h _
  exact h.symm

theorem tell : At file p Rd.tell fun a q => a = p ∧ q = p := by
  intro a p' h
  injection h with h
  injection h with h1 h2
  exact ⟨h1.symm, h2.symm⟩

theorem read (n : Nat) : At file p (Rd.read n) fun a _ => a.length ≤ file.length := by
  intro a p' h
  injection h with h
  injection h with h _
  rw [← h, List.length_take, List.length_drop]
  omega

/-- A field that was read lies within the file. -/
theorem field (h o : Endian) (k : FieldSize) : At file p (Rd.field h o k) fun _ q => 1 ≤ k.bytes → q ≤ file.length := by
  unfold Rd.field
  refine bind (P := fun a q => a ≠ none → 1 ≤ k.bytes → q ≤ file.length) ?_ fun a q ha => ?_
  · intro a p' h'
    unfold Rd.field? at h'
    split at h'
    · rename_i hr
      injection h' with h'
      injection h' with h1 h2
      intro _ hk
      unfold readField at hr
      split at hr
      · rename_i hl
        rw [List.length_drop] at hl
        omega
      · cases hr
    · injection h' with h'
      injection h' with h1 h2
      intro hn
      exact absurd h1.symm hn
  · cases a with
    | none => exact undefined
    | some x => exact pure (ha (by simp))

theorem loop {σ : Type} {body : σ → Rd (σ ⊕ α)} (I : σ → Prop) {Q : α → Prop}
    (hb : ∀ s q, I s → At file q (body s) fun r _ => Post.Next I Q r) (n : Nat) {s : σ} (hs : I s) :
    At file p (Rd.loop body n s) fun a _ => Q a := by
  induction n generalizing s p with
  | zero => intro _ _ h; cases h
  | succ n ih =>
    unfold Rd.loop
    refine bind (hb s p hs) fun r q hr => ?_
    cases r with
    | inl s => exact ih hr
    | inr a => exact pure hr

end At

/-- The data is what follows the header. -/
theorem ircam_counts (F : Float32) (h : Endian) (file : List Byte) (p : Nat) :
    At file p (ircamRead F h) fun t _ => t.first = 1024 ∧ t.dataSize = (file.length : Int) - 1024 ∧
      (1024 ≤ file.length → file.length < 2 ^ 63 → 0 ≤ t.frames ∧ t.frames ≤ t.dataSize) := by
  unfold ircamRead
  refine .bind' fun _ _ => .bind' fun magic _ => ?_
  split
  · exact .fail
  · refine .bind' fun rate _ => .bind' fun ch _ => .bind' fun pm _ => .ite (fun _ => .fail) fun _ => ?_
    dsimp only
    split
    · exact .fail
    · refine .bind .length fun fl q hfl => ?_
      subst hfl
      refine .pure ⟨by rw [total_first], by rw [total_size], fun h1 h2 => ?_⟩
      rw [total_size]
      exact total_one rfl (by dsimp only; omega) (by dsimp only; omega) rfl

/-- The header of a NIST file has been read in full. -/
theorem nist_counts (h : Endian) (file : List Byte) (p : Nat) :
    At file p (nistRead h) fun t _ => t.first = 1024 ∧ 0 ≤ t.dataSize ∧ t.dataSize = (file.length : Int) - 1024 := by
  unfold nistRead
  refine .bind' fun _ _ => .bind (.read _) fun header _ hh => .ite (fun _ => .fail) fun hl => .ite (fun _ => .fail) fun _ => ?_
  have hlen : 1024 ≤ file.length := by omega
  dsimp only
  refine .bind' fun r _ => ?_
  split
  · exact .fail
  refine .bind' fun _ _ => .ite (fun _ => .fail) fun _ => .bind' fun r _ => ?_
  split
  · exact .fail
  refine .bind' fun _ _ => .ite (fun _ => .undefined) fun _ => .bind' fun _ _ => .bind' fun r _ => ?_
  split
  rotate_left
  · exact .fail
  refine .bind' fun _ _ => .bind' fun r _ => ?_
  split
  rotate_left
  · exact .fail
  refine .bind' fun _ _ => .bind' fun r _ => ?_
  split
  rotate_left
  · exact .fail
  refine .bind' fun r _ => ?_
  split
  · exact .fail
  refine .bind' fun _ _ => .ite (fun _ => .fail) fun _ => .bind' fun r _ => ?_
  split
  · exact .fail
  refine .bind' fun _ _ => .ite (fun _ => .fail) fun _ => .bind .length fun fl _ hfl => ?_
  subst hfl
  exact .pure ⟨rfl, by dsimp only; omega, rfl⟩

/-- What a VOC file reports. -/
structure VocReported (file : List Byte) (t : Trk) : Prop where
  offset : OffsetOK t
  bytes : -1 ≤ t.dataSize
  count : file.length < 2 ^ 63 → 0 ≤ t.dataSize → 0 ≤ t.frames ∧ t.frames ≤ t.dataSize

theorem voc_counts (h : Endian) (fuel : Nat) (file : List Byte) (p : Nat) : At file p (vocRead h fuel) fun t _ => VocReported file t := by
  unfold vocRead
  refine .bind' fun _ _ => .bind' fun _ _ => .bind' fun _ _ => .bind' fun _ _ => .bind' fun pos _ => ?_
  refine .bind (P := fun (t : Option Trk) _ => ∀ t', t = some t' → VocReported file t')
    (.loop (fun s : VocState => ∀ t, s.track = some t → VocReported file t) ?_ fuel (s := ⟨pos, none, none⟩) fun t ht => by cases ht) fun t q ht => ?_
  · intro s q hs
    unfold vocRound
    refine .bind .length fun fl _ hfl => .ite (fun _ => ?_) fun _ => .pure hs
    subst hfl
    refine .bind' fun hd _ => ?_
    cases hd with
    | none => exact .pure hs
    | some hd =>
      dsimp only
      refine .ite (fun _ => ?_) fun _ => .ite (fun _ => ?_) fun _ => .ite (fun _ => ?_) fun _ => ?_
      · refine .ite (fun _ => .fail) fun _ => .bind' fun dv _ => .bind (.field _ _ _) fun codec q' hq => .ite (fun _ => .fail) fun _ => ?_
        have hq' : q' ≤ file.length := hq (by decide)
        have fin : ∀ (f : AFmt) (b : Int), VocReported file (Trk.computeTotalFileFrames
            { f := f, fpp := 1, bpp := b, first := q', afterData := 0, dataSize := (file.length : Int) - 1 - q', frames := 0 }) := by
          intro f b
          refine ⟨?_, ?_, fun h1 h2 => ?_⟩
          · unfold OffsetOK; rw [total_first]; dsimp only; omega
          · rw [total_size]; dsimp only; omega
          · rw [total_size] at h2 ⊢
            exact total_one rfl h2 (by dsimp only; omega) rfl
        split
        · refine .bind (P := fun _ q'' => q'' = q') (.pure rfl) fun a q'' hq'' => .bind .tell fun first _ hf => .bind' fun _ _ => .pure ?_
          obtain ⟨rfl, -⟩ := hf
          subst hq''
          intro t ht
          injection ht with ht
          exact ht ▸ fin _ _
        · refine .bind (P := fun _ q'' => q'' = q') (.pure rfl) fun a q'' hq'' => .bind .tell fun first _ hf => .bind' fun _ _ => .pure ?_
          obtain ⟨rfl, -⟩ := hf
          subst hq''
          intro t ht
          injection ht with ht
          exact ht ▸ fin _ _
        · exact .bind (P := fun _ _ => False) .undefined fun _ _ h => h.elim
      · refine .ite (fun _ => .fail) fun _ => .bind' fun dv _ => .bind' fun _ _ => .bind' fun st _ => ?_
        exact .bind' fun _ _ => .pure hs
      · refine .ite (fun _ => .fail) fun _ => .bind' fun rate _ => .bind' fun _ _ => .bind' fun n _ => .bind' fun fmt _ => ?_
        refine .bind' fun _ _ => .ite (fun _ => .fail) fun h0 => .bind' fun first _ => ?_
        split
        · exact .fail
        · refine .bind' fun _ _ => .pure ?_
          intro t ht
          injection ht with ht
          rw [← ht]
          have hw : ∀ x : Int, 0 ≤ wrapU 32 x ∧ wrapU 32 x < 2 ^ 32 := fun x => by unfold wrapU; omega
          refine ⟨?_, ?_, fun _ h2 => ?_⟩
          · unfold OffsetOK; rw [total_first]; dsimp only; omega
          · rw [total_size]; dsimp only; have := (hw ((hd / 256 : Nat) - 12)).1; omega
          · rw [total_size] at h2 ⊢
            exact total_one rfl h2 (by dsimp only; have := (hw ((hd / 256 : Nat) - 12)).2; omega) rfl
      · exact .bind' fun _ _ => .pure hs
  · cases t with
    | none => exact .undefined
    | some t => exact .pure (ht t rfl)

theorem bind_inv {α β : Type} {m : Rd α} {g : α → Rd β} {file : List Byte} {p p' : Nat} {b : β} (hb : (m >>= g) file p = .ok (b, p')) :
    ∃ a q, m file p = .ok (a, q) ∧ g a file q = .ok (b, p') := by
  have hb' : (match m file p with | .ok (a, p) => g a file p | .error e => .error e) = Except.ok (b, p') := hb
  cases hm : m file p with
  | error e => rw [hm] at hb'; cases hb'
  | ok x =>
    obtain ⟨a, q⟩ := x
    rw [hm] at hb'
    exact ⟨a, q, rfl, hb'⟩

theorem sub_post {α : Type} {m : Rd α} {g : α → Trk} {Q : Trk → Prop} (h : Post m fun a => Q (g a)) {file : List Byte} {p p' : Nat} {t : Trk}
    (hr : (m >>= fun a => Pure.pure (g a)) file p = .ok (t, p')) : Q t :=
  (Post.bind h fun _ ha => .pure ha : Post (m >>= fun a => Pure.pure (g a)) Q) file p t p' hr

end AF.Files
