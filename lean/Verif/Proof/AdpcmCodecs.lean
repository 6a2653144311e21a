import Verif.Proof.Adpcm
import Verif.Props.IMA
import Verif.Props.MSADPCM
/-!
# The ADPCM codecs on whole tracks
-/
namespace AF.Adpcm
open AF AF.Spec.Adpcm

def ImaState (ch : Nat) (sts : List IMA.St) : Prop := sts.length = ch ∧ ∀ s ∈ sts, s.Valid

theorem ima_initial (ch : Nat) : ImaState ch (IMA.initial ch) := ⟨by simp [IMA.initial], IMA.initial_valid ch⟩

theorem imaWave_good (ch k : Nat) : Good (imaWave ch (8 * k + 1)) (ImaState ch) (8 * k + 1) ((4 + 4 * k) * ch) ch := by
  rintro sts xs ⟨rfl, hv⟩ hl hf
  obtain ⟨b, sts', ys, h1, h2, h3, h4, h5, h6, h7, h8⟩ := IMA.C21_wave_block k sts xs hv hl fun fr hm => (hf fr hm).1
  refine ⟨b, sts', ys, h1, h2, ⟨h7, h6⟩, h3, h4, fun fr hm => ⟨h5 fr hm, fun x hx => ?_⟩⟩
  obtain ⟨i, hi, rfl⟩ := List.mem_iff_getElem.1 hx
  have hi' : i < sts.length := by rw [h5 fr hm] at hi; exact hi
  have hmem : fr[i] ∈ IMA.column i ys := by
    unfold IMA.column
    exact List.mem_filterMap.2 ⟨fr, hm, List.getElem?_eq_getElem hi⟩
  rw [(h8 i hi').1] at hmem
  have hvs := hv sts[i] (List.getElem_mem hi')
  rcases List.mem_cons.1 hmem with e | e
  · rw [e]; exact ⟨hvs.lo, hvs.hi⟩
  · exact (IMA.C19_decoder_tracks_encoder _ hvs _).2.2.2.2.1 _ e

theorem imaQT_good (ch k : Nat) : Good (imaQT ch (2 * k)) (ImaState ch) (2 * k) ((2 + k) * ch) ch := by
  rintro sts xs ⟨rfl, hv⟩ hl hf
  obtain ⟨b, sts', ys, h1, h2, h3, h4, h5, h6, h7, h8⟩ := IMA.C21_qt_block k sts xs hv hl fun fr hm => (hf fr hm).1
  refine ⟨b, sts', ys, h1, h2, ⟨h7, h6⟩, h3, h4, fun fr hm => ⟨h5 fr hm, fun x hx => ?_⟩⟩
  obtain ⟨i, hi, rfl⟩ := List.mem_iff_getElem.1 hx
  have hi' : i < sts.length := by rw [h5 fr hm] at hi; exact hi
  have hmem : fr[i] ∈ IMA.column i ys := by
    unfold IMA.column
    exact List.mem_filterMap.2 ⟨fr, hm, List.getElem?_eq_getElem hi⟩
  obtain ⟨start, s1, -, -, -, -, s2, -⟩ := h8 i hi'
  rw [s2] at hmem
  exact (IMA.C19_decoder_tracks_encoder _ s1 _).2.2.2.2.1 _ hmem

theorem frame1 {fr : List Int} (h : Frame16 1 fr) : ∃ x, fr = [x] ∧ -32768 ≤ x ∧ x ≤ 32767 := by
  match fr, h with
  | [x], h => exact ⟨x, rfl, h.2 x List.mem_cons_self⟩

theorem frame2 {fr : List Int} (h : Frame16 2 fr) : ∃ x y, fr = [x, y] ∧ (-32768 ≤ x ∧ x ≤ 32767) ∧ -32768 ≤ y ∧ y ≤ 32767 := by
  match fr, h with
  | [x, y], h => exact ⟨x, y, rfl, h.2 x (by simp), h.2 y (by simp)⟩

theorem frames1 : ∀ xs : List (List Int), (∀ fr ∈ xs, Frame16 1 fr) → ∃ l : List Int, xs = l.map ([·]) ∧ ∀ x ∈ l, -32768 ≤ x ∧ x ≤ 32767
  | [], _ => ⟨[], rfl, fun x hx => by cases hx⟩
  | fr :: xs, h => by
    obtain ⟨x, rfl, hx⟩ := frame1 (h fr List.mem_cons_self)
    obtain ⟨l, rfl, hl⟩ := frames1 xs fun f hf => h f (List.mem_cons_of_mem _ hf)
    refine ⟨x :: l, rfl, fun y hy => ?_⟩
    rcases List.mem_cons.1 hy with rfl | hy
    · exact hx
    · exact hl y hy

theorem frames2 : ∀ xs : List (List Int), (∀ fr ∈ xs, Frame16 2 fr) → ∃ l r : List Int, xs = MSADPCM.zip2 l r ∧ l.length = xs.length ∧
    r.length = xs.length ∧ (∀ x ∈ l, -32768 ≤ x ∧ x ≤ 32767) ∧ ∀ x ∈ r, -32768 ≤ x ∧ x ≤ 32767
  | [], _ => ⟨[], [], rfl, rfl, rfl, (fun x hx => by cases hx), fun x hx => by cases hx⟩
  | fr :: xs, h => by
    obtain ⟨x, y, rfl, hx, hy⟩ := frame2 (h fr List.mem_cons_self)
    obtain ⟨l, r, h1, h2, h3, h4, h5⟩ := frames2 xs fun f hf => h f (List.mem_cons_of_mem _ hf)
    refine ⟨x :: l, y :: r, by rw [h1]; rfl, by rw [List.length_cons, List.length_cons, h2], by rw [List.length_cons, List.length_cons, h3], ?_, ?_⟩
    · intro z hz
      rcases List.mem_cons.1 hz with rfl | hz
      · exact hx
      · exact h4 z hz
    · intro z hz
      rcases List.mem_cons.1 hz with rfl | hz
      · exact hy
      · exact h5 z hz

theorem zip2_frames {l r : List Int} (hl : l.length = r.length) (h1 : ∀ x ∈ l, -32768 ≤ x ∧ x ≤ 32767) (h2 : ∀ x ∈ r, -32768 ≤ x ∧ x ≤ 32767) :
    (MSADPCM.zip2 l r).length = l.length ∧ ∀ fr ∈ MSADPCM.zip2 l r, Frame16 2 fr := by
  induction l generalizing r with
  | nil => cases r with
    | nil => exact ⟨rfl, fun fr hf => by cases hf⟩
    | cons b r => cases hl
  | cons a l ih => cases r with
    | nil => cases hl
    | cons b r =>
      obtain ⟨i1, i2⟩ := ih (r := r) (by simpa using hl) (fun x hx => h1 x (List.mem_cons_of_mem _ hx)) fun x hx => h2 x (List.mem_cons_of_mem _ hx)
      have e : MSADPCM.zip2 (a :: l) (b :: r) = [a, b] :: MSADPCM.zip2 l r := rfl
      rw [e]
      refine ⟨by rw [List.length_cons, i1, List.length_cons], fun fr hf => ?_⟩
      rcases List.mem_cons.1 hf with rfl | hf
      · refine ⟨rfl, fun x hx => ?_⟩
        rcases List.mem_cons.1 hx with rfl | hx
        · exact h1 x List.mem_cons_self
        · have := List.mem_singleton.1 hx
          subst this
          exact h2 x List.mem_cons_self
      · exact i2 fr hf

theorem ms_good1 : Good (ms 1 500) (fun _ => True) 500 256 1 := by
  rintro e xs - hl hf
  obtain ⟨l, rfl, h16⟩ := frames1 xs hf
  rw [List.length_map] at hl
  match l, hl with
  | x0 :: x1 :: l, hl =>
    have hl' : l.length = 2 * 249 := by simpa using hl
    obtain ⟨b, co, d, h1, h2, h3, h4, h5⟩ := MSADPCM.C23_mono_block MSADPCM.defaultCoefs MSADPCM.defaultCoefs_moderate (by decide) (by decide)
      249 (by decide) x0 x1 l hl' h16
    obtain ⟨-, -, -, -, r1, r2⟩ := MSADPCM.run_ok co (MSADPCM.defaultCoefs_moderate _ h3) l _ h4 fun x hx =>
      h16 x (List.mem_cons_of_mem _ (List.mem_cons_of_mem _ hx))
    refine ⟨b, (), _, ?_, h2, trivial, h5, by rw [List.length_map, List.length_cons, List.length_cons, r1, hl'], ?_⟩
    · show (MSADPCM.encodeBlock MSADPCM.defaultCoefs 1 (2 * 249 + 2) ((x0 :: x1 :: l).map ([·]))).map _ = _
      rw [h1]; rfl
    · intro fr hm
      obtain ⟨y, hy, rfl⟩ := List.mem_map.1 hm
      refine ⟨rfl, fun x hx => ?_⟩
      have := List.mem_singleton.1 hx
      subst this
      rcases List.mem_cons.1 hy with rfl | hy
      · exact h16 _ List.mem_cons_self
      · rcases List.mem_cons.1 hy with rfl | hy
        · exact h16 _ (List.mem_cons_of_mem _ List.mem_cons_self)
        · exact r2 _ hy

theorem ms_good2 : Good (ms 2 500) (fun _ => True) 500 512 2 := by
  rintro e xs - hl hf
  obtain ⟨l, r, rfl, hl1, hl2, h16, h16'⟩ := frames2 xs hf
  rw [hl] at hl1 hl2
  match l, r, hl1, hl2 with
  | x0 :: x1 :: l, y0 :: y1 :: r, hl1, hl2 =>
    have hl1' : l.length = 498 := by simpa using hl1
    have hl2' : r.length = 498 := by simpa using hl2
    obtain ⟨b, co, d, co', d', h1, h2, h3, h3', h4, h4', h5⟩ := MSADPCM.C23_stereo_block MSADPCM.defaultCoefs MSADPCM.defaultCoefs_moderate
      (by decide) (by decide) 498 (by decide) x0 x1 y0 y1 l r hl1' hl2' h16 h16'
    obtain ⟨-, -, -, -, r1, r2⟩ := MSADPCM.run_ok co (MSADPCM.defaultCoefs_moderate _ h3) l _ h4 fun x hx =>
      h16 x (List.mem_cons_of_mem _ (List.mem_cons_of_mem _ hx))
    obtain ⟨-, -, -, -, r1', r2'⟩ := MSADPCM.run_ok co' (MSADPCM.defaultCoefs_moderate _ h3') r _ h4' fun x hx =>
      h16' x (List.mem_cons_of_mem _ (List.mem_cons_of_mem _ hx))
    have hz := zip2_frames (l := x0 :: x1 :: MSADPCM.encoderValues co ⟨d, x1, x0⟩ l) (r := y0 :: y1 :: MSADPCM.encoderValues co' ⟨d', y1, y0⟩ r)
      (by rw [List.length_cons, List.length_cons, List.length_cons, List.length_cons, r1, r1', hl1', hl2'])
      (by
        intro x hx
        rcases List.mem_cons.1 hx with rfl | hx
        · exact h16 _ List.mem_cons_self
        · rcases List.mem_cons.1 hx with rfl | hx
          · exact h16 _ (List.mem_cons_of_mem _ List.mem_cons_self)
          · exact r2 _ hx)
      (by
        intro x hx
        rcases List.mem_cons.1 hx with rfl | hx
        · exact h16' _ List.mem_cons_self
        · rcases List.mem_cons.1 hx with rfl | hx
          · exact h16' _ (List.mem_cons_of_mem _ List.mem_cons_self)
          · exact r2' _ hx)
    refine ⟨b, (), _, ?_, by rw [h2], trivial, h5, by rw [hz.1, List.length_cons, List.length_cons, r1, hl1'], hz.2⟩
    show (MSADPCM.encodeBlock MSADPCM.defaultCoefs 2 (498 + 2) (MSADPCM.zip2 (x0 :: x1 :: l) (y0 :: y1 :: r))).map _ = _
    rw [h1]; rfl

end AF.Adpcm
