import Verif.Spec.ForeignAdpcm
import Verif.Props.ImaDecoder
import Verif.Props.MsDecoder
import Verif.Proof.Adpcm
import Verif.Proof.ForeignWAVE
/-!
# ADPCM files of other programs: blocks and frames
-/
namespace AF.Foreign
open AF AF.Setup AF.Files AF.Convert AF.Spec AF.Spec.Program AF.Spec.Adpcm AF.Adpcm AF.Spec.Foreign
open AF.IMA (column)

theorem blocks_length (size : Nat) (sound : List Byte) : (soundBlocks size sound).length = sound.length / size := by
  unfold soundBlocks; rw [List.length_map, List.length_range]

theorem block_size {size : Nat} {sound : List Byte} : ∀ b ∈ soundBlocks size sound, b.length = size := by
  intro b hb
  obtain ⟨i, hi, rfl⟩ := List.mem_map.1 hb
  have h1 := List.mem_range.1 hi
  have h2 : (i + 1) * size ≤ sound.length := Nat.le_trans (Nat.mul_le_mul_right _ h1) (Nat.div_mul_le_self _ _)
  rw [Nat.add_mul] at h2
  rw [List.length_take, List.length_drop]
  omega

theorem flatten_chunks (size : Nat) (sound : List Byte) : ∀ m, ((List.range m).map fun i => (sound.drop (i * size)).take size).flatten = sound.take (m * size) := by
  intro m
  induction m with
  | zero => simp
  | succ m ih =>
    rw [List.range_succ, List.map_append, List.flatten_append, ih, List.map_singleton, List.flatten_singleton, Nat.add_mul, Nat.one_mul, List.take_add]

theorem flatten_blocks (size : Nat) (sound : List Byte) : (soundBlocks size sound).flatten = sound.take (sound.length / size * size) := flatten_chunks _ _ _

/-- Frames are their columns. -/
theorem rows_of_columns {ch n : Nat} {fs : List (List Int)} {channel : Nat → List Int} (h1 : fs.length = n) (h2 : ∀ f ∈ fs, f.length = ch)
    (h3 : ∀ c, c < ch → column c fs = channel c) : fs = rows ch n channel := by
  have hcol : ∀ (fs : List (List Int)), (∀ f ∈ fs, f.length = ch) → ∀ c, c < ch → ∀ i (hi : i < fs.length), (column c fs).getD i 0 = (fs[i]).getD c 0 := by
    intro fs
    induction fs with
    | nil => intro _ c _ i hi; exact absurd hi (Nat.not_lt_zero _)
    | cons f fs ih =>
      intro hf c hc i hi
      have hfl := hf f List.mem_cons_self
      rw [IMA.column_cons c f fs (by omega)]
      cases i with
      | zero => simp [List.getD_eq_getElem?_getD, List.getElem?_eq_getElem (show c < f.length by omega)]
      | succ i => exact ih (fun g hg => hf g (List.mem_cons_of_mem _ hg)) c hc i (by rw [List.length_cons] at hi; omega)
  unfold rows
  refine List.ext_getElem (by rw [List.length_map, List.length_range, h1]) fun i hi hi' => ?_
  simp only [List.getElem_map, List.getElem_range]
  have hl := h2 _ (List.getElem_mem hi)
  refine List.ext_getElem (by rw [List.length_map, List.length_range, hl]) fun c hc hc' => ?_
  simp only [List.getElem_map, List.getElem_range]
  rw [← h3 c (by omega), hcol fs h2 c (by omega) i hi]
  simp [List.getD_eq_getElem?_getD, List.getElem?_eq_getElem hc]

theorem rows_frame16 {ch n : Nat} {channel : Nat → List Int} (h : ∀ c, c < ch → ∀ x ∈ channel c, -32768 ≤ x ∧ x ≤ 32767) :
    ∀ fr ∈ rows ch n channel, Frame16 ch fr := by
  intro fr hfr
  obtain ⟨i, -, rfl⟩ := List.mem_map.1 hfr
  refine ⟨by rw [List.length_map, List.length_range], fun x hx => ?_⟩
  obtain ⟨c, hc, rfl⟩ := List.mem_map.1 hx
  rw [List.getD_eq_getElem?_getD]
  cases he : (channel c)[i]? with
  | none => exact ⟨by decide, by decide⟩
  | some y => exact h c (List.mem_range.1 hc) y (List.mem_of_getElem? he)

/-- A sound of blocks that are all decoded plays. -/
theorem plays_sound {ε : Type} (h : Endian) (fm : Module → List Byte → List Byte) (C : Codec ε) {file sound : List Byte} {t : Trk} {fpp bpp ch : Nat}
    {frames : List Byte → List (List Int)} (hf : t.fpp = fpp) (hb : t.bpp = bpp) (hf0 : 0 < fpp) (hb0 : 0 < bpp) (h0 : 0 ≤ t.first)
    (hdec : ∀ b ∈ soundBlocks bpp sound, C.dec b = .ok (frames b) ∧ (frames b).length = fpp ∧ ∀ fr ∈ frames b, Frame16 ch fr)
    (haud : (file.drop t.first.toNat).take sound.length = sound) (hcount : 0 ≤ t.frames ∧ t.frames ≤ (sound.length / bpp * fpp : Nat))
    (hch : t.f.channels = ch) (hcomp : t.f.compression ≠ NONE) (htr : Program.IntTrack t.f 2 false) :
    Plays h fm C (((soundBlocks bpp sound).flatMap frames).take t.frames.toNat) file t := by
  refine plays_blocks h fm C (ch := ch) hf hb hf0 hb0 h0 block_size ?_ ?_ (by rw [blocks_length]; exact hcount) ?_ hch hcomp htr
  · generalize soundBlocks bpp sound = Bs at hdec
    induction Bs with
    | nil => rfl
    | cons b Bs ih =>
      rw [List.flatMap_cons, List.flatMap_cons, List.map_append, ih fun c hc => hdec c (List.mem_cons_of_mem _ hc)]
      obtain ⟨d1, d2, -⟩ := hdec b List.mem_cons_self
      refine congrArg (· ++ _) ?_
      unfold decodeOf
      rw [d1]
      dsimp only
      rw [List.take_append_of_le_length (by rw [List.length_map]; omega), List.take_of_length_le (by rw [List.length_map]; omega)]
  · rw [flatten_blocks, List.length_take, Nat.min_eq_left (Nat.div_mul_le_self _ _)]
    have := congrArg (List.take (sound.length / bpp * bpp)) haud
    rw [List.take_take, Nat.min_eq_left (Nat.div_mul_le_self _ _)] at this
    exact this
  · intro fr hfr
    obtain ⟨b, hb, hfr⟩ := List.mem_flatMap.1 hfr
    exact (hdec b hb).2.2 fr hfr

/-! ## The codecs -/

theorem imaWave_dec (ch k : Nat) {b : List Byte} (hl : (4 + 4 * k) * ch ≤ b.length) (hi : ∀ c, c < ch → Spec.Ima.byteAt b (4 * c + 2) ≤ 88) :
    (imaWave ch (8 * k + 1)).dec b = .ok (rows ch (8 * k + 1) (Spec.Ima.waveChannel ch k b)) ∧
      (rows ch (8 * k + 1) (Spec.Ima.waveChannel ch k b)).length = 8 * k + 1 ∧ ∀ fr ∈ rows ch (8 * k + 1) (Spec.Ima.waveChannel ch k b), Frame16 ch fr := by
  obtain ⟨fs, h1, h2, h3, h4⟩ := IMA.C79_ima_wave_decoder ch k b hl hi
  have hr := rows_of_columns h2 h3 h4
  refine ⟨by rw [← hr]; exact h1, by rw [← hr]; exact h2, rows_frame16 fun c hc x hx => ?_⟩
  rcases List.mem_cons.1 hx with rfl | hx
  · have b0 := IMA.byteAt_lt b (4 * c)
    have b1 := IMA.byteAt_lt b (4 * c + 1)
    exact IMA.signed16_range (by omega)
  · exact IMA.samples_range _ x hx

theorem imaQT_dec (ch : Nat) {b : List Byte} (hl : 34 * ch ≤ b.length) (hi : ∀ c, c < ch → Spec.Ima.byteAt b (34 * c + 1) % 128 ≤ 88) :
    (imaQT ch 64).dec b = .ok (rows ch 64 (Spec.Ima.qtChannel 32 b)) ∧
      (rows ch 64 (Spec.Ima.qtChannel 32 b)).length = 64 ∧ ∀ fr ∈ rows ch 64 (Spec.Ima.qtChannel 32 b), Frame16 ch fr := by
  obtain ⟨fs, h1, h2, h3, h4⟩ := IMA.C79_ima_qt_decoder ch 32 b hl hi
  have hr := rows_of_columns h2 h3 h4
  exact ⟨by rw [← hr]; exact h1, by rw [← hr]; exact h2, rows_frame16 fun c hc x hx => IMA.samples_range _ x hx⟩

theorem ms_samples_range (co : Int × Int) : ∀ (cs : List Nat) (s : Spec.Ms.State), ∀ x ∈ Spec.Ms.samples co s cs, -32768 ≤ x ∧ x ≤ 32767
  | [], _, x, hx => by cases hx
  | c :: cs, s, x, hx => by
    rcases List.mem_cons.1 hx with rfl | hx
    · exact MSADPCM.limit_range _
    · exact ms_samples_range co cs _ x hx

theorem ms_dec (ch n : Nat) (hch : ch = 1 ∧ n % 2 = 0 ∨ ch = 2) {b : List Byte} (hl : 2 * (7 * ch) + n * ch ≤ 2 * b.length)
    (hi : ∀ c, c < ch → Spec.Ima.byteAt b c < 7) (hs : Spec.Ms.SteadyBlock msCoefs ch n b) :
    (ms ch (n + 2)).dec b = .ok (rows ch (n + 2) (Spec.Ms.channel msCoefs ch n b)) ∧
      (rows ch (n + 2) (Spec.Ms.channel msCoefs ch n b)).length = n + 2 ∧ ∀ fr ∈ rows ch (n + 2) (Spec.Ms.channel msCoefs ch n b), Frame16 ch fr := by
  obtain ⟨fs, hfs⟩ := MSADPCM.C79_ms_decodes MSADPCM.defaultCoefs (by decide) ch n (by omega) (by omega) b hl hi hs
  have key : fs.length = n + 2 ∧ (∀ f ∈ fs, f.length = ch) ∧ ∀ c, c < ch → column c fs = Spec.Ms.channel msCoefs ch n b c := by
    rcases hch with ⟨rfl, hn⟩ | rfl
    · obtain ⟨m, rfl⟩ : ∃ m, n = 2 * m := ⟨n / 2, by omega⟩
      obtain ⟨a1, a2, a3⟩ := MSADPCM.C79_ms_mono_decoder _ m b (by omega) hfs
      refine ⟨a1, a2, fun c hc => ?_⟩
      obtain rfl : c = 0 := by omega
      exact a3
    · exact MSADPCM.C79_ms_stereo_decoder _ n b (by omega) hfs
  have hr := rows_of_columns key.1 key.2.1 key.2.2
  refine ⟨by rw [← hr]; exact hfs, by rw [← hr]; exact key.1, rows_frame16 fun c hc x hx => ?_⟩
  have hv := MSADPCM.start_valid ch b c
  rcases List.mem_cons.1 hx with rfl | hx
  · exact ⟨hv.b1, hv.b2⟩
  · rcases List.mem_cons.1 hx with rfl | hx
    · exact ⟨hv.l1, hv.l2⟩
    · exact ms_samples_range _ _ _ x hx

end AF.Foreign
