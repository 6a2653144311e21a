import Verif.Proof.ImaDecoder
/-!
# C79: IMA ADPCM blocks are decoded as the definition says
-/
namespace AF.IMA
open AF

theorem C79_ima_wave_decoder (ch k : Nat) (block : List Byte) (hl : (4 + 4 * k) * ch ≤ block.length)
    (hi : ∀ c, c < ch → Spec.Ima.byteAt block (4 * c + 2) ≤ 88) :
    ∃ frames, decodeBlockWAVE ch (8 * k + 1) block = .ok frames ∧ frames.length = 8 * k + 1 ∧ (∀ f ∈ frames, f.length = ch) ∧
      ∀ c, c < ch → column c frames = Spec.Ima.waveChannel ch k block c := by
  have hmul : (4 + 4 * k) * ch = 4 * ch + 4 * k * ch := Nat.add_mul _ _ _
  have h1 := headers_spec block ch 0 (by omega)
  generalize hS : (List.range ch).map (fun c => Spec.Ima.waveStart block c) = sts
  have hl' : sts.length = ch := by rw [← hS, List.length_map, List.length_range]
  have hg : ∀ c (hc : c < sts.length), sts[c] = Spec.Ima.waveStart block c := by
    intro c hc
    simp only [← hS, List.getElem_map, List.getElem_range]
  have hv : ∀ s ∈ sts, SValid s := by
    intro s hs
    rw [← hS] at hs
    obtain ⟨c, hc, rfl⟩ := List.mem_map.1 hs
    have b0 := byteAt_lt block (4 * c)
    have b1 := byteAt_lt block (4 * c + 1)
    have hr := signed16_range (x := Spec.Ima.byteAt block (4 * c + 1) * 256 + Spec.Ima.byteAt block (4 * c)) (by omega)
    have := hi c (List.mem_range.1 hc)
    exact ⟨hr.1, hr.2, by show (0 : Int) ≤ (Spec.Ima.byteAt block (4 * c + 2) : Nat); omega,
      by show ((Spec.Ima.byteAt block (4 * c + 2) : Nat) : Int) ≤ 88; omega⟩
  have hm : (List.range ch).map (fun c => conv (Spec.Ima.waveStart block (0 + c))) = sts.map conv := by
    rw [← hS, List.map_map]
    refine List.map_congr_left fun c _ => ?_
    rw [Nat.zero_add]; rfl
  rw [hm, Nat.zero_add, Nat.mul_zero, List.drop_zero] at h1
  obtain ⟨frames, r1, r2, r3, r4⟩ := waveGroups_spec block k sts (4 * ch) hv (by rw [hl']; omega)
  have hfr : decodeBlockWAVE ch (8 * k + 1) block = .ok ((sts.map conv).map (·.prev) :: frames) := by
    unfold decodeBlockWAVE
    rw [h1]
    simp only [bind, Except.bind]
    rw [show (8 * k + 1 - 1 + 7) / 8 = k by omega, r1]
    simp only
    rw [if_neg (by omega)]
    rfl
  refine ⟨_, hfr, by rw [List.length_cons, r2], ?_, ?_⟩
  · intro f hf
    rcases List.mem_cons.1 hf with rfl | hf
    · rw [List.length_map, List.length_map, hl']
    · rw [r3 f hf, hl']
  · intro c hc
    rw [column_cons c _ _ (by rw [List.length_map, List.length_map, hl']; exact hc), r4 c (by omega), hg]
    rw [show groupCodes sts.length = groupCodes ch by rw [hl']]
    unfold Spec.Ima.waveChannel groupCodes
    refine congr (congrArg _ ?_) rfl
    simp only [List.getElem_map]
    rw [hg]

theorem C79_ima_qt_decoder (ch n : Nat) (block : List Byte) (hl : (2 + n) * ch ≤ block.length)
    (hi : ∀ c, c < ch → Spec.Ima.byteAt block ((2 + n) * c + 1) % 128 ≤ 88) :
    ∃ frames, decodeBlockQT ch (2 * n) block = .ok frames ∧ frames.length = 2 * n ∧ (∀ f ∈ frames, f.length = ch) ∧
      ∀ c, c < ch → column c frames = Spec.Ima.qtChannel n block c := by
  have h1 := qt_spec block n ch 0 (by rw [Nat.zero_add]; exact hl) (fun c hc => by rw [Nat.zero_add]; exact hi c hc)
  rw [Nat.mul_zero, List.drop_zero] at h1
  have hcl : ((List.range ch).map fun c => Spec.Ima.qtChannel n block (0 + c)).length = ch := by rw [List.length_map, List.length_range]
  refine ⟨interleave (2 * n) ((List.range ch).map fun c => Spec.Ima.qtChannel n block (0 + c)), ?_, interleave_length _ _, ?_, ?_⟩
  · unfold decodeBlockQT
    rw [h1]
    simp only [bind, Except.bind]
    rw [if_neg (by omega)]
    rfl
  · intro f hf
    rw [interleave_width _ _ f hf, hcl]
  · intro c hc
    have e : ((List.range ch).map fun c => Spec.Ima.qtChannel n block (0 + c))[c]'(by omega) = Spec.Ima.qtChannel n block c := by
      simp only [List.getElem_map, List.getElem_range, Nat.zero_add]
    rw [column_interleave _ c _ (by omega) (by
      rw [e]; unfold Spec.Ima.qtChannel; rw [samples_length, List.length_map, List.length_range]), e]

/-- A stereo block of nine frames. -/
example : (4 + 4 * 1) * 2 ≤ [0x34, 0xf2, 88, 7, 1, 0, 20, 0, 0xff, 0x7f, 0, 1, 0x12, 0x34, 0x56, (0x78 : Byte)].length ∧
    (∀ c, c < 2 → Spec.Ima.byteAt [0x34, 0xf2, 88, 7, 1, 0, 20, 0, 0xff, 0x7f, 0, 1, 0x12, 0x34, 0x56, (0x78 : Byte)] (4 * c + 2) ≤ 88) ∧
    Spec.Ima.waveChannel 2 1 [0x34, 0xf2, 88, 7, 1, 0, 20, 0, 0xff, 0x7f, 0, 1, 0x12, 0x34, 0x56, (0x78 : Byte)] 1 =
      [1, 32, 48, 94, 137, 209, 319, 305, 504] := by
  decide +kernel

end AF.IMA
