import Verif.Proof.MsDecoder
import Verif.Props.MSADPCM
/-!
# C79: Microsoft ADPCM blocks are decoded as the definition says
-/
namespace AF.MSADPCM
open AF
open AF.IMA (column)

theorem coefAt_spec {coefs : List Coef} {b : Byte} {co : Coef} (h : coefAt coefs b = .ok co) : co = coefs.getD b.toNat (0, 0) ∧ co ∈ coefs := by
  unfold coefAt at h
  split at h
  · next c hc =>
    simp only [Except.ok.injEq] at h
    subst h
    rw [List.getD_eq_getElem?_getD, hc]
    exact ⟨rfl, List.mem_of_getElem? hc⟩
  · cases h

theorem u16_signed (lo hi : Byte) : wrapS 16 (u16 lo hi) = Spec.Ima.signed16 (hi.toNat * 256 + lo.toNat) := by
  have h1 := hi.isLt
  have h2 := lo.isLt
  rw [show u16 lo hi = ((hi.toNat * 256 + lo.toNat : Nat) : Int) by unfold u16; omega, wrap_signed16 (by omega)]

theorem start_valid (ch : Nat) (block : List Byte) (c : Nat) : MValid (Spec.Ms.start ch block c) := by
  have hw : ∀ p, Spec.Ms.word block p < 65536 := by
    intro p
    have := IMA.byteAt_lt block (p + 1)
    have := IMA.byteAt_lt block p
    unfold Spec.Ms.word; omega
  have h1 := IMA.signed16_range (hw (3 * ch + 2 * c))
  have h2 := IMA.signed16_range (hw (5 * ch + 2 * c))
  exact ⟨h1.1, h1.2, h2.1, h2.2, Int.natCast_nonneg _⟩

theorem mono_unfold (coefs : List Coef) (n : Nat) (block : List Byte) (hl : 7 + n ≤ block.length) {frames : List (List Int)}
    (h : decodeBlock coefs 1 (2 * n + 2) block = .ok frames) :
    ∃ co fs, co ∈ coefs ∧ co = coefs.getD (Spec.Ima.byteAt block 0) (0, 0) ∧
      decodeMono co n (mconv (Spec.Ms.start 1 block 0)) (block.drop 7) = .ok fs ∧
      frames = [(Spec.Ms.start 1 block 0).beforeLast] :: [(Spec.Ms.start 1 block 0).last] :: fs := by
  obtain ⟨i, d0, d1, p0, p1, q0, q1, bs, rfl⟩ := split7 block (by omega)
  unfold decodeBlock at h
  simp only [bind, Except.bind, pure, Except.pure, show (2 * n + 2 - 2 + 1) / 2 = n by omega] at h
  cases hc : coefAt coefs i with
  | error e => rw [hc] at h; cases h
  | ok co =>
    rw [hc] at h
    simp only at h
    cases hm : decodeMono co n ⟨u16 d0 d1, wrapS 16 (u16 p0 p1), wrapS 16 (u16 q0 q1)⟩ bs with
    | error e => rw [hm] at h; cases h
    | ok fs =>
      rw [hm] at h
      simp only at h
      split at h
      · cases h
      · simp only [Except.ok.injEq] at h
        subst h
        rw [u16_signed, u16_signed] at hm
        refine ⟨co, fs, (coefAt_spec hc).2, (coefAt_spec hc).1, ?_, ?_⟩
        · refine Eq.trans ?_ hm
          congr 1
        · rw [u16_signed, u16_signed]; rfl

theorem samples_len (co : Coef) : ∀ (l : List Nat) (s : Spec.Ms.State), (Spec.Ms.samples co s l).length = l.length
  | [], _ => rfl
  | _ :: l, _ => congrArg (· + 1) (samples_len co l _)

theorem column_singletons (l : List Int) : column 0 (l.map ([·])) = l := by
  induction l with
  | nil => rfl
  | cons x l ih => rw [List.map_cons, IMA.column_cons 0 _ _ (by simp), ih]; rfl

/-- **C79, Microsoft ADPCM, one channel**: when a block is decoded at all, its frames are the ones of the definition. -/
theorem C79_ms_mono_decoder (coefs : List Coef) (n : Nat) (block : List Byte) (hl : 7 + n ≤ block.length) {frames : List (List Int)}
    (h : decodeBlock coefs 1 (2 * n + 2) block = .ok frames) :
    frames.length = 2 * n + 2 ∧ (∀ f ∈ frames, f.length = 1) ∧ column 0 frames = Spec.Ms.channel coefs 1 (2 * n) block 0 := by
  obtain ⟨co, fs, _, hco, hm, rfl⟩ := mono_unfold coefs n block hl h
  have hfs := mono_spec block co n _ _ _ hm
  refine ⟨?_, ?_, ?_⟩
  · rw [hfs, List.length_cons, List.length_cons, List.length_map, samples_len, List.length_map, List.length_range]
  · intro f hf
    rcases List.mem_cons.1 hf with rfl | hf
    · rfl
    · rcases List.mem_cons.1 hf with rfl | hf
      · rfl
      · rw [hfs] at hf
        obtain ⟨x, _, rfl⟩ := List.mem_map.1 hf
        rfl
  · rw [IMA.column_cons 0 _ _ (by simp), IMA.column_cons 0 _ _ (by simp), hfs, column_singletons, hco]
    unfold Spec.Ms.channel
    simp only [Nat.mul_one, Nat.add_zero]
    rfl

theorem stereo_unfold (coefs : List Coef) (n : Nat) (block : List Byte) (hl : 14 + n ≤ block.length) {frames : List (List Int)}
    (h : decodeBlock coefs 2 (n + 2) block = .ok frames) :
    ∃ fs, decodeStereo (coefs.getD (Spec.Ima.byteAt block 0) (0, 0)) (coefs.getD (Spec.Ima.byteAt block 1) (0, 0)) n
        (mconv (Spec.Ms.start 2 block 0)) (mconv (Spec.Ms.start 2 block 1)) (block.drop 14) = .ok fs ∧
      frames = [(Spec.Ms.start 2 block 0).beforeLast, (Spec.Ms.start 2 block 1).beforeLast] ::
        [(Spec.Ms.start 2 block 0).last, (Spec.Ms.start 2 block 1).last] :: fs := by
  obtain ⟨i, j, d0, d1, e0, e1, p0, bs', rfl⟩ := split7 block (by omega)
  obtain ⟨p1, r0, r1, q0, q1, t0, t1, bs, rfl⟩ := split7 bs' (by simp only [List.length_cons] at hl; omega)
  unfold decodeBlock at h
  simp only [bind, Except.bind, pure, Except.pure, show n + 2 - 2 = n by omega] at h
  cases hc : coefAt coefs i with
  | error e => rw [hc] at h; cases h
  | ok co0 =>
    rw [hc] at h
    simp only at h
    cases hc' : coefAt coefs j with
    | error e => rw [hc'] at h; cases h
    | ok co1 =>
      rw [hc'] at h
      simp only at h
      cases hm : decodeStereo co0 co1 n ⟨u16 d0 d1, wrapS 16 (u16 p0 p1), wrapS 16 (u16 q0 q1)⟩
          ⟨u16 e0 e1, wrapS 16 (u16 r0 r1), wrapS 16 (u16 t0 t1)⟩ bs with
      | error e => rw [hm] at h; cases h
      | ok fs =>
        rw [hm] at h
        simp only at h
        split at h
        · cases h
        · simp only [Except.ok.injEq] at h
          subst h
          simp only [u16_signed] at hm ⊢
          rw [(coefAt_spec hc).1, (coefAt_spec hc').1] at hm
          exact ⟨fs, hm, rfl⟩

/-- **C79, Microsoft ADPCM, two channels**. -/
theorem C79_ms_stereo_decoder (coefs : List Coef) (n : Nat) (block : List Byte) (hl : 14 + n ≤ block.length) {frames : List (List Int)}
    (h : decodeBlock coefs 2 (n + 2) block = .ok frames) :
    frames.length = n + 2 ∧ (∀ f ∈ frames, f.length = 2) ∧ ∀ c, c < 2 → column c frames = Spec.Ms.channel coefs 2 n block c := by
  obtain ⟨fs, hm, rfl⟩ := stereo_unfold coefs n block hl h
  obtain ⟨h1, h2, h3, h4⟩ := stereo_spec block _ _ n _ _ _ _ hm
  refine ⟨by rw [List.length_cons, List.length_cons, h1], ?_, ?_⟩
  · intro f hf
    rcases List.mem_cons.1 hf with rfl | hf
    · rfl
    · rcases List.mem_cons.1 hf with rfl | hf
      · rfl
      · exact h2 f hf
  · intro c hc
    rcases (show c = 0 ∨ c = 1 by omega) with rfl | rfl
    · rw [IMA.column_cons 0 _ _ (by simp), IMA.column_cons 0 _ _ (by simp), h3]; rfl
    · rw [IMA.column_cons 1 _ _ (by simp), IMA.column_cons 1 _ _ (by simp), h4]; rfl

theorem coefAt_ok {coefs : List Coef} {b : Byte} (h : b.toNat < coefs.length) : coefAt coefs b = .ok (coefs.getD b.toNat (0, 0)) := by
  rcases coefAt_cases coefs b with ⟨_, co, e⟩ | ⟨h', _⟩
  · rw [e, (coefAt_spec e).1]
  · omega

theorem coef_valid {coefs : List Coef} (hco : ∀ co ∈ coefs, co.1.natAbs + co.2.natAbs ≤ 65535) {k : Nat} (h : k < coefs.length) :
    CValid (coefs.getD k (0, 0)) := by
  rw [List.getD_eq_getElem?_getD, List.getElem?_eq_getElem h]
  exact hco _ (List.getElem_mem h)

/-- **C79**: a block whose coefficients exist and whose step sizes stay within bounds is decoded. -/
theorem C79_ms_decodes (coefs : List Coef) (hco : ∀ co ∈ coefs, co.1.natAbs + co.2.natAbs ≤ 65535) (ch n : Nat) (hch : ch = 1 ∨ ch = 2)
    (hn : ch = 1 → n % 2 = 0) (block : List Byte) (hl : 2 * (7 * ch) + n * ch ≤ 2 * block.length)
    (hi : ∀ c, c < ch → Spec.Ima.byteAt block c < coefs.length) (hs : Spec.Ms.SteadyBlock coefs ch n block) :
    ∃ frames, decodeBlock coefs ch (n + 2) block = .ok frames := by
  rcases hch with rfl | rfl
  · obtain ⟨m, rfl⟩ : ∃ m, n = 2 * m := ⟨n / 2, by have := hn rfl; omega⟩
    obtain ⟨fs, hfs⟩ := mono_runs block _ (coef_valid hco (hi 0 (by decide))) m _ 7 (start_valid 1 block 0) (by omega) (by
      have := hs 0 (by decide)
      simp only [Nat.mul_one, Nat.add_zero] at this
      exact this)
    have hlen := mono_spec block _ m _ _ _ hfs
    have hlen : fs.length = 2 * m := by
      rw [hlen, List.length_map, samples_len, List.length_map, List.length_range]
    have hi0 := hi 0 (by decide)
    obtain ⟨i, d0, d1, p0, p1, q0, q1, bs, rfl⟩ := split7 block (by omega)
    unfold decodeBlock
    simp only [bind, Except.bind, pure, Except.pure, show (2 * m + 2 - 2 + 1) / 2 = m by omega, u16_signed]
    rw [coefAt_ok (b := i) hi0]
    simp only
    rw [show decodeMono (coefs.getD i.toNat (0, 0)) m ⟨u16 d0 d1, Spec.Ima.signed16 (p1.toNat * 256 + p0.toNat),
      Spec.Ima.signed16 (q1.toNat * 256 + q0.toNat)⟩ bs = .ok fs from hfs]
    simp only
    rw [if_neg (by omega)]
    exact ⟨_, rfl⟩
  · have hi0 := hi 0 (by decide)
    have hi1 := hi 1 (by decide)
    obtain ⟨fs, hfs⟩ := stereo_runs block _ _ (coef_valid hco hi0) (coef_valid hco hi1) n _ _ 14 (start_valid 2 block 0)
      (start_valid 2 block 1) (by omega) (hs 0 (by decide)) (hs 1 (by decide))
    have hlen := (stereo_spec block _ _ n _ _ _ _ hfs).1
    obtain ⟨i, j, d0, d1, e0, e1, p0, bs', rfl⟩ := split7 block (by omega)
    obtain ⟨p1, r0, r1, q0, q1, t0, t1, bs, rfl⟩ := split7 bs' (by simp only [List.length_cons] at hl; omega)
    unfold decodeBlock
    simp only [bind, Except.bind, pure, Except.pure, show n + 2 - 2 = n by omega, u16_signed]
    rw [coefAt_ok (b := i) hi0]
    simp only
    rw [coefAt_ok (b := j) hi1]
    simp only
    rw [show decodeStereo (coefs.getD i.toNat (0, 0)) (coefs.getD j.toNat (0, 0)) n
      ⟨u16 d0 d1, Spec.Ima.signed16 (p1.toNat * 256 + p0.toNat), Spec.Ima.signed16 (q1.toNat * 256 + q0.toNat)⟩
      ⟨u16 e0 e1, Spec.Ima.signed16 (r1.toNat * 256 + r0.toNat), Spec.Ima.signed16 (t1.toNat * 256 + t0.toNat)⟩ bs = .ok fs from hfs]
    simp only
    rw [if_neg (by omega)]
    exact ⟨_, rfl⟩

/-- A stereo block of six frames. -/
def msBlock : List Byte := [1, 4, 20, 0, 30, 0, 100, 0, 0x9c, 0xff, 90, 0, 0x90, 0xff, 0x12, 0x7f, 0x83, 0x40]

def steadyDec (co : Int × Int) : ∀ (l : List Nat) (s : Spec.Ms.State), Decidable (Spec.Ms.Steady co s l)
  | [], _ => isTrue trivial
  | c :: cs, s => @instDecidableAnd _ _ (inferInstanceAs (Decidable (s.delta ≤ 2796202))) (steadyDec co cs (Spec.Ms.next co s c))

instance (co : Int × Int) (l : List Nat) (s : Spec.Ms.State) : Decidable (Spec.Ms.Steady co s l) := steadyDec co l s

example : (∀ co ∈ defaultCoefs, co.1.natAbs + co.2.natAbs ≤ 65535) ∧ 2 * (7 * 2) + 4 * 2 ≤ 2 * msBlock.length ∧
    (∀ c, c < 2 → Spec.Ima.byteAt msBlock c < defaultCoefs.length) := by decide +kernel

example : Spec.Ms.SteadyBlock defaultCoefs 2 4 msBlock := by
  intro c hc
  rcases (show c = 0 ∨ c = 1 by omega) with rfl | rfl <;> decide +kernel

example : decodeBlock defaultCoefs 2 6 msBlock = .ok [[90, -112], [100, -100], [130, -34], [279, -58], [108, 14], [417, 13]] := by decide +kernel

end AF.MSADPCM
