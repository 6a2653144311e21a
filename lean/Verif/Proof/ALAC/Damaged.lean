import Verif.Proof.ALAC.Loop
import Verif.Spec.ALACPacket
/-! # The ALAC decoder on arbitrary packets -/
namespace AF.ALAC
open Packet

theorem fieldAt_lt (m : Mem) (p n : Nat) : fieldAt m p n < 2 ^ n := by
  induction n with
  | zero => exact Nat.one_pos
  | succ n ih =>
    unfold fieldAt
    have : (bitAt m (p + n)).toNat ≤ 1 := by cases bitAt m (p + n) <;> decide
    omega

theorem fieldAt_add (m : Mem) (p a b : Nat) : fieldAt m p (a + b) = fieldAt m p a * 2 ^ b + fieldAt m (p + a) b := by
  induction b with
  | zero => simp [fieldAt]
  | succ b ih =>
    rw [← Nat.add_assoc, fieldAt, fieldAt, ih, Nat.pow_succ, Nat.add_assoc p]
    have : fieldAt m p a * (2 ^ b * 2) = 2 * (fieldAt m p a * 2 ^ b) := by
      rw [← Nat.mul_assoc, Nat.mul_comm]
    omega

theorem fieldAt_testBit (m : Mem) (p n i : Nat) (hi : i < n) : (fieldAt m p n).testBit i = bitAt m (p + (n - 1 - i)) := by
  induction n generalizing i with
  | zero => omega
  | succ n ih =>
    unfold fieldAt
    cases i with
    | zero =>
      rw [Nat.testBit_zero]
      have : (2 * fieldAt m p n + (bitAt m (p + n)).toNat) % 2 = (bitAt m (p + n)).toNat := by
        cases bitAt m (p + n) <;> simp <;> omega
      rw [this, show n + 1 - 1 - 0 = n by omega]
      cases bitAt m (p + n) <;> rfl
    | succ i =>
      rw [Nat.testBit_succ]
      have : (2 * fieldAt m p n + (bitAt m (p + n)).toNat) / 2 = fieldAt m p n := by
        cases bitAt m (p + n) <;> simp <;> omega
      rw [this, ih i (by omega)]
      congr 2
      omega

theorem fieldAt_holds (m : Mem) (p n : Nat) : Holds m p (bitsOf n (fieldAt m p n)) := by
  refine holds_bitsOf fun i hi => ?_
  rw [fieldAt_testBit _ _ _ _ (by omega)]
  congr 2
  omega

theorem rd_fieldAt {m : Mem} {p n : Nat} (hn : n ≤ 16) : rd m p n = fieldAt m p n := rd_eq hn (fieldAt_holds m p n) (fieldAt_lt m p n)

theorem small_fieldAt {m : Mem} {p n : Nat} (hn : n ≤ 8) : (bbReadSmall m p n).toNat = fieldAt m p n :=
  (bbReadSmall_read hn).eq (fieldAt_holds m p n) (fieldAt_lt m p n)

/-- The fields at the start of an element. -/
theorem decHeader_any (m : Mem) (p req : Nat) :
    decHeader m (p + 3) req = .error .param ∨
    shiftOf m p ≤ 2 ∧
      decHeader m (p + 3) req = .ok (if hasCount m p then countOf m p else req, shiftOf m p, (plain m p).toNat, bodyOf m p) := by
  unfold decHeader
  rw [rd_fieldAt (by omega), rd_fieldAt (by omega), rd_fieldAt (by omega), rd_fieldAt (by omega)]
  by_cases h0 : fieldAt m (p + 3 + 4) 12 ≠ 0
  · left; rw [if_pos h0]; rfl
  · rw [if_neg h0]
    have h4 : fieldAt m (p + 3 + 16) 4 = (hasCount m p).toNat * 8 + shiftOf m p * 2 + (plain m p).toNat := by
      rw [show 4 = 1 + (2 + 1) from rfl, fieldAt_add, fieldAt_add]
      simp only [fieldAt, Nat.mul_zero, Nat.zero_add, Nat.add_zero, hasCount, shiftOf, plain]
      rw [show p + 3 + 16 = p + 19 by omega]
      simp only [Nat.add_assoc, Nat.reduceAdd]
    have hs : shiftOf m p < 4 := fieldAt_lt _ _ 2
    have hc : (hasCount m p).toNat = if hasCount m p then 1 else 0 := by cases hasCount m p <;> rfl
    have he : (plain m p).toNat ≤ 1 := by cases plain m p <;> decide
    have e1 : fieldAt m (p + 3 + 16) 4 / 2 % 4 = shiftOf m p := by rw [h4]; split at hc <;> omega
    have e2 : fieldAt m (p + 3 + 16) 4 % 2 = (plain m p).toNat := by rw [h4]; omega
    dsimp only
    rw [e1, e2]
    by_cases h3 : shiftOf m p = 3
    · left; rw [if_pos h3]; rfl
    · right
      refine ⟨by omega, ?_⟩
      rw [if_neg h3]
      unfold bodyOf
      cases hh : hasCount m p
      · rw [if_neg (by rw [h4, hh]; show ¬ (0 * 8 + _ + _) / 8 ≠ 0; omega)]
        rfl
      · rw [if_pos (by rw [h4, hh]; show (1 * 8 + _ + _) / 8 ≠ 0; omega)]
        have : fieldAt m (p + 3 + 20) 16 * 2 ^ 16 + fieldAt m (p + 3 + 36) 16 = countOf m p := by
          unfold countOf
          rw [show p + 23 = p + 3 + 20 by omega, show 32 = 16 + 16 from rfl, fieldAt_add]
        rw [this]
        rfl

/-! ## Golomb codes -/

theorem shr_lt (x : BitVec 32) (k : Nat) (hk : k ≤ 32) : (x >>> (32 - k)).toNat < 2 ^ k := by
  rw [BitVec.toNat_ushiftRight, Nat.shiftRight_eq_div_pow]
  have := x.isLt
  refine Nat.div_lt_of_lt_mul ?_
  rw [← Nat.pow_add, show 32 - k + k = 32 by omega]
  exact this

theorem dynGet_any {mem : Mem} {pos m k : Nat} (hk : 1 ≤ k ∧ k ≤ 8) (hm : m < 2 ^ k) :
    ∃ n pos', dynGet mem pos m k = .ok (n, pos') ∧ n < 2 ^ 17 ∧ pos ≤ pos' := by
  unfold dynGet
  dsimp only
  generalize read32 mem (pos / 8) <<< (pos % 8) = x
  generalize lead (~~~ x) = pre
  have h8 : 2 ^ k ≤ 2 ^ 8 := pow_mono hk.2
  by_cases h9 : 9 ≤ pre
  · rw [if_pos h9]
    refine ⟨_, _, rfl, ?_, by omega⟩
    have : (x <<< 9 >>> 16).toNat < 2 ^ 16 := shr_lt (x <<< 9) 16 (by omega)
    omega
  · rw [if_neg h9, if_neg (by omega)]
    have hv := shr_lt (x <<< (pre + 1)) k (by omega)
    generalize ((x <<< (pre + 1)) >>> (32 - k)).toNat = v at hv
    have hpm : pre * m ≤ 8 * 256 := Nat.mul_le_mul (by omega) (by omega)
    split
    · exact ⟨_, _, rfl, by omega, by omega⟩
    · exact ⟨_, _, rfl, by omega, by omega⟩

theorem dynGet32_any {mem : Mem} {pos m k b : Nat} (hk : 1 ≤ k ∧ k ≤ 32) (hb : 1 ≤ b ∧ b ≤ 32) :
    ∃ n pos', dynGet32 mem pos m k b = .ok (n, pos') ∧ n < 2 ^ 32 ∧ pos ≤ pos' := by
  unfold dynGet32
  dsimp only
  generalize read32 mem (pos / 8) <<< (pos % 8) = x
  have hl := lead_le (~~~ x)
  generalize lead (~~~ x) = pre at hl
  by_cases h9 : 9 ≤ pre
  · rw [if_pos h9]
    obtain ⟨v, hv⟩ : ∃ v, getstreambits mem (pos + 9) b = .ok v := by
      unfold getstreambits
      rw [if_neg (by omega)]
      exact ⟨_, rfl⟩
    rw [hv]
    exact ⟨v.toNat, _, rfl, v.isLt, by omega⟩
  · rw [if_neg h9]
    by_cases h1 : k = 1
    · rw [if_pos h1]
      exact ⟨_, _, rfl, by omega, by omega⟩
    · rw [if_neg h1, if_neg (by omega)]
      split
      · exact ⟨_, _, rfl, Nat.mod_lt _ (by decide), by omega⟩
      · exact ⟨_, _, rfl, Nat.mod_lt _ (by decide), by omega⟩

theorem decMean_bound {P : Params} {mb n z : Nat} (hp : P.pb ≤ 127) (hm : mb ≤ 2 ^ 25) (hz : z ≤ 1) : decMean P mb n z ≤ 2 ^ 25 := by
  by_cases hn : n < 2 ^ 26
  · rw [mean_eq hn hz]; exact mean_bound hp hm hz
  · unfold decMean; dsimp only; rw [if_pos (by omega)]; omega

/-- Whatever the bits are, the loop gives the number of residuals that was asked for, or the status of an error. -/
theorem decomp_any {P : Params} (hP : P.OK) {b : Nat} (hb : 1 ≤ b ∧ b ≤ 32) {maxPos base num : Nat} (hnum : num < 2 ^ 31) (mem : Mem) :
    ∀ r c mb z pos, mb ≤ 2 ^ 25 → z ≤ 1 → num - c ≤ r → c ≤ num →
    decompLoop P b maxPos base num mem r c mb z pos = .error .param ∨
    ∃ out pos', decompLoop P b maxPos base num mem r c mb z pos = .ok (out, pos') ∧ out.length = num - c ∧ pos ≤ pos' := by
  intro r
  induction r with
  | zero =>
    intro c mb z pos _ _ hr hc
    exact .inr ⟨[], pos, rfl, by simp; omega, by omega⟩
  | succ r ih =>
    intro c mb z pos hmb hz hr hc
    unfold decompLoop
    by_cases h1 : num ≤ c
    · rw [if_pos h1]
      exact .inr ⟨[], pos, rfl, by simp; omega, by omega⟩
    · rw [if_neg h1]
      by_cases h2 : maxPos ≤ pos - base
      · left; simp only [if_pos h2]; rfl
      · rw [if_neg h2]
        have hk := encK_range hP hmb
        rw [← decK_eq] at hk
        obtain ⟨n, p1, hn, hn32, hp1⟩ := dynGet32_any (mem := mem) (pos := pos) (m := 2 ^ decK P mb - 1) ⟨hk.1, hk.2⟩ hb
        simp only [bind, Except.bind, pure, Except.pure, hn]
        have hmean := decMean_bound (n := n) hP.2.1 hmb hz
        generalize decMean P mb n z = mb' at hmean
        by_cases h3 : mb' * 4 % 2 ^ 32 < 512 ∧ c + 1 < num
        · rw [if_pos h3]
          have hrk := runK_range mb' (by omega)
          obtain ⟨n', p2, hn', hn17, hp2⟩ := dynGet_any (mem := mem) (pos := p1) (k := runK mb') ⟨by omega, hrk.2⟩
            (and_wb (k := runK mb') (kb := P.kb) (by omega) hP.2.2).2
          rw [show (2 ^ runK mb' - 1) &&& P.wb = (2 ^ runK mb' - 1) &&& (2 ^ P.kb - 1) from rfl]
          simp only [hn']
          by_cases h4 : num < (c + 1 + n') % 2 ^ 32
          · left; rw [if_pos h4]; rfl
          · rw [if_neg h4]
            rcases ih (c + 1 + n') 0 (if 65535 ≤ n' then 0 else 1) p2 (by omega) (by split <;> omega) (by omega) (by omega) with e | ⟨out, q, e, hl, hq⟩
            · left; simp only [e]
            · right
              simp only [e]
              exact ⟨_, _, rfl, by simp [hl]; omega, by omega⟩
        · rw [if_neg h3]
          rcases ih (c + 1) mb' 0 p1 hmean (by omega) (by omega) (by omega) with e | ⟨out, q, e, hl, hq⟩
          · left; simp only [e]
          · right
            simp only [e]
            exact ⟨_, _, rfl, by simp [hl]; omega, by omega⟩

theorem dynDecomp_any {P : Params} (hP : P.OK) {b : Nat} (hb : 1 ≤ b ∧ b ≤ 32) {num : Nat} (hnum : num < 2 ^ 31) (byteSize : Nat) (mem : Mem) (pos : Nat) :
    dynDecomp P num b byteSize mem pos = .error .param ∨
    ∃ out pos', dynDecomp P num b byteSize mem pos = .ok (out, pos') ∧ out.length = num ∧ pos ≤ pos' := by
  unfold dynDecomp
  rcases decomp_any hP hb (maxPos := 8 * byteSize) (base := 8 * (pos / 8)) hnum mem num 0 P.mb0 0 pos hP.1 (by omega) (by omega) (by omega) with
    e | ⟨out, q, e, hl, hq⟩
  · left; simp only [bind, Except.bind, e]
  · simp only [bind, Except.bind, e]
    by_cases h : byteSize < q / 8
    · left; rw [if_pos h]; rfl
    · right; rw [if_neg h]; exact ⟨_, _, rfl, by omega, hq⟩

/-! ## Channels and elements -/

theorem runningSums_count (b : Nat) : ∀ (xs : List Int) (x : Int), (runningSums b x xs).length = xs.length
  | [], _ => rfl
  | _ :: xs, _ => congrArg (· + 1) (runningSums_count b xs _)

theorem decLoop_count (k b s : Nat) : ∀ (xs coefs hist : List Int), (decLoop k b s coefs hist xs).1.length = xs.length
  | [], _, _ => rfl
  | _ :: xs, _, _ => congrArg (· + 1) (decLoop_count k b s xs _ _)

theorem unpcBlock_count (k b s : Nat) (coefs : List Int) (xs : List Int) : (unpcBlock k b s coefs xs).1.length = xs.length := by
  cases xs with
  | nil => rfl
  | cons x xs =>
    by_cases h0 : k = 0
    · simp only [unpcBlock, if_pos h0]
    · by_cases h1 : k = 31
      · simp [unpcBlock, h1, runningSums_count]
      · simp only [unpcBlock, if_neg h0, if_neg h1, List.length_cons, List.length_append, runningSums_count, decLoop_count, List.length_take, List.length_drop]
        omega

/-- The parameters of a decoder that can be used at all. -/
structure Config.OK (cfg : Config) : Prop where
  depth : Depth cfg.bitDepth
  mean : cfg.mb ≤ 2 ^ 25
  pb : cfg.pb ≤ 72
  kb : 1 ≤ cfg.kb ∧ cfg.kb < 32
  size : cfg.frameLength < 2 ^ 31

theorem decPred_any (m : Mem) (q : Nat) : ∃ pr, decPred m q = (pr, predEnd m q) ∧ pr.num = coefCount m q ∧ pr.denShift = sumShift m q ∧ pr.pbFactor < 8 := by
  unfold decPred
  rw [rd_fieldAt (by omega), rd_fieldAt (by omega)]
  have e1 : fieldAt m q 8 % 16 = sumShift m q := by
    have := fieldAt_lt m (q + 4) 4
    rw [show 8 = 4 + 4 from rfl, fieldAt_add]
    unfold sumShift
    omega
  have e2 : fieldAt m (q + 8) 8 % 32 = coefCount m q ∧ fieldAt m (q + 8) 8 / 32 < 8 := by
    have h1 := fieldAt_lt m (q + 11) 5
    have h2 := fieldAt_lt m (q + 8) 3
    have e : fieldAt m (q + 8) 8 = fieldAt m (q + 8) 3 * 2 ^ 5 + fieldAt m (q + 11) 5 := fieldAt_add m (q + 8) 3 5
    unfold coefCount
    omega
  refine ⟨⟨fieldAt m q 8 / 16, fieldAt m q 8 % 16, fieldAt m (q + 8) 8 / 32, fieldAt m (q + 8) 8 % 32,
    (List.range (fieldAt m (q + 8) 8 % 32)).map fun (i : Nat) => wrapS 16 (rd m (q + 16 + 16 * i) 16)⟩, ?_, e2.1, e1, e2.2⟩
  unfold predEnd
  rw [← e2.1]

theorem decChannel_any {cfg : Config} (hc : cfg.OK) {n b q : Nat} (hn : n ≤ cfg.frameLength) (hb : 1 ≤ b ∧ b ≤ 32) {m : Mem}
    (hp : ¬ BadPredictor cfg.frameLength m q) {pr : Pred} (hpr : pr.num = coefCount m q ∧ pr.denShift = sumShift m q ∧ pr.pbFactor < 8)
    (byteSize p : Nat) :
    decChannel cfg byteSize m n b pr p = .error .param ∨
    ∃ us p', decChannel cfg byteSize m n b pr p = .ok (us, p') ∧ us.length = n ∧ p ≤ p' := by
  unfold decChannel
  have := hc.kb
  have := hc.size
  rw [if_neg (by omega), if_neg (by rw [hpr.1, hpr.2.1]; exact hp)]
  have hP : (⟨cfg.mb, cfg.pb * pr.pbFactor / 4, cfg.kb⟩ : Params).OK := by
    refine ⟨hc.mean, ?_, hc.kb.1⟩
    have : cfg.pb * pr.pbFactor ≤ 72 * 7 := Nat.mul_le_mul hc.pb (by omega)
    show cfg.pb * pr.pbFactor / 4 ≤ 127
    omega
  rcases dynDecomp_any hP hb (num := n) (by omega) byteSize m p with e | ⟨out, p', e, hl, hp'⟩
  · left; simp only [bind, Except.bind, e]
  · right
    simp only [bind, Except.bind, e]
    refine ⟨_, p', rfl, ?_, hp'⟩
    rw [unpcBlock_count]
    split
    · exact hl
    · rw [unpcBlock_count]; exact hl

theorem advance_ge (p n : Nat) : p ≤ advance p n + 7 := by unfold advance; omega

theorem decodeMono_any {cfg : Config} (hc : cfg.OK) {limit : Nat} (hl : limit ≤ cfg.frameLength) {m : Mem} {p n : Nat} (hn : n ≤ limit)
    (ht : typeOf m p ≠ 1) (hd : ¬ Damaged limit cfg.frameLength cfg.bitDepth m p) (byteSize : Nat) :
    decodeMono cfg byteSize m (p + 3) n limit = .error .param ∨
    ∃ n' xs p', decodeMono cfg byteSize m (p + 3) n limit = .ok (n', xs, p') ∧ n' ≤ limit ∧ xs.length = n' ∧ p + 3 ≤ p' := by
  unfold decodeMono
  have hdep := depth_le hc.depth
  rcases decHeader_any m p n with e | ⟨hs2, e⟩
  · left; simp only [bind, Except.bind, e]
  · simp only [bind, Except.bind, e]
    have hcount : (if hasCount m p then countOf m p else n) ≤ limit := by
      cases hh : hasCount m p
      · exact hn
      · exact Nat.le_of_not_lt fun h => hd (.count hh h)
    generalize (if hasCount m p then countOf m p else n) = n' at hcount
    have hsh : ¬ cfg.bitDepth ≤ 8 * shiftOf m p := fun h => hd (.shift ht h)
    rw [if_neg (by omega), if_neg hsh]
    have hbody : p + 23 ≤ bodyOf m p := by unfold bodyOf; split <;> omega
    by_cases hpl : plain m p = false
    · rw [if_pos (by rw [hpl]; rfl)]
      obtain ⟨pr, hpr, h1, h2, h3⟩ := decPred_any m (bodyOf m p + 16)
      have hbp : ¬ BadPredictor cfg.frameLength m (bodyOf m p + 16) := fun h => hd (.mono ht hpl h)
      rw [hpr]
      dsimp only
      have hpe : bodyOf m p + 32 ≤ predEnd m (bodyOf m p + 16) := by unfold predEnd; omega
      have hst : p + 3 ≤ (if shiftOf m p = 0 then predEnd m (bodyOf m p + 16)
          else advance (predEnd m (bodyOf m p + 16)) (8 * shiftOf m p * n' % 2 ^ 32)) := by
        split
        · omega
        · have := advance_ge (predEnd m (bodyOf m p + 16)) (8 * shiftOf m p * n' % 2 ^ 32)
          omega
      generalize (if shiftOf m p = 0 then predEnd m (bodyOf m p + 16)
          else advance (predEnd m (bodyOf m p + 16)) (8 * shiftOf m p * n' % 2 ^ 32)) = st at hst
      rcases decChannel_any hc (n := n') (b := cfg.bitDepth - 8 * shiftOf m p) (by omega) (by omega) hbp ⟨h1, h2, h3⟩ byteSize st with
        e | ⟨us, p', e, hus, hp'⟩
      · left; simp only [e]
      · right
        simp only [e]
        exact ⟨_, _, _, rfl, hcount, by simp [hus], by omega⟩
    · rw [if_neg (by cases h : plain m p <;> simp_all), if_neg (by omega)]
      right
      exact ⟨_, _, _, rfl, hcount, by simp, by omega⟩

theorem decodeStereo_any {cfg : Config} (hc : cfg.OK) {limit : Nat} (hl : limit ≤ cfg.frameLength) {m : Mem} {p n : Nat} (hn : n ≤ limit)
    (ht : typeOf m p = 1) (hd : ¬ Damaged limit cfg.frameLength cfg.bitDepth m p) (byteSize : Nat) :
    decodeStereo cfg byteSize m (p + 3) n limit = .error .param ∨
    ∃ n' xs p', decodeStereo cfg byteSize m (p + 3) n limit = .ok (n', xs, p') ∧ n' ≤ limit ∧ xs.length = n' ∧ p + 3 ≤ p' := by
  have hdep := depth_le hc.depth
  unfold decodeStereo
  rcases decHeader_any m p n with e | ⟨hs2, e⟩
  · left; simp only [bind, Except.bind, e]
  · simp only [bind, Except.bind, e]
    have hcount : (if hasCount m p then countOf m p else n) ≤ limit := by
      cases hh : hasCount m p
      · exact hn
      · exact Nat.le_of_not_lt fun h => hd (.count hh h)
    generalize (if hasCount m p then countOf m p else n) = n' at hcount
    rw [if_neg (by omega), if_neg (by omega)]
    have hbody : p + 23 ≤ bodyOf m p := by unfold bodyOf; split <;> omega
    by_cases hpl : plain m p = false
    · rw [if_pos (by rw [hpl]; rfl)]
      have hw : ¬ (cfg.bitDepth = 32 ∧ shiftOf m p = 0) := fun h => hd (.width ht hpl h.1 h.2)
      have hm : ¬ 32 ≤ fieldAt m (bodyOf m p) 8 := fun h => hd (.mix ht hpl h)
      rw [← rd_fieldAt (by omega)] at hm
      rw [if_neg (by rintro ⟨-, h | h⟩; exact hm h; exact hw h)]
      obtain ⟨pu, hpu, h1, h2, h3⟩ := decPred_any m (bodyOf m p + 16)
      obtain ⟨pv, hpv, h4, h5, h6⟩ := decPred_any m (predEnd m (bodyOf m p + 16))
      have hbu : ¬ BadPredictor cfg.frameLength m (bodyOf m p + 16) := fun h => hd (.first ht hpl h)
      have hbv : ¬ BadPredictor cfg.frameLength m (predEnd m (bodyOf m p + 16)) := fun h => hd (.second ht hpl h)
      rw [hpu]
      dsimp only
      rw [hpv]
      dsimp only
      generalize hpe : predEnd m (predEnd m (bodyOf m p + 16)) = pe
      have hpe : bodyOf m p + 32 ≤ pe := by rw [← hpe]; unfold predEnd; omega
      have hst : p + 3 ≤ (if shiftOf m p = 0 then pe else advance pe (8 * shiftOf m p * 2 * n' % 2 ^ 32)) := by
        split
        · omega
        · have := advance_ge pe (8 * shiftOf m p * 2 * n' % 2 ^ 32)
          omega
      generalize (if shiftOf m p = 0 then pe else advance pe (8 * shiftOf m p * 2 * n' % 2 ^ 32)) = st at hst
      rcases decChannel_any hc (n := n') (b := cfg.bitDepth - 8 * shiftOf m p + 1) (by omega) (by omega) hbu ⟨h1, h2, h3⟩ byteSize st with
        e | ⟨us, p', e, hus, hp'⟩
      · left; simp only [e]
      · simp only [e]
        rcases decChannel_any hc (n := n') (b := cfg.bitDepth - 8 * shiftOf m p + 1) (by omega) (by omega) hbv ⟨h4, h5, h6⟩ byteSize p' with
          e | ⟨vs, p'', e, hvs, hp''⟩
        · left; simp only [e]
        · right
          simp only [e]
          exact ⟨_, _, _, rfl, hcount, by simp [hus, hvs], by omega⟩
    · rw [if_neg (by cases h : plain m p <;> simp_all), if_neg (by omega)]
      right
      exact ⟨_, _, _, rfl, hcount, by simp, by omega⟩

end AF.ALAC
