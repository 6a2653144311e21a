import Verif.Model.Identify
import Verif.Spec.Identify
import Verif.Proof.Disk
/-!
# Recognising files: proofs
-/
namespace AF.Files
open AF AF.Setup AF.Spec.Files

/-- The recogniser always answers, and says yes to the files with `P`. -/
def Decides (r : Rd Bool) (P : List Byte → Prop) : Prop :=
  ∀ file p, ∃ b p', r file p = .ok (b, p') ∧ (b = true ↔ P file)

theorem At_zero {file bs : List Byte} : At file 0 bs ↔ file.take bs.length = bs := by
  unfold At; rw [List.drop_zero]

theorem startsWith_decides {n : Nat} {m : List Byte} (hm : m.length = n) : Decides (startsWith n m) (fun file => At file 0 m) := by
  intro file p
  refine ⟨_, _, rfl, ?_⟩
  show _ ↔ At file 0 m
  rw [decide_eq_true_eq, At_zero, hm, List.drop_zero]
  constructor
  · exact fun h => h.2
  · intro h
    exact ⟨by rw [h, hm], h⟩

theorem formOf_decides {a b : List Byte} (ha : a.length = 4) (hb : b.length = 4) :
    Decides (formOf a b) (fun file => At file 0 a ∧ At file 8 b) := by
  intro file p
  unfold formOf
  rw [Rd.bind_ok (a := ()) (p' := 0) rfl, Rd.bind_ok (m := Rd.read 8) (a := file.take 8) (p' := 0 + (file.take 8).length) rfl]
  by_cases h : (file.take 8).length ≠ 8 ∨ (file.take 8).take 4 ≠ a
  · rw [if_pos h]
    refine ⟨_, _, rfl, ?_⟩
    simp only [Bool.false_eq_true, false_iff]
    rintro ⟨h1, h2⟩
    rw [At_zero, ha] at h1
    unfold At at h2
    rw [hb] at h2
    rcases h with h | h
    · have := congrArg List.length h2
      rw [List.length_take, List.length_drop, hb] at this
      rw [List.length_take] at h
      omega
    · rw [List.take_take] at h
      exact h h1
  · rw [if_neg h]
    have h1 : (file.take 8).length = 8 := Classical.byContradiction fun q => h (.inl q)
    have h2 : (file.take 8).take 4 = a := Classical.byContradiction fun q => h (.inr q)
    rw [h1, Rd.bind_ok (m := Rd.read 4) (a := (file.drop 8).take 4) (p' := 0 + 8 + ((file.drop 8).take 4).length) rfl]
    rw [List.take_take] at h2
    by_cases h3 : (List.take 4 (file.drop 8)).length ≠ 4 ∨ List.take 4 (file.drop 8) ≠ b
    · rw [if_pos h3]
      refine ⟨_, _, rfl, ?_⟩
      simp only [Bool.false_eq_true, false_iff]
      rintro ⟨h4, h5⟩
      unfold At at h5
      rw [hb] at h5
      rcases h3 with h3 | h3
      · exact h3 (by rw [h5, hb])
      · exact h3 h5
    · rw [if_neg h3]
      refine ⟨_, _, rfl, ?_⟩
      have h4 : List.take 4 (file.drop 8) = b := Classical.byContradiction fun q => h3 (.inr q)
      simp only [true_iff]
      exact ⟨by rw [At_zero, ha]; exact h2, by unfold At; rw [hb]; exact h4⟩

theorem ircam_decides : Decides ircamRecognize (fun file => HasSignature file .ircam) := by
  intro file p
  unfold ircamRecognize
  rw [Rd.bind_ok (a := ()) (p' := 0) rfl, Rd.bind_ok (m := Rd.read 4) (a := file.take 4) (p' := 0 + (file.take 4).length) rfl]
  have hspec : HasSignature file .ircam ↔ ∃ m ∈ ircamMagics, file.take 4 = m.1 := by
    show (∃ k ∈ ([1, 2, 3, 4] : List Byte), At file 0 [0x64, 0xa3, k, 0x00] ∨ At file 0 [0x00, k, 0xa3, 0x64]) ↔ _
    simp only [At_zero, List.length_cons, List.length_nil, ircamMagics, List.mem_cons, List.not_mem_nil, or_false, exists_eq_or_imp,
      exists_eq_left]
    constructor
    · rintro ((h | h) | (h | h) | (h | h) | (h | h)) <;> simp [h]
    · rintro (h | h | h | h | h | h | h | h) <;> simp [h]
  by_cases h : (file.take 4).length ≠ 4
  · rw [if_pos h]
    refine ⟨_, _, rfl, ?_⟩
    simp only [Bool.false_eq_true, false_iff]
    rw [hspec]
    rintro ⟨m, hm, he⟩
    apply h
    rw [he]
    revert m
    have : ∀ m ∈ ircamMagics, m.1.length = 4 := by decide
    exact fun m hm _ => this m hm
  · rw [if_neg h]
    refine ⟨_, _, rfl, ?_⟩
    show _ ↔ HasSignature file .ircam
    rw [hspec, List.any_eq_true]
    simp only [decide_eq_true_eq]

theorem caf_decides : Decides cafRecognize (fun file => At file 0 (tag "caff") ∧ At file 4 [0, 1, 0, 0]) := by
  intro file p
  have hl : (tag "caff").length = 4 := by decide +kernel
  unfold cafRecognize
  rw [Rd.bind_ok (a := ()) (p' := 0) rfl, Rd.bind_ok (m := Rd.read 8) (a := file.take 8) (p' := 0 + (file.take 8).length) rfl]
  generalize tag "caff" = a at *
  have hd : (file.take 8).drop 4 = (file.drop 4).take 4 := by rw [List.drop_take]
  rw [hd]
  by_cases h : (file.take 8).length ≠ 8 ∨ (file.take 8).take 4 ≠ a
  · rw [if_pos h]
    refine ⟨_, _, rfl, ?_⟩
    simp only [Bool.false_eq_true, false_iff]
    rintro ⟨h1, h2⟩
    rw [At_zero, hl] at h1
    unfold At at h2
    rcases h with h | h
    · have := congrArg List.length h2
      rw [List.length_take, List.length_drop] at this
      rw [List.length_take] at h
      simp only [List.length_cons, List.length_nil] at this
      omega
    · rw [List.take_take] at h
      exact h h1
  · rw [if_neg h]
    have h2 : (file.take 8).take 4 = a := Classical.byContradiction fun q => h (.inr q)
    rw [List.take_take] at h2
    by_cases h3 : List.take 4 (file.drop 4) ≠ [0, 1, 0, 0]
    · rw [if_pos h3]
      refine ⟨_, _, rfl, ?_⟩
      simp only [Bool.false_eq_true, false_iff]
      exact fun h4 => h3 h4.2
    · rw [if_neg h3]
      refine ⟨_, _, rfl, ?_⟩
      have h4 : List.take 4 (file.drop 4) = [0, 1, 0, 0] := Classical.byContradiction fun q => h3 q
      simp only [true_iff]
      exact ⟨by rw [At_zero, hl]; exact h2, h4⟩

/-- Every recogniser decides the signature of its format. -/
theorem recognizer_decides (u : FileFormat) :
    match recognizer u with
    | none => ∀ file, ¬ HasSignature file u
    | some r => Decides r (fun file => HasSignature file u) := by
  cases u
  case raw => exact fun file p => ⟨false, p, rfl, by simp [HasSignature]⟩
  case aiffc => exact formOf_decides (a := tag "FORM") (b := tag "AIFC") (by decide +kernel) (by decide +kernel)
  case aiff => exact formOf_decides (a := tag "FORM") (b := tag "AIFF") (by decide +kernel) (by decide +kernel)
  case next => exact startsWith_decides (m := tag ".snd") (by decide +kernel)
  case wave => exact formOf_decides (a := tag "RIFF") (b := tag "WAVE") (by decide +kernel) (by decide +kernel)
  case ircam => exact ircam_decides
  case mpeg1 => exact fun file h => h
  case sd1 => exact fun file h => h
  case sd2 => exact fun file h => h
  case avr => exact startsWith_decides (m := tag "2BIT") (by decide +kernel)
  case iff => exact formOf_decides (a := tag "FORM") (b := tag "8SVX") (by decide +kernel) (by decide +kernel)
  case smp => exact startsWith_decides (m := smpMagic) (by decide +kernel)
  case voc => exact startsWith_decides (m := vocMagic) (by decide +kernel)
  case nist => exact startsWith_decides (m := nistMagic) (by decide +kernel)
  case sf2 => exact fun file h => h
  case caf => exact caf_decides
  case flac => exact startsWith_decides (m := tag "fLaC") (by decide +kernel)

/-- The first four bytes of a file with a signature. -/
def firstFour : FileFormat → List (List Byte)
  | .raw | .mpeg1 | .sd1 | .sd2 | .sf2 => []
  | .aiff | .aiffc | .iff => [tag "FORM"]
  | .wave => [tag "RIFF"]
  | .next => [tag ".snd"]
  | .avr => [tag "2BIT"]
  | .ircam => ircamMagics.map (·.1)
  | .smp => [tag "SOUN"]
  | .voc => [tag "Crea"]
  | .nist => [tag "NIST"]
  | .caf => [tag "caff"]
  | .flac => [tag "fLaC"]

theorem At.four {file bs : List Byte} (h : At file 0 bs) (hl : 4 ≤ bs.length) : file.take 4 = bs.take 4 := by
  rw [At_zero] at h
  rw [← h, List.take_take, Nat.min_eq_left hl]

theorem signature_four {file : List Byte} {u : FileFormat} (h : HasSignature file u) : file.take 4 ∈ firstFour u := by
  cases u
  case raw => exact h.elim
  case mpeg1 => exact h.elim
  case sd1 => exact h.elim
  case sd2 => exact h.elim
  case sf2 => exact h.elim
  case ircam =>
    obtain ⟨k, hk, h⟩ := h
    have hm : ∀ k ∈ ([1, 2, 3, 4] : List Byte), [0x64, 0xa3, k, 0x00] ∈ firstFour .ircam ∧ [0x00, k, 0xa3, 0x64] ∈ firstFour .ircam := by
      decide
    rcases h with h | h
    · rw [At.four h (by simp)]; exact (hm k hk).1
    · rw [At.four h (by simp)]; exact (hm k hk).2
  case aiffc => rw [At.four h.1 (by decide +kernel)]; decide +kernel
  case aiff => rw [At.four h.1 (by decide +kernel)]; decide +kernel
  case iff => rw [At.four h.1 (by decide +kernel)]; decide +kernel
  case wave => rw [At.four h.1 (by decide +kernel)]; decide +kernel
  case caf => rw [At.four h.1 (by decide +kernel)]; decide +kernel
  all_goals
    rw [At.four h (by decide +kernel)]; decide +kernel

theorem formats_complete (u : FileFormat) : u ∈ FileFormat.all := by cases u <;> decide

/-- Only the three FORM formats share their first four bytes. -/
theorem four_disjoint : ∀ u ∈ FileFormat.all, ∀ v ∈ FileFormat.all, u ≠ v →
    (u ∈ [.aiff, .aiffc, .iff] ∧ v ∈ [.aiff, .aiffc, .iff]) ∨ ∀ b ∈ firstFour u, b ∉ firstFour v := by
  decide +kernel

/-- At most one signature. -/
theorem signature_unique {file : List Byte} {u v : FileFormat} (hu : HasSignature file u) (hv : HasSignature file v) : u = v := by
  apply Classical.byContradiction
  intro hne
  rcases four_disjoint u (formats_complete u) v (formats_complete v) hne with ⟨h1, h2⟩ | h
  · have l1 : (tag "AIFF").length = 4 := by decide +kernel
    have l2 : (tag "AIFC").length = 4 := by decide +kernel
    have l3 : (tag "8SVX").length = 4 := by decide +kernel
    have n1 : tag "AIFF" ≠ tag "AIFC" := by decide +kernel
    have n2 : tag "AIFF" ≠ tag "8SVX" := by decide +kernel
    have n3 : tag "AIFC" ≠ tag "8SVX" := by decide +kernel
    simp only [List.mem_cons, List.not_mem_nil, or_false] at h1 h2
    rcases h1 with rfl | rfl | rfl <;> rcases h2 with rfl | rfl | rfl <;>
      simp only [HasSignature, At, l1, l2, l3] at hu hv <;> first | exact hne rfl | skip
    · exact n1 (hu.2.symm.trans hv.2)
    · exact n2 (hu.2.symm.trans hv.2)
    · exact n1 (hv.2.symm.trans hu.2)
    · exact n3 (hu.2.symm.trans hv.2)
    · exact n2 (hv.2.symm.trans hu.2)
    · exact n3 (hv.2.symm.trans hu.2)
  · exact h _ (signature_four hu) (signature_four hv)

theorem firstOf_spec : ∀ (us : List FileFormat) (file : List Byte) (p : Nat),
    ∃ r p', firstOf us file p = .ok (r, p') ∧ (∀ u, r = some u → HasSignature file u) ∧
      (r = none → ∀ u ∈ us, ¬ HasSignature file u)
  | [], file, p => ⟨none, p, rfl, by simp, by simp⟩
  | u :: us, file, p => by
    have hd := recognizer_decides u
    unfold firstOf
    cases hr : recognizer u with
    | none =>
      rw [hr] at hd
      obtain ⟨r, p', h1, h2, h3⟩ := firstOf_spec us file p
      refine ⟨r, p', h1, h2, fun hn v hv => ?_⟩
      rcases List.mem_cons.1 hv with rfl | hv
      · exact hd file
      · exact h3 hn v hv
    | some m =>
      rw [hr] at hd
      obtain ⟨b, p1, h1, h2⟩ := hd file p
      dsimp only
      rw [Rd.bind_ok h1]
      cases b with
      | true =>
        refine ⟨some u, p1, rfl, ?_, by simp⟩
        intro v hv
        injection hv with hv
        subst hv
        exact h2.1 rfl
      | false =>
        obtain ⟨r, p', h3, h4, h5⟩ := firstOf_spec us file p1
        refine ⟨r, p', h3, h4, fun hn v hv => ?_⟩
        rcases List.mem_cons.1 hv with rfl | hv
        · intro hs
          exact absurd (h2.2 hs) (by simp)
        · exact h5 hn v hv

end AF.Files
