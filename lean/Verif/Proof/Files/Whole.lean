import Verif.Proof.Defined
import Verif.Proof.Files.Ends
import Verif.Spec.Whole
/-!
# Readers on files that have what they announce
-/
namespace AF.Files
open AF AF.Setup AF.Spec.Walk

theorem bytes_s1 : FieldSize.s1.bytes = 1 := rfl
theorem bytes_s2 : FieldSize.s2.bytes = 2 := rfl
theorem bytes_s4 : FieldSize.s4.bytes = 4 := rfl

namespace Def
variable {α β : Type} {file : List Byte} {p : Nat}

theorem value {m : Rd α} {P Q : α → Nat → Prop} (h : Def file p m P) (hv : ∀ a q, m file p = .ok (a, q) → Q a q) :
    Def file p m fun a q => P a q ∧ Q a q := by
  unfold Def at h ⊢
  split
  · rename_i e; rw [e] at h; exact ⟨h, hv _ _ e⟩
  · rename_i e; rw [e] at h; exact h

theorem read'' (n : Nat) : Def file p (Rd.read n) fun a q => a = (file.drop p).take n ∧ q = p + a.length := ⟨rfl, rfl⟩
theorem field?' (h o : Endian) (k : FieldSize) : Def file p (Rd.field? h o k) fun _ _ => True := by
  unfold Def Rd.field?
  split
  · trivial
  · rename_i h1
    split at h1 <;> cases h1
theorem tell' : Def file p Rd.tell fun a q => a = p ∧ q = p := ⟨rfl, rfl⟩
theorem length' : Def file p Rd.length fun a q => a = file.length ∧ q = p := ⟨rfl, rfl⟩
theorem skip (n : Nat) : Def file p (Rd.skip n) fun _ q => q = p + n := rfl
theorem tag (h : p + 4 ≤ file.length) : Def file p Rd.tag fun a q => a = fourAt file p ∧ q = p + 4 := by
  unfold Rd.tag
  refine (read'' 4).bind fun a q hq => ?_
  have : a.length = 4 := by rw [hq.1, List.length_take, List.length_drop]; omega
  rw [if_pos this]
  exact pure ⟨hq.1, by omega⟩
theorem tagShort (h : ¬ p + 4 ≤ file.length) :
    Def file p Rd.tag fun a q => a = [0, 0, 0, 0] ∧ q = p + (file.length - p) := by
  unfold Rd.tag
  refine (read'' 4).bind fun a q hq => ?_
  have : a.length = file.length - p := by rw [hq.1, List.length_take, List.length_drop]; omega
  rw [if_neg (by omega)]
  exact pure ⟨rfl, by omega⟩
theorem uInit (h o : Endian) (k : FieldSize) (hl : p + k.bytes ≤ file.length) :
    Def file p (Rd.uInit h o k) fun _ q => q = p + k.bytes := by
  unfold Def Rd.uInit
  split
  · rename_i h1
    split at h1
    · cases h1; rfl
    · rename_i h2
      rw [readField_eq] at h2
      rw [if_pos (by rw [List.length_drop]; omega)] at h2
      cases h2
  · rename_i h1
    split at h1 <;> cases h1
theorem times {m : Rd α} (hm : ∀ p, Def file p m fun _ _ => True) (n : Nat) : Def file p (Rd.times m n) fun _ _ => True := by
  induction n generalizing p with
  | zero => exact pure trivial
  | succ n ih => unfold Rd.times; exact (hm p).bind fun _ _ _ => ih.bind fun _ _ _ => pure trivial
theorem u32 (h : Endian) : Def file p (Rd.u32 h) fun _ _ => True := by
  unfold Rd.u32
  refine (field?' _ _ _).bind fun a _ _ => ?_
  split
  · exact pure trivial
  · exact fail
theorem s64 (h : Endian) : Def file p (Rd.s64 h) fun _ _ => True := by
  unfold Rd.s64
  refine (field?' _ _ _).bind fun a _ _ => ?_
  split
  · exact pure trivial
  · exact fail
theorem tag4 : Def file p Rd.tag4 fun _ _ => True := by
  unfold Rd.tag4
  exact (read' 4).bind fun _ _ _ => ite (fun _ => fail) fun _ => pure trivial
end Def

/-- A loop whose rounds keep an invariant of the state and the position. -/
theorem Def.loop {σ α : Type} {file : List Byte} {body : σ → Rd (σ ⊕ α)} (I : σ → Nat → Prop) {Q : α → Nat → Prop}
    (hb : ∀ s p, I s p → Def file p (body s) (fun r q => match r with | .inl s' => I s' q | .inr a => Q a q)) :
    ∀ (n : Nat) (s : σ) (p : Nat), I s p → Def file p (Rd.loop body n s) Q := by
  intro n
  induction n with
  | zero => intro s p _; unfold Def Rd.loop; simp
  | succ n ih =>
    intro s p hI
    rw [Rd.loop]
    refine (hb s p hI).bind fun r q hr => ?_
    cases r with
    | inl s' => exact ih s' q hr
    | inr a => exact Def.pure hr

/-! ## Numbers -/

theorem drop_two {file : List Byte} {p : Nat} (h : p + 2 ≤ file.length) :
    (file.drop p).take 2 = [file.getD p 0, file.getD (p + 1) 0] := by
  rw [List.drop_eq_getElem_cons (by omega), List.drop_eq_getElem_cons (by omega)]
  simp only [List.take_succ_cons, List.take_zero, List.getD_eq_getElem?_getD]
  rw [List.getElem?_eq_getElem (by omega), List.getElem?_eq_getElem (by omega)]
  rfl

theorem drop_one {file : List Byte} {p : Nat} (h : p + 1 ≤ file.length) :
    (file.drop p).take 1 = [file.getD p 0] := by
  rw [List.drop_eq_getElem_cons (by omega)]
  simp only [List.take_succ_cons, List.take_zero, List.getD_eq_getElem?_getD]
  rw [List.getElem?_eq_getElem (by omega)]
  rfl

theorem byteAt_lt (file : List Byte) (p : Nat) : byteAt file p < 256 := (file.getD p 0).isLt

theorem field?_run (h o : Endian) (k : FieldSize) {file : List Byte} {p : Nat} (hp : p + k.bytes ≤ file.length) :
    Rd.field? h o k file p = .ok (some (BitVec.ofInt (8 * k.bytes) (uintOf o ((file.drop p).take k.bytes))).toNat, p + k.bytes) := by
  unfold Rd.field?
  rw [readField_eq, if_pos (by rw [List.length_drop]; omega)]

theorem s2_value (o : Endian) {file : List Byte} {p : Nat} (hp : p + 2 ≤ file.length) :
    (BitVec.ofInt (8 * FieldSize.s2.bytes) (uintOf o ((file.drop p).take FieldSize.s2.bytes))).toNat =
      match o with | .little => le16 file p | .big => be16 file p := by
  have e : (2 ^ (8 * FieldSize.s2.bytes) : Nat) = 65536 := rfl
  have a := byteAt_lt file p
  have b := byteAt_lt file (p + 1)
  rw [bytes_s2, drop_two hp, BitVec.toNat_ofInt, ← bytes_s2, e]
  cases o
  · show ((((file.getD p 0).toNat : Int) + 256 * (((file.getD (p + 1) 0).toNat : Int) + 256 * 0)) % ((65536 : Nat) : Int)).toNat = byteAt file p + 256 * byteAt file (p + 1)
    unfold byteAt at *
    omega
  · show ((((file.getD (p + 1) 0).toNat : Int) + 256 * (((file.getD p 0).toNat : Int) + 256 * 0)) % ((65536 : Nat) : Int)).toNat = 256 * byteAt file p + byteAt file (p + 1)
    unfold byteAt at *
    omega

theorem s1_value (o : Endian) {file : List Byte} {p : Nat} (hp : p + 1 ≤ file.length) :
    (BitVec.ofInt (8 * FieldSize.s1.bytes) (uintOf o ((file.drop p).take FieldSize.s1.bytes))).toNat = byteAt file p := by
  have e : (2 ^ (8 * FieldSize.s1.bytes) : Nat) = 256 := rfl
  have a := byteAt_lt file p
  rw [bytes_s1, drop_one hp, BitVec.toNat_ofInt, ← bytes_s1, e]
  cases o
  · show ((((file.getD p 0).toNat : Int) + 256 * 0) % ((256 : Nat) : Int)).toNat = byteAt file p
    unfold byteAt at *
    omega
  · show ((((file.getD p 0).toNat : Int) + 256 * 0) % ((256 : Nat) : Int)).toNat = byteAt file p
    unfold byteAt at *
    omega

theorem field_run (h o : Endian) (k : FieldSize) {file : List Byte} {p : Nat} (hp : p + k.bytes ≤ file.length) :
    Rd.field h o k file p = .ok ((BitVec.ofInt (8 * k.bytes) (uintOf o ((file.drop p).take k.bytes))).toNat, p + k.bytes) := by
  unfold Rd.field
  rw [Rd.bind_ok (field?_run h o k hp)]
  rfl

namespace Def
variable {file : List Byte} {p : Nat}

theorem of_run {α : Type} {m : Rd α} {a : α} {q : Nat} {Q : α → Nat → Prop} (h : m file p = .ok (a, q)) (hq : Q a q) : Def file p m Q := by
  unfold Def; rw [h]; exact hq

theorem le2 (h : Endian) (hl : p + 2 ≤ file.length) : Def file p (Rd.field h .little .s2) fun a q => a = le16 file p ∧ q = p + 2 :=
  of_run (field_run h .little .s2 hl) ⟨s2_value .little hl, rfl⟩
theorem le2? (h : Endian) (hl : p + 2 ≤ file.length) : Def file p (Rd.field? h .little .s2) fun a q => a = some (le16 file p) ∧ q = p + 2 :=
  of_run (field?_run h .little .s2 hl) ⟨congrArg some (s2_value .little hl), rfl⟩
theorem be2 (h : Endian) (hl : p + 2 ≤ file.length) : Def file p (Rd.field h .big .s2) fun a q => a = be16 file p ∧ q = p + 2 :=
  of_run (field_run h .big .s2 hl) ⟨s2_value .big hl, rfl⟩
theorem le4 (h : Endian) (hl : p + 4 ≤ file.length) : Def file p (Rd.field h .little .s4) fun a q => a = le32 file p ∧ q = p + 4 :=
  ((field h .little .s4 hl).value fun _ _ he => field_little he).mono fun _ _ h => ⟨h.2, h.1⟩
theorem be4 (h : Endian) (hl : p + 4 ≤ file.length) : Def file p (Rd.field h .big .s4) fun a q => a = be32 file p ∧ q = p + 4 :=
  ((field h .big .s4 hl).value fun _ _ he => field_big he).mono fun _ _ h => ⟨h.2, h.1⟩
theorem le4? (h : Endian) (hl : p + 4 ≤ file.length) : Def file p (Rd.field? h .little .s4) fun a q => a = some (le32 file p) ∧ q = p + 4 := by
  refine of_run (field?_run h .little .s4 hl) ⟨congrArg some ?_, rfl⟩
  exact field_little (field_run h .little .s4 hl)
theorem one (h o : Endian) (hl : p + 1 ≤ file.length) : Def file p (Rd.field h o .s1) fun a q => a = byteAt file p ∧ q = p + 1 :=
  of_run (field_run h o .s1 hl) ⟨s1_value o hl, rfl⟩
theorem uOne (h o : Endian) (hl : p + 1 ≤ file.length) : Def file p (Rd.uInit h o .s1) fun a q => a = byteAt file p ∧ q = p + 1 := by
  refine of_run (a := (BitVec.ofInt (8 * FieldSize.s1.bytes) (uintOf o ((file.drop p).take FieldSize.s1.bytes))).toNat) (q := p + 1) ?_
    ⟨s1_value o hl, rfl⟩
  unfold Rd.uInit
  rw [readField_eq, if_pos (by rw [List.length_drop, bytes_s1]; omega)]
theorem u32Big (h : Endian) (hl : p + 4 ≤ file.length) : Def file p (Rd.u32Init h .big) fun a q => a = be32 file p ∧ q = p + 4 := by
  have hx := field_big (field_run h .big .s4 hl)
  refine of_run (q := p + 4) ?_ ⟨hx, rfl⟩
  unfold Rd.u32Init
  rw [readField_eq, if_pos (by rw [List.length_drop, bytes_s4]; omega)]
theorem u32Little (h : Endian) (hl : p + 4 ≤ file.length) : Def file p (Rd.u32Init h .little) fun a q => a = le32 file p ∧ q = p + 4 := by
  have hx := field_little (field_run h .little .s4 hl)
  refine of_run (q := p + 4) ?_ ⟨hx, rfl⟩
  unfold Rd.u32Init
  rw [readField_eq, if_pos (by rw [List.length_drop, bytes_s4]; omega)]
theorem u32Short (h o : Endian) (hl : ¬ p + 4 ≤ file.length) :
    Def file p (Rd.u32Init h o) fun a q => a < 2 ^ 32 - 8 ∧ q = p + (file.length - p) ∧ (file.length ≤ p → a = 0) := by
  have hd : (file.drop p).length < 4 := by rw [List.length_drop]; omega
  refine of_run (a := (uintOf h (file.drop p ++ List.replicate (4 - (file.drop p).length) 0)).toNat)
    (q := p + (file.drop p).length) ?_ ⟨partial_small h _ hd, by rw [List.length_drop], fun hp => ?_⟩
  · unfold Rd.u32Init
    rw [readField_eq, if_neg (by rw [bytes_s4]; omega)]
  · rw [List.drop_eq_nil_of_le hp]
    cases h <;> rfl
end Def

/-! ## Steps -/

/-- What can be reached by steps. -/
inductive Reach (R : Nat → Nat → Prop) : Nat → Nat → Prop
  | refl (p : Nat) : Reach R p p
  | step {p q r : Nat} : R p q → Reach R q r → Reach R p r

theorem Reach.snoc {R : Nat → Nat → Prop} {p q r : Nat} (h : Reach R p q) (hr : R q r) : Reach R p r := by
  induction h with
  | refl => exact .step hr (.refl _)
  | step h1 _ ih => exact .step h1 (ih hr)

theorem Reach.le {R : Nat → Nat → Prop} (hR : ∀ p q, R p q → p < q) {p q : Nat} (h : Reach R p q) : p ≤ q := by
  induction h with
  | refl => omega
  | step h1 _ ih => have := hR _ _ h1; omega

theorem Reach.pop {R : Nat → Nat → Prop} {n : Nat} {p q : Nat} (hd : ∀ q, R p q → q = n) (h : Reach R p q) (hne : q ≠ p) : Reach R n q := by
  cases h with
  | refl => exact absurd rfl hne
  | step h1 h2 => rw [hd _ h1] at h2; exact h2

/-! ## FORM files -/

def FormStep (file : List Byte) (p q : Nat) : Prop :=
  p + 8 ≤ file.length ∧ q = p + 8 + be32 file (p + 4) + be32 file (p + 4) % 2

theorem FormChunk.reach {file : List Byte} {p : Nat} (h : FormChunk file p) : Reach (FormStep file) 12 p := by
  induction h with
  | first => exact .refl _
  | next _ hl ih => exact ih.snoc ⟨hl, rfl⟩

/-- The walk over a FORM file that has what it announces: nothing undefined is met, and if there is a chunk with a name, what it
leaves is found. -/
theorem form_def {σ : Type} {chunk : List Byte → Nat → σ → Rd σ} {h : Endian} {file : List Byte} {needs : List Byte → Nat → Prop}
    {found : σ → Prop} {key : String} (hw : FormWhole file needs) (hzero : ∀ q, needs [0, 0, 0, 0] q)
    (hfar : ∀ id q q', file.length < q → needs id q → needs id q')
    (hc : ∀ id n q x, needs id q → Def file q (chunk id n x) fun y _ => (found x ∨ id = ascii key → found y)) (n : Nat) :
    ∀ (i : Nat) (x : σ), i % 2 = 0 → (FormChunk file (i + 8) ∨ file.length < i + 12) →
      (found x ∨ ∃ p, Reach (FormStep file) (i + 8) p ∧ p < be32 file 4 + 8 ∧ p + 8 ≤ file.length ∧ Named file p key) →
      Def file (i + 8) (Rd.loop (formRound chunk h (be32 file 4)) n (i, x)) fun y _ => found y := by
  have hmono : ∀ p q, FormStep file p q → p < q := fun p q h => by have := h.2; omega
  induction n with
  | zero => intro i x _ _ _; unfold Def Rd.loop; simp
  | succ n ih =>
    intro i x hi hch hf
    rw [Rd.loop]
    by_cases hlt : i < be32 file 4
    · -- one round, given what the header says
      have round : ∀ (Q : (Nat × σ) ⊕ σ → Nat → Prop) (id : List Byte) (sz q : Nat),
          Def file (i + 8) Rd.tag (fun a r => a = id ∧ Def file r (Rd.u32Init h .big) fun b r => b = sz ∧ r = q) → needs id q →
          (∀ y, (found x ∨ id = ascii key → found y) → Q (.inl (formNext i sz, y)) (formNext i sz + 8)) →
          Def file (i + 8) (formRound chunk h (be32 file 4) (i, x)) Q := by
        intro Q id sz q ht hn hQ
        unfold formRound
        rw [if_pos hlt]
        refine ht.bind fun a r ⟨ha, hu⟩ => hu.bind fun b r' ⟨hb, hr⟩ => ?_
        subst ha hb hr
        refine (hc _ _ _ x hn).bind fun y _ hy => (Def.seek _).bind fun _ _ hs => ?_
        subst hs
        exact Def.pure (hQ y hy)
      have next : ∀ sz y, (found x ∨ fourAt file (i + 8) = ascii key → found y) ∨ (found x ∧ found y) →
          (FormChunk file (formNext i sz + 8) ∨ file.length < formNext i sz + 12) →
          (i + 16 ≤ file.length → formNext i sz + 8 = i + 8 + 8 + be32 file (i + 8 + 4) + be32 file (i + 8 + 4) % 2) →
          Def file (formNext i sz + 8) (Rd.loop (formRound chunk h (be32 file 4)) n (formNext i sz, y)) fun y _ => found y := by
        intro sz y hy hchn hstep
        refine ih _ _ (by unfold formNext; dsimp only; split <;> omega) hchn ?_
        rcases hy with hy | hy
        · rcases hf with hf | ⟨p, hp, h1, h2, h3⟩
          · exact .inl (hy (.inl hf))
          · by_cases hpe : p = i + 8
            · subst hpe
              exact .inl (hy (.inr h3))
            · refine .inr ⟨p, ?_, h1, h2, h3⟩
              refine hp.pop (fun q hq => ?_) hpe
              rw [hq.2]
              exact (hstep hq.1).symm
        · exact .inl hy.2
      by_cases h4 : i + 8 + 4 ≤ file.length
      · have hF : FormChunk file (i + 8) := hch.resolve_right (by omega)
        obtain ⟨hs, hn⟩ := hw.chunks _ hF (by omega) h4
        by_cases h8 : i + 16 ≤ file.length
        · have e : formNext i (be32 file (i + 8 + 4)) + 8 = i + 8 + 8 + be32 file (i + 8 + 4) + be32 file (i + 8 + 4) % 2 := by
            unfold formNext
            generalize be32 file (i + 8 + 4) = z at hs ⊢
            have : (z + 8) % 2 ^ 32 = z + 8 := Nat.mod_eq_of_lt (by omega)
            rw [this]
            dsimp only
            split <;> omega
          refine Def.bind (P := fun r q => ∃ y, r = .inl (formNext i (be32 file (i + 8 + 4)), y) ∧
              q = formNext i (be32 file (i + 8 + 4)) + 8 ∧ (found x ∨ fourAt file (i + 8) = ascii key → found y))
            (round _ (fourAt file (i + 8)) (be32 file (i + 8 + 4)) (i + 8 + 8) ?_ hn fun y hy => ⟨y, rfl, rfl, hy⟩) ?_
          · refine (Def.tag h4).mono fun a q hq => ⟨hq.1, ?_⟩
            rw [hq.2]
            exact (Def.u32Big h (by omega)).mono fun b r hr => ⟨hr.1, by omega⟩
          · rintro _ _ ⟨y, rfl, rfl, hy⟩
            refine next _ y (.inl hy) (.inl ?_) fun _ => e
            rw [e]
            exact .next hF (by omega)
        · -- the length is cut by the end of the file
          have hx : found x := by
            rcases hf with hf | ⟨p, hp, _, h2, _⟩
            · exact hf
            · have := hp.le hmono; omega
          refine Def.bind (P := fun r q => ∃ sz y, r = .inl (formNext i sz, y) ∧ q = formNext i sz + 8 ∧ sz < 2 ^ 32 - 8 ∧ found y) ?_ ?_
          · unfold formRound
            rw [if_pos hlt]
            refine (Def.tag h4).bind fun a r ⟨ha, hr⟩ => ?_
            subst ha hr
            refine (Def.u32Short h .big (by omega)).bind fun b r' ⟨hb, _, _⟩ => ?_
            refine (hc _ _ _ x (hfar _ _ _ (by omega) hn)).bind fun y _ hy => (Def.seek _).bind fun _ _ hs => ?_
            subst hs
            exact Def.pure ⟨b, y, rfl, rfl, hb, hy (.inl hx)⟩
          · rintro _ _ ⟨sz, y, rfl, rfl, hs, hy⟩
            refine next _ y (.inr ⟨hx, hy⟩) (.inr ?_) fun _ => by omega
            have : i + 8 ≤ formNext i sz := by
              unfold formNext
              have : (sz + 8) % 2 ^ 32 = sz + 8 := Nat.mod_eq_of_lt (by omega)
              rw [this]
              dsimp only
              split <;> omega
            omega
      · have hx : found x := by
          rcases hf with hf | ⟨p, hp, _, h2, _⟩
          · exact hf
          · have := hp.le hmono; omega
        refine Def.bind (P := fun r q => ∃ sz y, r = .inl (formNext i sz, y) ∧ q = formNext i sz + 8 ∧ sz < 2 ^ 32 - 8 ∧ found y) ?_ ?_
        · unfold formRound
          rw [if_pos hlt]
          refine (Def.tagShort h4).bind fun a r ⟨ha, hr⟩ => ?_
          subst ha hr
          refine (Def.u32Short h .big (by omega)).bind fun b r' ⟨hb, _, _⟩ => ?_
          refine (hc _ _ _ x (hzero _)).bind fun y _ hy => (Def.seek _).bind fun _ _ hs => ?_
          subst hs
          exact Def.pure ⟨b, y, rfl, rfl, hb, hy (.inl hx)⟩
        · rintro _ _ ⟨sz, y, rfl, rfl, hs, hy⟩
          refine next _ y (.inr ⟨hx, hy⟩) (.inr ?_) fun _ => by omega
          have : i + 8 ≤ formNext i sz := by
            unfold formNext
            have : (sz + 8) % 2 ^ 32 = sz + 8 := Nat.mod_eq_of_lt (by omega)
            rw [this]
            dsimp only
            split <;> omega
          omega
    · have hx : found x := by
        rcases hf with hf | ⟨p, hp, h1, _, _⟩
        · exact hf
        · have := hp.le hmono; omega
      refine Def.bind (P := fun r _ => r = .inr x) ?_ ?_
      · unfold formRound
        rw [if_neg hlt]
        exact Def.pure rfl
      · rintro _ _ rfl
        exact Def.pure hx

/-- The beginning of a FORM file, and its chunks. -/
theorem form_open {σ : Type} {chunk : List Byte → List Byte → Nat → σ → Rd σ} {h : Endian} {file : List Byte}
    {needs : List Byte → Nat → Prop} {found : σ → Prop} {key : String} {c : List Byte → List Byte → Prop} [∀ a b, Decidable (c a b)]
    {fuel : Nat} {x : σ} {g : σ → Rd σ} {p : Nat}
    (hw : FormWhole file needs) (hh : FormHas file key) (hzero : ∀ q, needs [0, 0, 0, 0] q)
    (hfar : ∀ id q q', file.length < q → needs id q → needs id q')
    (hc : ∀ ft id n q x, needs id q → Def file q (chunk ft id n x) fun y _ => (found x ∨ id = ascii key → found y))
    (hg : ∀ x q, found x → Def file q (g x) fun _ _ => True) :
    Def file p (Rd.seek 0 >>= fun _ => Rd.read 4 >>= fun type => Rd.field h .big .s4 >>= fun size => Rd.read 4 >>= fun ft =>
      if c type ft then Rd.fail else Rd.loop (formRound (chunk ft) h size) fuel (4, x) >>= g) fun _ _ => True := by
  have h12 := hw.header
  refine (Def.seek 0).bind fun _ q hq => ?_
  subst hq
  refine (Def.read 4 (by omega)).bind fun _ q hq => ?_
  replace hq := hq.1
  refine (Def.be4 h (by omega)).bind fun size q2 hq2 => ?_
  refine (Def.read 4 (by omega)).bind fun _ q3 hq3 => ?_
  refine Def.ite (fun _ => Def.fail) fun _ => ?_
  replace hq3 := hq3.1
  have hs : size = be32 file 4 := by rw [hq2.1, hq]
  have hq3 : q3 = 4 + 8 := by omega
  subst hq3
  rw [hs]
  refine (form_def hw hzero hfar (hc _) fuel 4 x (by decide) (.inl .first) (.inr ?_)).bind fun y q hy => hg y q hy
  obtain ⟨p, h1, h2, h3, h4⟩ := hh
  exact ⟨p, FormChunk.reach h1, h2, h3, h4⟩

end AF.Files
