import Verif.Spec.ForeignForm
import Verif.Proof.ForeignSimple
import Verif.Proof.Files.AIFF
/-!
# Reading FORM files of other programs: the walk over the chunks
-/
namespace AF.Foreign
open AF AF.Setup AF.Files AF.Spec.Files AF.Spec.Formats AF.Spec.Setup AF.Spec.Foreign

theorem form_length {c : Chunk} (h : c.Ok) : c.form.length = 8 + c.body.length + c.body.length % 2 := by
  unfold Chunk.form
  simp only [List.length_append, be_length, h.id, h.pad]

theorem form_body {file rest : List Byte} {p : Nat} {c : Chunk} (ok : c.Ok) (he : file.drop p = c.form ++ rest) :
    file.drop (p + 8) = c.body ++ (c.pad ++ rest) := by
  unfold Chunk.form at he
  rw [List.append_assoc, List.append_assoc, List.append_assoc] at he
  have h1 := drop_step (drop_step he ok.id) (be_length _ _)
  rw [Nat.add_assoc] at h1
  exact h1

section
variable {σ : Type} {chunk : List Byte → Nat → σ → Rd σ} {h : Endian} {size : Nat} {file : List Byte}

/-- One chunk. -/
theorem walk_form {rest : List Byte} {x x' : σ} {i p q : Nat} {c : Chunk} (ok : c.Ok) (hp : p = i + 8) (hev : i % 2 = 0)
    (hlt : i + c.form.length ≤ size) (hb : size + 9 < 2 ^ 32) (he : file.drop p = c.form ++ rest)
    (hc : chunk c.id c.body.length x file (p + 8) = .ok (x', q)) :
    FWalk chunk h size file 1 (i, x) p (i + c.form.length, x') (p + c.form.length) ∧
      file.drop (p + c.form.length) = rest ∧ (i + c.form.length) % 2 = 0 := by
  have hl := form_length ok
  refine ⟨?_, drop_step he rfl, by omega⟩
  have he' : file.drop p = c.id ++ (fieldBytes .little .big .s4 c.body.length ++ (c.body ++ c.pad ++ rest)) := by
    rw [he]
    unfold Chunk.form
    rw [be_num, show num .big 4 c.body.length = num .big FieldSize.s4.bytes c.body.length from rfl, num_field .little]
    simp only [List.append_assoc]
  have := form_chunk (h := .little) (h' := h) (size := size) (sz := c.body.length) hp (by omega) he' ok.id hev (by omega) hc
  rw [show 8 + c.body.length + c.body.length % 2 = c.form.length by omega] at this
  exact this

/-- Chunks that leave some facts about the state as they are. -/
theorem walk_others {I : σ → Prop} (cs : List Chunk) : ∀ {rest : List Byte} {x : σ} {i p : Nat},
    (∀ c ∈ cs, c.Ok ∧ ∀ x q rest, I x → file.drop q = c.body ++ (c.pad ++ rest) →
      ∃ x' q', chunk c.id c.body.length x file q = .ok (x', q') ∧ I x') → I x → p = i + 8 → i % 2 = 0 →
    i + (cs.flatMap Chunk.form).length ≤ size → size + 9 < 2 ^ 32 → file.drop p = cs.flatMap Chunk.form ++ rest →
    ∃ x', I x' ∧ FWalk chunk h size file cs.length (i, x) p (i + (cs.flatMap Chunk.form).length, x') (p + (cs.flatMap Chunk.form).length) ∧
      file.drop (p + (cs.flatMap Chunk.form).length) = rest ∧ (i + (cs.flatMap Chunk.form).length) % 2 = 0 := by
  induction cs with
  | nil => intro rest x i p _ hI hp hev _ _ he; exact ⟨x, hI, FWalk.refl _ _, he, hev⟩
  | cons c cs ih =>
    intro rest x i p hok hI hp hev hlt hb he
    rw [List.flatMap_cons, List.length_append] at *
    rw [List.append_assoc] at he
    obtain ⟨cok, hc⟩ := hok c List.mem_cons_self
    obtain ⟨x1, q1, hc1, hI1⟩ := hc x (p + 8) _ hI (form_body cok he)
    obtain ⟨w1, d1, v1⟩ := walk_form (h := h) cok hp hev (by omega) hb he hc1
    obtain ⟨x2, hI2, w2, d2, v2⟩ := ih (fun y hy => hok y (List.mem_cons_of_mem _ hy)) hI1 (by omega) v1 (by omega) hb d1
    refine ⟨x2, hI2, ?_, ?_, ?_⟩
    · have w := w1.trans w2
      rw [List.length_cons, Nat.add_comm cs.length 1]
      rw [Nat.add_assoc, Nat.add_assoc] at w
      exact w
    · rw [Nat.add_assoc] at d2; exact d2
    · rw [Nat.add_assoc] at v2; exact v2
end

theorem forms_length {cs : List Chunk} (h : ∀ c ∈ cs, c.Ok) : cs.length ≤ (cs.flatMap Chunk.form).length := by
  induction cs with
  | nil => exact Nat.le_refl _
  | cons c cs ih =>
    rw [List.flatMap_cons, List.length_append, List.length_cons, form_length (h c List.mem_cons_self)]
    have := ih fun x hx => h x (List.mem_cons_of_mem _ hx)
    omega

/-! ## Two chunks that count among others -/

/-- A file with two chunks `a` and `b` that change the state, and others that do not matter. -/
theorem walk_two {σ : Type} {chunk : List Byte → Nat → σ → Rd σ} {h : Endian} {file : List Byte} {before between after : List Chunk} {a b : Chunk}
    {type : String} {I0 I1 I2 : σ → Prop}
    (hf : file = formFile type ((before ++ [a] ++ between ++ [b] ++ after).flatMap Chunk.form)) (htype : (text type).length = 4)
    (hsz : file.length + 1 < 2 ^ 32)
    (oth : ∀ c ∈ before ++ between ++ after, c.Ok ∧ ∀ I : σ → Prop, (I = I0 ∨ I = I1 ∨ I = I2) → ∀ x q rest, I x → file.drop q = c.body ++ (c.pad ++ rest) →
      ∃ x' q', chunk c.id c.body.length x file q = .ok (x', q') ∧ I x')
    (aok : a.Ok) (bok : b.Ok)
    (ha : ∀ x q rest, I0 x → q = 20 + (before.flatMap Chunk.form).length → file.drop q = a.body ++ (a.pad ++ rest) →
      ∃ x' q', chunk a.id a.body.length x file q = .ok (x', q') ∧ I1 x')
    (hb : ∀ x q rest, I1 x → q = 20 + (before.flatMap Chunk.form).length + a.form.length + (between.flatMap Chunk.form).length →
      file.drop q = b.body ++ (b.pad ++ rest) → ∃ x' q', chunk b.id b.body.length x file q = .ok (x', q') ∧ I2 x')
    {x0 : σ} (h0 : I0 x0) {fuel : Nat} (hfuel : file.length < fuel) :
    ∃ x p, Rd.loop (formRound chunk h (file.length - 8)) fuel (4, x0) file 12 = .ok (x, p) ∧ I2 x := by
  generalize hB : before.flatMap Chunk.form = B at *
  generalize hM : between.flatMap Chunk.form = M at *
  generalize hA : after.flatMap Chunk.form = A at *
  have hch : (before ++ [a] ++ between ++ [b] ++ after).flatMap Chunk.form = B ++ (a.form ++ (M ++ (b.form ++ A))) := by
    simp only [List.flatMap_append, List.flatMap_cons, List.flatMap_nil, List.append_nil, hB, hM, hA, List.append_assoc]
  rw [hch] at hf
  have hd : file.drop 12 = B ++ (a.form ++ (M ++ (b.form ++ A))) := by
    rw [hf]
    unfold formFile
    refine List.drop_left' ?_
    rw [List.length_append, List.length_append, be_length, htype]
    rfl
  have hlen : file.length = 12 + (B.length + (a.form.length + (M.length + (b.form.length + A.length)))) := by
    rw [hf]
    unfold formFile
    simp only [List.length_append, be_length, htype, show (text "FORM").length = 4 from rfl]
  have lB := forms_length (cs := before) fun c hc => (oth c (by simp [hc])).1
  have lM := forms_length (cs := between) fun c hc => (oth c (by simp [hc])).1
  have lA := forms_length (cs := after) fun c hc => (oth c (by simp [hc])).1
  have la := form_length aok
  have lb := form_length bok
  rw [hB] at lB; rw [hM] at lM; rw [hA] at lA
  obtain ⟨x1, i1, w1, d1, v1⟩ := walk_others (h := h) (chunk := chunk) (size := file.length - 8) (I := I0) before (rest := a.form ++ (M ++ (b.form ++ A))) (i := 4) (p := 12)
    (fun c hc => ⟨(oth c (by simp [hc])).1, (oth c (by simp [hc])).2 I0 (.inl rfl)⟩) h0 rfl rfl (by rw [hB]; omega) (by omega) (by rw [hB]; exact hd)
  rw [hB] at w1 d1 v1
  obtain ⟨x2, q2, c2, i2⟩ := ha x1 (12 + B.length + 8) _ i1 (by omega) (form_body aok d1)
  obtain ⟨w2, d2, v2⟩ := walk_form (h := h) (size := file.length - 8) (i := 4 + B.length) (p := 12 + B.length) aok (by omega) v1 (by omega) (by omega) d1 c2
  obtain ⟨x3, i3, w3, d3, v3⟩ := walk_others (h := h) (chunk := chunk) (size := file.length - 8) (I := I1) between (rest := b.form ++ A) (i := 4 + B.length + a.form.length) (p := 12 + B.length + a.form.length)
    (fun c hc => ⟨(oth c (by simp [hc])).1, (oth c (by simp [hc])).2 I1 (.inr (.inl rfl))⟩) i2 (by omega) v2 (by rw [hM]; omega) (by omega) (by rw [hM]; exact d2)
  rw [hM] at w3 d3 v3
  obtain ⟨x4, q4, c4, i4⟩ := hb x3 (12 + B.length + a.form.length + M.length + 8) _ i3 (by omega) (form_body bok d3)
  obtain ⟨w4, d4, v4⟩ := walk_form (h := h) (size := file.length - 8) (i := 4 + B.length + a.form.length + M.length) (p := 12 + B.length + a.form.length + M.length) bok (by omega) v3 (by omega) (by omega) d3 c4
  obtain ⟨x5, i5, w5, d5, v5⟩ := walk_others (h := h) (chunk := chunk) (size := file.length - 8) (I := I2) after (rest := []) (i := 4 + B.length + a.form.length + M.length + b.form.length) (p := 12 + B.length + a.form.length + M.length + b.form.length)
    (fun c hc => ⟨(oth c (by simp [hc])).1, (oth c (by simp [hc])).2 I2 (.inr (.inr rfl))⟩) i4 (by omega) v4 (by rw [hA]; omega) (by omega)
    (by rw [hA, List.append_nil]; exact d4)
  rw [hA] at w5
  exact ⟨x5, _, form_end (by omega) ((((w1.trans w2).trans w3).trans w4).trans w5) (by omega), i5⟩

end AF.Foreign
