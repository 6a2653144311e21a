import Verif.Spec.Formats
import Verif.Model.Chunks
import Verif.Proof.Disk
import Verif.Proof.Setup
/-!
# What holds of every result of a reader, for any file
-/
namespace AF.Files
open AF AF.Setup AF.Spec.Setup AF.Spec.Formats

/-- Whatever the file and the position, a result satisfies `Q`. -/
def Post {α : Type} (m : Rd α) (Q : α → Prop) : Prop := ∀ file p a p', m file p = .ok (a, p') → Q a

namespace Post
variable {α β : Type}

theorem bind {m : Rd α} {g : α → Rd β} {P : α → Prop} {Q : β → Prop} (h1 : Post m P) (h2 : ∀ a, P a → Post (g a) Q) :
    Post (m >>= g) Q := by
  intro file p b p' hb
  have hb' : (match m file p with | .ok (a, p) => g a file p | .error e => .error e) = Except.ok (b, p') := hb
  cases hm : m file p with
  | error e => rw [hm] at hb'; cases hb'
  | ok x =>
    obtain ⟨a, q⟩ := x
    rw [hm] at hb'
    exact h2 a (h1 _ _ _ _ hm) _ _ _ _ hb'

theorem triv {m : Rd α} : Post m fun _ => True := fun _ _ _ _ _ => trivial

theorem bind' {m : Rd α} {g : α → Rd β} {Q : β → Prop} (h2 : ∀ a, Post (g a) Q) : Post (m >>= g) Q :=
  bind triv fun a _ => h2 a

theorem pure {a : α} {Q : α → Prop} (h : Q a) : Post (Pure.pure a : Rd α) Q := by
  intro file p b p' hb
  have : (Except.ok (a, p) : Except Err (α × Nat)) = .ok (b, p') := hb
  injection this with this
  injection this with this
  exact this ▸ h

theorem bindPure {a : α} {g : α → Rd β} {Q : β → Prop} (h : Post (g a) Q) : Post (Pure.pure a >>= g) Q := h

theorem mono {m : Rd α} {P Q : α → Prop} (h : Post m P) (hPQ : ∀ a, P a → Q a) : Post m Q :=
  fun file p a p' ha => hPQ a (h file p a p' ha)

theorem fail {Q : α → Prop} : Post (Rd.fail : Rd α) Q := fun _ _ _ _ h => by cases h
theorem undefined {Q : α → Prop} : Post (Rd.undefined : Rd α) Q := fun _ _ _ _ h => by cases h

theorem ite {c : Prop} [Decidable c] {m1 m2 : Rd α} {Q : α → Prop} (h1 : c → Post m1 Q) (h2 : ¬ c → Post m2 Q) :
    Post (if c then m1 else m2) Q := by
  by_cases hc : c
  · rw [if_pos hc]; exact h1 hc
  · rw [if_neg hc]; exact h2 hc

/-- The invariant goes on, or the result is right. -/
def Next {σ : Type} (I : σ → Prop) (Q : α → Prop) : σ ⊕ α → Prop
  | .inl s => I s
  | .inr a => Q a

theorem loop {σ : Type} {body : σ → Rd (σ ⊕ α)} (I : σ → Prop) {Q : α → Prop}
    (hb : ∀ s, I s → Post (body s) (Next I Q)) (n : Nat) {s : σ} (hs : I s) :
    Post (Rd.loop body n s) Q := by
  induction n generalizing s with
  | zero => intro _ _ _ _ h; cases h
  | succ n ih =>
    unfold Rd.loop
    refine bind (hb s hs) fun r hr => ?_
    cases r with
    | inl s => exact ih hr
    | inr a => exact pure hr

theorem field? (h o : Endian) (k : FieldSize) : Post (Rd.field? h o k) fun x => ∀ y, x = some y → y < 2 ^ (8 * k.bytes) := by
  intro file p a p' ha y hy
  unfold Rd.field? at ha
  split at ha
  · rename_i x _ _
    injection ha with ha
    injection ha with ha
    rw [← ha] at hy
    injection hy with hy
    exact hy ▸ x.isLt
  · injection ha with ha
    injection ha with ha
    rw [← ha] at hy
    cases hy

theorem field (h o : Endian) (k : FieldSize) : Post (Rd.field h o k) fun x => x < 2 ^ (8 * k.bytes) := by
  unfold Rd.field
  refine bind (field? h o k) fun a ha => ?_
  cases a with
  | none => exact undefined
  | some x => exact pure (ha x rfl)

end Post

theorem wrap32_ne {n : Nat} (h0 : n ≠ 0) (h : n < 2 ^ 32) : wrapS 32 n ≠ 0 := by
  unfold wrapS Int.bmod
  dsimp only
  omega

/-- Setting a legal sample format changes the format, the width and the mapping. -/
theorem set_legal (f : AFmt) {a b : Int} (hl : LegalWidth a b) :
    ∃ m, m = defaultMapping a b ∧ setSampleFormat f a b = (true, { f with sampleFormat := a, sampleWidth := b, pcm := m }) := by
  refine ⟨_, rfl, ?_⟩
  unfold setSampleFormat
  unfold LegalWidth at hl
  simp only [UNSIGNED, TWOSCOMP, FLOAT, DOUBLE]
  rcases hl with ⟨h1, h2, h3⟩ | ⟨h1, h2⟩ | ⟨h1, h2⟩
  · rw [if_pos (by omega), if_neg (by omega)]
    have e : (sampleSizeUncompressed { f with sampleFormat := a, sampleWidth := b } false).toNat = ((b + 7) / 8).toNat := by
      unfold sampleSizeUncompressed
      simp only [FLOAT, DOUBLE]
      rw [if_neg (by omega), if_neg (by omega), if_neg (by simp), Int.tdiv_eq_ediv_of_nonneg (by omega)]
    rw [e]
    unfold defaultMapping
    split
    · rfl
    · dsimp only
      rw [if_pos (by simp only [UNSIGNED]; omega)]
      rfl
  · subst h1; subst h2
    rfl
  · subst h1; subst h2
    rfl

theorem set_self {f : AFmt} (hl : LegalWidth f.sampleFormat f.sampleWidth) :
    ∃ m, m = defaultMapping f.sampleFormat f.sampleWidth ∧
      setSampleFormat f f.sampleFormat f.sampleWidth = (true, { f with pcm := m }) := set_legal f hl

/-- If setting succeeds, the result is legal. -/
theorem set_ok {f g : AFmt} {a b : Int} (h : setSampleFormat f a b = (true, g)) (hw : a = FLOAT → b = 32) (hd : a = DOUBLE → b = 64) :
    LegalWidth a b := by
  unfold setSampleFormat at h
  unfold LegalWidth
  simp only [UNSIGNED, TWOSCOMP, FLOAT, DOUBLE] at *
  split at h
  · split at h
    · cases h
    · left; omega
  · split at h
    · right; left; omega
    · split at h
      · right; right; omega
      · cases h

/-- Bytes of a packet of an uncompressed track. -/
theorem pcm_bytes {f : AFmt} (hl : LegalWidth f.sampleFormat f.sampleWidth) :
    pcmBytesPerPacket f = sampleBytes f.sampleFormat f.sampleWidth * f.channels := by
  unfold pcmBytesPerPacket sampleBytes
  unfold LegalWidth at hl
  congr 1
  rw [Int.tdiv_eq_ediv_of_nonneg (by omega)]
  rcases hl with ⟨h1, h2, h3⟩ | ⟨h1, h2⟩ | ⟨h1, h2⟩
  · rw [if_neg (by omega), if_neg (by omega)]; omega
  · rw [if_pos h1, h2]; rfl
  · rw [if_neg (by omega), if_pos h1, h2]; rfl

theorem native_order (h : Endian) : native h = BIG ∨ native h = LITTLE := by cases h <;> simp [native]

/-- A track put together from a format whose mapping was set. -/
theorem wf_of {h : Endian} {t : Trk} (hl : LegalWidth t.f.sampleFormat t.f.sampleWidth) (hc : Coded h t.f)
    (hp : t.f.compression = NONE → t.fpp = 1 ∧ t.bpp = pcmBytesPerPacket t.f)
    (hg : t.f.compression = ULAW ∨ t.f.compression = ALAW → t.fpp = 1 ∧ t.bpp = t.f.channels)
    (hm : t.f.pcm = defaultMapping t.f.sampleFormat t.f.sampleWidth) : WellFormed h t :=
  ⟨hl, hc, fun h => ⟨(hp h).1, (hp h).2.trans (pcm_bytes hl)⟩, hg, hm⟩

theorem wf_frames {h : Endian} {t : Trk} (ht : WellFormed h t) : WellFormed h t.computeTotalFileFrames := by
  unfold Trk.computeTotalFileFrames
  split
  · exact ⟨ht.width, ht.coded, ht.pcm, ht.g711, ht.mapping⟩
  · exact ht

theorem total_f (t : Trk) : t.computeTotalFileFrames.f = t.f := by
  unfold Trk.computeTotalFileFrames
  split <;> rfl

end AF.Files
