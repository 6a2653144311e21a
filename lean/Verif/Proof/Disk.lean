import Verif.Model.Disk
import Verif.Spec.Files
import Verif.Proof.Fields
/-!
# Lemmas about byte-array files and write sessions
-/
namespace AF.Files
open AF AF.Setup AF.Spec.Files

theorem Disk.write_nil (d : Disk) : d.write [] = d := by simp [Disk.write]

theorem Disk.write_bytes {bs : List Byte} (h : bs ≠ []) (d : Disk) :
    (d.write bs).bytes =
      (d.bytes ++ List.replicate (d.pos - d.bytes.length) 0).take d.pos ++ bs ++ d.bytes.drop (d.pos + bs.length) := by
  simp [Disk.write, h]

theorem Disk.write_pos (bs : List Byte) (d : Disk) : (d.write bs).pos = d.pos + bs.length := by
  by_cases h : bs = []
  · subst h; simp [Disk.write]
  · simp [Disk.write, h]

@[simp] theorem Disk.seek_bytes (n : Nat) (d : Disk) : (d.seek n).bytes = d.bytes := rfl
@[simp] theorem Disk.seek_pos (n : Nat) (d : Disk) : (d.seek n).pos = n := rfl

/-- Writing inside or at the end of the file. -/
theorem Disk.write_mid {bs : List Byte} {d : Disk} (h : d.pos ≤ d.bytes.length) :
    (d.write bs).bytes = d.bytes.take d.pos ++ bs ++ d.bytes.drop (d.pos + bs.length) := by
  by_cases hb : bs = []
  · subst hb; simp [Disk.write]
  · rw [write_bytes hb, Nat.sub_eq_zero_of_le h]; simp

theorem Disk.write_end {bs : List Byte} {d : Disk} (h : d.pos = d.bytes.length) :
    d.write bs = ⟨d.bytes ++ bs, d.pos + bs.length⟩ := by
  by_cases hb : bs = []
  · subst hb; simp [Disk.write]
  · simp [Disk.write, hb, h]

/-- Bytes before the write stay. -/
theorem Disk.write_take {bs : List Byte} {d : Disk} {n : Nat} (h1 : n ≤ d.pos) (h2 : n ≤ d.bytes.length) :
    (d.write bs).bytes.take n = d.bytes.take n := by
  by_cases hb : bs = []
  · subst hb; simp [Disk.write]
  · rw [write_bytes hb, List.append_assoc, List.take_append_of_le_length, List.take_take, Nat.min_eq_left h1,
      List.take_append_of_le_length h2]
    simp; omega

/-- Bytes after the write stay. -/
theorem Disk.write_drop {bs : List Byte} {d : Disk} {n : Nat} (h : d.pos + bs.length ≤ n) :
    (d.write bs).bytes.drop n = d.bytes.drop n := by
  by_cases hb : bs = []
  · subst hb; simp [Disk.write]
  · rw [write_bytes hb]
    have hl : ((d.bytes ++ List.replicate (d.pos - d.bytes.length) 0).take d.pos ++ bs).length = d.pos + bs.length := by
      simp; omega
    rw [List.drop_append_of_length_le (by rw [hl]; exact h), hl, List.drop_drop]
    congr 1; omega
where
  List.drop_append_of_length_le {l₁ l₂ : List Byte} {n : Nat} (h : l₁.length ≤ n) :
      (l₁ ++ l₂).drop n = l₂.drop (n - l₁.length) := by
    rw [List.drop_append, List.drop_eq_nil_of_le h, List.nil_append]

/-- A write at or after `n` acts on the part of the file after `n`. -/
theorem Disk.write_drop_ge {bs : List Byte} {d : Disk} {n : Nat} (h : n ≤ d.pos) (hb : bs ≠ []) :
    (d.write bs).bytes.drop n = ((⟨d.bytes.drop n, d.pos - n⟩ : Disk).write bs).bytes := by
  rw [write_bytes hb, write_bytes hb]
  dsimp only
  rw [List.append_assoc, List.append_assoc, List.drop_append_of_le_length (by simp; omega), List.drop_take, List.drop_drop]
  congr 1
  · congr 1
    by_cases hl : n ≤ d.bytes.length
    · rw [List.drop_append_of_le_length hl]
      congr 2
      simp; omega
    · rw [List.drop_append, List.drop_eq_nil_of_le (by omega), List.drop_replicate]
      congr 2
      simp; omega
  · congr 2; omega

/-- Overwriting the beginning. -/
theorem Disk.write_zero {bs : List Byte} {d : Disk} : ((d.seek 0).write bs).bytes = bs ++ d.bytes.drop bs.length := by
  rw [write_mid (by simp)]; simp

theorem Disk.write_length {bs : List Byte} {d : Disk} (hb : bs ≠ []) :
    (d.write bs).bytes.length = max d.bytes.length (d.pos + bs.length) := by
  rw [write_bytes hb]; simp; omega

theorem Disk.le_write_length (bs : List Byte) (d : Disk) : d.bytes.length ≤ (d.write bs).bytes.length := by
  by_cases hb : bs = []
  · subst hb; simp [Disk.write]
  · rw [write_length hb]; omega

/-- Overwriting a part of the file with as many bytes. -/
theorem Disk.patch {A B C B' : List Byte} {d : Disk} (hd : d.bytes = A ++ B ++ C) (hl : B'.length = B.length) :
    ((d.seek A.length).write B').bytes = A ++ B' ++ C := by
  rw [write_mid (by simp [hd])]
  dsimp only [seek_bytes, seek_pos]
  rw [hd, hl]
  congr 1
  · simp [List.take_append_of_le_length, List.append_assoc]
  · rw [← List.length_append, List.drop_left]

/-- A write after the first bytes keeps them. -/
theorem Disk.write_after {H R bs : List Byte} {d : Disk} (hd : d.bytes = H ++ R) (hp : H.length ≤ d.pos) :
    ∃ R', (d.write bs).bytes = H ++ R' := by
  refine ⟨(d.write bs).bytes.drop H.length, ?_⟩
  have h := Disk.write_take (bs := bs) hp (by rw [hd]; simp)
  conv => lhs; rw [← List.take_append_drop H.length (d.write bs).bytes]
  rw [h, hd, List.take_left]

/-! ## Sessions -/

/-- Invariant rule for sessions: `P disk track fileObject data frames`. -/
theorem session_induct {σ : Type} (update : Trk → σ → Disk → Disk × σ)
    (P : Disk → Trk → σ → List Byte → Nat → Prop) (s : Disk × Trk × σ) (evs : List Ev)
    (h0 : P (s.1.seek s.2.1.first.toNat) s.2.1 s.2.2 [] 0)
    (hd : ∀ d t x D n bs k, Ev.data bs k ∈ evs → P d t x D n →
      P ((d.seek (t.first + t.dataSize).toNat).write bs)
        { t with dataSize := t.dataSize + bs.length, frames := t.frames + k } x (D ++ bs) (n + k))
    (hs : ∀ d t x D n, P d t x D n →
      P (update { t with afterData := d.pos } x d).1 { t with afterData := d.pos }
        (update { t with afterData := d.pos } x d).2 D n) :
    ∃ d t x, P d t x (dataOf evs) (framesOf evs) ∧
      session update s evs = (update { t with afterData := d.pos } x d).1.bytes := by
  suffices H : ∀ (evs' : List Ev) (s' : Disk × Trk × σ) D n, (∀ e ∈ evs', e ∈ evs) → P s'.1 s'.2.1 s'.2.2 D n →
      ∃ d t x, P d t x (D ++ dataOf evs') (n + framesOf evs') ∧ evs'.foldl (step update) s' = (d, t, x) by
    obtain ⟨d, t, x, hP, he⟩ := H evs (s.1.seek s.2.1.first.toNat, s.2) [] 0 (fun _ h => h) h0
    refine ⟨d, t, x, by simpa using hP, ?_⟩
    simp only [session, he, step]
  intro evs'
  induction evs' with
  | nil => intro s' D n _ hP; exact ⟨s'.1, s'.2.1, s'.2.2, by simpa [dataOf, framesOf] using hP, rfl⟩
  | cons e evs' ih =>
    intro s' D n hmem hP
    obtain ⟨d, t, x⟩ := s'
    rw [List.foldl_cons]
    cases e with
    | data bs k =>
      have h1 := hd d t x D n bs k (hmem _ (by simp)) hP
      obtain ⟨d', t', x', h2, h3⟩ := ih (step update (d, t, x) (.data bs k)) (D ++ bs) (n + k)
        (fun e he => hmem e (by simp [he])) h1
      refine ⟨d', t', x', ?_, h3⟩
      simpa [dataOf, framesOf, Ev.bytes, Ev.frames, Nat.add_assoc] using h2
    | sync =>
      have h1 := hs d t x D n hP
      obtain ⟨d', t', x', h2, h3⟩ := ih (step update (d, t, x) .sync) D n
        (fun e he => hmem e (by simp [he])) h1
      refine ⟨d', t', x', ?_, h3⟩
      simpa [dataOf, framesOf, Ev.bytes, Ev.frames] using h2

/-! ## The audio data in the file -/

/-- The file has `D` at position `first`. -/
def Holds (first : Nat) (D : List Byte) (d : Disk) : Prop := (d.bytes.drop first).take D.length = D

theorem Holds.nil (first : Nat) (d : Disk) : Holds first [] d := by simp [Holds]

theorem Holds.length {first : Nat} {D : List Byte} {d : Disk} (h : Holds first D d) (hD : D ≠ []) :
    first + D.length ≤ d.bytes.length := by
  have h1 : ((d.bytes.drop first).take D.length).length = D.length := by rw [h]
  have h2 : D.length ≠ 0 := fun e => hD (List.eq_nil_of_length_eq_zero e)
  simp at h1
  omega

theorem Holds.take {first : Nat} {D : List Byte} {d : Disk} (h : Holds first D d) (hD : D ≠ []) :
    d.bytes.take (first + D.length) = d.bytes.take first ++ D := by
  rw [List.take_add, h]

theorem Holds.seek {first : Nat} {D : List Byte} {d : Disk} (h : Holds first D d) (n : Nat) : Holds first D (d.seek n) := h

/-- More data after the data. -/
theorem Holds.append {first : Nat} {D : List Byte} {d : Disk} (h : Holds first D d) (bs : List Byte) :
    Holds first (D ++ bs) ((d.seek (first + D.length)).write bs) := by
  by_cases hb : bs = []
  · subst hb; rw [List.append_nil, Disk.write_nil]; exact h
  · unfold Holds
    rw [Disk.write_drop_ge (by simp) hb, Disk.write_bytes hb]
    dsimp only [Disk.seek_bytes, Disk.seek_pos]
    rw [Nat.add_sub_cancel_left, List.take_append_of_le_length (by simp; omega), List.length_append]
    have e : List.take D.length (d.bytes.drop first ++ List.replicate (D.length - (d.bytes.drop first).length) 0) = D := by
      by_cases hD : D = []
      · subst hD; simp
      · have := h.length hD
        rw [List.take_append_of_le_length (by simp; omega)]
        exact h
    rw [e, List.take_of_length_le (by simp)]

/-- A write before the data. -/
theorem Holds.low {first : Nat} {D : List Byte} {d : Disk} (h : Holds first D d) {bs : List Byte}
    (hp : d.pos + bs.length ≤ first) : Holds first D (d.write bs) := by
  unfold Holds
  rw [Disk.write_drop hp]
  exact h

/-- A write after the data. -/
theorem Holds.high {first : Nat} {D : List Byte} {d : Disk} (h : Holds first D d) {bs : List Byte}
    (hp : first + D.length ≤ d.pos) : Holds first D (d.write bs) := by
  by_cases hD : D = []
  · subst hD; exact Holds.nil _ _
  · unfold Holds
    have h1 : ∀ l : List Byte, (l.drop first).take D.length = (l.take (first + D.length)).drop first := by
      intro l
      rw [List.drop_take, Nat.add_sub_cancel_left]
    rw [h1, Disk.write_take hp (h.length hD), ← h1]
    exact h

/-! ## Running readers -/

theorem Rd.pure_run {α : Type} (a : α) (file : List Byte) (p : Nat) : (pure a : Rd α) file p = .ok (a, p) := rfl

theorem Rd.bind_ok {α β : Type} {m : Rd α} {g : α → Rd β} {file : List Byte} {p p' : Nat} {a : α}
    (h : m file p = .ok (a, p')) : (m >>= g) file p = g a file p' := by
  show (match m file p with | .ok (a, p) => g a file p | .error e => .error e) = _
  rw [h]

theorem Rd.bind_error {α β : Type} {m : Rd α} {g : α → Rd β} {file : List Byte} {p : Nat} {e : Err}
    (h : m file p = .error e) : (m >>= g) file p = .error e := by
  show (match m file p with | .ok (a, p) => g a file p | .error e => Except.error e) = _
  rw [h]

theorem fieldBytes_length (h o : Endian) (k : FieldSize) (x : Int) : (fieldBytes h o k x).length = k.bytes := by
  rw [fieldBytes, writeField_eq, toBytes_length]

theorem Rd.read_ok {n : Nat} {file : List Byte} {p : Nat} {bs rest : List Byte} (h : file.drop p = bs ++ rest)
    (hn : bs.length = n) : Rd.read n file p = .ok (bs, p + n) := by
  unfold Rd.read
  rw [h, List.take_append_of_le_length (by omega), List.take_of_length_le (by omega), hn]

/-- The bytes of a field depend on the format's byte order only, not on the host. -/
theorem fieldBytes_host (h h' o : Endian) (k : FieldSize) (x : Int) : fieldBytes h o k x = fieldBytes h' o k x := by
  rw [fieldBytes, fieldBytes, writeField_eq, writeField_eq]

theorem Rd.field_ok {h h' o : Endian} {k : FieldSize} {file : List Byte} {p : Nat} {x : Int} {rest : List Byte}
    (hf : file.drop p = fieldBytes h' o k x ++ rest) :
    Rd.field? h o k file p = .ok (some (x % 256 ^ k.bytes).toNat, p + k.bytes) ∧
    Rd.field h o k file p = .ok ((x % 256 ^ k.bytes).toNat, p + k.bytes) := by
  have h1 : Rd.field? h o k file p = .ok (some (x % 256 ^ k.bytes).toNat, p + k.bytes) := by
    unfold Rd.field?
    rw [fieldBytes_host h' h] at hf
    rw [hf, fieldBytes, readField_writeField]
    dsimp only
    rw [BitVec.toNat_ofInt]
    have : ((2 ^ (8 * k.bytes) : Nat) : Int) = 256 ^ k.bytes := by cases k <;> rfl
    rw [this]
  refine ⟨h1, ?_⟩
  unfold Rd.field
  rw [bind_ok h1]
  rfl

theorem Rd.loop_step {σ α : Type} {body : σ → Rd (σ ⊕ α)} {n : Nat} {s s' : σ} {file : List Byte} {p p' : Nat}
    (h : body s file p = .ok (.inl s', p')) : Rd.loop body (n + 1) s file p = Rd.loop body n s' file p' := by
  rw [Rd.loop, bind_ok h]

theorem Rd.loop_done {σ α : Type} {body : σ → Rd (σ ⊕ α)} {n : Nat} {s : σ} {a : α} {file : List Byte} {p p' : Nat}
    (h : body s file p = .ok (.inr a, p')) : Rd.loop body (n + 1) s file p = .ok (a, p') := by
  rw [Rd.loop, bind_ok h]; rfl

theorem Rd.loop_error {σ α : Type} {body : σ → Rd (σ ⊕ α)} {n : Nat} {s : σ} {e : Err} {file : List Byte} {p : Nat}
    (h : body s file p = .error e) : Rd.loop body (n + 1) s file p = .error e := by
  rw [Rd.loop, bind_error h]

/-- A loop whose measure decreases in every round ends. -/
theorem Rd.loop_ends {σ α : Type} {body : σ → Rd (σ ⊕ α)} {file : List Byte} (m : σ → Nat)
    (hd : ∀ s p s' p', body s file p = .ok (.inl s', p') → m s' < m s) (hr : ∀ s p, body s file p ≠ .error .running) :
    ∀ (n : Nat) (s : σ) (p : Nat), m s < n → Rd.loop body n s file p ≠ .error .running := by
  intro n
  induction n with
  | zero => intro s p h; omega
  | succ n ih =>
    intro s p h
    match hb : body s file p with
    | .error e => rw [loop_error hb]; intro e'; cases e'; exact hr s p hb
    | .ok (.inr a, p') => rw [loop_done hb]; simp
    | .ok (.inl s', p') => rw [loop_step hb]; exact ih s' p' (by have := hd s p s' p' hb; omega)

/-- An invariant of a loop holds of its result. -/
theorem Rd.loop_inv {σ α : Type} {body : σ → Rd (σ ⊕ α)} {file : List Byte} (I : σ → Prop) (Q : α → Prop)
    (hd : ∀ s p s' p', I s → body s file p = .ok (.inl s', p') → I s')
    (hq : ∀ s p a p', I s → body s file p = .ok (.inr a, p') → Q a) :
    ∀ (n : Nat) (s : σ) (p : Nat), I s → ∀ a p', Rd.loop body n s file p = .ok (a, p') → Q a := by
  intro n
  induction n with
  | zero => intro s p _ a p' h; exact absurd h (by simp [loop])
  | succ n ih =>
    intro s p hI a p' h
    match hb : body s file p with
    | .error e => rw [loop_error hb] at h; exact absurd h (by simp)
    | .ok (.inr b, p'') =>
      rw [loop_done hb] at h
      cases h
      exact hq s p _ _ hI hb
    | .ok (.inl s', p'') =>
      rw [loop_step hb] at h
      exact ih s' p'' (hd s p s' p'' hI hb) a p' h

/-- After consuming `bs`, what follows. -/
theorem drop_step {file : List Byte} {p n : Nat} {bs rest : List Byte} (h : file.drop p = bs ++ rest)
    (hn : bs.length = n) : file.drop (p + n) = rest := by
  rw [← List.drop_drop, h, ← hn]; simp

/-- `m` on a file that has `bs` at its position yields `a` and consumes exactly `bs`. -/
def Reads {α : Type} (m : Rd α) (bs : List Byte) (a : α) : Prop :=
  ∀ file p rest, file.drop p = bs ++ rest → m file p = .ok (a, p + bs.length)

theorem Reads.bind {α β : Type} {m : Rd α} {g : α → Rd β} {bs bs' : List Byte} {a : α} {b : β}
    (h1 : Reads m bs a) (h2 : Reads (g a) bs' b) : Reads (m >>= g) (bs ++ bs') b := by
  intro file p rest h
  rw [List.append_assoc] at h
  rw [Rd.bind_ok (h1 file p _ h), h2 file _ rest (drop_step h rfl)]
  simp [Nat.add_assoc]

theorem Reads.pure {α : Type} (a : α) : Reads (Pure.pure a : Rd α) [] a := by
  intro file p rest _; rfl

theorem Reads.read {bs : List Byte} {n : Nat} (h : bs.length = n) : Reads (Rd.read n) bs bs := by
  intro file p rest hf
  rw [Rd.read_ok hf h, h]

theorem Reads.field {h h' o : Endian} {k : FieldSize} {x : Int} (hx : 0 ≤ x) (hx' : x < 256 ^ k.bytes) :
    Reads (Rd.field h o k) (fieldBytes h' o k x) x.toNat := by
  intro file p rest hf
  rw [(Rd.field_ok hf).2, fieldBytes_length, Int.emod_eq_of_lt hx hx']

theorem Reads.field' {h h' o : Endian} {k : FieldSize} {x : Int} :
    Reads (Rd.field h o k) (fieldBytes h' o k x) (x % 256 ^ k.bytes).toNat := by
  intro file p rest hf
  rw [(Rd.field_ok hf).2, fieldBytes_length]

theorem Reads.field?' {h h' o : Endian} {k : FieldSize} {x : Int} :
    Reads (Rd.field? h o k) (fieldBytes h' o k x) (some (x % 256 ^ k.bytes).toNat) := by
  intro file p rest hf
  rw [(Rd.field_ok hf).1, fieldBytes_length]

end AF.Files
