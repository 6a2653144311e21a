import Verif.Model.Chunks
import Verif.Proof.Disk
import Verif.Spec.Chunks
/-!
# Lemmas for formats made of chunks
-/
namespace AF.Files
open AF AF.Setup AF.Spec.Files

/-! ## Writing at the end, with gaps -/

/-- What a disk whose position is at or past its end will hold once the gap is filled with zeros. -/
def AtEnd (d : Disk) (P : List Byte) : Prop :=
  d.pos = P.length ∧ d.bytes ++ List.replicate (d.pos - d.bytes.length) 0 = P

theorem AtEnd.le {d : Disk} {P : List Byte} (h : AtEnd d P) : d.bytes.length ≤ d.pos := by
  have := congrArg List.length h.2
  simp at this
  have := h.1
  omega

theorem AtEnd.write {d : Disk} {P bs : List Byte} (h : AtEnd d P) : AtEnd (d.write bs) (P ++ bs) := by
  by_cases hb : bs = []
  · subst hb; rw [Disk.write_nil, List.append_nil]; exact h
  · refine ⟨by rw [Disk.write_pos, h.1, List.length_append], ?_⟩
    have hl := h.le
    rw [Disk.write_length hb, Disk.write_pos, Nat.max_eq_right (by omega), Nat.sub_self, List.replicate_zero,
      List.append_nil, Disk.write_bytes hb, h.2, List.drop_eq_nil_of_le (by omega), List.append_nil,
      List.take_of_length_le (by rw [h.1]; exact Nat.le_refl _)]

theorem AtEnd.write_bytes {d : Disk} {P bs : List Byte} (h : AtEnd d P) (hb : bs ≠ []) :
    (d.write bs).bytes = P ++ bs := by
  have h1 := (h.write (bs := bs)).2
  have hl := h.le
  rw [Disk.write_length hb, Disk.write_pos, Nat.max_eq_right (by omega), Nat.sub_self, List.replicate_zero,
      List.append_nil] at h1
  exact h1

theorem AtEnd.skip {d : Disk} {P : List Byte} (h : AtEnd d P) {n : Int} (hn : 0 ≤ n) :
    AtEnd (d.skip n) (P ++ List.replicate n.toNat 0) := by
  have hl := h.le
  have e : d.skip n = d.seek (d.pos + n.toNat) := by
    unfold Disk.skip
    rw [if_pos (by omega)]
    congr 1
    omega
  rw [e]
  refine ⟨by simp [h.1], ?_⟩
  rw [Disk.seek_bytes, Disk.seek_pos, ← h.2]
  have : d.pos + n.toNat - d.bytes.length = (d.pos - d.bytes.length) + n.toNat := by omega
  rw [this, ← List.replicate_append_replicate, List.append_assoc]

theorem AtEnd.nil : AtEnd ⟨[], 0⟩ [] := ⟨rfl, rfl⟩

theorem AtEnd.seek {d : Disk} {P : List Byte} (h : AtEnd d P) {n : Nat} (hn : n = P.length) : AtEnd (d.seek n) P := by
  have : d.seek n = d := by cases d; simp [Disk.seek]; rw [hn, ← h.1]
  rw [this]; exact h

/-! ## Overwriting in place -/

/-- The disk holds `A ++ Z` and stands between them. -/
def Between (d : Disk) (A Z : List Byte) : Prop := d.bytes = A ++ Z ∧ d.pos = A.length

theorem Between.write {d : Disk} {A B B' Z : List Byte} (h : Between d A (B ++ Z)) (hl : B'.length = B.length) :
    Between (d.write B') (A ++ B') Z := by
  refine ⟨?_, by rw [Disk.write_pos, h.2, List.length_append]⟩
  have e : d.seek A.length = d := by cases d; simp [Disk.seek]; exact h.2.symm
  have := Disk.patch (d := d) (A := A) (B := B) (C := Z) (B' := B') (by rw [h.1, List.append_assoc]) hl
  rw [e] at this
  exact this

theorem Between.skip {d : Disk} {A B Z : List Byte} (h : Between d A (B ++ Z)) {n : Int} (hn : n = B.length) :
    Between (d.skip n) (A ++ B) Z := by
  have e : d.skip n = d.seek (d.pos + n.toNat) := by
    unfold Disk.skip
    rw [if_pos (by omega)]
    congr 1
    omega
  rw [e]
  exact ⟨by rw [Disk.seek_bytes, h.1, List.append_assoc], by rw [Disk.seek_pos, h.2, hn]; simp⟩

theorem Between.seek {d : Disk} {A Z : List Byte} (h : d.bytes = A ++ Z) {n : Nat} (hn : n = A.length) :
    Between (d.seek n) A Z := ⟨h, hn⟩

/-! ## Sessions with metadata calls -/

theorem msession_induct {σ : Type} (update : Trk → σ → Disk → Disk × σ) (call : Meta.Op → σ → Except Abort σ)
    (P : Disk → Trk → σ → List Byte → Nat → Prop) (s : Disk × Trk × σ) (evs : List MEv)
    (h0 : P (s.1.seek s.2.1.first.toNat) s.2.1 s.2.2 [] 0)
    (hd : ∀ d t x D n bs k, MEv.ev (Ev.data bs k) ∈ evs → P d t x D n →
      P ((d.seek (t.first + t.dataSize).toNat).write bs)
        { t with dataSize := t.dataSize + bs.length, frames := t.frames + k } x (D ++ bs) (n + k))
    (hs : ∀ d t x D n, P d t x D n →
      P (update { t with afterData := d.pos } x d).1 { t with afterData := d.pos }
        (update { t with afterData := d.pos } x d).2 D n)
    (hc : ∀ d t x D n op x', P d t x D n → call op x = .ok x' → P d t x' D n)
    {file : List Byte} {x' : σ} (hfile : msession update call s evs = .ok (file, x')) :
    ∃ d t x, P d t x (dataOfM evs) (framesOfM evs) ∧ file = (update { t with afterData := d.pos } x d).1.bytes ∧
      x' = (update { t with afterData := d.pos } x d).2 := by
  suffices H : ∀ (evs' : List MEv) (s' : Disk × Trk × σ) D n s'', (∀ e ∈ evs', e ∈ evs) → P s'.1 s'.2.1 s'.2.2 D n →
      mrun update call s' evs' = .ok s'' →
      P s''.1 s''.2.1 s''.2.2 (D ++ dataOfM evs') (n + framesOfM evs') by
    unfold msession at hfile
    match hr : mrun update call (s.1.seek s.2.1.first.toNat, s.2) evs with
    | .error e => rw [hr] at hfile; cases hfile
    | .ok (d, t, x) =>
      rw [hr] at hfile
      have h1 := H evs (s.1.seek s.2.1.first.toNat, s.2) [] 0 _ (fun _ h => h) h0 hr
      refine ⟨d, t, x, by simpa using h1, ?_⟩
      cases hfile
      exact ⟨rfl, rfl⟩
  intro evs'
  induction evs' with
  | nil =>
    intro s' D n s'' _ hP hr
    cases hr
    simpa [dataOfM, framesOfM] using hP
  | cons e evs' ih =>
    intro s' D n s'' hmem hP hr
    obtain ⟨d, t, x⟩ := s'
    rw [mrun] at hr
    match e with
    | .ev (.data bs k) =>
      have h1 := hd d t x D n bs k (hmem _ (by simp)) hP
      have h2 := ih (step update (d, t, x) (.data bs k)) (D ++ bs) (n + k) s''
        (fun e he => hmem e (by simp [he])) h1 hr
      simpa [dataOfM, framesOfM, MEv.bytes, MEv.frames, Ev.bytes, Ev.frames, Nat.add_assoc] using h2
    | .ev .sync =>
      have h1 := hs d t x D n hP
      have h2 := ih (step update (d, t, x) .sync) D n s''
        (fun e he => hmem e (by simp [he])) h1 hr
      simpa [dataOfM, framesOfM, MEv.bytes, MEv.frames, Ev.bytes, Ev.frames] using h2
    | .call op =>
      match hx : call op x with
      | .error e =>
        have : mstep update call (d, t, x) (.call op) = .error e := by simp only [mstep, hx]; rfl
        rw [this] at hr
        cases hr
      | .ok x1 =>
        have : mstep update call (d, t, x) (.call op) = .ok (d, t, x1) := by simp only [mstep, hx]; rfl
        rw [this] at hr
        have h2 := ih (d, t, x1) D n s'' (fun e he => hmem e (by simp [he])) (hc d t x D n op x1 hP hx) hr
        simpa [dataOfM, framesOfM, MEv.bytes, MEv.frames] using h2

/-! ## Reading -/

theorem Rd.tag_ok {file : List Byte} {p : Nat} {bs rest : List Byte} (h : file.drop p = bs ++ rest)
    (hn : bs.length = 4) : Rd.tag file p = .ok (bs, p + 4) := by
  unfold Rd.tag
  rw [Rd.bind_ok (Rd.read_ok h hn)]
  simp [hn, Rd.pure_run]

theorem Rd.u32Init_ok {h h' o : Endian} {file : List Byte} {p : Nat} {x : Int} {rest : List Byte}
    (hf : file.drop p = fieldBytes h' o .s4 x ++ rest) :
    Rd.u32Init h o file p = .ok ((x % 2 ^ 32).toNat, p + 4) := by
  have h1 := (Rd.field_ok (h := h) hf).1
  unfold Rd.field? at h1
  unfold Rd.u32Init
  generalize readField h o .s4 (file.drop p) = r at *
  cases r with
  | none => cases h1
  | some r =>
    obtain ⟨x1, r1⟩ := r
    dsimp only at h1 ⊢
    have h2 : x1.toNat = (x % 2 ^ 32).toNat := by
      simpa [FieldSize.bytes] using h1
    rw [h2]

/-- Reading a list of items, each of which `m` reads. -/
theorem Rd.times_ok {α β : Type} {m : Rd α} (enc : β → List Byte) (val : β → α) (hm : ∀ b, Reads m (enc b) (val b))
    (l : List β) : Reads (Rd.times m l.length) (l.flatMap enc) (l.map val) := by
  induction l with
  | nil => exact Reads.pure _
  | cons b l ih =>
    have : Reads (do let a ← m; let as ← Rd.times m l.length; return a :: as) (enc b ++ (l.flatMap enc ++ []))
        (val b :: l.map val) := (hm b).bind (ih.bind (Reads.pure _))
    simpa [Rd.times] using this

end AF.Files
