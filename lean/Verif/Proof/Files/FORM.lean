import Verif.Model.Files.FORM
import Verif.Proof.Files.WAVERead
/-!
# `FORM` files: writing headers, and the walk over chunks
-/
namespace AF.Files
open AF AF.Setup AF.Spec.Files AF.Meta

/-! ## Writing in order, at the end or over what was there -/

/-- The disk, once a gap before its position is filled with zeros, holds `A ++ Z` and stands between them. -/
def Stands (d : Disk) (A Z : List Byte) : Prop :=
  d.pos = A.length ∧ d.bytes ++ List.replicate (d.pos - d.bytes.length) 0 = A ++ Z

theorem Stands.nil : Stands ⟨[], 0⟩ [] [] := ⟨rfl, rfl⟩

theorem Stands.of_bytes {d : Disk} {A Z : List Byte} (h : d.bytes = A ++ Z) {n : Nat} (hn : n = A.length) :
    Stands (d.seek n) A Z := by
  refine ⟨hn, ?_⟩
  rw [Disk.seek_bytes, Disk.seek_pos, h, hn]
  have : A.length - (A ++ Z).length = 0 := by simp
  rw [this]; simp

theorem Stands.gap {d : Disk} {A Z : List Byte} (h : Stands d A Z) : d.bytes.length ≤ d.pos ∧ Z = [] ∨ d.bytes = A ++ Z := by
  have h1 := congrArg List.length h.2
  have h2 := h.1
  simp only [List.length_append, List.length_replicate] at h1
  by_cases hl : d.bytes.length < d.pos
  · left
    exact ⟨by omega, List.eq_nil_of_length_eq_zero (by omega)⟩
  · right
    have := h.2
    rw [show d.pos - d.bytes.length = 0 by omega] at this
    simpa using this

theorem Stands.write {d : Disk} {A Z : List Byte} (h : Stands d A Z) (bs : List Byte) :
    Stands (d.write bs) (A ++ bs) (Z.drop bs.length) := by
  by_cases hb : bs = []
  · subst hb; rw [Disk.write_nil]; simpa using h
  · refine ⟨by rw [Disk.write_pos, h.1, List.length_append], ?_⟩
    rw [Disk.write_length hb, Disk.write_pos, show d.pos + bs.length - max d.bytes.length (d.pos + bs.length) = 0 by omega,
      List.replicate_zero, List.append_nil, Disk.write_bytes hb, h.2, h.1]
    congr 1
    · simp
    · rcases h.gap with ⟨h1, h2⟩ | h1
      · rw [h2, List.drop_nil, List.drop_eq_nil_of_le]; have := h.1; omega
      · rw [h1]; simp

theorem Stands.write_bytes {d : Disk} {A Z bs : List Byte} (h : Stands d A Z) (hb : bs ≠ []) :
    (d.write bs).bytes = A ++ bs ++ Z.drop bs.length := by
  have h1 := (h.write bs).2
  rw [Disk.write_length hb, Disk.write_pos, show d.pos + bs.length - max d.bytes.length (d.pos + bs.length) = 0 by omega,
      List.replicate_zero, List.append_nil] at h1
  exact h1

theorem skip_seek {d : Disk} {n : Int} (hn : 0 ≤ n) : d.skip n = d.seek (d.pos + n.toNat) := by
  unfold Disk.skip
  rw [if_pos (by omega)]
  congr 1
  omega

theorem Stands.skip_end {d : Disk} {A : List Byte} (h : Stands d A []) {n : Int} (hn : 0 ≤ n) :
    Stands (d.skip n) (A ++ List.replicate n.toNat 0) [] := by
  have h2 := h.2
  rw [List.append_nil] at h2
  have := (AtEnd.skip (d := d) ⟨h.1, h2⟩ hn)
  exact ⟨this.1, by rw [List.append_nil]; exact this.2⟩

theorem Stands.skip_over {d : Disk} {A B Z : List Byte} (h : Stands d A (B ++ Z)) {n : Int} (hn : n = B.length) :
    Stands (d.skip n) (A ++ B) Z := by
  rw [skip_seek (by omega)]
  refine ⟨by rw [Disk.seek_pos, h.1, List.length_append]; omega, ?_⟩
  rw [Disk.seek_bytes, Disk.seek_pos, List.append_assoc, ← h.2]
  have h1 := congrArg List.length h.2
  have h2 := h.1
  simp only [List.length_append, List.length_replicate] at h1
  congr 2
  omega

/-- `Z` is empty, as is `Z'`, or it is `old` followed by `Z'`. -/
def Room (Z old Z' : List Byte) : Prop := (Z = [] ∧ Z' = []) ∨ Z = old ++ Z'

theorem Room.split {Z a b Z' : List Byte} (h : Room Z (a ++ b) Z') : ∃ Z1, Room Z a Z1 ∧ Room Z1 b Z' := by
  rcases h with ⟨h1, h2⟩ | h
  · exact ⟨[], Or.inl ⟨h1, rfl⟩, Or.inl ⟨rfl, h2⟩⟩
  · exact ⟨b ++ Z', Or.inr (by rw [h, List.append_assoc]), Or.inr rfl⟩

theorem Room.nil {Z Z' : List Byte} (h : Room Z [] Z') : Z = Z' := by
  rcases h with ⟨h1, h2⟩ | h
  · rw [h1, h2]
  · simpa using h

theorem Stands.put {d : Disk} {A Z old Z' : List Byte} (h : Stands d A Z) (hr : Room Z old Z') (bs : List Byte)
    (hl : bs.length = old.length) : Stands (d.write bs) (A ++ bs) Z' := by
  have h1 := h.write bs
  rcases hr with ⟨rfl, rfl⟩ | rfl
  · simpa using h1
  · rw [hl] at h1; simpa using h1

theorem Stands.bytes {d : Disk} {A Z bs : List Byte} (h : Stands (d.write bs) A Z) (hb : bs ≠ []) :
    (d.write bs).bytes = A ++ Z := by
  have h1 := h.2
  rw [Disk.write_length hb, Disk.write_pos, show d.pos + bs.length - max d.bytes.length (d.pos + bs.length) = 0 by omega,
      List.replicate_zero, List.append_nil] at h1
  exact h1

/-- The place of a chunk: unset, or where the disk stands. -/
theorem Stands.offset {d : Disk} {A Z : List Byte} (h : Stands d A Z) {o : Nat} (ho : o = 0 ∨ o = A.length) :
    d.atOffset o = (d, A.length) := by
  unfold Disk.atOffset
  split
  · rw [h.1]
  · rcases ho with ho | ho
    · omega
    · rw [ho, ← h.1]
      rfl

/-! ## Miscellaneous data -/

def formEntry (tagOf : Int → List Byte) (h : Endian) (m : Misc) : List Byte :=
  tagOf m.type ++ fieldBytes h .big .s4 m.size ++ (miscFill m ++ padOf m.size)

theorem formEntry_length {tagOf : Int → List Byte} (ht : ∀ t, (tagOf t).length = 4) (h : Endian) {m : Misc} (hm : Sized m) :
    ((formEntry tagOf h m).length : Int) = 8 + m.size + m.size % 2 := by
  unfold formEntry
  have h1 := hm.fill
  have h2 := padOf_length m.size
  have h3 := ht m.type
  have h4 := hm.size
  rw [Int.tmod_eq_emod_of_nonneg h4] at h2
  simp only [List.length_append, fieldBytes_length, FieldSize.bytes]
  split at h2 <;> omega

theorem formMisc_put {tagOf : Int → List Byte} {h : Endian} {d : Disk} {A Z Z' : List Byte}
    {m m' : Misc} (hm : Sized m) (ho : MiscOver m m') (hd : Stands d A Z) (hr : Room Z (formEntry tagOf h m) Z') :
    Stands (formMisc tagOf h d m') (A ++ formEntry tagOf h m') Z' := by
  have hm' := hm.over ho
  unfold formEntry at hr
  obtain ⟨Z1, r1, hr⟩ := hr.split
  obtain ⟨Z2, r2, r3⟩ := hr.split
  have h1 := hd.put r1 (tagOf m'.type ++ fieldBytes h .big .s4 m'.size) (by rw [ho.type, ho.size])
  unfold formMisc
  dsimp only
  generalize hD1 : d.write (tagOf m'.type ++ fieldBytes h .big .s4 m'.size) = D1 at h1 ⊢
  have h2 : Stands (formData m' D1)
      (A ++ (tagOf m'.type ++ fieldBytes h .big .s4 m'.size) ++ miscFill m') Z2 := by
    unfold formData
    cases hb : m'.buffer with
    | some b =>
      have e : miscFill m' = b := by simp [miscFill, hb]
      dsimp only
      rw [e]
      refine h1.put r2 b ?_
      have h2 := hm.fill; have h3 := hm'.good b hb; have h4 := ho.size; omega
    | none =>
      have e : miscFill m' = List.replicate m'.size.toNat 0 := by simp [miscFill, hb]
      have e0 : miscFill m = List.replicate m'.size.toNat 0 := by rw [ho.size]; simp [miscFill, ho.null hb]
      have hs := hm'.size
      dsimp only
      rcases r2 with ⟨rfl, rfl⟩ | rfl
      · rw [e]; exact h1.skip_end hs
      · rw [e, e0] at *
        exact h1.skip_over (by simp; omega)
  generalize formData m' D1 = D2 at h2 ⊢
  unfold padOf at r3
  unfold formEntry padOf
  rw [s1_zero]
  rw [← ho.size] at r3
  split
  · rename_i hp
    rw [if_pos hp] at r3
    have := h2.put r3 [0] rfl
    simpa [List.append_assoc] using this
  · rename_i hp
    rw [if_neg hp] at r3
    rw [← r3.nil]
    simpa [List.append_assoc] using h2

theorem foldl_put {tagOf : Int → List Byte} {h : Endian} {ms ms' : List Misc} (ho : All2 MiscOver ms ms') {d : Disk}
    {A Z Z' : List Byte} (hm : ∀ m ∈ ms, Sized m) (hd : Stands d A Z) (hr : Room Z (ms.flatMap (formEntry tagOf h)) Z') :
    Stands (ms'.foldl (formMisc tagOf h) d) (A ++ ms'.flatMap (formEntry tagOf h)) Z' := by
  induction ho generalizing d A Z with
  | nil => have := hr.nil; subst this; simpa using hd
  | cons ho _ ih =>
    rw [List.flatMap_cons] at hr
    obtain ⟨Z1, r1, r2⟩ := hr.split
    have h1 := formMisc_put (hm _ (by simp)) ho hd r1
    have h2 := ih (fun m hm' => hm m (by simp [hm'])) h1 r2
    rw [List.flatMap_cons, ← List.append_assoc]
    exact h2

theorem flatEntry_length {tagOf : Int → List Byte} (ht : ∀ t, (tagOf t).length = 4) {h : Endian} {ms ms' : List Misc}
    (ho : All2 MiscOver ms ms') (hm : ∀ m ∈ ms, Sized m) :
    (ms'.flatMap (formEntry tagOf h)).length = (ms.flatMap (formEntry tagOf h)).length := by
  induction ho with
  | nil => rfl
  | cons ho _ ih =>
    have h1 := formEntry_length ht h (hm _ List.mem_cons_self)
    have h2 := formEntry_length ht h ((hm _ List.mem_cons_self).over ho)
    have h3 := ih (fun m hm' => hm m (by simp [hm']))
    rw [ho.size] at h2
    rw [List.flatMap_cons, List.flatMap_cons, List.length_append, List.length_append]
    omega

/-! ## The walk over chunks -/

def FWalk {σ : Type} (chunk : List Byte → Nat → σ → Rd σ) (h : Endian) (size : Nat) (file : List Byte) (k : Nat)
    (s : Nat × σ) (p : Nat) (s' : Nat × σ) (p' : Nat) : Prop :=
  ∀ n, Rd.loop (formRound chunk h size) (n + k) s file p = Rd.loop (formRound chunk h size) n s' file p'

section
variable {σ : Type} {chunk : List Byte → Nat → σ → Rd σ} {h h' : Endian} {size : Nat} {file : List Byte}

theorem FWalk.refl (s : Nat × σ) (p : Nat) : FWalk chunk h size file 0 s p s p := fun _ => rfl

theorem FWalk.trans {k k' : Nat} {s s' s'' : Nat × σ} {p p' p'' : Nat}
    (h1 : FWalk chunk h size file k s p s' p') (h2 : FWalk chunk h size file k' s' p' s'' p'') :
    FWalk chunk h size file (k + k') s p s'' p'' := by
  intro n
  rw [show n + (k + k') = (n + k') + k by omega, h1, h2]

/-- One chunk. -/
theorem form_chunk {i p q : Nat} {x x' : σ} {id rest : List Byte} {sz : Nat}
    (hp : p = i + 8) (hlt : i < size) (he : file.drop p = id ++ (fieldBytes h .big .s4 sz ++ rest))
    (hid : id.length = 4) (hev : i % 2 = 0) (hb : sz + 8 < 2 ^ 32)
    (hc : chunk id sz x file (p + 8) = .ok (x', q)) :
    FWalk chunk h' size file 1 (i, x) p (i + (8 + sz + sz % 2), x') (p + (8 + sz + sz % 2)) := by
  intro n
  refine Rd.loop_step ?_
  unfold formRound
  dsimp only
  rw [if_pos hlt, Rd.bind_ok (Rd.tag_ok he hid)]
  have e1 := drop_step he hid
  rw [Rd.bind_ok (Rd.u32Init_ok e1)]
  have q1 : ((sz : Int) % 2 ^ 32).toNat = sz := by omega
  rw [q1, show p + 4 + 4 = p + 8 by omega, Rd.bind_ok hc]
  have q3 : formNext i sz = i + (8 + sz + sz % 2) := by
    unfold formNext
    have : (sz + 8) % 2 ^ 32 = 8 + sz := by omega
    rw [this]
    dsimp only
    split <;> omega
  rw [q3, show i + (8 + sz + sz % 2) + 8 = p + (8 + sz + sz % 2) by omega]
  rfl

/-- The end. -/
theorem form_end {i p : Nat} {x : σ} (hi : size ≤ i) {k n : Nat} {s : Nat × σ} {p0 : Nat}
    (hw : FWalk chunk h size file k s p0 (i, x) p) (hn : k < n) : Rd.loop (formRound chunk h size) n s file p0 = .ok (x, p) := by
  obtain ⟨m, rfl⟩ : ∃ m, n = (m + 1) + k := ⟨n - k - 1, by omega⟩
  rw [hw]
  refine Rd.loop_done ?_
  unfold formRound
  rw [if_neg (by dsimp only; omega)]
  rfl
end

end AF.Files
