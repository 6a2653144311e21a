import Verif.Spec.FLAC
import Verif.Proof.Bytes
import Verif.Proof.Convert
/-! Reading a FLAC track refines the cursor. -/
namespace AF.FLAC
open AF AF.Spec AF.Spec.FLAC

variable {V γ : Type}

/-! ## Samples -/

theorem sampleOut_eq (h : Endian) {width : Nat} (hw : width = 16 ∨ width = 24) (x : Int) :
    sampleOut h width x = toBytes h (width / 8) x := by
  rcases hw with rfl | rfl
  · exact Convert.toBytes_wrapS h 2 x
  · show _ = toBytes h 3 x
    rw [Convert.toBytes3]
    have e1 : sar x 8 = x / 256 := rfl
    have e2 : sar x 16 = x / 256 / 256 := by
      unfold sar
      rw [Int.ediv_ediv_of_nonneg (by decide)]; rfl
    unfold sampleOut
    rw [e1, e2]
    cases h <;> rfl

/-! ## The buffer -/

/-- The undelivered part of the buffer is what follows frame `p` of `R`. -/
structure Holds (c : Cfg V γ) (R : List (List Int)) (s : St V) (p : Nat) : Prop where
  le : s.offset ≤ s.buffered
  next : s.next ≤ c.blocks.length
  upto : p + (s.buffered - s.offset) = (rowsOf (c.blocks.take s.next)).length
  buf : ∀ i ch, i < s.buffered - s.offset → ch < c.channels → s.buf ch (s.offset + i) = R[p + i]?.bind (·[ch]?)

theorem allSome_some {α : Type} : ∀ (xs : List α), allSome (xs.map some) = .ok xs
  | [] => rfl
  | x :: xs => by simp [allSome, allSome_some xs, Except.map]

theorem allSome_map {α : Type} (f : Nat → Option α) : ∀ (k : Nat) (xs : List α), xs.length = k → (∀ i, i < k → f i = xs[i]?) →
    allSome ((List.range k).map f) = .ok xs := by
  intro k xs hl hf
  have : (List.range k).map f = xs.map some := by
    apply List.ext_getElem
    · simp [hl]
    · intro i h1 h2
      simp only [List.length_map, List.length_range] at h1
      simp only [List.getElem_map, List.getElem_range]
      rw [hf i h1, List.getElem?_eq_getElem (by omega)]
  rw [this, allSome_some]

theorem rowsOf_succ (bs : List Block) (n : Nat) (h : n < bs.length) :
    rowsOf (bs.take (n + 1)) = rowsOf (bs.take n) ++ bs[n].rows := by
  unfold rowsOf
  rw [List.take_add_one, List.flatMap_append, List.getElem?_eq_getElem h]
  simp

theorem rowsOf_split (bs : List Block) (n : Nat) : rowsOf bs = rowsOf (bs.take n) ++ rowsOf (bs.drop n) := by
  unfold rowsOf
  rw [← List.flatMap_append, List.take_append_drop]

theorem rowsOf_mem {bs : List Block} {r : List Int} (h : r ∈ rowsOf bs) : ∃ b ∈ bs, r ∈ b.rows := by
  unfold rowsOf at h
  simpa using h

theorem frameAt_ok {c : Cfg V γ} (hw : c.width = 16 ∨ c.width = 24) {s : St V} {row : List Int} {i : Nat}
    (hl : row.length = c.channels) (h : ∀ ch, ch < c.channels → s.buf ch i = row[ch]?) :
    frameAt c s i = .ok (frameBytes c.host c.width row) := by
  unfold frameAt
  rw [allSome_map _ c.channels row hl h]
  show Except.ok _ = _
  congr 1
  unfold frameBytes packedBytes
  have : sampleOut c.host c.width = toBytes c.host (c.width / 8) := funext fun x => sampleOut_eq c.host hw x
  rw [← this]

variable {c : Cfg V γ}

theorem rows_len (h : ∀ b ∈ c.blocks, GoodBlock c.channels b) : ∀ r ∈ rowsOf c.blocks, r.length = c.channels := by
  intro r hr
  obtain ⟨b, hb, hrb⟩ := rowsOf_mem hr
  exact (h b hb).rows r hrb

theorem Holds.bound {s : St V} {p : Nat} (h : Holds c (rowsOf c.blocks) s p) :
    p + (s.buffered - s.offset) ≤ (rowsOf c.blocks).length := by
  rw [h.upto, rowsOf_split c.blocks s.next, List.length_append]; omega

theorem gather_ok (hw : c.width = 16 ∨ c.width = 24) (hb : ∀ b ∈ c.blocks, GoodBlock c.channels b) {s : St V} {p : Nat}
    (h : Holds c (rowsOf c.blocks) s p) : ∀ (k j : Nat), j + k ≤ s.buffered - s.offset →
      gather c s (s.offset + j) k = .ok ((((rowsOf c.blocks).drop (p + j)).take k).map (frameBytes c.host c.width)) := by
  intro k
  induction k with
  | zero => intro j _; simp [gather]
  | succ k ih =>
    intro j hj
    have hbd := h.bound
    have hlt : p + j < (rowsOf c.blocks).length := by omega
    have e1 : frameAt c s (s.offset + j) = .ok (frameBytes c.host c.width (rowsOf c.blocks)[p + j]) := by
      apply frameAt_ok hw (rows_len hb _ (List.getElem_mem hlt))
      intro ch hch
      rw [h.buf j ch (by omega) hch, List.getElem?_eq_getElem hlt]
      rfl
    have e2 := ih (j + 1) (by omega)
    unfold gather
    simp only [e1, bind, Except.bind]
    rw [Nat.add_assoc, e2, List.drop_eq_getElem_cons hlt]
    simp [pure, Except.pure, Nat.add_assoc]

/-- The fields the file module does not touch. -/
structure Same (s s' : St V) : Prop where
  v : s'.v = s.v
  dirty : s'.dirty = s.dirty
  totalv : s'.totalv = s.totalv
  nextv : s'.nextv = s.nextv
  broken : s'.broken = s.broken

theorem Same.refl (s : St V) : Same s s := ⟨rfl, rfl, rfl, rfl, rfl⟩
theorem Same.trans {a b d : St V} (h : Same a b) (k : Same b d) : Same a d :=
  ⟨k.v.trans h.v, k.dirty.trans h.dirty, k.totalv.trans h.totalv, k.nextv.trans h.nextv, k.broken.trans h.broken⟩

theorem store_holds (hb : ∀ b ∈ c.blocks, GoodBlock c.channels b) (s : St V) (n k : Nat) (hn : n < c.blocks.length)
    (hk : k ≤ c.blocks[n].rows.length) :
    Holds c (rowsOf c.blocks) (store c.blocks[n] (c.blocks[n].rows.drop k) { s with next := n + 1 })
      ((rowsOf (c.blocks.take n)).length + k) := by
  have hg := hb _ (List.getElem_mem hn)
  have hs := rowsOf_succ c.blocks n hn
  refine ⟨by simp [store], by simp [store]; omega, ?_, ?_⟩
  · simp only [store, hs, List.length_append, List.length_drop]; omega
  · intro i ch hi hch
    simp only [store, List.length_drop, Nat.sub_zero] at hi
    have hi' : i < (c.blocks[n].rows.drop k).length := by rw [List.length_drop]; exact hi
    simp only [store, Nat.zero_add, hg.chans, hch, hi', and_self, if_true]
    congr 1
    rw [rowsOf_split c.blocks (n + 1), hs, List.getElem?_append_left (by simp; omega), Nat.add_assoc,
      List.getElem?_append_right (by omega), List.getElem?_drop]
    congr 1; omega

theorem fits_ok (hb : ∀ b ∈ c.blocks, GoodBlock c.channels b) (n k : Nat) (hn : n < c.blocks.length) :
    fits c c.blocks[n] (c.blocks[n].rows.drop k) = .ok () := by
  have hg := hb _ (List.getElem_mem hn)
  unfold fits
  rw [if_neg]
  have := hg.small
  rw [hg.chans, List.length_drop]
  omega

theorem Holds.advance {s : St V} {p : Nat} (h : Holds c (rowsOf c.blocks) s p) {k : Nat} (hk : k ≤ s.buffered - s.offset) :
    Holds c (rowsOf c.blocks) { s with offset := s.offset + k } (p + k) := by
  have hle := h.le
  have hu := h.upto
  refine ⟨by simp only; omega, h.next, by simp only; omega, ?_⟩
  intro i ch hi hch
  simp only at hi
  have := h.buf (k + i) ch (by omega) hch
  rw [Nat.add_assoc, Nat.add_assoc]; exact this

/-- A pull delivers what there is of what was asked for. -/
theorem pull_gen (hw : c.width = 16 ∨ c.width = 24) (hb : ∀ b ∈ c.blocks, GoodBlock c.channels b) :
    ∀ (m : Nat) (want : Nat) (s : St V) (p : Nat), c.blocks.length - s.next ≤ m → Holds c (rowsOf c.blocks) s p → s.broken = false →
      ∃ s', pull c want s = .ok ((((rowsOf c.blocks).drop p).take want).map (frameBytes c.host c.width), s')
        ∧ Holds c (rowsOf c.blocks) s' (p + min want ((rowsOf c.blocks).length - p)) ∧ Same s s' := by
  intro m
  induction m with
  | zero =>
    intro want s p hm h hbr
    have hnx := h.next
    have e : s.next = c.blocks.length := by omega
    have hu := h.upto
    rw [e, List.take_length] at hu
    generalize hk : min want (s.buffered - s.offset) = k
    have g := gather_ok hw hb h k 0 (by omega)
    have hold1 := h.advance (k := k) (by omega)
    have ek : k = min want ((rowsOf c.blocks).length - p) := by omega
    have etake : ((rowsOf c.blocks).drop p).take want = ((rowsOf c.blocks).drop p).take k := by
      rw [List.take_eq_take_iff, List.length_drop]; omega
    rw [pull]
    simp only [hk, Nat.add_zero] at g ⊢
    simp only [g, bind, Except.bind, pure, Except.pure]
    rw [etake, if_neg (show ¬ s.broken = true by simp [hbr]), dif_neg (show ¬ s.next < c.blocks.length by omega), ite_self, ← ek]
    exact ⟨_, rfl, hold1, ⟨rfl, rfl, rfl, rfl, rfl⟩⟩
  | succ m ih =>
    intro want s p hm h hbr
    have hle := h.le
    have hbd := h.bound
    generalize hk : min want (s.buffered - s.offset) = k
    have g := gather_ok hw hb h k 0 (by omega)
    have hold1 := h.advance (k := k) (by omega)
    rw [pull]
    simp only [hk, Nat.add_zero] at g ⊢
    simp only [g, bind, Except.bind, pure, Except.pure]
    rw [if_neg (show ¬ s.broken = true by simp [hbr])]
    by_cases hz : want - k = 0
    · have e : k = want := by omega
      subst e
      have e2 : min k ((rowsOf c.blocks).length - p) = k := by omega
      rw [if_pos hz, e2]
      exact ⟨_, rfl, hold1, ⟨rfl, rfl, rfl, rfl, rfl⟩⟩
    · rw [if_neg hz]
      have hfull : k = s.buffered - s.offset := by omega
      have hu := h.upto
      have hnx := h.next
      by_cases hlt : s.next < c.blocks.length
      · rw [dif_pos hlt]
        have f := fits_ok hb s.next 0 hlt
        rw [List.drop_zero] at f
        have st := store_holds hb { s with offset := s.offset + k } s.next 0 hlt (by omega)
        rw [List.drop_zero, Nat.add_zero, ← hu, ← hfull] at st
        obtain ⟨s2, e2, h2, q2⟩ := ih (want - k) _ (p + k) (by simp only [store]; omega) st (by simp [store, hbr])
        simp only [f, e2]
        refine ⟨s2, ?_, ?_, ?_⟩
        · congr 2
          have hsplit : want = k + (want - k) := by omega
          rw [← List.map_append, ← List.drop_drop, ← List.take_add, ← hsplit]
        · have : p + k + min (want - k) ((rowsOf c.blocks).length - (p + k)) = p + min want ((rowsOf c.blocks).length - p) := by omega
          rw [this] at h2; exact h2
        · exact ⟨q2.v, q2.dirty, q2.totalv, q2.nextv, by rw [q2.broken]; rfl⟩
      · rw [dif_neg hlt]
        rw [List.take_of_length_le (by omega)] at hu
        have e2 : min want ((rowsOf c.blocks).length - p) = k := by omega
        have etake : ((rowsOf c.blocks).drop p).take want = ((rowsOf c.blocks).drop p).take k := by
          rw [List.take_eq_take_iff, List.length_drop]; omega
        rw [e2, etake]
        exact ⟨_, rfl, hold1, ⟨rfl, rfl, rfl, rfl, rfl⟩⟩

theorem pull_ok (hw : c.width = 16 ∨ c.width = 24) (hb : ∀ b ∈ c.blocks, GoodBlock c.channels b) (want : Nat) (s : St V) (p : Nat)
    (h : Holds c (rowsOf c.blocks) s p) (hbr : s.broken = false) (hp : p + want ≤ (rowsOf c.blocks).length) :
      ∃ s', pull c want s = .ok ((((rowsOf c.blocks).drop p).take want).map (frameBytes c.host c.width), s')
        ∧ Holds c (rowsOf c.blocks) s' (p + want) ∧ Same s s' := by
  have := pull_gen hw hb _ want s p (Nat.le_refl _) h hbr
  have e : min want ((rowsOf c.blocks).length - p) = want := by omega
  rwa [e] at this

/-! ## Seeking -/

theorem locate_some : ∀ (bs : List Block) (n t : Nat), t < (rowsOf bs).length →
    ∃ j, ∃ hj : j < bs.length, ∃ k, locate bs n t = some (n + j, bs[j], k) ∧ t = (rowsOf (bs.take j)).length + k
      ∧ k < bs[j].rows.length := by
  intro bs
  induction bs with
  | nil => intro n t h; simp [rowsOf] at h
  | cons b bs ih =>
    intro n t h
    unfold locate
    by_cases hb : t < b.rows.length
    · exact ⟨0, by simp, t, by simp [hb], by simp [rowsOf], hb⟩
    · rw [if_neg hb]
      have h' : t - b.rows.length < (rowsOf bs).length := by
        unfold rowsOf at h ⊢; simp at h ⊢; omega
      obtain ⟨j, hj, k, e, e2, e3⟩ := ih (n + 1) _ h'
      refine ⟨j + 1, by simp; omega, k, ?_, ?_, by simpa using e3⟩
      · rw [e]; simp; omega
      · unfold rowsOf at e2 ⊢; simp at e2 ⊢; omega

theorem locate_none : ∀ (bs : List Block) (n t : Nat), (rowsOf bs).length ≤ t → locate bs n t = none := by
  intro bs
  induction bs with
  | nil => intro n t _; rfl
  | cons b bs ih =>
    intro n t h
    unfold rowsOf at h
    simp at h
    unfold locate
    rw [if_neg (by omega)]
    apply ih
    unfold rowsOf; simp; omega

/-- Abstraction relation. -/
structure Rel (c : Cfg V γ) (s : St V) (cur : Cursor V) : Prop where
  fmt : s.v = cur.fmt
  le : cur.pos ≤ (rowsOf c.blocks).length
  nextv : s.nextv = cur.pos
  sound : rowsOf c.blocks ≠ [] → s.broken = false
  fresh : s.dirty = true → c.brittle = true → cur.pos < (rowsOf c.blocks).length ∨ rowsOf c.blocks = []
  ready : s.dirty = false → s.totalv = c.total ∧ (cur.pos < (rowsOf c.blocks).length → Holds c (rowsOf c.blocks) s cur.pos)

theorem setup_ok (h : Good c) (s : St V) (p : Nat) (hp : p ≤ (rowsOf c.blocks).length) (hn : s.nextv = p)
    (hs : rowsOf c.blocks ≠ [] → s.broken = false)
    (hq : c.brittle = true → p < (rowsOf c.blocks).length ∨ rowsOf c.blocks = []) :
    ∃ s', setup c s = .ok s' ∧ s'.v = s.v ∧ s'.nextv = p ∧ s'.dirty = false ∧ s'.totalv = c.total ∧
      (rowsOf c.blocks ≠ [] → s'.broken = false) ∧ (p < (rowsOf c.blocks).length → Holds c (rowsOf c.blocks) s' p) := by
  unfold setup seekTo
  have ht : s.nextv.toNat = p := by rw [hn]; simp
  rw [ht]
  by_cases he : rowsOf c.blocks = []
  · have hl : (rowsOf c.blocks).length = 0 := by rw [he]; rfl
    by_cases hb : s.broken
    · rw [if_pos hb]
      exact ⟨_, rfl, rfl, hn, rfl, rfl, fun x => absurd he x, by omega⟩
    · rw [if_neg hb, locate_none _ _ _ (by omega)]
      exact ⟨_, rfl, rfl, hn, rfl, rfl, fun x => absurd he x, by omega⟩
  · have hb := hs he
    rw [if_neg (by simp [hb])]
    by_cases hlt : p < (rowsOf c.blocks).length
    · obtain ⟨j, hj, k, e, e2, e3⟩ := locate_some c.blocks 0 p hlt
      rw [e]
      simp only [fits_ok h.blocks j k hj, bind, Except.bind]
      refine ⟨_, rfl, rfl, hn, rfl, rfl, fun _ => hb, fun _ => ?_⟩
      have := store_holds h.blocks { s with totalv := c.total, dirty := false } j k hj (by omega)
      rw [← e2] at this
      rw [Nat.zero_add]
      exact this
    · rw [locate_none _ _ _ (by omega)]
      refine ⟨_, rfl, rfl, hn, rfl, rfl, fun _ => ?_, fun x => absurd x hlt⟩
      show c.brittle = false
      cases hbr : c.brittle with
      | false => rfl
      | true => rcases hq hbr with x | x <;> contradiction

theorem ensure_ok (h : Good c) (s : St V) (cur : Cursor V) (hr : Rel c s cur) :
    ∃ s', ensure c s = .ok s' ∧ Rel c s' cur ∧ s'.dirty = false := by
  unfold ensure
  by_cases hd : s.dirty
  · rw [if_pos hd]
    obtain ⟨s', e, e1, e2, e3, e4, e5, e6⟩ := setup_ok h s cur.pos hr.le hr.nextv hr.sound (hr.fresh hd)
    exact ⟨s', e, ⟨e1.trans hr.fmt, hr.le, e2, e5, by simp [e3], fun _ => ⟨e4, e6⟩⟩, e3⟩
  · rw [if_neg hd]
    exact ⟨s, rfl, hr, by simpa using hd⟩

theorem readLoop_ok (h : Good c) (left : Nat) : ∀ (s : St V) (p : Nat), p + left ≤ (rowsOf c.blocks).length →
    (0 < left → Holds c (rowsOf c.blocks) s p ∧ s.broken = false) →
    ∃ s', readLoop c left s = .ok (((((rowsOf c.blocks).drop p).take left).map (frameBytes c.host c.width)).map
        (fun f => some (c.conv s.v f)), s')
      ∧ (0 < left → Holds c (rowsOf c.blocks) s' (p + left)) ∧ Same s s' ∧ (left = 0 → s' = s) := by
  induction left using Nat.strongRecOn with
  | _ left ih =>
  intro s p hp hh
  rw [readLoop]
  by_cases hl : left = 0
  · subst hl
    exact ⟨s, by simp; rfl, by simp, Same.refl s, fun _ => rfl⟩
  · obtain ⟨hold, hbr⟩ := hh (by omega)
    obtain ⟨s1, e1, h1, q1⟩ := pull_ok h.width h.blocks (min 1024 left) s p hold hbr (by omega)
    obtain ⟨s2, e2, h2, q2, z2⟩ := ih (left - min 1024 left) (by omega) s1 (p + min 1024 left) (by omega)
      (fun _ => ⟨h1, by rw [q1.broken, hbr]⟩)
    have hlen : ((((rowsOf c.blocks).drop p).take (min 1024 left)).map (frameBytes c.host c.width)).length = min 1024 left := by
      simp; omega
    refine ⟨s2, ?_, fun _ => ?_, q1.trans q2, fun x => absurd x hl⟩
    · rw [dif_neg hl]
      simp only [e1, e2, bind, Except.bind, pure, Except.pure, hlen, Nat.sub_self, List.replicate_zero, List.append_nil, q1.v]
      congr 2
      have hsplit : left = min 1024 left + (left - min 1024 left) := by omega
      conv => rhs; rw [hsplit, List.take_add, List.drop_drop, List.map_append, List.map_append]
    · by_cases hr : left - min 1024 left = 0
      · have e : left = min 1024 left := by omega
        rw [z2 hr]
        rw [← e] at h1; exact h1
      · have := h2 (by omega)
        have e : p + min 1024 left + (left - min 1024 left) = p + left := by omega
        rw [e] at this; exact this

theorem readFrames_ok (h : Good c) (s : St V) (cur : Cursor V) (hr : Rel c s cur) (n : Int) :
    let fs := ((content c).drop cur.pos).take n.toNat
    ∃ s', readFrames c n s = .ok (((fs.length : Int), fs.map (fun a => some (c.conv cur.fmt a))), s')
      ∧ Rel c s' { cur with pos := cur.pos + fs.length } := by
  intro fs
  obtain ⟨s1, e1, r1, d1⟩ := ensure_ok h s cur hr
  obtain ⟨t1, k1⟩ := r1.ready d1
  have hlen : (content c).length = (rowsOf c.blocks).length := by simp [content]
  have hle := r1.le
  have hfn : fs.length = min n.toNat ((rowsOf c.blocks).length - cur.pos) := by
    show (List.take _ (List.drop _ _)).length = _
    rw [List.length_take, List.length_drop, hlen]
  have hnum : (if n > s1.totalv - s1.nextv then s1.totalv - s1.nextv else n).toNat = fs.length := by
    rw [t1, r1.nextv, h.total, hfn]
    split <;> omega
  have hfs : fs = (((rowsOf c.blocks).drop cur.pos).take fs.length).map (frameBytes c.host c.width) := by
    show (((rowsOf c.blocks).map _).drop cur.pos).take n.toNat = _
    have : fs.length = min n.toNat ((rowsOf c.blocks).length - cur.pos) := by
      show (List.take _ (List.drop _ _)).length = _
      rw [List.length_take, List.length_drop, hlen]
    rw [this, ← List.map_drop, ← List.map_take]
    congr 1
    rw [List.take_eq_take_iff]
    simp
  have hfl : cur.pos + fs.length ≤ (rowsOf c.blocks).length := by
    have : fs.length ≤ (rowsOf c.blocks).length - cur.pos := by
      show (List.take _ (List.drop _ _)).length ≤ _
      rw [List.length_take, List.length_drop, hlen]; omega
    omega
  obtain ⟨s2, e2, h2, q2, z2⟩ := readLoop_ok h fs.length s1 cur.pos hfl
    (fun hpos => ⟨k1 (by omega), r1.sound (by
      intro hx
      have : (rowsOf c.blocks).length = 0 := by rw [hx]; rfl
      omega)⟩)
  rw [← hfs] at e2
  unfold readFrames
  simp only [e1, bind, Except.bind, hnum, e2, pure, Except.pure]
  refine ⟨{ s2 with nextv := s2.nextv + fs.length }, by rw [r1.fmt]; simp, ?_⟩
  refine ⟨q2.v.trans r1.fmt, hfl, ?_, fun x => by rw [← r1.sound x]; exact q2.broken, ?_, ?_⟩
  · simp [q2.nextv, r1.nextv]
  · intro hd
    rw [show s2.dirty = false from q2.dirty.trans d1] at hd
    cases hd
  · intro _
    refine ⟨q2.totalv.trans t1, fun hp => ?_⟩
    simp only at hp
    have hold : Holds c (rowsOf c.blocks) s2 (cur.pos + fs.length) := by
      by_cases hz : fs.length = 0
      · rw [z2 hz, hz]; exact k1 (by omega)
      · exact h2 (by omega)
    exact ⟨hold.le, hold.next, hold.upto, hold.buf⟩

theorem content_length : (content c).length = (rowsOf c.blocks).length := by simp [content]

theorem content_nil : content c = [] ↔ rowsOf c.blocks = [] := by simp [content]

/-- The condition `LeavesEnd` puts on one call. -/
def Quiet (F : List (List Byte)) (cur : Cursor V) : Call V → Prop
  | .seek f => f = F.length → cur.pos = F.length
  | .setFormat _ => cur.pos < F.length ∨ F = []
  | _ => True

theorem step_ok (h : Good c) (s : St V) (cur : Cursor V) (hr : Rel c s cur) (op : Call V)
    (hop : InRange (content c).length op) (hq : c.brittle = true → Quiet (content c) cur op) :
    ∃ s', step c s op = .ok (((answer (content c) c.conv cur op).1, (answer (content c) c.conv cur op).2.map some), s')
      ∧ Rel c s' (move (content c) cur op) := by
  have hcl := content_length (c := c)
  cases op with
  | read n =>
    obtain ⟨s', e, r⟩ := readFrames_ok h s cur hr n
    refine ⟨s', ?_, r⟩
    simp only [step, e, answer, List.map_map, List.length_map]
    rfl
  | tell =>
    obtain ⟨s1, e1, r1, d1⟩ := ensure_ok h s cur hr
    refine ⟨s1, ?_, r1⟩
    simp only [step, seekFrame, e1, bind, Except.bind, pure, Except.pure, answer]
    simp [r1.nextv]
  | count =>
    obtain ⟨s1, e1, r1, d1⟩ := ensure_ok h s cur hr
    refine ⟨s1, ?_, r1⟩
    simp only [step, e1, bind, Except.bind, pure, Except.pure, answer, (r1.ready d1).1, h.total, hcl, List.map_nil]
  | setFormat v =>
    refine ⟨_, rfl, ⟨rfl, hr.le, hr.nextv, hr.sound, fun _ hb => ?_, by simp⟩⟩
    have := hq hb
    simp only [Quiet, hcl, content_nil] at this
    exact this
  | seek f =>
    obtain ⟨s1, e1, r1, d1⟩ := ensure_ok h s cur hr
    obtain ⟨t1, k1⟩ := r1.ready d1
    have hin : f ≤ (content c).length ∨ 0 < (content c).length := hop
    simp only [step, seekFrame, e1, bind, Except.bind, pure, Except.pure, answer, move]
    by_cases hf : f < 0
    · refine ⟨s1, ?_, ?_⟩
      · simp [hf, r1.nextv]
      · simpa [hf] using r1
    · by_cases he : f = s1.nextv
      · have hle := r1.le
        have hnv := r1.nextv
        have ht : target (content c).length f = f := by
          unfold target; rw [if_neg]; omega
        refine ⟨s1, ?_, ?_⟩
        · rw [if_neg hf, if_neg hf, if_pos he, ht, he]
          rfl
        · have e1 : f.toNat = cur.pos := by rw [r1.nextv] at he; omega
          simp only [hf, if_false, ht, e1]
          exact r1
      · have ht : (if f > s1.totalv then s1.totalv - 1 else f) = target (content c).length f := by
          rw [t1, h.total, ← hcl]
          rfl
        have hb : 0 ≤ target (content c).length f ∧ target (content c).length f ≤ (content c).length := by
          unfold target; split <;> omega
        have hnl := r1.nextv
        obtain ⟨s2, e2, a1, a2, a3, a4, a5, a6⟩ := setup_ok h { s1 with nextv := target (content c).length f }
          (target (content c).length f).toNat (by omega) (by simp; omega) r1.sound (fun hbr => by
            have hq' := hq hbr
            simp only [Quiet] at hq'
            by_cases h0 : rowsOf c.blocks = []
            · exact Or.inr h0
            · left
              have : 0 < (rowsOf c.blocks).length := List.length_pos_iff.mpr h0
              have hfne : f ≠ (content c).length := fun x => he (by rw [hnl, hq' x, x])
              unfold target
              split <;> omega)
        refine ⟨s2, ?_, ?_⟩
        · simp only [hf, he, if_false, ht, e2, a2, List.map_nil]
          congr 2; congr 1; omega
        · simp only [hf, if_false]
          refine ⟨a1.trans r1.fmt, by simp; omega, a2, a5, by simp [a3], fun _ => ⟨a4, a6⟩⟩

theorem run_ok (h : Good c) (ops : List (Call V)) :
    ∀ (s : St V) (cur : Cursor V), Rel c s cur → (∀ op ∈ ops, InRange (content c).length op) →
      (c.brittle = true → LeavesEnd (content c) cur ops) →
      ∃ s', run c s ops = .ok ((answers (content c) c.conv cur ops).map (fun a => (a.1, a.2.map some)), s') := by
  induction ops with
  | nil => intro s cur hr _ _; exact ⟨s, rfl⟩
  | cons op ops ih =>
    intro s cur hr hops hq
    obtain ⟨s1, e1, r1⟩ := step_ok h s cur hr op (hops op (by simp)) (fun hb => by
      have := (hq hb).1
      cases op <;> exact this)
    obtain ⟨s2, e2⟩ := ih s1 _ r1 (fun o ho => hops o (by simp [ho])) (fun hb => (hq hb).2)
    refine ⟨s2, ?_⟩
    simp only [run, bind, Except.bind, e1, e2, pure, Except.pure]
    simp [answers]

theorem init_rel (v : V) : Rel c (init v) ⟨0, v⟩ :=
  ⟨rfl, by simp, rfl, fun _ => rfl, fun _ _ => by
    show 0 < _ ∨ _
    cases rowsOf c.blocks <;> simp, by simp [init]⟩

/-! ## Streams shorter than their header says -/

theorem readLoop_gen (hw : c.width = 16 ∨ c.width = 24) (hb : ∀ b ∈ c.blocks, GoodBlock c.channels b) (left : Nat) :
    ∀ (s : St V) (p : Nat), p ≤ (rowsOf c.blocks).length → Holds c (rowsOf c.blocks) s p → s.broken = false →
    ∃ s', readLoop c left s = .ok (((((rowsOf c.blocks).drop p).take left).map (frameBytes c.host c.width)).map
        (fun f => some (c.conv s.v f)) ++ List.replicate (left - ((rowsOf c.blocks).length - p)) none, s') ∧ Same s s' := by
  induction left using Nat.strongRecOn with
  | _ left ih =>
  intro s p hp hold hbr
  rw [readLoop]
  by_cases hl : left = 0
  · subst hl
    exact ⟨s, by simp; rfl, Same.refl s⟩
  · obtain ⟨s1, e1, h1, q1⟩ := pull_gen hw hb _ (min 1024 left) s p (Nat.le_refl _) hold hbr
    generalize hR : rowsOf c.blocks = R at *
    obtain ⟨s2, e2, q2⟩ := ih (left - min 1024 left) (by omega) s1 (p + min (min 1024 left) (R.length - p)) (by omega)
      h1 (by rw [q1.broken, hbr])
    have hlen : (((R.drop p).take (min 1024 left)).map (frameBytes c.host c.width)).length = min (min 1024 left) (R.length - p) := by
      simp
    refine ⟨s2, ?_, q1.trans q2⟩
    rw [dif_neg hl]
    simp only [e1, e2, bind, Except.bind, pure, Except.pure, hlen, q1.v]
    congr 2
    by_cases hfull : min 1024 left ≤ R.length - p
    · have em : min (min 1024 left) (R.length - p) = min 1024 left := by omega
      rw [em, Nat.sub_self, List.replicate_zero, List.append_nil, ← List.append_assoc]
      have hsplit : left = min 1024 left + (left - min 1024 left) := by omega
      congr 1
      · rw [← List.map_append, ← List.map_append, ← List.drop_drop, ← List.take_add, ← hsplit]
      · congr 1; omega
    · have em : min (min 1024 left) (R.length - p) = R.length - p := by omega
      have e3 : R.drop (p + (R.length - p)) = [] := List.drop_eq_nil_of_le (by omega)
      rw [em, e3]
      simp only [List.take_nil, List.map_nil, List.nil_append, List.append_assoc, List.replicate_append_replicate]
      congr 1
      · congr 2
        rw [List.take_eq_take_iff, List.length_drop]; omega
      · congr 1; omega

theorem readLoop_stuck (left : Nat) : ∀ (s : St V), s.broken = true → s.buffered = s.offset →
    ∃ s', readLoop c left s = .ok (List.replicate left none, s') ∧ Same s s' := by
  induction left using Nat.strongRecOn with
  | _ left ih =>
  intro s hb he
  rw [readLoop]
  by_cases hl : left = 0
  · subst hl
    exact ⟨s, by simp; rfl, Same.refl s⟩
  · have e1 : pull c (min 1024 left) s = .ok ([], s) := by
      rw [pull]
      simp only [he, Nat.sub_self, Nat.min_zero, gather, bind, Except.bind, pure, Except.pure, hb, if_true, Nat.add_zero]
      cases s
      simp_all
    obtain ⟨s2, e2, q2⟩ := ih (left - min 1024 left) (by omega) s hb he
    refine ⟨s2, ?_, q2⟩
    rw [dif_neg hl]
    simp only [e1, e2, bind, Except.bind, pure, Except.pure, List.map_nil, List.nil_append, List.length_nil, Nat.sub_zero,
      List.replicate_append_replicate]
    congr 3; omega

end AF.FLAC
