import Verif.Proof.Files.IFFWrite
import Verif.Proof.Files.AIFF
import Verif.Spec.IFF
/-!
# IFF files: the chunk walk
-/
namespace AF.Files
open AF AF.Setup AF.Spec AF.Spec.Files AF.Meta AF.Convert

section
variable {h h' : Endian} {size : Nat} {file : List Byte} {i p : Nat} {s : IffRead}

/-- The track that the VHDR chunk of a file of rate `r` gives. -/
def iffTrk (t : Trk) (r : Nat) : Trk :=
  let f : AFmt := { rate := r, sampleFormat := TWOSCOMP, sampleWidth := 8, byteOrder := BIG, pcm := ⟨0, 0, 0, 0⟩
                    channels := 1, compression := NONE }
  { t with f := (setSampleFormat f TWOSCOMP 8).2, fpp := 1, bpp := pcmBytesPerPacket f }

theorem walk_vhdr {t : Trk} {rest : List Byte} (hp : p = i + 8) (hev : i % 2 = 0) (hlt : i < size)
    (he : file.drop p = iffVHDR h t ++ rest) :
    FWalk (iffChunk h') h' size file 1 (i, s) p
      (i + 28, { s with hasVHDR := true, t := iffTrk s.t (u16 (toUnsigned t.f.rate)) }) (p + 28) := by
  have hl := iffVHDR_length h t
  obtain ⟨B, hB⟩ : ∃ B, iffVHDR h t = tag "VHDR" ++ (fieldBytes h .big .s4 ((20 : Nat) : Int) ++ B) := by
    unfold iffVHDR
    simp only [List.append_assoc]
    exact ⟨_, rfl⟩
  have he' := he
  unfold iffVHDR at he'
  simp only [List.append_assoc] at he'
  have e1 := drop_step he' (n := 4) rfl
  have e2 := fb _ _ _ _ e1
  have e3 := fb _ _ _ _ e2
  have e4 := fb _ _ _ _ e3
  have e5 := fb _ _ _ _ e4
  have e6 := fb _ _ _ _ e5
  have e7 := fb _ _ _ _ e6
  have e8 := fb _ _ _ _ e7
  have hw := form_part (chunk := iffChunk h') (x := s) (x' := { s with hasVHDR := true, t := iffTrk s.t (u16 (toUnsigned t.f.rate)) })
    (q := p + 4 + FieldSize.s4.bytes + FieldSize.s4.bytes + FieldSize.s4.bytes + FieldSize.s4.bytes + FieldSize.s2.bytes +
      FieldSize.s1.bytes + FieldSize.s1.bytes + FieldSize.s4.bytes) (h' := h') hp hev hlt he hB rfl (by rw [hl]) (by decide) (by
    show iffParseVHDR h' s file (p + 4 + FieldSize.s4.bytes) = _
    unfold iffParseVHDR
    rw [Rd.bind_ok (Rd.field_ok e2).1, Rd.bind_ok (Rd.field_ok e3).1, Rd.bind_ok (Rd.field_ok e4).1, Rd.bind_ok (Rd.field_ok e5).2,
      Rd.bind_ok (Rd.field_ok e6).1, Rd.bind_ok (Rd.field_ok e7).1, Rd.bind_ok (Rd.field_ok e8).1]
    rfl)
  rwa [hl] at hw

/-- What reading one item does: an item without bytes, or of a type that has no chunk in an IFF file, is dropped. -/
def iffMiscRead1 (acc : List Misc) (m : Misc) : List Misc := if m.type ∈ iffTypes then miscRead1 acc m else acc

theorem iffChunk_misc {type : Int} (ht : type ∈ iffTypes) (sz : Nat) :
    iffChunk h' (iffMiscTag type) sz s = (do let ms ← formParseMisc type sz s.misc; return { s with misc := ms }) := by
  simp only [iffTypes, List.mem_cons, List.not_mem_nil, or_false] at ht
  rcases ht with rfl | rfl | rfl | rfl <;> rfl

theorem iffChunk_other {type : Int} (ht : type ∉ iffTypes) (sz : Nat) : iffChunk h' (iffMiscTag type) sz s = return s := by
  simp only [iffTypes, List.mem_cons, List.not_mem_nil, or_false, not_or] at ht
  have : iffMiscTag type = [0, 0, 0, 0] := by
    unfold iffMiscTag
    rw [if_neg ht.2.2.1, if_neg ht.2.1, if_neg ht.1, if_neg ht.2.2.2]
  rw [this]
  rfl

theorem walk_iffMisc1 {m : Misc} (hm : Sized m) (hs : m.size < 2 ^ 31) {rest : List Byte} (hp : p = i + 8) (hev : i % 2 = 0) (hlt : i < size)
    (he : file.drop p = formEntry iffMiscTag h m ++ rest) :
    FWalk (iffChunk h') h' size file 1 (i, s) p
      (i + (formEntry iffMiscTag h m).length, { s with misc := iffMiscRead1 s.misc m }) (p + (formEntry iffMiscTag h m).length) := by
  have hl := formEntry_length iffMiscTag_length h hm
  have h0 := hm.size
  have hP : formEntry iffMiscTag h m = iffMiscTag m.type ++ (fieldBytes h .big .s4 ((m.size.toNat : Nat) : Int) ++ (miscFill m ++ padOf m.size)) := by
    unfold formEntry
    rw [show ((m.size.toNat : Nat) : Int) = m.size by omega, List.append_assoc]
  have e2 : file.drop (p + 8) = miscFill m ++ (padOf m.size ++ rest) := by
    rw [hP] at he
    simp only [List.append_assoc] at he
    have := fb _ _ _ _ (drop_step he (iffMiscTag_length _))
    rw [b4, Nat.add_assoc] at this
    exact this
  unfold iffMiscRead1
  by_cases ht : m.type ∈ iffTypes
  · rw [if_pos ht]
    obtain ⟨q, hq⟩ := formParse_ok hm hs rfl s.misc e2
    refine form_part (q := q) hp hev hlt he hP (iffMiscTag_length _) (by omega) (by omega) ?_
    rw [iffChunk_misc ht, Rd.bind_ok hq]
    rfl
  · rw [if_neg ht]
    refine form_part (q := p + 8) hp hev hlt he hP (iffMiscTag_length _) (by omega) (by omega) ?_
    rw [iffChunk_other ht]
    rfl

theorem walk_iffMisc {ms : List Misc} (hm : ∀ m ∈ ms, Sized m ∧ m.size < 2 ^ 31) {rest : List Byte} (hp : p = i + 8) (hev : i % 2 = 0)
    (hlt : i + (iffMiscPart h ms).length ≤ size) (he : file.drop p = iffMiscPart h ms ++ rest) :
    FWalk (iffChunk h') h' size file ms.length (i, s) p
      (i + (iffMiscPart h ms).length, { s with misc := ms.foldl iffMiscRead1 s.misc }) (p + (iffMiscPart h ms).length) := by
  induction ms generalizing i p s with
  | nil => exact FWalk.refl _ _
  | cons m ms ih =>
    unfold iffMiscPart at he hlt ⊢
    rw [List.flatMap_cons] at he hlt ⊢
    rw [List.length_append] at hlt ⊢
    rw [List.append_assoc] at he
    have hl := formEntry_length iffMiscTag_length h (hm m (by simp)).1
    have h0 := (hm m (by simp)).1.size
    have w1 := walk_iffMisc1 (h' := h') (s := s) (size := size) (hm m (by simp)).1 (hm m (by simp)).2 hp hev (by omega) he
    have w2 := ih (i := i + (formEntry iffMiscTag h m).length) (p := p + (formEntry iffMiscTag h m).length)
      (s := { s with misc := iffMiscRead1 s.misc m }) (fun x hx => hm x (by simp [hx])) (by omega) (by omega)
      (by unfold iffMiscPart; omega) (drop_step he rfl)
    have w3 := w1.trans w2
    rw [show 1 + ms.length = (m :: ms).length by rw [List.length_cons]; omega] at w3
    simpa only [Nat.add_assoc, List.foldl_cons, iffMiscPart] using w3

theorem walk_body {n : Nat} {D : List Byte} (hp : p = i + 8) (hev : i % 2 = 0) (hlt : i < size)
    (hb : n + 8 < 2 ^ 32) (he : file.drop p = bodyPart h n ++ D) :
    FWalk (iffChunk h') h' size file 1 (i, s) p (i + (8 + n + n % 2),
      { s with t := { s.t with frames := n, dataSize := n, first := ((p + 8 : Nat) : Int) } }) (p + (8 + n + n % 2)) := by
  unfold bodyPart at he
  rw [List.append_assoc] at he
  exact form_chunk (h := h) (id := tag "BODY") (sz := n) (q := p + 8) hp hlt he rfl hev hb rfl
end

/-! ## The whole file -/

/-- What opening reports for a header that the library wrote. -/
structure IffReport (f : AFmt) (hd : Handle) (D T file : List Byte) (s : IffRead) : Prop where
  f : s.t.f = (iffTrk s.t (u16 (toUnsigned f.rate))).f
  fpp : s.t.fpp = 1
  bpp : s.t.bpp = 1
  frames : s.t.frames = D.length
  size : s.t.dataSize = D.length
  misc : s.misc = hd.misc.foldl iffMiscRead1 []
  first : 0 ≤ s.t.first
  audio : file.drop s.t.first.toNat = D ++ T

/-- The frame count of the VHDR chunk is not looked at, and the length of the FORM chunk only matters as far as it tells which chunks are
there. -/
theorem iff_report_len (h h' : Endian) {f : AFmt} {hd : Handle} {D T file : List Byte} {v : Int} {size : Nat}
    (hmisc : ∀ m ∈ hd.misc, Sized m ∧ m.size < 2 ^ 31) (hs0 : size < 2 ^ 32) (hs1 : 32 + (iffMiscPart h hd.misc).length < size)
    (hs2 : size ≤ 40 + (iffMiscPart h hd.misc).length + D.length + D.length % 2) (hb : D.length + 8 < 2 ^ 32)
    (hfile : file = iffStart (fieldBytes h .big .s4 size) ++ (iffVHDR h (iffTrackOf f v) ++ (iffMiscPart h hd.misc ++ bodyPart h D.length)) ++
      (D ++ T))
    {fuel : Nat} (hfuel : 3 + hd.misc.length ≤ fuel) :
    ∃ s p, iffRead h' fuel file 0 = .ok (s, p) ∧ IffReport f hd D T file s := by
  generalize hL : (size : Int) = L at hfile
  have hd0 : file.drop 0 = tag "FORM" ++ (fieldBytes h .big .s4 L ++ (tag "8SVX" ++
      (iffVHDR h (iffTrackOf f v) ++ (iffMiscPart h hd.misc ++ (bodyPart h D.length ++ (D ++ T)))))) := by
    rw [List.drop_zero]
    refine hfile.trans ?_
    unfold iffStart
    simp only [List.append_assoc]
  have hd1 := drop_step hd0 (n := 4) rfl
  have hd2 := fb _ _ _ _ hd1
  have hd3 := drop_step hd2 (n := 4) rfl
  rw [b4] at hd2 hd3
  rw [show 0 + 4 + 4 + 4 = 12 by omega] at hd3
  rw [show 0 + 4 + 4 = 8 by omega] at hd2
  have hlen := congrArg List.length hd3
  simp only [List.length_append, List.length_drop, iffVHDR_length, bodyPart_length] at hlen
  have q0 : (L % 256 ^ FieldSize.s4.bytes).toNat = size := by rw [p4]; omega
  have r6 : (iffMiscPart h hd.misc).length % 2 = 0 := by
    unfold iffMiscPart
    generalize hd.misc = ms at hmisc
    clear hfuel
    induction ms with
    | nil => rfl
    | cons a l ih =>
      have h1 := formEntry_length iffMiscTag_length h (hmisc a (by simp)).1
      have h0 := (hmisc a (by simp)).1.size
      have h2 := ih (fun x hx => hmisc x (by simp [hx]))
      rw [List.flatMap_cons, List.length_append]
      omega
  generalize hS0 : IffRead.mk false (Trk.ofFormat ⟨0, 0, 0, 0, ⟨0, 0, 0, 0⟩, 0, 0⟩) [] = S0
  have w1 := walk_vhdr (h' := h') (s := S0) (size := size) (i := 4) rfl rfl (by omega) hd3
  have d1 := drop_step hd3 (iffVHDR_length _ _)
  generalize hS1 : { S0 with hasVHDR := true, t := iffTrk S0.t (u16 (toUnsigned (iffTrackOf f v).f.rate)) } = S1 at w1
  have w2 := walk_iffMisc (h' := h') (s := S1) (size := size) (i := 4 + 28) hmisc (by omega) (by omega) (by omega) d1
  have d2 := drop_step d1 rfl
  have w3 := walk_body (h' := h') (n := D.length) (s := { S1 with misc := hd.misc.foldl iffMiscRead1 S1.misc }) (size := size)
    (i := 4 + 28 + (iffMiscPart h hd.misc).length) (by omega) (by omega) (by omega) (by omega) d2
  have hend := form_end (n := fuel) (by omega) ((w1.trans w2).trans w3) (by omega)
  unfold iffRead
  rw [Rd.bind_ok (a := ()) (p' := 0) rfl, Rd.bind_ok (Rd.read_ok hd0 (n := 4) rfl), Rd.bind_ok (Rd.field_ok hd1).2, b4,
    show 0 + 4 + 4 = 8 by omega, Rd.bind_ok (Rd.read_ok hd2 (n := 4) rfl), p4]
  rw [p4] at q0
  rw [q0, show 8 + 4 = 12 by omega, if_neg (by decide)]
  rw [hS0, Rd.bind_ok hend]
  have hhas : S1.hasVHDR = true := by rw [← hS1]
  dsimp only
  rw [hhas]
  refine ⟨_, _, rfl, ?_⟩
  have hS1t : S1.t = iffTrk S0.t (u16 (toUnsigned f.rate)) := by rw [← hS1]; rfl
  have hS1m : S1.misc = [] := by rw [← hS1, ← hS0]
  have d3 := drop_step d2 (bodyPart_length _ _)
  refine ⟨by dsimp only; rw [hS1t]; rfl, by dsimp only; rw [hS1t]; rfl, by dsimp only; rw [hS1t]; rfl, rfl, rfl,
    by dsimp only; rw [hS1m], by dsimp only; omega, ?_⟩
  dsimp only
  rw [Int.toNat_natCast]
  exact d3

theorem iff_report (h h' : Endian) {f : AFmt} {hd : Handle} {D T file : List Byte}
    (hmisc : ∀ m ∈ hd.misc, Sized m ∧ m.size < 2 ^ 31) (hb : file.length - T.length + D.length % 2 < 2 ^ 32)
    (hfile : file = iffStart (fieldBytes h .big .s4 ((file.length : Int) - T.length + (D.length % 2 : Nat) - 8)) ++ iffBody h (iffTrackOf f D.length) hd ++
      (D ++ T))
    {fuel : Nat} (hfuel : 3 + hd.misc.length ≤ fuel) :
    ∃ s p, iffRead h' fuel file 0 = .ok (s, p) ∧ IffReport f hd D T file s := by
  have hlen := congrArg List.length hfile
  rw [List.length_append, List.length_append, iffStart_length (by rw [fieldBytes_length, b4]), iffBody_length, List.length_append] at hlen
  refine iff_report_len h h' (size := file.length - T.length + D.length % 2 - 8) (v := D.length) hmisc (by omega) (by omega) (by omega) (by omega)
    (hfile.trans ?_) hfuel
  rw [show ((file.length - T.length + D.length % 2 - 8 : Nat) : Int) = (file.length : Int) - T.length + (D.length % 2 : Nat) - 8 by omega]
  rfl

end AF.Files
