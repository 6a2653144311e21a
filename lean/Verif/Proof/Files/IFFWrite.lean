import Verif.Model.Files.IFF
import Verif.Proof.Files.FORM
/-!
# IFF files: the bytes that are left by a session
-/
namespace AF.Files
open AF AF.Setup AF.Spec.Files AF.Meta

theorem iffMiscTag_length (t : Int) : (iffMiscTag t).length = 4 := by
  unfold iffMiscTag
  repeat' split
  all_goals rfl

def iffMiscPart (h : Endian) (ms : List Misc) : List Byte := ms.flatMap (formEntry iffMiscTag h)
def bodyPart (h : Endian) (n : Int) : List Byte := tag "BODY" ++ fieldBytes h .big .s4 n

/-- Everything between the 12 bytes at the start and the audio data. -/
def iffBody (h : Endian) (t : Trk) (hd : Handle) : List Byte := iffVHDR h t ++ (iffMiscPart h hd.misc ++ bodyPart h t.frames)

/-- The byte after audio data of `n` bytes. -/
def dataPad (n : Nat) : List Byte := if n % 2 = 1 then [0] else []

theorem iffVHDR_length (h : Endian) (t : Trk) : (iffVHDR h t).length = 28 := by
  unfold iffVHDR
  simp only [List.length_append, fieldBytes_length, FieldSize.bytes]
  rfl

theorem bodyPart_length (h : Endian) (n : Int) : (bodyPart h n).length = 8 := by
  unfold bodyPart
  simp only [List.length_append, fieldBytes_length, FieldSize.bytes]
  rfl

theorem iffMiscPart_length (h : Endian) {a b : Handle} (ho : Over a b) (hm : ∀ m ∈ a.misc, Sized m) :
    (iffMiscPart h b.misc).length = (iffMiscPart h a.misc).length := flatEntry_length iffMiscTag_length ho.misc hm

theorem iffBody_length (h : Endian) (t : Trk) (hd : Handle) : (iffBody h t hd).length = 36 + (iffMiscPart h hd.misc).length := by
  unfold iffBody
  rw [List.length_append, List.length_append, iffVHDR_length, bodyPart_length]
  omega

/-- Every place is unset or right. -/
structure IffPlaces (h : Endian) (hd : Handle) (x : IffObj) : Prop where
  vhdr : x.vhdr = 0 ∨ x.vhdr = 12
  misc : x.misc = 0 ∨ x.misc = 40
  body : x.body = 0 ∨ x.body = 40 + (iffMiscPart h hd.misc).length

theorem IffPlaces.over {h : Endian} {a b : Handle} {x : IffObj} (hp : IffPlaces h a x) (ho : Over a b) (hm : ∀ m ∈ a.misc, Sized m) :
    IffPlaces h b x := by
  obtain ⟨h1, h2, h3⟩ := hp
  have := iffMiscPart_length h ho hm
  exact ⟨h1, h2, by omega⟩

theorem iff_write {h : Endian} {t : Trk} {t0 : Trk} {old : Handle} {x : IffObj} {d : Disk} {A Z D P : List Byte}
    (hm : ∀ m ∈ old.misc, Sized m) (ho : Over old x.handle) (hp : IffPlaces h x.handle x) (hA : A.length = 12)
    (hd : Stands d A Z) (hr : Room Z (iffBody h t0 old) (D ++ P)) (ht : t.frames = D.length) (hD : D.length < 2 ^ 32)
    (hP : P = [] ∨ (P = [0] ∧ D.length % 2 = 1)) :
    (iffWrite h t x d).1.bytes = A ++ iffBody h t x.handle ++ (D ++ dataPad D.length) ∧
    (D = [] → (iffWrite h t x d).1.pos = (A ++ iffBody h t x.handle).length) ∧
    (iffWrite h t x d).2 = ⟨x.handle, 12, 40, 40 + (iffMiscPart h x.handle.misc).length⟩ := by
  obtain ⟨hd0, vh, ms, bd⟩ := x
  obtain ⟨h1, h2, h3⟩ := hp
  dsimp only at *
  unfold iffBody at hr
  obtain ⟨Z1, r1, hr⟩ := hr.split
  obtain ⟨Z2, r2, r3⟩ := hr.split
  unfold iffWrite
  dsimp only
  rw [hd.offset (by rw [hA]; exact h1), hA]
  dsimp only
  have s1 := hd.put r1 (iffVHDR h t) (by rw [iffVHDR_length, iffVHDR_length])
  generalize d.write (iffVHDR h t) = d1 at s1 ⊢
  have l1 : (A ++ iffVHDR h t).length = 40 := by rw [List.length_append, hA, iffVHDR_length]
  rw [s1.offset (by rw [l1]; exact h2), l1]
  dsimp only
  have s2 := foldl_put ho.misc hm s1 r2
  generalize hd0.misc.foldl (formMisc iffMiscTag h) d1 = d2 at s2 ⊢
  have l2 : (A ++ iffVHDR h t ++ hd0.misc.flatMap (formEntry iffMiscTag h)).length = 40 + (iffMiscPart h hd0.misc).length := by
    rw [List.length_append, l1, iffMiscPart]
  unfold iffWriteBODY
  dsimp only
  rw [s2.offset (by rw [l2]; exact h3), l2]
  have s3 := s2.put r3 (bodyPart h t.frames) (by rw [bodyPart_length, bodyPart_length])
  have hb := s3.bytes (ne_of_len (by rw [bodyPart_length]; omega))
  have hpos := s3.1
  have eb : A ++ iffVHDR h t ++ hd0.misc.flatMap (formEntry iffMiscTag h) ++ bodyPart h t.frames = A ++ iffBody h t hd0 := by
    unfold iffBody iffMiscPart
    simp only [List.append_assoc]
  rw [eb] at hb hpos
  have hlen : (A ++ iffBody h t hd0 ++ D).length = 40 + (iffMiscPart h hd0.misc).length + 8 + D.length := by
    rw [List.length_append, List.length_append, hA, iffBody_length]; omega
  have e4 : (t.frames % 2 ^ 32).toNat = D.length := by rw [ht]; omega
  rw [e4]
  dsimp only
  generalize hd3 : d2.write (bodyPart h t.frames) = d3 at *
  unfold bodyPart at hd3
  rw [hd3]
  have e0 : fieldBytes h .big .s1 0 = [0] := by cases h <;> rfl
  refine ⟨?_, ?_, rfl⟩
  · unfold dataPad
    split
    · have hb' : d3.bytes = (A ++ iffBody h t hd0 ++ D) ++ P := by rw [hb]; simp only [List.append_assoc]
      have s4 := Stands.of_bytes hb' (n := 40 + (iffMiscPart h hd0.misc).length + 8 + D.length) hlen.symm
      rw [e0, s4.write_bytes (by simp)]
      have : P.drop [(0 : Byte)].length = [] := by rcases hP with rfl | ⟨rfl, -⟩ <;> rfl
      rw [this]
      simp only [List.append_assoc, List.append_nil]
    · rename_i hne
      rcases hP with rfl | ⟨-, hP⟩
      · exact hb
      · exact absurd hP hne
  · rintro rfl
    exact hpos

/-! ## Sessions -/

def iffStart (L : List Byte) : List Byte := tag "FORM" ++ L ++ tag "8SVX"

theorem iffStart_length {L : List Byte} (hL : L.length = 4) : (iffStart L).length = 12 := by
  unfold iffStart
  rw [List.length_append, List.length_append, hL]
  rfl

/-- The track once `n` frames have been written. -/
def iffTrackOf (f : AFmt) (n : Int) : Trk := { Trk.ofFormat f with frames := n }

theorem iffBody_congr (h : Endian) {t t' : Trk} (hf : t.f = t'.f) (hn : t.frames = t'.frames) (hd : Handle) :
    iffBody h t hd = iffBody h t' hd := by
  unfold iffBody iffVHDR
  rw [hf, hn]

theorem iffUpdate_eq {h : Endian} {t t0 : Trk} {old : Handle} {x : IffObj} {d : Disk} {L D P : List Byte}
    (hm : ∀ m ∈ old.misc, Sized m) (ho : Over old x.handle) (hp : IffPlaces h x.handle x) (hst : x.vhdr = 12) (hL : L.length = 4)
    (hd : d.bytes = iffStart L ++ iffBody h t0 old ++ (D ++ P)) (ht : t.frames = D.length) (hD : D.length < 2 ^ 32)
    (hP : P = [] ∨ (P = [0] ∧ D.length % 2 = 1)) :
    (iffUpdate h t x d).1.bytes =
      iffStart (fieldBytes h .big .s4 (((iffUpdate h t x d).1.bytes.length : Int) - 8)) ++ iffBody h t x.handle ++ (D ++ dataPad D.length) ∧
    (iffUpdate h t x d).2 = ⟨x.handle, 12, 40, 40 + (iffMiscPart h x.handle.misc).length⟩ := by
  have e : iffWrite h t x d = iffWrite h t x (d.seek 12) := by
    unfold iffWrite
    have : d.atOffset x.vhdr = (d.seek 12).atOffset x.vhdr := by rw [hst]; rfl
    rw [this]
  have hA := iffStart_length hL
  rw [List.append_assoc] at hd
  have s := Stands.of_bytes hd (n := 12) hA.symm
  obtain ⟨c1, -, c3⟩ := iff_write (t := t) (D := D) (P := P) hm ho hp hA s (Or.inr rfl) ht hD hP
  unfold iffUpdate
  dsimp only
  rw [e]
  generalize iffWrite h t x (d.seek 12) = w at c1 c3
  obtain ⟨d1, x1⟩ := w
  dsimp only at *
  refine ⟨?_, c3⟩
  obtain ⟨len, hl⟩ : ∃ len : Int, (d1.bytes.length : Int) - 8 = len := ⟨_, rfl⟩
  rw [hl]
  have h0 : d1.bytes = tag "FORM" ++ (L ++ (tag "8SVX" ++ (iffBody h t x.handle ++ (D ++ dataPad D.length)))) := by
    rw [c1]; unfold iffStart; simp only [List.append_assoc]
  have s1 := Stands.of_bytes h0 (n := 4) rfl
  have s2 := s1.put (Or.inr rfl) (fieldBytes h .big .s4 len) (by rw [fieldBytes_length, hL, b4])
  have b2 := s2.bytes (ne_of_len (by rw [fieldBytes_length]; decide))
  have hlen : ((((d1.seek 4).write (fieldBytes h .big .s4 len)).bytes.length : Nat) : Int) - 8 = len := by
    have hz := congrArg List.length b2
    have hw := congrArg List.length h0
    have q1 : (tag "FORM").length = 4 := rfl
    have q2 := fieldBytes_length h .big .s4 len
    rw [b4] at q2
    simp only [List.length_append, q1, q2, hL] at hz hw
    omega
  rw [hlen, b2]
  unfold iffStart
  simp only [List.append_assoc]

/-- The file that a session leaves. -/
theorem iff_file (h : Endian) (handle0 : Handle) (f : AFmt) (hm : ∀ m ∈ handle0.misc, Sized m) (evs : List MEv)
    (hwhole : ∀ e ∈ evs, e.bytes.length = e.frames) (hN : framesOfM evs < 2 ^ 32) {file : List Byte} {x : IffObj}
    (hfile : msession (iffUpdate h) iffCall (iffInit h handle0 f) evs = .ok (file, x)) :
    (dataOfM evs).length = framesOfM evs ∧ Over handle0 x.handle ∧
      file = iffStart (fieldBytes h .big .s4 ((file.length : Int) - 8)) ++ iffBody h (iffTrackOf f (framesOfM evs)) x.handle ++
        (dataOfM evs ++ dataPad (framesOfM evs)) := by
  have hL0 : (fieldBytes h .big .s4 0).length = 4 := by rw [fieldBytes_length, b4]
  have hA0 := iffStart_length hL0
  have s0 := Stands.nil.write (iffStart (fieldBytes h .big .s4 0))
  rw [List.nil_append, List.drop_nil] at s0
  obtain ⟨i1, i2, i3⟩ := iff_write (t := Trk.ofFormat f) (t0 := Trk.ofFormat f) (old := handle0) (x := ⟨handle0, 0, 0, 0⟩) (D := []) (P := [])
    hm (Over.refl _) ⟨Or.inl rfl, Or.inl rfl, Or.inl rfl⟩ hA0 s0 (Or.inl ⟨rfl, rfl⟩) rfl (by decide) (Or.inl rfl)
  have i2 := i2 rfl
  rw [List.length_append, hA0, iffBody_length] at i2
  simp only [List.length_nil, dataPad] at i1
  obtain ⟨d, t, y, ⟨hf, hfirst, hds, hfr, hn, hX⟩, he, hx⟩ :=
    msession_induct (iffUpdate h) iffCall
      (fun d t x D k => t.f = f ∧ t.first = (48 + (iffMiscPart h handle0.misc).length : Nat) ∧ t.dataSize = D.length ∧
        t.frames = D.length ∧ D.length = k ∧
        (k < 2 ^ 32 → Over handle0 x.handle ∧ IffPlaces h handle0 x ∧ x.vhdr = 12 ∧ ∃ old L t0 P, Over handle0 old ∧ Over old x.handle ∧ L.length = 4 ∧ (P = [] ∨ (P = [0] ∧ D.length % 2 = 1)) ∧
          d.bytes = iffStart L ++ iffBody h t0 old ++ (D ++ P)))
      (iffInit h handle0 f) evs
      (by
        unfold iffInit
        dsimp only
        change _ ∧ _ ∧ _ ∧ _ ∧ _ ∧ _
        have e : tag "FORM" ++ fieldBytes h .big .s4 0 ++ tag "8SVX" = iffStart (fieldBytes h .big .s4 0) := rfl
        rw [e]
        generalize iffWrite h (Trk.ofFormat f) ⟨handle0, 0, 0, 0⟩ ((⟨[], 0⟩ : Disk).write (iffStart (fieldBytes h .big .s4 0))) = w at i1 i2 i3
        obtain ⟨d1, x1⟩ := w
        dsimp only at *
        subst i3
        refine ⟨rfl, by rw [i2]; omega, rfl, rfl, rfl, fun _ => ⟨Over.refl _, ⟨Or.inr rfl, Or.inr rfl, Or.inr rfl⟩, rfl, ?_⟩⟩
        exact ⟨handle0, _, Trk.ofFormat f, [], Over.refl _, Over.refl _, hL0, Or.inl rfl, by rw [Disk.seek_bytes, i1]; simp⟩)
      (by
        rintro d t x D k bs j hmem ⟨hf, hfirst, hds, hfr, hn, hX⟩
        have hj : bs.length = j := hwhole _ hmem
        refine ⟨hf, hfirst, by dsimp only; rw [hds]; simp, by dsimp only; rw [hfr, ← hj]; simp, by rw [List.length_append]; omega,
          fun hk => ?_⟩
        obtain ⟨hO, hpl, hst, old, L, t0, P, h1, h2, hL, hP, hd⟩ := hX (by omega)
        refine ⟨hO, hpl, hst, ?_⟩
        have hl := iffMiscPart_length h h1 hm
        by_cases hb : bs = []
        · subst hb
          refine ⟨old, L, t0, P, h1, h2, hL, by simpa using hP, ?_⟩
          rw [Disk.write_nil, Disk.seek_bytes, hd, List.append_nil]
        · refine ⟨old, L, t0, [], h1, h2, hL, Or.inl rfl, ?_⟩
          have hd' : d.bytes = (iffStart L ++ iffBody h t0 old ++ D) ++ P := by rw [hd]; simp only [List.append_assoc]
          have e : (t.first + t.dataSize).toNat = (iffStart L ++ iffBody h t0 old ++ D).length := by
            rw [hfirst, hds, List.length_append, List.length_append, iffStart_length hL, iffBody_length, hl]; omega
          have s := Stands.of_bytes hd' e
          rw [s.write_bytes hb]
          have : P.drop bs.length = [] := by
            have : 0 < bs.length := List.length_pos_iff.2 hb
            rcases hP with rfl | ⟨rfl, -⟩
            · simp
            · exact List.drop_eq_nil_of_le this
          rw [this]
          simp only [List.append_assoc, List.append_nil])
      (by
        rintro d t x D k ⟨hf, hfirst, hds, hfr, hn, hX⟩
        refine ⟨hf, hfirst, hds, hfr, hn, fun hk => ?_⟩
        obtain ⟨hO, hpl, hst, old, L, t0, P, h1, h2, hL, hP, hd⟩ := hX hk
        obtain ⟨c1, c2⟩ := iffUpdate_eq (t := { t with afterData := d.pos }) (over_sized h1.misc hm) h2 (hpl.over hO hm) hst hL hd hfr
          (by omega) hP
        have hl := iffMiscPart_length h hO hm
        refine ⟨by rw [c2]; exact hO, by rw [c2]; exact ⟨Or.inr rfl, Or.inr rfl, Or.inr (by rw [hl])⟩, by rw [c2], ?_⟩
        refine ⟨x.handle, _, _, dataPad D.length, hO, by rw [c2]; exact Over.refl _, by rw [fieldBytes_length, b4], ?_, c1⟩
        unfold dataPad
        split <;> simp_all)
      (by
        rintro d t x D k op x' ⟨hf, hfirst, hds, hfr, hn, hX⟩ hc
        unfold iffCall at hc
        match hs : Meta.step x.handle op with
        | .error e => rw [hs] at hc; cases hc
        | .ok (r, hd') =>
          rw [hs] at hc
          cases hc
          have ho := step_over hs
          refine ⟨hf, hfirst, hds, hfr, hn, fun hk => ?_⟩
          obtain ⟨hO, ⟨g1, g2, g3⟩, hst, old, L, t0, P, h1, h2, hL, hP, hd⟩ := hX hk
          exact ⟨hO.trans ho, ⟨g1, g2, g3⟩, hst, old, L, t0, P, h1, h2.trans ho, hL, hP, hd⟩)
      hfile
  obtain ⟨hO, hpl, hst, old, L, t0, P, h1, h2, hL, hP, hd⟩ := hX hN
  obtain ⟨c1, c2⟩ := iffUpdate_eq (t := { t with afterData := d.pos }) (over_sized h1.misc hm) h2 (hpl.over hO hm) hst hL hd hfr
    (by omega) hP
  rw [← he] at c1
  rw [← hx] at c2
  have hh : x.handle = y.handle := by rw [c2]
  refine ⟨hn, by rw [hh]; exact hO, ?_⟩
  rw [hh, ← iffBody_congr h (t := { t with afterData := d.pos }) (t' := iffTrackOf f (framesOfM evs)) hf (by
    show t.frames = ((framesOfM evs : Nat) : Int)
    rw [hfr, hn]), ← hn]
  exact c1

end AF.Files
