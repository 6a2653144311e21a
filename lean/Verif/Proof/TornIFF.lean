import Verif.Proof.Torn
import Verif.Proof.Files.IFFWrite
/-!
# Lemmas about syncs of IFF files that were cut short
-/
namespace AF.Files
open AF AF.Setup AF.Spec.Files AF.Meta

/-- A header whose VHDR chunk gives `v` frames, and whose BODY chunk `n`. -/
def iffHead (h : Endian) (f : AFmt) (L : List Byte) (ms : List Misc) (v n : Int) : List Byte :=
  iffStart L ++ (iffVHDR h (iffTrackOf f v) ++ (iffMiscPart h ms ++ bodyPart h n))

theorem iffHead_length (h : Endian) (f : AFmt) {L : List Byte} (hL : L.length = 4) (ms : List Misc) (v n : Int) :
    (iffHead h f L ms v n).length = 48 + (iffMiscPart h ms).length := by
  unfold iffHead
  rw [List.length_append, List.length_append, List.length_append, iffStart_length hL, iffVHDR_length, bodyPart_length]
  omega

theorem iffMiscWrites_there {h : Endian} (ms : List Misc) (hm : ∀ m ∈ ms, Sized m) : ∀ (A C : List Byte) (o : Nat) (file : List Byte),
    file = A ++ iffMiscPart h ms ++ C → A.length = o → ∀ w ∈ iffMiscWrites h o ms, There file w := by
  induction ms with
  | nil => intro A C o file _ _ w hw; cases hw
  | cons m ms ih =>
    intro A C o file hf ho w hw
    unfold iffMiscPart at hf ih
    rw [List.flatMap_cons] at hf
    have hs := hm m (by simp)
    have hlen := formEntry_length iffMiscTag_length h hs
    have h0 := hs.size
    rcases List.mem_append.1 hw with hw | hw
    · clear ih
      revert hw
      generalize ms.flatMap (formEntry iffMiscTag h) = Z at hf
      unfold formEntry at hf
      intro hw
      have l1 := iffMiscTag_length m.type
      have l2 : (fieldBytes h .big .s4 m.size).length = 4 := fieldBytes_length _ _ _ _
      have l3 := hs.fill
      rcases List.mem_append.1 hw with hw | hw
      · rcases List.mem_append.1 hw with hw | hw
        · rcases List.mem_cons.1 hw with rfl | hw
          · exact .mk' (A := A) (C := fieldBytes h .big .s4 m.size ++ miscFill m ++ padOf m.size ++ Z ++ C)
              (by rw [hf]; simp only [List.append_assoc]) ho
          · rw [List.mem_singleton] at hw
            subst hw
            exact .mk' (A := A ++ iffMiscTag m.type) (C := miscFill m ++ padOf m.size ++ Z ++ C)
              (by rw [hf]; simp only [List.append_assoc]) (by rw [List.length_append, ho, l1])
        · revert hw
          unfold miscFill at hf
          match hb : m.buffer with
          | none => intro hw; cases hw
          | some b =>
            intro hw
            rw [hb, Option.getD_some] at hf
            rw [List.mem_singleton] at hw
            subst hw
            exact .mk' (A := A ++ iffMiscTag m.type ++ fieldBytes h .big .s4 m.size) (C := padOf m.size ++ Z ++ C)
              (by rw [hf]; simp only [List.append_assoc]) (by rw [List.length_append, List.length_append, ho, l1, l2])
      · revert hw
        split
        · rename_i hodd
          intro hw
          rw [List.mem_singleton] at hw
          subst hw
          have hz : fieldBytes h .big .s1 0 = padOf m.size := by
            unfold padOf; rw [if_pos hodd]; cases h <;> decide
          rw [hz]
          exact .mk' (A := A ++ iffMiscTag m.type ++ fieldBytes h .big .s4 m.size ++ miscFill m) (C := Z ++ C)
            (by rw [hf]; simp only [List.append_assoc])
            (by rw [List.length_append, List.length_append, List.length_append, ho, l1, l2]; omega)
        · intro hw; cases hw
    · exact ih (fun m' hm' => hm m' (by simp [hm'])) (A ++ formEntry iffMiscTag h m) C _ file (by rw [hf]; simp only [List.append_assoc])
        (by rw [List.length_append, ho]; omega) w hw

/-- The calls change the frame count of VHDR, the length of BODY, the pad byte, the length of the file, in this order, and nothing
else. -/
theorem iffWrites_among {h : Endian} {f : AFmt} {t : Trk} {x : IffObj} {L0 D P : List Byte} {v0 n0 : Int} {length : Nat}
    {Q : List Byte → Prop} (hm : ∀ m ∈ x.handle.misc, Sized m) (hL : L0.length = 4) (hf : t.f = f)
    (p1 : x.vhdr = 12) (p2 : x.misc = 40) (p3 : x.body = 40 + (iffMiscPart h x.handle.misc).length)
    (ht : t.frames = D.length) (hD : D.length < 2 ^ 32) (hP : P = [] ∨ (P = [0] ∧ D.length % 2 = 1))
    (hl : length = (iffHead h f L0 x.handle.misc v0 n0 ++ (D ++ P)).length)
    (q0 : Q (iffHead h f L0 x.handle.misc v0 n0 ++ (D ++ P)))
    (q1 : Q (iffHead h f L0 x.handle.misc t.frames n0 ++ (D ++ P)))
    (q2 : Q (iffHead h f L0 x.handle.misc t.frames t.frames ++ (D ++ P)))
    (q3 : Q (iffHead h f L0 x.handle.misc t.frames t.frames ++ (D ++ dataPad D.length)))
    (q4 : Q (iffHead h f (fieldBytes h .big .s4 ((40 + (iffMiscPart h x.handle.misc).length + D.length + D.length % 2 : Nat) : Int))
      x.handle.misc t.frames t.frames ++ (D ++ dataPad D.length))) :
    Among (iffWrites h t x length) (iffHead h f L0 x.handle.misc v0 n0 ++ (D ++ P))
      (iffHead h f (fieldBytes h .big .s4 ((40 + (iffMiscPart h x.handle.misc).length + D.length + D.length % 2 : Nat) : Int))
        x.handle.misc t.frames t.frames ++ (D ++ dataPad D.length)) Q := by
  have e4 : ∀ y, (fieldBytes h .big .s4 y).length = 4 := fun y => fieldBytes_length _ _ _ _
  have e2 : ∀ y, (fieldBytes h .big .s2 y).length = 2 := fun y => fieldBytes_length _ _ _ _
  have e1 : ∀ y, (fieldBytes h .big .s1 y).length = 1 := fun y => fieldBytes_length _ _ _ _
  have t4 : (tag "VHDR").length = 4 := rfl
  have t5 : (tag "BODY").length = 4 := rfl
  have hst := iffStart_length hL
  have hsize : (t.frames % 2 ^ 32).toNat = D.length := by rw [ht]; omega
  rw [List.length_append, List.length_append, iffHead_length h f hL] at hl
  unfold iffWrites
  dsimp only
  rw [hsize, hf, p1, p2]
  have hlen : ((if D.length % 2 = 1 then max length (x.body + 8 + D.length + 1) else length : Nat) : Int) - 8 =
      ((40 + (iffMiscPart h x.handle.misc).length + D.length + D.length % 2 : Nat) : Int) := by
    rw [p3]
    rcases hP with rfl | ⟨rfl, ho⟩
    · rw [List.length_nil] at hl
      split <;> omega
    · rw [List.length_singleton] at hl
      rw [if_pos ho]
      omega
  rw [hlen]
  generalize ((40 + (iffMiscPart h x.handle.misc).length + D.length + D.length % 2 : Nat) : Int) = L1 at *
  generalize x.handle.misc = ms at *
  refine Among.append (file' := iffHead h f L0 ms t.frames t.frames ++ (D ++ dataPad D.length))
    (Among.append (file' := iffHead h f L0 ms t.frames t.frames ++ (D ++ P))
      (Among.append (file' := iffHead h f L0 ms t.frames n0 ++ (D ++ P))
        (Among.append (file' := iffHead h f L0 ms t.frames n0 ++ (D ++ P)) ?_ ?_) ?_) ?_) ?_
  · refine Among.append (ws := [_, _]) (ws' := [_, _, _, _, _, _, _]) (.there ?_ q0)
      (Among.append (ws := [_]) (ws' := [_, _, _, _, _, _]) (file' := iffHead h f L0 ms t.frames n0 ++ (D ++ P)) ?_ (.there ?_ q1))
    · intro w hw
      simp only [List.mem_cons, List.not_mem_nil, or_false] at hw
      unfold iffHead iffVHDR
      rcases hw with rfl | rfl
      · exact .mk' (A := iffStart L0) (by simp only [List.append_assoc]; rfl) hst
      · exact .mk' (A := iffStart L0 ++ tag "VHDR") (by simp only [List.append_assoc]; rfl) (by rw [List.length_append, hst, t4])
    · unfold iffHead iffVHDR
      exact .patch (A := iffStart L0 ++ tag "VHDR" ++ fieldBytes h .big .s4 20) (B := fieldBytes h .big .s4 v0)
        (by simp only [List.append_assoc]; rfl) (by simp only [List.append_assoc]; rfl)
        (by rw [List.length_append, List.length_append, hst, t4, e4]) (by rw [e4, e4]) q0 q1
    · intro w hw
      simp only [List.mem_cons, List.not_mem_nil, or_false] at hw
      unfold iffHead iffVHDR
      rcases hw with rfl | rfl | rfl | rfl | rfl | rfl
      · exact .mk' (A := iffStart L0 ++ tag "VHDR" ++ fieldBytes h .big .s4 20 ++ fieldBytes h .big .s4 t.frames)
          (by simp only [List.append_assoc]; rfl) (by simp only [List.length_append, hst, t4, e4])
      · exact .mk' (A := iffStart L0 ++ tag "VHDR" ++ fieldBytes h .big .s4 20 ++ fieldBytes h .big .s4 t.frames ++ fieldBytes h .big .s4 0)
          (by simp only [List.append_assoc]; rfl) (by simp only [List.length_append, hst, t4, e4])
      · exact .mk' (A := iffStart L0 ++ tag "VHDR" ++ fieldBytes h .big .s4 20 ++ fieldBytes h .big .s4 t.frames ++ fieldBytes h .big .s4 0 ++
          fieldBytes h .big .s4 0)
          (by simp only [List.append_assoc]; rfl) (by simp only [List.length_append, hst, t4, e4])
      · exact .mk' (A := iffStart L0 ++ tag "VHDR" ++ fieldBytes h .big .s4 20 ++ fieldBytes h .big .s4 t.frames ++ fieldBytes h .big .s4 0 ++
          fieldBytes h .big .s4 0 ++ fieldBytes h .big .s2 (toUnsigned f.rate))
          (by simp only [List.append_assoc]; rfl) (by simp only [List.length_append, hst, t4, e4, e2])
      · exact .mk' (A := iffStart L0 ++ tag "VHDR" ++ fieldBytes h .big .s4 20 ++ fieldBytes h .big .s4 t.frames ++ fieldBytes h .big .s4 0 ++
          fieldBytes h .big .s4 0 ++ fieldBytes h .big .s2 (toUnsigned f.rate) ++ fieldBytes h .big .s1 0)
          (by simp only [List.append_assoc]; rfl) (by simp only [List.length_append, hst, t4, e4, e2, e1])
      · exact .mk' (A := iffStart L0 ++ tag "VHDR" ++ fieldBytes h .big .s4 20 ++ fieldBytes h .big .s4 t.frames ++ fieldBytes h .big .s4 0 ++
          fieldBytes h .big .s4 0 ++ fieldBytes h .big .s2 (toUnsigned f.rate) ++ fieldBytes h .big .s1 0 ++ fieldBytes h .big .s1 0)
          (by simp only [List.append_assoc]; rfl) (by simp only [List.length_append, hst, t4, e4, e2, e1])
  · refine .there (iffMiscWrites_there ms hm (iffStart L0 ++ iffVHDR h (iffTrackOf f t.frames)) (bodyPart h n0 ++ (D ++ P)) 40 _ ?_ ?_) q1
    · unfold iffHead
      simp only [List.append_assoc]
    · rw [List.length_append, hst, iffVHDR_length]
  · rw [p3]
    refine Among.append (ws := [_]) (ws' := [_]) (file' := iffHead h f L0 ms t.frames n0 ++ (D ++ P)) (.there ?_ q1) ?_
    · intro w hw
      rw [List.mem_singleton] at hw
      subst hw
      unfold iffHead bodyPart
      exact .mk' (A := iffStart L0 ++ iffVHDR h (iffTrackOf f t.frames) ++ iffMiscPart h ms)
        (C := fieldBytes h .big .s4 n0 ++ (D ++ P)) (by simp only [List.append_assoc])
        (by rw [List.length_append, List.length_append, hst, iffVHDR_length])
    · unfold iffHead bodyPart
      exact .patch (A := iffStart L0 ++ iffVHDR h (iffTrackOf f t.frames) ++ iffMiscPart h ms ++ tag "BODY") (B := fieldBytes h .big .s4 n0)
        (C := D ++ P) (by simp only [List.append_assoc]) (by simp only [List.append_assoc])
        (by rw [List.length_append, List.length_append, List.length_append, hst, iffVHDR_length, t5]) (by rw [e4, e4]) q1 q2
  · have hh := iffHead_length h f hL ms t.frames t.frames
    have hz : fieldBytes h .big .s1 0 = [0] := by cases h <;> decide
    unfold dataPad at q3 ⊢
    split
    · rename_i hodd
      rw [if_pos hodd] at q3
      rw [hz, p3]
      rcases hP with rfl | ⟨rfl, -⟩
      · refine .one ?_ q2 q3
        unfold put
        dsimp only
        rw [Disk.write_end (by rw [Disk.seek_pos, Disk.seek_bytes, List.length_append, hh, List.append_nil]; omega), Disk.seek_bytes]
        simp only [List.append_assoc, List.append_nil]
      · refine .there (fun w hw => ?_) q3
        rw [List.mem_singleton] at hw
        subst hw
        exact .mk' (A := iffHead h f L0 ms t.frames t.frames ++ D) (C := []) (by simp only [List.append_assoc, List.append_nil])
          (by rw [List.length_append, hh]; omega)
    · rename_i hne
      rw [if_neg hne] at q3
      rcases hP with rfl | ⟨-, ho⟩
      · exact .nil q3
      · exact absurd ho hne
  · unfold iffHead iffStart at q3 q4 ⊢
    exact .patch (A := tag "FORM") (B := L0)
      (by simp only [List.append_assoc]; rfl) (by simp only [List.append_assoc]) rfl (by rw [e4, hL]) q3 q4

theorem whole_frames (b : List Ev) (hwb : ∀ e ∈ b, e.bytes.length = e.frames) : framesOf b = (dataOf b).length := by
  induction b with
  | nil => rfl
  | cons e b ih =>
    have h1 := ih fun e he => hwb e (List.mem_cons_of_mem _ he)
    have h2 := hwb e (List.mem_cons_self ..)
    have h3 : framesOf (e :: b) = e.frames + framesOf b := List.sum_cons
    have h4 : dataOf (e :: b) = e.bytes ++ dataOf b := List.flatMap_cons
    rw [h3, h4, List.length_append]
    omega

/-- The state of a session that synced and went on with audio data. -/
theorem iff_state (h : Endian) (handle0 : Handle) (f : AFmt) (hm : ∀ m ∈ handle0.misc, Sized m) (a : List MEv) (b : List Ev)
    (hb : Ev.sync ∉ b) (hwa : ∀ e ∈ a, e.bytes.length = e.frames) (hwb : ∀ e ∈ b, e.bytes.length = e.frames)
    (hN : framesOfM a < 2 ^ 32) {s : Disk × Trk × IffObj}
    (hr : mrun (iffUpdate h) iffCall ((iffInit h handle0 f).1.seek (iffInit h handle0 f).2.1.first.toNat, (iffInit h handle0 f).2)
      (a ++ .ev .sync :: b.map .ev) = .ok s) :
    s.2.1.f = f ∧ s.2.1.frames = (dataOfM a ++ dataOf b).length ∧ Over handle0 s.2.2.handle ∧
      s.2.2.vhdr = 12 ∧ s.2.2.misc = 40 ∧ s.2.2.body = 40 + (iffMiscPart h s.2.2.handle.misc).length ∧
      (dataOfM a).length = framesOfM a ∧
      ∃ P, (P = [] ∨ (P = [0] ∧ (dataOfM a ++ dataOf b).length % 2 = 1)) ∧
        s.1.bytes = iffHead h f (fieldBytes h .big .s4 ((40 + (iffMiscPart h s.2.2.handle.misc).length + (dataOfM a).length +
          (dataOfM a).length % 2 : Nat) : Int)) s.2.2.handle.misc (dataOfM a).length (dataOfM a).length ++
          ((dataOfM a ++ dataOf b) ++ P) := by
  have hL0 : (fieldBytes h .big .s4 0).length = 4 := by rw [fieldBytes_length, b4]
  have hA0 := iffStart_length hL0
  have s0 := Stands.nil.write (iffStart (fieldBytes h .big .s4 0))
  rw [List.nil_append, List.drop_nil] at s0
  obtain ⟨i1, i2, i3⟩ := iff_write (t := Trk.ofFormat f) (t0 := Trk.ofFormat f) (old := handle0) (x := ⟨handle0, 0, 0, 0⟩) (D := []) (P := [])
    hm (Over.refl _) ⟨Or.inl rfl, Or.inl rfl, Or.inl rfl⟩ hA0 s0 (Or.inl ⟨rfl, rfl⟩) rfl (by decide) (Or.inl rfl)
  have i2 := i2 rfl
  rw [List.length_append, hA0, iffBody_length] at i2
  simp only [List.length_nil, dataPad] at i1
  rw [mrun_append] at hr
  match h1 : mrun (iffUpdate h) iffCall ((iffInit h handle0 f).1.seek (iffInit h handle0 f).2.1.first.toNat, (iffInit h handle0 f).2) a with
  | .error e => rw [h1] at hr; cases hr
  | .ok s1 =>
    rw [h1] at hr
    have hI := mrun_induct_mem (iffUpdate h) iffCall
      (fun d t x D k => t.f = f ∧ t.first = (48 + (iffMiscPart h handle0.misc).length : Nat) ∧ t.dataSize = D.length ∧
        t.frames = D.length ∧ D.length = k ∧
        (k < 2 ^ 32 → Over handle0 x.handle ∧ IffPlaces h handle0 x ∧ x.vhdr = 12 ∧ ∃ old L t0 P, Over handle0 old ∧ Over old x.handle ∧ L.length = 4 ∧ (P = [] ∨ (P = [0] ∧ D.length % 2 = 1)) ∧
          d.bytes = iffStart L ++ iffBody h t0 old ++ (D ++ P)))
      a
      (by
        rintro d t x D k bs j hmem ⟨hf, hfirst, hds, hfr, hn, hX⟩
        have hj : bs.length = j := hwa _ hmem
        refine ⟨hf, hfirst, by dsimp only; rw [hds]; simp, by dsimp only; rw [hfr, ← hj]; simp, by rw [List.length_append]; omega,
          fun hk => ?_⟩
        obtain ⟨hO, hpl, hst, old, L, t0, P, h1, h2, hL, hP, hd⟩ := hX (by omega)
        refine ⟨hO, hpl, hst, ?_⟩
        have hl := iffMiscPart_length h h1 hm
        by_cases hb : bs = []
        · subst hb
          refine ⟨old, L, t0, P, h1, h2, hL, by simpa using hP, ?_⟩
          rw [Disk.write_nil, Disk.seek_bytes, hd, List.append_nil]
        · refine ⟨old, L, t0, [], h1, h2, hL, Or.inl rfl, ?_⟩
          have hd' : d.bytes = (iffStart L ++ iffBody h t0 old ++ D) ++ P := by rw [hd]; simp only [List.append_assoc]
          have e : (t.first + t.dataSize).toNat = (iffStart L ++ iffBody h t0 old ++ D).length := by
            rw [hfirst, hds, List.length_append, List.length_append, iffStart_length hL, iffBody_length, hl]; omega
          have s := Stands.of_bytes hd' e
          rw [s.write_bytes hb]
          have : P.drop bs.length = [] := by
            have : 0 < bs.length := List.length_pos_iff.2 hb
            rcases hP with rfl | ⟨rfl, -⟩
            · simp
            · exact List.drop_eq_nil_of_le this
          rw [this]
          simp only [List.append_assoc, List.append_nil])
      (by
        rintro d t x D k ⟨hf, hfirst, hds, hfr, hn, hX⟩
        refine ⟨hf, hfirst, hds, hfr, hn, fun hk => ?_⟩
        obtain ⟨hO, hpl, hst, old, L, t0, P, h1, h2, hL, hP, hd⟩ := hX hk
        obtain ⟨c1, c2⟩ := iffUpdate_eq (t := { t with afterData := d.pos }) (over_sized h1.misc hm) h2 (hpl.over hO hm) hst hL hd hfr
          (by omega) hP
        have hl := iffMiscPart_length h hO hm
        refine ⟨by rw [c2]; exact hO, by rw [c2]; exact ⟨Or.inr rfl, Or.inr rfl, Or.inr (by rw [hl])⟩, by rw [c2], ?_⟩
        refine ⟨x.handle, _, _, dataPad D.length, hO, by rw [c2]; exact Over.refl _, by rw [fieldBytes_length, b4], ?_, c1⟩
        unfold dataPad
        split <;> simp_all)
      (by
        rintro d t x D k op x' ⟨hf, hfirst, hds, hfr, hn, hX⟩ hc
        unfold iffCall at hc
        match hs : Meta.step x.handle op with
        | .error e => rw [hs] at hc; cases hc
        | .ok (r, hd') =>
          rw [hs] at hc
          cases hc
          have ho := step_over hs
          refine ⟨hf, hfirst, hds, hfr, hn, fun hk => ?_⟩
          obtain ⟨hO, ⟨g1, g2, g3⟩, hst, old, L, t0, P, h1, h2, hL, hP, hd⟩ := hX hk
          exact ⟨hO.trans ho, ⟨g1, g2, g3⟩, hst, old, L, t0, P, h1, h2.trans ho, hL, hP, hd⟩)
      a (fun _ h => h) _ [] 0 s1
      (by
        unfold iffInit
        dsimp only
        change _ ∧ _ ∧ _ ∧ _ ∧ _ ∧ _
        have e : tag "FORM" ++ fieldBytes h .big .s4 0 ++ tag "8SVX" = iffStart (fieldBytes h .big .s4 0) := rfl
        rw [e]
        generalize iffWrite h (Trk.ofFormat f) ⟨handle0, 0, 0, 0⟩ ((⟨[], 0⟩ : Disk).write (iffStart (fieldBytes h .big .s4 0))) = w at i1 i2 i3
        obtain ⟨d1, x1⟩ := w
        dsimp only at *
        subst i3
        refine ⟨rfl, by rw [i2]; omega, rfl, rfl, rfl, fun _ => ⟨Over.refl _, ⟨Or.inr rfl, Or.inr rfl, Or.inr rfl⟩, rfl, ?_⟩⟩
        exact ⟨handle0, _, Trk.ofFormat f, [], Over.refl _, Over.refl _, hL0, Or.inl rfl, by rw [Disk.seek_bytes, i1]; simp⟩) h1
    obtain ⟨d, t, x⟩ := s1
    rw [List.nil_append, Nat.zero_add] at hI
    obtain ⟨hf, hfirst, hds, hfr, hn, hX⟩ := hI
    obtain ⟨hO, hpl, hst, old, L, t0, P, g1, g2, hL, hP, hd⟩ := hX hN
    dsimp only at hf hfirst hds hfr hO hpl hst g2 hd
    change mrun (iffUpdate h) iffCall (step (iffUpdate h) (d, t, x) .sync) (b.map .ev) = .ok s at hr
    obtain ⟨u1, u2⟩ := iffUpdate_eq (t := { t with afterData := d.pos }) (over_sized g1.misc hm) g2 (hpl.over hO hm) hst hL hd hfr
      (by omega) hP
    have hl := iffMiscPart_length h hO hm
    rw [step_sync, u2] at hr
    generalize (iffUpdate h { t with afterData := d.pos } x d).1 = d1 at *
    obtain ⟨d2, v1, v2⟩ := foldl_only (iffUpdate h) b hb d1 { t with afterData := d.pos }
      ⟨x.handle, 12, 40, 40 + (iffMiscPart h x.handle.misc).length⟩ (by dsimp only; rw [hfirst, hds]; omega)
    rw [mrun_ev, v1] at hr
    cases hr
    have hfb := whole_frames b hwb
    have hdl : (dataPad (dataOfM a).length).length = (dataOfM a).length % 2 := by
      unfold dataPad; split
      · rename_i hh; rw [hh]; rfl
      · show 0 = _; omega
    have hlen := congrArg List.length u1
    rw [List.length_append, List.length_append, List.length_append, iffStart_length (by rw [fieldBytes_length, b4]), iffBody_length, hdl] at hlen
    have hlen8 : (d1.bytes.length : Int) - 8 = ((40 + (iffMiscPart h x.handle.misc).length + (dataOfM a).length + (dataOfM a).length % 2 : Nat) : Int) := by
      omega
    rw [hlen8] at u1
    have hbody : iffBody h { t with afterData := d.pos } x.handle =
        iffVHDR h (iffTrackOf f (dataOfM a).length) ++ (iffMiscPart h x.handle.misc ++ bodyPart h (dataOfM a).length) := by
      unfold iffBody iffVHDR iffTrackOf
      dsimp only
      rw [hf, hfr]
      rfl
    rw [hbody] at u1
    refine ⟨hf, by dsimp only; rw [hfr, hfb, List.length_append, Int.natCast_add], hO, rfl, rfl, rfl, hn, ?_⟩
    dsimp only
    have hu : d1.bytes = iffHead h f (fieldBytes h .big .s4 ((40 + (iffMiscPart h x.handle.misc).length + (dataOfM a).length +
          (dataOfM a).length % 2 : Nat) : Int)) x.handle.misc (dataOfM a).length (dataOfM a).length ++ dataOfM a ++ dataPad (dataOfM a).length := by
      rw [u1]; unfold iffHead; simp only [List.append_assoc]
    have hh := iffHead_length h f (L := fieldBytes h .big .s4 ((40 + (iffMiscPart h x.handle.misc).length + (dataOfM a).length +
          (dataOfM a).length % 2 : Nat) : Int)) (by rw [fieldBytes_length, b4]) x.handle.misc (dataOfM a).length (dataOfM a).length
    generalize iffHead h f (fieldBytes h .big .s4 ((40 + (iffMiscPart h x.handle.misc).length + (dataOfM a).length +
          (dataOfM a).length % 2 : Nat) : Int)) x.handle.misc (dataOfM a).length (dataOfM a).length = H at hu hh
    by_cases hB : dataOf b = []
    · refine ⟨dataPad (dataOfM a).length, ?_, ?_⟩
      · rw [hB, List.append_nil]
        unfold dataPad
        split
        · exact .inr ⟨rfl, by assumption⟩
        · exact .inl rfl
      · rw [v2, hB, Disk.write_nil, Disk.seek_bytes, hu, List.append_nil, List.append_assoc]
    · refine ⟨[], .inl rfl, ?_⟩
      have hp : place { t with afterData := d.pos } = (H ++ dataOfM a).length := by
        unfold place; dsimp only; rw [hfirst, hds, List.length_append, hh, hl]; omega
      have s := Stands.of_bytes hu hp
      rw [v2, s.write_bytes hB]
      have h1 : 0 < (dataOf b).length := List.length_pos_iff.2 hB
      rw [List.drop_eq_nil_of_le (by rw [hdl]; omega)]
      simp only [List.append_assoc, List.append_nil]

end AF.Files
