import Verif.Proof.Files.SampleVision
import Verif.Proof.ForeignSimple
import Verif.Spec.ForeignNist
/-!
# Reading the SampleVision files of other programs
-/
namespace AF.Foreign
open AF AF.Setup AF.Files AF.Convert AF.Spec AF.Spec.Files AF.Spec.Formats AF.Spec.Setup AF.Spec.Foreign

theorem smpText_any {type : Int} {n p : Nat} {file bs rest : List Byte} (hf : file.drop p = bs ++ rest) (hn : bs.length = n) :
    ∃ r, smpText type n file p = .ok (r, p + n) := by
  refine ⟨if 0 < (trimTrailing (cstring bs)).length then [(type, trimTrailing (cstring bs))] else [], ?_⟩
  unfold smpText
  rw [Rd.bind_ok (Rd.read_ok hf hn), if_neg (by omega)]
  rfl

theorem smp_found (h : Endian) (x : Smp) (ok : x.Ok) :
    ∃ t r p, smpRead h x.file 0 = .ok ((t, r), p) ∧
      SameSound (described x.rate 1 LITTLE (signed 16)) x.sound (x.sound.length / 2) x.file t := by
  have e0 : x.file.drop 0 = smpMagic ++ (smpVersion ++ (x.name ++ (x.comment ++ (num .little 4 (x.sound.length / 2) ++ (x.sound ++
      (num .little 2 x.reserved ++ (x.loops ++ (x.markers ++ (num .little 1 x.note ++ (num .little 4 x.rate ++ (num .little 4 x.smpte ++
      (num .little 4 x.cycle ++ x.more)))))))))))) := by
    rw [List.drop_zero]
    unfold Smp.file
    simp only [List.append_assoc, le_num]
    rfl
  have l1 : smpMagic.length = 18 := by decide +kernel
  have l2 : smpVersion.length = 4 := by decide +kernel
  obtain ⟨hs1, hs2⟩ := ok.sound
  have hr := ok.rate
  have e1 := drop_step e0 (n := 18) l1
  have e2 := drop_step e1 (n := 4) l2
  have e3 := drop_step e2 ok.name
  have e4 := drop_step e3 ok.comment
  have e5 := drop_step e4 (num_length _ _ _)
  have e6 := drop_step e5 rfl
  have e7 := drop_step e6 (num_length _ _ _)
  have e8 := drop_step e7 ok.loops
  have e9 := drop_step e8 ok.markers
  have e10 := drop_step e9 (num_length _ _ _)
  have e11 := drop_step e10 (num_length _ _ _)
  have e12 := drop_step e11 (num_length _ _ _)
  have hlen : ∀ q, q ≤ 215 → 116 + x.sound.length + q ≤ x.file.length := by
    intro q hq
    have := congrArg List.length e0
    simp only [List.drop_zero, List.length_append, num_length, l1, l2, ok.name, ok.comment, ok.loops, ok.markers] at this
    omega
  obtain ⟨r1, t1⟩ := smpText_any (type := 203) e2 ok.name
  obtain ⟨r2, t2⟩ := smpText_any (type := 210) e3 ok.comment
  unfold smpRead
  rw [Rd.bind_ok (a := ()) (p' := 0) rfl, Rd.bind_ok (Rd.read_ok (n := 18) e0 l1), if_neg (by simp),
    Rd.bind_ok (Rd.read_ok (n := 4) e1 l2), if_neg (by simp), Rd.bind_ok t1, Rd.bind_ok t2,
    Rd.bind_ok (field_num (k := .s4) e4 (show _ < 2 ^ 32 by omega)).2, Rd.bind_ok (a := 116) (p' := 116) rfl]
  dsimp only
  rw [show 2 * (x.sound.length / 2) % 2 ^ 32 = x.sound.length by omega]
  rw [Rd.bind_ok (a := ()) (p' := 116 + x.sound.length) rfl]
  obtain ⟨a1, m1⟩ := Moves.field? h .little .s2 x.file (116 + x.sound.length) (hlen 2 (by decide))
  rw [Rd.bind_ok m1]
  have ml : Moves (smpSkipLoop h) 11 :=
    Moves.bind (j := 4) (Moves.field? _ _ _) fun _ => Moves.bind (j := 4) (Moves.field? _ _ _) fun _ =>
      Moves.bind (j := 1) (Moves.field? _ _ _) fun _ => Moves.bind (j := 2) (Moves.field? _ _ _) fun _ => Moves.pure _
  have mm : Moves (smpSkipMarker h) 14 :=
    Moves.bind (j := 10) (Moves.read _) fun _ => Moves.bind (j := 4) (Moves.field? _ _ _) fun _ => Moves.pure _
  obtain ⟨a2, m2⟩ := Moves.times ml 8 x.file (116 + x.sound.length + 2) (hlen 90 (by decide))
  rw [Rd.bind_ok m2]
  obtain ⟨a3, m3⟩ := Moves.times mm 8 x.file (116 + x.sound.length + 2 + 8 * 11) (hlen 202 (by decide))
  rw [Rd.bind_ok m3]
  obtain ⟨a4, m4⟩ := Moves.field? h .little .s1 x.file (116 + x.sound.length + 2 + 8 * 11 + 8 * 14) (hlen 203 (by decide))
  rw [Rd.bind_ok m4]
  have m5 := (field_num (h := h) (k := .s4) e10 (show _ < 2 ^ 32 from hr)).2
  have hpos : 0 + 18 + 4 + 30 + 60 + 4 + x.sound.length + 2 + 88 + 112 + 1 = 116 + x.sound.length + 2 + 8 * 11 + 8 * 14 + FieldSize.s1.bytes := by
    show _ = 116 + x.sound.length + 2 + 8 * 11 + 8 * 14 + 1
    omega
  rw [hpos] at m5
  rw [Rd.bind_ok m5]
  obtain ⟨a6, m6⟩ := Moves.field? h .little .s4 x.file (116 + x.sound.length + 2 + 8 * 11 + 8 * 14 + 1 + 4) (hlen 211 (by decide))
  rw [Rd.bind_ok m6]
  obtain ⟨a7, m7⟩ := Moves.field? h .little .s4 x.file (116 + x.sound.length + 2 + 8 * 11 + 8 * 14 + 1 + 4 + 4) (hlen 215 (by decide))
  rw [Rd.bind_ok m7]
  refine ⟨_, _, _, rfl, found_same (h := h) (k := signed 16) (g := ⟨(x.rate : Rat), 401, 16, LITTLE, ⟨0, 0, 0, 0⟩, 1, NONE⟩)
    (good_signed (by decide)) ⟨rfl, rfl, rfl, rfl, rfl, fun _ _ => rfl⟩ rfl (show (0 : Int) ≤ 116 by decide) rfl ?_ rfl⟩
  show (x.file.drop 116).take _ = _
  rw [show x.file.drop 116 = _ from e5, List.take_left]

end AF.Foreign
