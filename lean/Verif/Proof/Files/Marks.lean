import Verif.Proof.Shape
import Verif.Proof.Setup
import Verif.Spec.WAVE
/-!
# Metadata of a handle that was opened for writing
-/
namespace AF.Files
open AF AF.Setup AF.Spec.Files AF.Meta

theorem setup_ids (M : List MarkerSetup) :
    (List.zipWith (fun (m : Marker) (n : List Byte × List Byte) => (m.id, m.position, n.1, n.2))
      (M.map fun m => (⟨wrapS 16 m.id, 0⟩ : Marker)) (M.map fun m => (m.name, m.comment))).map (·.1) = M.map fun m => wrapS 16 m.id := by
  induction M with
  | nil => rfl
  | cons a M ih => simpa using ih

theorem zip_ids (T : List Marker) (M : List MarkerSetup) (hs : T.map (·.id) = M.map fun m => wrapS 16 m.id) :
    (List.zipWith (fun (m : Marker) (n : List Byte × List Byte) => WMark.mk m.id m.position n.1 n.2)
      T (M.map fun m => (m.name, m.comment))).map (·.id) = M.map fun m => wrapS 16 m.id := by
  induction T generalizing M with
  | nil => cases M with
    | nil => rfl
    | cons a M => simp at hs
  | cons a T ih => cases M with
    | nil => simp at hs
    | cons b M =>
      simp only [List.map_cons, List.cons.injEq] at hs
      simp only [List.map_cons, List.zipWith_cons_cons, List.cons.injEq]
      exact ⟨hs.1, ih M hs.2⟩

/-- Markers of a handle `hd` that `o` has become. -/
theorem marks_known {o : Opened} {hd : Handle} (hO : Over o.handle hd) {i : Int} {M : List MarkerSetup} {b : Bool} {l : List Byte}
    (htr : o.handle.tracks = [⟨i, M.map (fun m => ⟨wrapS 16 m.id, 0⟩), b, l⟩])
    (hnm : o.names = [M.map fun m => (m.name, m.comment)]) :
    (∀ m ∈ wmarks hd (o.names.headD []), (-2 ^ 15 ≤ m.id ∧ m.id < 2 ^ 15) ∧ 0 ≤ m.position) ∧
    (wmarks hd (o.names.headD [])).map (·.id) = (marksOf o.handle o.names).map (·.1) ∧
    (wmarks hd (o.names.headD [])).map (fun m => (m.id, m.position, m.name, m.comment)) = marksOf hd o.names := by
  have hshape := hO.marks
  unfold markShape at hshape
  rw [htr] at hshape
  simp only [List.map_cons, List.map_nil, List.map_map] at hshape
  obtain ⟨t, htx⟩ : ∃ t, hd.tracks = [t] := by
    match hx : hd.tracks with
    | [] => rw [hx] at hshape; simp at hshape
    | [t] => exact ⟨t, rfl⟩
    | a :: b :: l => rw [hx] at hshape; simp at hshape
  rw [htx] at hshape
  simp only [List.map_cons, List.map_nil, List.cons.injEq, Prod.mk.injEq, and_true] at hshape
  have hwm : wmarks hd (o.names.headD []) = t.markers.zipWith (fun m n => ⟨m.id, m.position, n.1, n.2⟩)
      (M.map fun m => (m.name, m.comment)) := by
    unfold wmarks; rw [htx, hnm]; rfl
  have hmo : marksOf hd o.names = t.markers.zipWith (fun m n => (m.id, m.position, n.1, n.2))
      (M.map fun m => (m.name, m.comment)) := by
    unfold marksOf; rw [htx, hnm]; simp
  have hmo0 : (marksOf o.handle o.names).map (·.1) = M.map fun m => wrapS 16 m.id := by
    unfold marksOf; rw [htr, hnm]
    simp only [List.flatMap_cons, List.flatMap_nil, List.append_nil, List.flatten_cons, List.flatten_nil]
    exact setup_ids M
  have hids : (wmarks hd (o.names.headD [])).map (·.id) = M.map fun m => wrapS 16 m.id := by
    rw [hwm]
    exact zip_ids _ _ (by rw [hshape.2]; rfl)
  refine ⟨?_, by rw [hids, hmo0], by rw [hwm, hmo, List.map_zipWith]⟩
  intro m hm
  constructor
  · have : m.id ∈ (wmarks hd (o.names.headD [])).map (·.id) := List.mem_map.2 ⟨m, hm, rfl⟩
    rw [hids] at this
    obtain ⟨a, -, ha⟩ := List.mem_map.1 this
    rw [← ha]
    unfold wrapS
    have := Int.bmod_lt (x := a.id) (m := 2 ^ 16) (by decide)
    have := Int.le_bmod (x := a.id) (m := 2 ^ 16) (by decide)
    omega
  · have hok := hO.pos (by
      intro t ht m hm
      rw [htr] at ht
      simp only [List.mem_cons, List.not_mem_nil, or_false] at ht
      rw [ht] at hm
      obtain ⟨a, -, rfl⟩ := List.mem_map.1 hm
      exact Int.le_refl _)
    rw [hwm] at hm
    obtain ⟨i, hi, rfl⟩ := List.mem_iff_getElem.1 hm
    rw [List.getElem_zipWith]
    exact hok t (by rw [htx]; simp) _ (List.getElem_mem _)

/-- The metadata a handle starts with. -/
theorem opened_meta {h : Endian} {s s' : Setup} {o : Opened} {tr : TrackSetup} {f : AFmt}
    (ho : openWrite h s = (s', some o)) (hc : complete h s = (s', some (completed s tr f))) :
    ∃ (M : List MarkerSetup) (b : Bool) (l : List Byte),
      o.handle.tracks = [⟨tr.id, M.map (fun m => ⟨wrapS 16 m.id, 0⟩), b, l⟩] ∧
      o.names = [M.map fun m => (m.name, m.comment)] ∧
      o.handle.misc = (if s.miscellaneousSet then s.miscellaneous else []).map fun m => ⟨m.id, m.type, m.size, none, 0⟩ := by
  unfold openWrite at ho
  rw [hc] at ho
  simp only [Option.map_some, Prod.mk.injEq, Option.some.injEq, true_and] at ho
  refine ⟨if tr.markersSet ∨ keepsMarks s.fileFormat then tr.markers else [], tr.aesDataSet, List.replicate 24 0, ?_, ?_, ?_⟩ <;>
    rw [← ho] <;> rfl

/-- The names a handle starts with are those of the setup. -/
theorem opened_names {h : Endian} {s s' : Setup} {o : Opened} {tr : TrackSetup} {f : AFmt}
    (ho : openWrite h s = (s', some o)) (hc : complete h s = (s', some (completed s tr f))) :
    ∀ n ∈ o.names.headD [], ∃ m ∈ tr.markers, n = (m.name, m.comment) := by
  unfold openWrite at ho
  rw [hc] at ho
  simp only [Option.map_some, Prod.mk.injEq, Option.some.injEq, true_and] at ho
  rw [← ho]
  intro n hn
  obtain ⟨m, hm, rfl⟩ : ∃ m ∈ (if tr.markersSet ∨ keepsMarks s.fileFormat then tr.markers else []), (m.name, m.comment) = n :=
    List.mem_map.1 hn
  refine ⟨m, ?_, rfl⟩
  split at hm
  · exact hm
  · cases hm

theorem wmarks_name {hd : Handle} {names : List (List Byte × List Byte)} {m : WMark} (hm : m ∈ wmarks hd names) :
    (m.name, m.comment) ∈ names := by
  unfold wmarks at hm
  split at hm
  · cases hm
  · obtain ⟨i, hi, rfl⟩ := List.mem_iff_getElem.1 hm
    rw [List.getElem_zipWith]
    exact List.getElem_mem _

end AF.Files
