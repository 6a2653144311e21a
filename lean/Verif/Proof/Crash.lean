import Verif.Model.Crash
import Verif.Proof.Disk
import Verif.Proof.Chunks
/-!
# Lemmas about files left by programs that died
-/
namespace AF.Files
open AF AF.Setup AF.Spec.Files

theorem Disk.write_write (d : Disk) (u v : List Byte) : (d.write u).write v = d.write (u ++ v) := by
  by_cases hu : u = []
  · subst hu; rw [Disk.write_nil, List.nil_append]
  by_cases hv : v = []
  · subst hv; rw [Disk.write_nil, List.append_nil]
  have hp : ((d.write u).write v).pos = (d.write (u ++ v)).pos := by
    rw [write_pos, write_pos, write_pos, List.length_append, Nat.add_assoc]
  have hb : ((d.write u).write v).bytes = (d.write (u ++ v)).bytes := by
    have hl := write_length hu (d := d)
    rw [write_mid (by rw [write_pos, hl]; omega), write_pos]
    have e1 : (d.write u).bytes.take (d.pos + u.length) =
        (d.bytes ++ List.replicate (d.pos - d.bytes.length) 0).take d.pos ++ u := by
      rw [write_bytes hu, List.take_append_of_le_length (by simp; omega)]
      exact List.take_of_length_le (by simp; omega)
    have e2 : (d.write u).bytes.drop (d.pos + u.length + v.length) = d.bytes.drop (d.pos + u.length + v.length) :=
      write_drop (by omega)
    rw [e1, e2, write_bytes (by simp [hu]), List.length_append]
    simp [Nat.add_assoc]
  cases h1 : (d.write u).write v
  cases h2 : d.write (u ++ v)
  simp only [h1, h2] at hp hb
  rw [hp, hb]

theorem Disk.seek_self (d : Disk) (n : Nat) (h : d.pos = n) : d.seek n = d := by subst h; rfl

theorem Disk.seek_seek (d : Disk) (n m : Nat) : (d.seek n).seek m = d.seek m := rfl

/-- Where the next data goes. -/
def place (t : Trk) : Nat := (t.first + t.dataSize).toNat

theorem place_add {t : Trk} (h : 0 ≤ t.first + t.dataSize) (n k : Nat) :
    place { t with dataSize := t.dataSize + n, frames := t.frames + k } = place t + n ∧
      0 ≤ t.first + (t.dataSize + n) := by
  unfold place
  dsimp only
  omega

theorem step_data {σ : Type} (update : Trk → σ → Disk → Disk × σ) (d : Disk) (t : Trk) (x : σ) (bs : List Byte) (k : Nat) :
    step update (d, t, x) (.data bs k) =
      ((d.seek (place t)).write bs, { t with dataSize := t.dataSize + bs.length, frames := t.frames + k }, x) := rfl

/-- What data events do to the file. -/
theorem mrun_data {σ : Type} (update : Trk → σ → Disk → Disk × σ) (call : Meta.Op → σ → Except Abort σ) (b : List MEv)
    (hb : MEv.ev .sync ∉ b) : ∀ (s s' : Disk × Trk × σ), 0 ≤ s.2.1.first + s.2.1.dataSize → mrun update call s b = .ok s' →
      s'.1.bytes = ((s.1.seek (place s.2.1)).write (dataOfM b)).bytes := by
  induction b with
  | nil =>
    intro s s' _ h
    cases h
    show _ = ((s.1.seek _).write []).bytes
    rw [Disk.write_nil]
    rfl
  | cons e b ih =>
    rintro ⟨d, t, x⟩ s' h0 h
    have ih := ih (fun hm => hb (List.mem_cons_of_mem _ hm))
    rw [mrun] at h
    match e, hb with
    | .ev .sync, hb => exact absurd (List.mem_cons_self ..) hb
    | .ev (.data bs k), _ =>
      have h0 : 0 ≤ t.first + t.dataSize := h0
      have h1 := ih (step update (d, t, x) (.data bs k)) s' (place_add h0 bs.length k).2 h
      rw [h1, step_data]
      dsimp only
      rw [(place_add h0 bs.length k).1, Disk.seek_self _ _ (by rw [Disk.write_pos]; rfl), Disk.write_write]
      rfl
    | .call op, _ =>
      match hc : call op x with
      | .error e => simp only [mstep, hc] at h; cases h
      | .ok x' =>
        simp only [mstep, hc] at h
        have h1 := ih (d, t, x') s' h0 h
        rw [h1]
        rfl

theorem mrun_append {σ : Type} (update : Trk → σ → Disk → Disk × σ) (call : Meta.Op → σ → Except Abort σ) (a b : List MEv) :
    ∀ s : Disk × Trk × σ, mrun update call s (a ++ b) = mrun update call s a >>= fun s' => mrun update call s' b := by
  induction a with
  | nil => intro s; rfl
  | cons e a ih =>
    intro s
    rw [List.cons_append, mrun, mrun]
    match mstep update call s e with
    | .error e => rfl
    | .ok s' => exact ih s'

/-- Events do not move the start of the data, and the data grows with what is written. -/
theorem mrun_track {σ : Type} (update : Trk → σ → Disk → Disk × σ) (call : Meta.Op → σ → Except Abort σ) (a : List MEv) :
    ∀ (s s' : Disk × Trk × σ), mrun update call s a = .ok s' →
      s'.2.1.first = s.2.1.first ∧ s'.2.1.dataSize = s.2.1.dataSize + (dataOfM a).length := by
  induction a with
  | nil => intro s s' h; cases h; exact ⟨rfl, (Int.add_zero _).symm⟩
  | cons e a ih =>
    rintro ⟨d, t, x⟩ s' h
    rw [mrun] at h
    have hl : ((dataOfM (e :: a)).length : Int) = e.bytes.length + (dataOfM a).length := by
      unfold dataOfM; rw [List.flatMap_cons, List.length_append, Int.natCast_add]
    match e with
    | .ev .sync =>
      obtain ⟨h1, h2⟩ := ih _ s' h
      exact ⟨h1, by rw [h2, hl]; show _ = t.dataSize + ((0 : Nat) + _); rw [Int.natCast_zero, Int.zero_add]; rfl⟩
    | .ev (.data bs k) =>
      obtain ⟨h1, h2⟩ := ih _ s' h
      exact ⟨h1, by rw [h2, hl]; show t.dataSize + bs.length + _ = t.dataSize + (bs.length + _); omega⟩
    | .call op =>
      match hc : call op x with
      | .error e => simp only [mstep, hc] at h; cases h
      | .ok x' =>
        simp only [mstep, hc] at h
        obtain ⟨h1, h2⟩ := ih (d, t, x') s' h
        exact ⟨h1, by rw [h2, hl]; show _ = t.dataSize + ((0 : Nat) + _); rw [Int.natCast_zero, Int.zero_add]⟩

/-- A program that synced and died later leaves the file that closing at the sync would have left, with what it wrote
afterwards written behind the data. -/
theorem mdied_after {σ : Type} (update : Trk → σ → Disk → Disk × σ) (call : Meta.Op → σ → Except Abort σ) (s : Disk × Trk × σ)
    (a b : List MEv) (hb : MEv.ev .sync ∉ b) (h0 : 0 ≤ s.2.1.first + s.2.1.dataSize) {file : List Byte}
    (h : mdied update call s (a ++ .ev .sync :: b) = .ok file) :
    ∃ closed x, msession update call s a = .ok (closed, x) ∧
      file = (((⟨closed, 0⟩ : Disk).seek (s.2.1.first + s.2.1.dataSize + (dataOfM a).length).toNat).write (dataOfM b)).bytes := by
  unfold mdied at h
  rw [mrun_append] at h
  unfold msession
  match h1 : mrun update call (s.1.seek s.2.1.first.toNat, s.2) a with
  | .error e => rw [h1] at h; cases h
  | .ok s1 =>
    rw [h1] at h
    refine ⟨_, _, rfl, ?_⟩
    obtain ⟨k1, k2⟩ := mrun_track update call a _ s1 h1
    change (mrun update call (step update s1 .sync) b >>= fun s => pure s.1.bytes) = .ok file at h
    match h2 : mrun update call (step update s1 .sync) b with
    | .error e => rw [h2] at h; cases h
    | .ok s2 =>
      rw [h2] at h
      cases h
      obtain ⟨d, t, x⟩ := s1
      dsimp only at k1 k2
      have h3 : (step update (d, t, x) .sync).2.1.first = t.first ∧ (step update (d, t, x) .sync).2.1.dataSize = t.dataSize := ⟨rfl, rfl⟩
      have h4 := mrun_data update call b hb (step update (d, t, x) .sync) s2 (by rw [h3.1, h3.2, k1, k2]; omega) h2
      rw [h4]
      have h5 : place (step update (d, t, x) .sync).2.1 = (s.2.1.first + s.2.1.dataSize + (dataOfM a).length).toNat := by
        unfold place
        rw [h3.1, h3.2, k1, k2, Int.add_assoc]
      rw [h5]
      generalize (step update (d, t, x) .sync).1 = d'
      rfl

theorem mdied_before {σ : Type} (update : Trk → σ → Disk → Disk × σ) (call : Meta.Op → σ → Except Abort σ) (s : Disk × Trk × σ)
    (b : List MEv) (hb : MEv.ev .sync ∉ b) (h0 : 0 ≤ s.2.1.first + s.2.1.dataSize) {file : List Byte}
    (h : mdied update call s b = .ok file) : file = ((s.1.seek (place s.2.1)).write (dataOfM b)).bytes := by
  unfold mdied at h
  match h2 : mrun update call (s.1.seek s.2.1.first.toNat, s.2) b with
  | .error e => rw [h2] at h; cases h
  | .ok s2 =>
    rw [h2] at h
    cases h
    exact mrun_data update call b hb (s.1.seek s.2.1.first.toNat, s.2) s2 h0 h2

/-! Sessions without metadata are sessions with it. -/

theorem mrun_ev {σ : Type} (update : Trk → σ → Disk → Disk × σ) (call : Meta.Op → σ → Except Abort σ) (a : List Ev) :
    ∀ s : Disk × Trk × σ, mrun update call s (a.map .ev) = .ok (a.foldl (step update) s) := by
  induction a with
  | nil => intro s; rfl
  | cons e a ih => intro s; exact ih _

theorem dataOfM_ev (a : List Ev) : dataOfM (a.map .ev) = dataOf a := by
  unfold dataOfM dataOf
  rw [List.flatMap_map]
  rfl

theorem died_after {σ : Type} (update : Trk → σ → Disk → Disk × σ) (s : Disk × Trk × σ)
    (a b : List Ev) (hb : Ev.sync ∉ b) (h0 : 0 ≤ s.2.1.first + s.2.1.dataSize) :
    died update s (a ++ .sync :: b) =
      (((⟨session update s a, 0⟩ : Disk).seek (s.2.1.first + s.2.1.dataSize + (dataOf a).length).toNat).write (dataOf b)).bytes := by
  have hm : mdied update (fun _ x => .ok x) s (a.map .ev ++ .ev .sync :: b.map .ev) = .ok (died update s (a ++ .sync :: b)) := by
    unfold mdied
    rw [show a.map MEv.ev ++ MEv.ev .sync :: b.map .ev = (a ++ .sync :: b).map .ev by simp, mrun_ev]
    rfl
  obtain ⟨c, x, h1, h2⟩ := mdied_after update _ s _ _ (by simpa using hb) h0 hm
  rw [h2, dataOfM_ev, dataOfM_ev]
  unfold msession at h1
  rw [mrun_ev] at h1
  cases h1
  rfl

end AF.Files
