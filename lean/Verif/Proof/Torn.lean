import Verif.Model.Torn
import Verif.Proof.Crash
import Verif.Proof.Files.Simple
import Verif.Proof.Files.WAVEWrite
/-!
# Lemmas about syncs that were cut short
-/
namespace AF.Files
open AF AF.Setup AF.Spec.Files AF.Meta

/-- The call writes what is there already. -/
def There (file : List Byte) (w : Put) : Prop := ∃ A C, A.length = w.1 ∧ file = A ++ w.2 ++ C

theorem put_patch {A B C B' : List Byte} {o : Nat} (ho : A.length = o) (hl : B'.length = B.length) :
    put (A ++ B ++ C) (o, B') = A ++ B' ++ C := by
  subst ho
  exact Disk.patch (d := ⟨A ++ B ++ C, 0⟩) rfl hl

theorem put_there {file : List Byte} {w : Put} (h : There file w) : put file w = file := by
  obtain ⟨A, C, h1, h2⟩ := h
  obtain ⟨o, bs⟩ := w
  rw [h2]
  exact put_patch h1 rfl

theorem put_put (file : List Byte) (o : Nat) (u v : List Byte) : put (put file (o, u)) (o + u.length, v) = put file (o, u ++ v) := by
  unfold put
  dsimp only
  rw [← Disk.write_write]
  have : ((⟨(((⟨file, 0⟩ : Disk).seek o).write u).bytes, 0⟩ : Disk).seek (o + u.length)) = ((⟨file, 0⟩ : Disk).seek o).write u := by
    have this : (((⟨file, 0⟩ : Disk).seek o).write u).pos = o + u.length := by rw [Disk.write_pos]; rfl
    generalize ((⟨file, 0⟩ : Disk).seek o).write u = d at *
    cases d
    dsimp only at this
    subst this
    rfl
  rw [this]

theorem put_of (d : Disk) (o : Nat) (u : List Byte) : ((d.seek o).write u).bytes = put d.bytes (o, u) := rfl

/-- However many of the calls are made, the file is one with `Q`; all of them together make `file'`. -/
def Among (ws : List Put) (file file' : List Byte) (Q : List Byte → Prop) : Prop :=
  (∀ k, Q (puts file (ws.take k))) ∧ puts file ws = file'

theorem Among.nil {file : List Byte} {Q : List Byte → Prop} (hQ : Q file) : Among [] file file Q :=
  ⟨fun k => by rw [List.take_nil]; exact hQ, rfl⟩

theorem Among.one {w : Put} {file file' : List Byte} {Q : List Byte → Prop} (h : put file w = file') (h0 : Q file) (h1 : Q file') :
    Among [w] file file' Q := by
  refine ⟨fun k => ?_, h⟩
  cases k with
  | zero => exact h0
  | succ k =>
    rw [List.take_of_length_le (by simp)]
    show Q (put file w)
    rw [h]; exact h1

theorem Among.append {ws ws' : List Put} {file file' file'' : List Byte} {Q : List Byte → Prop}
    (h : Among ws file file' Q) (h' : Among ws' file' file'' Q) : Among (ws ++ ws') file file'' Q := by
  refine ⟨fun k => ?_, by unfold puts; rw [List.foldl_append]; show puts (puts file ws) ws' = _; rw [h.2, h'.2]⟩
  rw [List.take_append]
  by_cases hk : k ≤ ws.length
  · rw [show k - ws.length = 0 by omega, List.take_zero, List.append_nil]
    exact h.1 k
  · rw [List.take_of_length_le (by omega)]
    unfold puts
    rw [List.foldl_append]
    show Q (puts (puts file ws) _)
    rw [h.2]
    exact h'.1 _

theorem Among.there {ws : List Put} {file : List Byte} {Q : List Byte → Prop} (h : ∀ w ∈ ws, There file w) (hQ : Q file) :
    Among ws file file Q := by
  induction ws with
  | nil => exact .nil hQ
  | cons w ws ih =>
    have h1 : Among [w] file file Q := .one (put_there (h w (by simp))) hQ hQ
    exact h1.append (ih fun w' hw' => h w' (by simp [hw']))

theorem Among.patch {A B C B' file file' : List Byte} {o : Nat} {Q : List Byte → Prop} (hf : file = A ++ B ++ C)
    (hf' : file' = A ++ B' ++ C) (ho : A.length = o) (hl : B'.length = B.length) (h0 : Q file) (h1 : Q file') :
    Among [(o, B')] file file' Q :=
  .one (by rw [hf, hf']; exact put_patch ho hl) h0 h1

theorem Among.all {ws : List Put} {file file' : List Byte} {Q : List Byte → Prop} (h : Among ws file file' Q) : Q file' := by
  have := h.1 ws.length
  rwa [List.take_length, h.2] at this

theorem There.left {u file : List Byte} {w : Put} (h : There file w) : There (u ++ file) (u.length + w.1, w.2) := by
  obtain ⟨A, C, h1, h2⟩ := h
  exact ⟨u ++ A, C, by rw [List.length_append, h1], by rw [h2]; simp only [List.append_assoc]⟩

theorem There.mk' {A B C file : List Byte} {o : Nat} (hf : file = A ++ B ++ C) (ho : A.length = o) : There file (o, B) := ⟨A, C, ho, hf⟩

theorem singly_there {A B C : List Byte} {file : List Byte} {o : Nat} (hf : file = A ++ B ++ C) (ho : A.length = o) :
    ∀ w ∈ singly o B, There file w := by
  induction B generalizing A o with
  | nil => intro w hw; cases hw
  | cons b B ih =>
    intro w hw
    rcases List.mem_cons.1 hw with rfl | hw
    · exact ⟨A, B ++ C, ho, by rw [hf]; simp⟩
    · exact ih (A := A ++ [b]) (by rw [hf]; simp) (by simp [ho]) w hw

/-! ## The lists do what `update` does -/

theorem next_all (h : Endian) (t : Trk) (d : Disk) : (nextUpdate h t () d).1.bytes = puts d.bytes (nextWrites h t) := by
  unfold nextUpdate nextWrites puts nextHeader
  dsimp only [List.foldl_cons, List.foldl_nil]
  rw [put_of]
  have e : ∀ x, (fieldBytes h .big .s4 x).length = 4 := fun x => fieldBytes_length _ _ _ _
  have e0 : (tag ".snd").length = 4 := rfl
  have s1 := put_put d.bytes 0 (tag ".snd") (fieldBytes h .big .s4 t.first)
  rw [e0, Nat.zero_add] at s1
  rw [s1]
  have s2 := put_put d.bytes 0 (tag ".snd" ++ fieldBytes h .big .s4 t.first) (fieldBytes h .big .s4 t.dataSize)
  rw [List.length_append, e0, e] at s2
  rw [show 0 + (4 + 4) = 8 from rfl] at s2
  rw [s2]
  have s3 := put_put d.bytes 0 (tag ".snd" ++ fieldBytes h .big .s4 t.first ++ fieldBytes h .big .s4 t.dataSize)
    (fieldBytes h .big .s4 (nextEncoding t.f))
  rw [List.length_append, List.length_append, e0, e, e, show 0 + (4 + 4 + 4) = 12 from rfl] at s3
  rw [s3]
  have s4 := put_put d.bytes 0 (tag ".snd" ++ fieldBytes h .big .s4 t.first ++ fieldBytes h .big .s4 t.dataSize ++
    fieldBytes h .big .s4 (nextEncoding t.f)) (fieldBytes h .big .s4 (toUnsigned t.f.rate))
  rw [List.length_append, List.length_append, List.length_append, e0, e, e, e, show 0 + (4 + 4 + 4 + 4) = 16 from rfl] at s4
  rw [s4]
  have s5 := put_put d.bytes 0 (tag ".snd" ++ fieldBytes h .big .s4 t.first ++ fieldBytes h .big .s4 t.dataSize ++
    fieldBytes h .big .s4 (nextEncoding t.f) ++ fieldBytes h .big .s4 (toUnsigned t.f.rate)) (fieldBytes h .big .s4 t.f.channels)
  rw [List.length_append, List.length_append, List.length_append, List.length_append, e0, e, e, e, e,
    show 0 + (4 + 4 + 4 + 4 + 4) = 20 from rfl] at s5
  rw [s5]

theorem avr_all (h : Endian) (t : Trk) (d : Disk) : (avrUpdate h t () d).1.bytes = puts d.bytes (avrWrites h t) := by
  unfold avrUpdate avrWrites puts
  dsimp only [List.foldl_cons, List.foldl_nil]
  rw [put_of]
  have e : ∀ x, (fieldBytes h .big .s4 x).length = 4 := fun x => fieldBytes_length _ _ _ _
  have s1 := put_put d.bytes 26 (fieldBytes h .big .s4 t.frames) (fieldBytes h .big .s4 0)
  rw [e, show 26 + 4 = 30 from rfl] at s1
  rw [s1]
  have s2 := put_put d.bytes 26 (fieldBytes h .big .s4 t.frames ++ fieldBytes h .big .s4 0) (fieldBytes h .big .s4 t.frames)
  rw [List.length_append, e, e, show 26 + (4 + 4) = 34 from rfl] at s2
  rw [s2]

theorem nistHeader_congr {t t' : Trk} (h1 : t.f = t'.f) (h2 : t.frames = t'.frames) : nistHeader t = nistHeader t' := by
  unfold nistHeader nistText
  rw [h1, h2]

theorem nist_all (t : Trk) (after : Int) (d : Disk) :
    (nistUpdate { t with afterData := after } () d).1.bytes = puts d.bytes (nistWrites t) := by
  have e : nistHeader { t with afterData := after } = nistHeader t := nistHeader_congr rfl rfl
  unfold nistUpdate nistWrites puts
  rw [e]
  rfl

/-! ## States of sessions -/

theorem mrun_induct_mem {σ : Type} (update : Trk → σ → Disk → Disk × σ) (call : Meta.Op → σ → Except Abort σ)
    (P : Disk → Trk → σ → List Byte → Nat → Prop) (all : List MEv)
    (hd : ∀ d t x D n bs (k : Nat), MEv.ev (.data bs k) ∈ all → P d t x D n →
      P ((d.seek (t.first + t.dataSize).toNat).write bs)
        { t with dataSize := t.dataSize + bs.length, frames := t.frames + k } x (D ++ bs) (n + k))
    (hs : ∀ d t x D n, P d t x D n →
      P (update { t with afterData := d.pos } x d).1 { t with afterData := d.pos }
        (update { t with afterData := d.pos } x d).2 D n)
    (hc : ∀ d t x D n op x', P d t x D n → call op x = .ok x' → P d t x' D n) (evs : List MEv) (hsub : ∀ e ∈ evs, e ∈ all) :
    ∀ (s' : Disk × Trk × σ) D n s'', P s'.1 s'.2.1 s'.2.2 D n → mrun update call s' evs = .ok s'' →
      P s''.1 s''.2.1 s''.2.2 (D ++ dataOfM evs) (n + framesOfM evs) := by
  induction evs with
  | nil =>
    intro s' D n s'' hP hr
    cases hr
    simpa [dataOfM, framesOfM] using hP
  | cons e evs' ih =>
    have ih := ih fun x hx => hsub x (List.mem_cons_of_mem _ hx)
    have he := hsub e (List.mem_cons_self ..)
    intro s' D n s'' hP hr
    obtain ⟨d, t, x⟩ := s'
    rw [mrun] at hr
    match e, he with
    | .ev (.data bs k), he =>
      have h2 := ih (step update (d, t, x) (.data bs k)) (D ++ bs) (n + k) s'' (hd d t x D n bs k he hP) hr
      simpa [dataOfM, framesOfM, MEv.bytes, MEv.frames, Ev.bytes, Ev.frames, Nat.add_assoc] using h2
    | .ev .sync, _ =>
      have h2 := ih (step update (d, t, x) .sync) D n s'' (hs d t x D n hP) hr
      simpa [dataOfM, framesOfM, MEv.bytes, MEv.frames, Ev.bytes, Ev.frames] using h2
    | .call op, _ =>
      match hcall : call op x with
      | .error e => simp only [mstep, hcall] at hr; cases hr
      | .ok x' =>
        simp only [mstep, hcall] at hr
        have h2 := ih (d, t, x') D n s'' (hc d t x D n op x' hP hcall) hr
        simpa [dataOfM, framesOfM, MEv.bytes, MEv.frames] using h2

theorem mrun_induct {σ : Type} (update : Trk → σ → Disk → Disk × σ) (call : Meta.Op → σ → Except Abort σ)
    (P : Disk → Trk → σ → List Byte → Nat → Prop)
    (hd : ∀ d t x D n bs (k : Nat), P d t x D n →
      P ((d.seek (t.first + t.dataSize).toNat).write bs)
        { t with dataSize := t.dataSize + bs.length, frames := t.frames + k } x (D ++ bs) (n + k))
    (hs : ∀ d t x D n, P d t x D n →
      P (update { t with afterData := d.pos } x d).1 { t with afterData := d.pos }
        (update { t with afterData := d.pos } x d).2 D n)
    (hc : ∀ d t x D n op x', P d t x D n → call op x = .ok x' → P d t x' D n) (evs : List MEv) :
    ∀ (s' : Disk × Trk × σ) D n s'', P s'.1 s'.2.1 s'.2.2 D n → mrun update call s' evs = .ok s'' →
      P s''.1 s''.2.1 s''.2.2 (D ++ dataOfM evs) (n + framesOfM evs) :=
  mrun_induct_mem update call P evs (fun d t x D n bs k _ => hd d t x D n bs k) hs hc evs (fun _ h => h)

theorem step_sync {σ : Type} (update : Trk → σ → Disk → Disk × σ) (d : Disk) (t : Trk) (x : σ) :
    step update (d, t, x) .sync = ((update { t with afterData := d.pos } x d).1, { t with afterData := d.pos },
      (update { t with afterData := d.pos } x d).2) := rfl

/-- What audio data alone does. -/
theorem foldl_only {σ : Type} (update : Trk → σ → Disk → Disk × σ) (b : List Ev) (hb : Ev.sync ∉ b) :
    ∀ (d : Disk) (t : Trk) (x : σ), 0 ≤ t.first + t.dataSize →
      ∃ d', b.foldl (step update) (d, t, x) =
          (d', { t with dataSize := t.dataSize + (dataOf b).length, frames := t.frames + framesOf b }, x) ∧
        d'.bytes = ((d.seek (place t)).write (dataOf b)).bytes := by
  induction b with
  | nil =>
    intro d t x _
    refine ⟨d, ?_, ?_⟩
    · simp [dataOf, framesOf]
    · show _ = ((d.seek _).write []).bytes
      rw [Disk.write_nil]
      rfl
  | cons e b ih =>
    intro d t x h0
    have ih := ih (fun hm => hb (List.mem_cons_of_mem _ hm))
    match e, hb with
    | .sync, hb => exact absurd (List.mem_cons_self ..) hb
    | .data bs k, _ =>
      rw [List.foldl_cons, step_data]
      obtain ⟨d', h1, h2⟩ := ih ((d.seek (place t)).write bs) { t with dataSize := t.dataSize + bs.length, frames := t.frames + k } x
        (place_add h0 bs.length k).2
      refine ⟨d', ?_, ?_⟩
      · rw [h1]
        simp [dataOf, framesOf, Ev.bytes, Ev.frames, Int.add_assoc]
      · rw [h2, (place_add h0 bs.length k).1, Disk.seek_self _ _ (by rw [Disk.write_pos]; rfl), Disk.write_write]
        rfl

/-- The track after the events. -/
def endTrack (t : Trk) (evs : List Ev) : Int → Trk :=
  fun after => { t with dataSize := t.dataSize + (dataOf evs).length, frames := t.frames + framesOf evs, afterData := after }

theorem foldl_track {σ : Type} (update : Trk → σ → Disk → Disk × σ) (evs : List Ev) :
    ∀ s : Disk × Trk × σ, ∃ after, (evs.foldl (step update) s).2.1 = endTrack s.2.1 evs after := by
  induction evs with
  | nil => intro s; exact ⟨s.2.1.afterData, by simp [endTrack, dataOf, framesOf]⟩
  | cons e evs ih =>
    rintro ⟨d, t, x⟩
    rw [List.foldl_cons]
    match e with
    | .data bs k =>
      obtain ⟨after, h⟩ := ih (step update (d, t, x) (.data bs k))
      refine ⟨after, ?_⟩
      rw [h, step_data]
      simp [endTrack, dataOf, framesOf, Ev.bytes, Ev.frames, Int.add_assoc]
    | .sync =>
      obtain ⟨after, h⟩ := ih (step update (d, t, x) .sync)
      refine ⟨after, ?_⟩
      rw [h, step_sync]
      simp [endTrack, dataOf, framesOf, Ev.bytes, Ev.frames]

/-- A program that died inside a sync wrote to the file that it would have left by dying before it. -/
theorem diedIn_eq {σ : Type} (update : Trk → σ → Disk → Disk × σ) (writes : Trk → σ → Nat → List Put) (s : Disk × Trk × σ)
    (evs : List Ev) (k : Nat) : ∃ after x, diedIn update writes s evs k =
      puts (died update s evs) ((writes (endTrack s.2.1 evs after) x (died update s evs).length).take k) := by
  obtain ⟨after, h⟩ := foldl_track update evs (s.1.seek s.2.1.first.toNat, s.2)
  exact ⟨after, (evs.foldl (step update) (s.1.seek s.2.1.first.toNat, s.2)).2.2, by unfold diedIn died; dsimp only; rw [h]⟩

/-- If the list of calls does what `update` does, all of them leave the file that the sync leaves. -/
theorem diedIn_all {σ : Type} (update : Trk → σ → Disk → Disk × σ) (writes : Trk → σ → Nat → List Put)
    (hall : ∀ t x d after, (update { t with afterData := after } x d).1.bytes = puts d.bytes (writes t x d.bytes.length)) (s : Disk × Trk × σ)
    (evs : List Ev) (k : Nat) (hk : ∀ t x n, (writes t x n).length ≤ k) :
    diedIn update writes s evs k = died update s (evs ++ [.sync]) := by
  unfold diedIn died
  dsimp only
  rw [List.foldl_append, List.take_of_length_le (hk _ _ _)]
  generalize evs.foldl (step update) (s.1.seek s.2.1.first.toNat, s.2) = q
  obtain ⟨d, t, x⟩ := q
  rw [List.foldl_cons, List.foldl_nil, step_sync]
  exact (hall t x d d.pos).symm

theorem Holds.prefix {first : Nat} {A B : List Byte} {d : Disk} (h : Holds first (A ++ B) d) : Holds first A d := by
  unfold Holds at h ⊢
  have h1 := congrArg (List.take A.length) h
  rw [List.take_take, Nat.min_eq_left (by simp), List.take_left'] at h1
  · exact h1
  · rfl

/-- The file of a program that died after a sync: data behind a header. -/
theorem died_holds {σ : Type} (update : Trk → σ → Disk → Disk × σ) (s : Disk × Trk × σ) (a b : List Ev) (hb : Ev.sync ∉ b)
    {n : Nat} (h0 : s.2.1.first + s.2.1.dataSize = (n : Nat)) {H R : List Byte} (hs : session update s a = H ++ R) (hH : H.length ≤ n)
    (hh : Holds n (dataOf a) ⟨H ++ R, 0⟩) :
    ∃ R', died update s (a ++ .sync :: b) = H ++ R' ∧ Holds n (dataOf a ++ dataOf b) ⟨H ++ R', 0⟩ := by
  rw [died_after _ _ a b hb (by rw [h0]; omega), hs, h0, show ((n : Int) + ((dataOf a).length : Int)).toNat = n + (dataOf a).length by omega]
  have hk := hh.append (dataOf b)
  obtain ⟨R', hR'⟩ := Disk.write_after (d := (⟨H ++ R, 0⟩ : Disk).seek (n + (dataOf a).length)) (bs := dataOf b)
    (H := H) (R := R) rfl (by rw [Disk.seek_pos]; omega)
  refine ⟨R', hR', ?_⟩
  unfold Holds at hk ⊢
  rw [hR'] at hk
  exact hk

/-! ## WAVE -/

theorem waveMiscWrites_there {h : Endian} (ms : List Misc) (hm : ∀ m ∈ ms, Sized m) : ∀ (A C : List Byte) (o : Nat) (file : List Byte),
    file = A ++ ms.flatMap (infoEntry h) ++ C → A.length = o → ∀ w ∈ waveMiscWrites h o ms, There file w := by
  induction ms with
  | nil => intro A C o file _ _ w hw; cases hw
  | cons m ms ih =>
    intro A C o file hf ho w hw
    rw [List.flatMap_cons] at hf
    have hs := hm m (by simp)
    have hlen := infoEntry_length h hs
    rcases List.mem_append.1 hw with hw | hw
    · clear ih
      revert hw
      generalize ms.flatMap (infoEntry h) = Z at hf
      unfold infoEntry at hf
      match ht : waveMiscTag m.type with
      | none => intro hw; cases hw
      | some id =>
        intro hw
        rw [ht] at hf
        dsimp only at hf hw
        have l1 := miscTag_length ht
        have l2 : (fieldBytes h .little .s4 m.size).length = 4 := fieldBytes_length _ _ _ _
        rcases List.mem_append.1 hw with hw | hw
        · rcases List.mem_cons.1 hw with rfl | hw
          · exact .mk' (A := A) (C := fieldBytes h .little .s4 m.size ++ miscFill m ++ padOf m.size ++ Z ++ C)
              (by rw [hf]; simp only [List.append_assoc]) ho
          · rw [List.mem_singleton] at hw
            subst hw
            exact .mk' (A := A ++ id) (C := miscFill m ++ padOf m.size ++ Z ++ C)
              (by rw [hf]; simp only [List.append_assoc]) (by rw [List.length_append, ho, l1])
        · revert hw
          unfold miscFill at hf
          match hb : m.buffer with
          | none => intro hw; cases hw
          | some b =>
            intro hw
            dsimp only at hw
            rw [hb, Option.getD_some] at hf
            rcases List.mem_cons.1 hw with rfl | hw
            · exact .mk' (A := A ++ id ++ fieldBytes h .little .s4 m.size) (C := padOf m.size ++ Z ++ C)
                (by rw [hf]; simp only [List.append_assoc]) (by rw [List.length_append, List.length_append, ho, l1, l2])
            · revert hw
              unfold padOf at hf
              split
              · rename_i hodd
                intro hw
                rw [List.mem_singleton] at hw
                subst hw
                rw [if_pos hodd] at hf
                have hz : fieldBytes h .little .s1 0 = [0] := by cases h <;> decide
                exact .mk' (A := A ++ id ++ fieldBytes h .little .s4 m.size ++ b) (C := Z ++ C)
                  (by rw [hf, hz]; simp only [List.append_assoc])
                  (by rw [List.length_append, List.length_append, List.length_append, ho, l1, l2])
              · intro hw; cases hw
    · exact ih (fun m' hm' => hm m' (by simp [hm'])) (A ++ infoEntry h m) C _ file (by rw [hf]; simp only [List.append_assoc])
        (by rw [List.length_append, ho]; omega) w hw

theorem hasFact_iff (f : AFmt) :
    (f.compression = NONE ∧ (f.sampleFormat = TWOSCOMP ∨ f.sampleFormat = UNSIGNED)) ↔ hasFact f = false := by
  unfold hasFact
  by_cases h1 : f.compression = NONE <;> by_cases h2 : f.sampleFormat = TWOSCOMP <;> by_cases h3 : f.sampleFormat = UNSIGNED <;>
    simp [h1, h2, h3]

/-- The calls change the frame count, the length of the data, the length of the file, in this order, and nothing else. -/
theorem waveWrites_among {h : Endian} {f : AFmt} {handle0 : Handle} {names : List (List Byte × List Byte)} {t : Trk} {x : WaveObj}
    {L0 D : List Byte} {n0 s0 : Int} {length : Nat} {Q : List Byte → Prop}
    (hm : ∀ m ∈ handle0.misc, Sized m) (ho : Over handle0 x.handle) (hx : waveOffsets h f handle0 names x) (hL : L0.length = 4)
    (hf : t.f = f)
    (q0 : Q (waveHead h f L0 x.handle.misc (wmarks x.handle names) n0 s0 ++ D))
    (q1 : Q (waveHead h f L0 x.handle.misc (wmarks x.handle names) t.frames s0 ++ D))
    (q2 : Q (waveHead h f L0 x.handle.misc (wmarks x.handle names) t.frames t.dataSize ++ D))
    (q3 : Q (waveHead h f (fieldBytes h .little .s4 ((length : Int) - 8)) x.handle.misc (wmarks x.handle names)
      t.frames t.dataSize ++ D)) :
    Among (waveWrites h t x length) (waveHead h f L0 x.handle.misc (wmarks x.handle names) n0 s0 ++ D)
      (waveHead h f (fieldBytes h .little .s4 ((length : Int) - 8)) x.handle.misc (wmarks x.handle names)
        t.frames t.dataSize ++ D) Q := by
  obtain ⟨hn, o1, o2, o3, o4⟩ := hx
  have l1 := over_length (h := h) ho.misc hm
  have l2 := cuePart_length h (wmarks_texts ho.marks names)
  have l3 := ho.misc.length
  have l4 : (wmarks x.handle names).length = (wmarks handle0 names).length := by
    simpa using congrArg List.length (wmarks_texts ho.marks names)
  have hs := over_sized ho.misc hm
  have hz : ∀ n, (factPart h f n).length = (factPart h f 0).length := fun n => factPart_length h f n 0
  rw [← l1, ← l2] at o3 o4
  rw [← l1, ← l4] at o2
  rw [l3] at o1
  unfold waveWrites
  rw [hn]
  generalize x.handle.misc = misc at *
  have e8 : ∀ y, (fieldBytes h .little .s4 y).length = 4 := fun y => fieldBytes_length _ _ _ _
  generalize wmarks x.handle names = marks at *
  refine Among.append (file' := waveHead h f (fieldBytes h .little .s4 ((length : Int) - 8)) misc marks t.frames t.dataSize ++ D)
    (Among.append (file' := waveHead h f (fieldBytes h .little .s4 ((length : Int) - 8)) misc marks t.frames t.dataSize ++ D)
      (Among.append (file' := waveHead h f L0 misc marks t.frames s0 ++ D) ?_ ?_) ?_) ?_
  · rw [hf]
    by_cases hF : hasFact f = false
    · rw [if_pos ((hasFact_iff f).2 hF)]
      have e : ∀ n, factPart h f n = [] := fun n => by unfold factPart; rw [hF]; rfl
      have : waveHead h f L0 misc marks n0 s0 = waveHead h f L0 misc marks t.frames s0 := by
        unfold waveHead; rw [e, e]
      rw [this] at q0 ⊢
      exact .nil q0
    · rw [if_neg (fun c => hF ((hasFact_iff f).1 c))]
      have hF' : hasFact f = true := by simpa using hF
      have e : ∀ n, factPart h f n = tag "fact" ++ fieldBytes h .little .s4 4 ++ fieldBytes h .little .s4 n := fun n => by
        unfold factPart; rw [hF']; rfl
      rw [if_pos hF'] at o3
      have lA : (tag "RIFF" ++ L0 ++ tag "WAVE" ++ infoPart h misc ++ cuePart h marks ++ waveFmt h (waveTrack f)).length =
          x.factOffset := by
        rw [o3, List.length_append, List.length_append, List.length_append, preLength h hL]
      refine Among.append (ws := [_, _]) (file' := waveHead h f L0 misc marks n0 s0 ++ D) (.there ?_ q0) ?_
      · intro w hw
        rcases List.mem_cons.1 hw with rfl | hw
        · exact .mk' (C := fieldBytes h .little .s4 4 ++ fieldBytes h .little .s4 n0 ++ tag "data" ++ fieldBytes h .little .s4 s0 ++ D)
            (by unfold waveHead; rw [e]; simp only [List.append_assoc]) lA
        · rw [List.mem_singleton] at hw
          subst hw
          exact .mk' (A := tag "RIFF" ++ L0 ++ tag "WAVE" ++ infoPart h misc ++ cuePart h marks ++ waveFmt h (waveTrack f) ++ tag "fact")
            (C := fieldBytes h .little .s4 n0 ++ tag "data" ++ fieldBytes h .little .s4 s0 ++ D)
            (by unfold waveHead; rw [e]; simp only [List.append_assoc]) (by rw [List.length_append, lA]; rfl)
      · exact .patch (A := tag "RIFF" ++ L0 ++ tag "WAVE" ++ infoPart h misc ++ cuePart h marks ++ waveFmt h (waveTrack f) ++
            tag "fact" ++ fieldBytes h .little .s4 4) (B := fieldBytes h .little .s4 n0)
          (C := tag "data" ++ fieldBytes h .little .s4 s0 ++ D) (by unfold waveHead; rw [e]; simp only [List.append_assoc])
          (by unfold waveHead; rw [e]; simp only [List.append_assoc])
          (by rw [List.length_append, List.length_append, lA, e8]; rfl) (by rw [e8, e8]) q0 q1
  · refine Among.append (ws := [_]) (ws' := [_]) (file' := waveHead h f L0 misc marks t.frames t.dataSize ++ D) ?_ ?_
    · exact .patch (A := tag "RIFF" ++ L0 ++ tag "WAVE" ++ infoPart h misc ++ cuePart h marks ++ waveFmt h (waveTrack f) ++
          factPart h f t.frames ++ tag "data") (B := fieldBytes h .little .s4 s0) (C := D) rfl rfl
        (by rw [List.length_append, List.length_append, List.length_append, List.length_append, List.length_append,
              preLength h hL, hz, o4]; rfl) (by rw [e8, e8]) q1 q2
    · exact .patch (A := tag "RIFF") (B := L0) (C := tag "WAVE" ++ infoPart h misc ++ cuePart h marks ++ waveFmt h (waveTrack f) ++
          factPart h f t.frames ++ tag "data" ++ fieldBytes h .little .s4 t.dataSize ++ D)
        (by unfold waveHead; simp only [List.append_assoc]) (by unfold waveHead; simp only [List.append_assoc]) rfl
        (by rw [e8, hL]) q2 q3
  · refine .there ?_ q3
    have hL' := e8 ((length : Int) - 8)
    generalize fieldBytes h .little .s4 ((length : Int) - 8) = L at *
    intro w hw
    revert hw
    split
    · intro hw; cases hw
    rename_i hz0
    rw [if_neg hz0] at o1
    rw [o1]
    have eI : infoPart h misc = tag "LIST" ++ fieldBytes h .little .s4 (12 + (misc.map waveMiscSize).sum - 8) ++ tag "INFO" ++
      misc.flatMap (infoEntry h) := by unfold infoPart; rw [if_neg hz0]
    have hl3 : (tag "RIFF" ++ L ++ tag "WAVE").length = 12 := preLength h hL'
    intro hw
    rcases List.mem_append.1 hw with hw | hw
    · rcases List.mem_cons.1 hw with rfl | hw
      · exact .mk' (A := tag "RIFF" ++ L ++ tag "WAVE")
          (C := fieldBytes h .little .s4 (12 + (misc.map waveMiscSize).sum - 8) ++ tag "INFO" ++
            misc.flatMap (infoEntry h) ++ cuePart h marks ++ waveFmt h (waveTrack f) ++
            factPart h f t.frames ++ tag "data" ++ fieldBytes h .little .s4 t.dataSize ++ D)
          (by unfold waveHead; rw [eI]; simp only [List.append_assoc]) hl3
      rcases List.mem_cons.1 hw with rfl | hw
      · exact .mk' (A := tag "RIFF" ++ L ++ tag "WAVE" ++ tag "LIST")
          (C := tag "INFO" ++
            misc.flatMap (infoEntry h) ++ cuePart h marks ++ waveFmt h (waveTrack f) ++
            factPart h f t.frames ++ tag "data" ++ fieldBytes h .little .s4 t.dataSize ++ D)
          (by unfold waveHead; rw [eI]; simp only [List.append_assoc]) (by rw [List.length_append, hl3]; rfl)
      rw [List.mem_singleton] at hw
      subst hw
      exact .mk' (A := tag "RIFF" ++ L ++ tag "WAVE" ++ tag "LIST" ++ fieldBytes h .little .s4 (12 + (misc.map waveMiscSize).sum - 8))
          (C := misc.flatMap (infoEntry h) ++ cuePart h marks ++ waveFmt h (waveTrack f) ++
            factPart h f t.frames ++ tag "data" ++ fieldBytes h .little .s4 t.dataSize ++ D)
          (by unfold waveHead; rw [eI]; simp only [List.append_assoc])
          (by rw [List.length_append, List.length_append, hl3, e8]; rfl)
    · refine waveMiscWrites_there misc hs (tag "RIFF" ++ L ++ tag "WAVE" ++ tag "LIST" ++
          fieldBytes h .little .s4 (12 + (misc.map waveMiscSize).sum - 8) ++ tag "INFO")
          (cuePart h marks ++ waveFmt h (waveTrack f) ++
            factPart h f t.frames ++ tag "data" ++ fieldBytes h .little .s4 t.dataSize ++ D) _ _
          (by unfold waveHead; rw [eI]; simp only [List.append_assoc])
          (by rw [List.length_append, List.length_append, List.length_append, hl3, e8]; rfl) w hw
  · refine .there ?_ q3
    have hl3 : (tag "RIFF" ++ fieldBytes h .little .s4 ((length : Int) - 8) ++ tag "WAVE").length = 12 := preLength h (e8 _)
    intro w hw
    revert hw
    split
    · intro hw; cases hw
    rename_i hz0
    rw [if_neg hz0] at o2
    have eC : cuePart h marks = waveCueBytes h marks := by unfold cuePart; rw [if_neg hz0]
    exact singly_there (A := tag "RIFF" ++ fieldBytes h .little .s4 ((length : Int) - 8) ++ tag "WAVE" ++ infoPart h misc)
      (C := waveFmt h (waveTrack f) ++
            factPart h f t.frames ++ tag "data" ++ fieldBytes h .little .s4 t.dataSize ++ D)
      (by unfold waveHead; rw [eC]; simp only [List.append_assoc])
      (by rw [List.length_append, hl3, o2]) w

/-- The state of a WAVE session that synced and went on with audio data. -/
theorem wave_state (h : Endian) (handle0 : Handle) (names : List (List Byte × List Byte)) (f : AFmt)
    (hm : ∀ m ∈ handle0.misc, Sized m) (a : List MEv) (b : List Ev) (hb : Ev.sync ∉ b) {s : Disk × Trk × WaveObj}
    (hr : mrun (waveUpdate h) waveCall ((waveInit h handle0 names f).1.seek (waveInit h handle0 names f).2.1.first.toNat,
      (waveInit h handle0 names f).2) (a ++ .ev .sync :: b.map .ev) = .ok s) :
    s.2.1.f = f ∧ s.2.1.first ≠ 0 ∧ s.2.1.dataSize = (dataOfM a).length + (dataOf b).length ∧ s.2.1.frames = framesOfM a + framesOf b ∧
      Over handle0 s.2.2.handle ∧ waveOffsets h f handle0 names s.2.2 ∧
      ∃ l : Nat, l + (dataOf b).length = s.1.bytes.length ∧
        s.1.bytes = waveHead h f (fieldBytes h .little .s4 ((l : Int) - 8)) s.2.2.handle.misc (wmarks s.2.2.handle names) (framesOfM a)
          (dataOfM a).length ++ (dataOfM a ++ dataOf b) := by
  obtain ⟨i1, i2, i3, i4⟩ := waveInit_eq h handle0 names f hm
  have hpos : ((waveHead h f [0, 0, 0, 0] handle0.misc (wmarks handle0 names) 0 0).length : Int) ≠ 0 := by
    unfold waveHead
    simp only [List.length_append, fieldBytes_length, FieldSize.bytes]
    omega
  generalize hN : (waveHead h f [0, 0, 0, 0] handle0.misc (wmarks handle0 names) 0 0).length = N at *
  have hds0 : (waveTrack f).dataSize = 0 ∧ (waveTrack f).frames = 0 := by
    unfold waveTrack
    split
    · exact ⟨rfl, rfl⟩
    · split <;> exact ⟨rfl, rfl⟩
  rw [mrun_append] at hr
  match h1 : mrun (waveUpdate h) waveCall ((waveInit h handle0 names f).1.seek (waveInit h handle0 names f).2.1.first.toNat,
      (waveInit h handle0 names f).2) a with
  | .error e => rw [h1] at hr; cases hr
  | .ok s1 =>
    rw [h1] at hr
    have hI := mrun_induct (waveUpdate h) waveCall
      (fun d t x D k => t.f = f ∧ t.first = N ∧ t.dataSize = D.length ∧ t.frames = k ∧ Over handle0 x.handle ∧
        waveOffsets h f handle0 names x ∧
        ∃ old L n s, Over handle0 old ∧ Over old x.handle ∧ L.length = 4 ∧
          d.bytes = waveHead h f L old.misc (wmarks old names) n s ++ D)
      (by
        rintro d t x D k bs j ⟨hf, hfirst, hds, hfr, hO, hoff, old, L, n, s, h1, h2, hL, hd⟩
        refine ⟨hf, hfirst, by dsimp only; rw [hds]; simp, by dsimp only; rw [hfr]; simp, hO, hoff, old, L, n, s, h1, h2, hL, ?_⟩
        have hl := waveHead_length (h := h) (f := f) (L' := L) (L := [0, 0, 0, 0]) (names := names) (n := 0) (s := 0)
          (n' := n) (s' := s) hm h1 (by rw [hL]; rfl)
        have e : (t.first + t.dataSize).toNat = d.bytes.length := by
          rw [hfirst, hds, hd, List.length_append, hl, hN]; omega
        rw [e, Disk.write_end rfl]
        dsimp only [Disk.seek_bytes]
        rw [hd, List.append_assoc])
      (by
        rintro d t x D k ⟨hf, hfirst, hds, hfr, hO, hoff, old, L, n, s, h1, h2, hL, hd⟩
        obtain ⟨a, b⟩ := waveUpdate_eq (t := { t with afterData := d.pos }) hm h1 h2 hoff hL hd hf (by rw [hfirst]; exact hpos)
        rw [b]
        exact ⟨hf, hfirst, hds, hfr, hO, hoff, x.handle, _, _, _, hO, Over.refl _, fieldBytes_length _ _ _ _, a⟩)
      (by
        rintro d t x D k op x' ⟨hf, hfirst, hds, hfr, hO, hoff, old, L, n, s, h1, h2, hL, hd⟩ hc
        unfold waveCall at hc
        match hs : Meta.step x.handle op with
        | .error e => rw [hs] at hc; cases hc
        | .ok (r, h') =>
          rw [hs] at hc
          have := step_over hs
          cases hc
          exact ⟨hf, hfirst, hds, hfr, hO.trans this, hoff, old, L, n, s, h1, h2.trans this, hL, hd⟩)
      a _ [] 0 s1
      (by
        dsimp only
        rw [i2]
        exact ⟨waveTrack_f f, rfl, hds0.1, hds0.2, by rw [i3]; exact Over.refl _, i4, handle0, [0, 0, 0, 0], 0, 0, Over.refl _,
          by rw [i3]; exact Over.refl _, rfl, by rw [Disk.seek_bytes, i1, List.append_nil]⟩) h1
    obtain ⟨d, t, x⟩ := s1
    rw [List.nil_append, Nat.zero_add] at hI
    obtain ⟨hf, hfirst, hds, hfr, hO, hoff, old, L, n, s0, g1, g2, hL, hd⟩ := hI
    dsimp only at hf hfirst hds hfr hO hoff g2 hd
    change mrun (waveUpdate h) waveCall (step (waveUpdate h) (d, t, x) .sync) (b.map .ev) = .ok s at hr
    obtain ⟨u1, u2⟩ := waveUpdate_eq (t := { t with afterData := d.pos }) hm g1 g2 hoff hL hd hf (by rw [hfirst]; exact hpos)
    have hst : step (waveUpdate h) (d, t, x) .sync = ((waveUpdate h { t with afterData := d.pos } x d).1, { t with afterData := d.pos }, x) := by
      rw [step_sync, u2]
    rw [hst] at hr
    generalize (waveUpdate h { t with afterData := d.pos } x d).1 = d1 at *
    have hl := waveHead_length (h := h) (f := f) (L := [0, 0, 0, 0]) (L' := fieldBytes h .little .s4 ((d.bytes.length : Int) - 8))
      (names := names) (n := 0) (s := 0) (n' := t.frames) (s' := t.dataSize) hm hO (fieldBytes_length _ _ _ _)
    have hl0 := waveHead_length (h := h) (f := f) (L := [0, 0, 0, 0]) (L' := L)
      (names := names) (n := 0) (s := 0) (n' := n) (s' := s0) hm g1 hL
    rw [hN] at hl hl0
    have hlen := congrArg List.length hd
    have hlen1 := congrArg List.length u1
    rw [List.length_append] at hlen hlen1
    dsimp only at hlen1
    obtain ⟨d2, v1, v2⟩ := foldl_only (waveUpdate h) b hb d1 { t with afterData := d.pos } x (by dsimp only; rw [hfirst, hds]; omega)
    rw [mrun_ev, v1] at hr
    cases hr
    have hpl : place { t with afterData := d.pos } = d1.bytes.length := by
      unfold place; dsimp only; rw [hfirst, hds]; omega
    have hd2 : d2.bytes = d1.bytes ++ dataOf b := by
      rw [v2, hpl, Disk.write_end rfl]
      rfl
    refine ⟨hf, ?_, ?_, ?_, hO, hoff, d.bytes.length, ?_, ?_⟩
    · dsimp only; rw [hfirst]; exact hpos
    · dsimp only; rw [hds]
    · dsimp only; rw [hfr]
    · dsimp only; rw [hd2, List.length_append]; omega
    · dsimp only
      rw [hd2, u1, ← hds, ← hfr, List.append_assoc]

end AF.Files
