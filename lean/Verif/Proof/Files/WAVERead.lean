import Verif.Proof.Files.WAVEWrite
/-!
# WAVE files: reading back what was written
-/
namespace AF.Files
open AF AF.Setup AF.Spec.Files AF.Meta

theorem p4 : (256 : Int) ^ FieldSize.s4.bytes = 2 ^ 32 := rfl
theorem p2 : (256 : Int) ^ FieldSize.s2.bytes = 65536 := rfl
theorem p1 : (256 : Int) ^ FieldSize.s1.bytes = 256 := rfl
theorem b4 : FieldSize.s4.bytes = 4 := rfl
theorem b2 : FieldSize.s2.bytes = 2 := rfl

/-! ## INFO -/

/-- What is read back for the `i`-th item. -/
def infoRead (i : Nat) (m : Misc) : Misc := ⟨i + 1, m.type, m.size, if m.size = 0 then none else some (miscFill m), 0⟩

theorem infoType_tag {type : Int} {id : List Byte} (h : waveMiscTag type = some id) : waveInfoType id = some type := by
  unfold waveMiscTag at h
  repeat' split at h
  all_goals first | (cases h; subst type; decide) | cases h

structure InfoOK (m : Misc) : Prop extends Sized m where
  small : m.size < 2 ^ 31
  known : (waveMiscTag m.type).isSome = true

theorem padOf_nat (n : Nat) : (padOf (n : Int)).length = n % 2 := by
  unfold padOf
  have : ((n : Int).tmod 2) = ((n % 2 : Nat) : Int) := rfl
  rw [this]
  split
  · simp; omega
  · simp; omega

theorem info_step (h h' : Endian) {m : Misc} (hm : InfoOK m) (acc : List Misc) {file : List Byte} {p E : Nat}
    {rest : List Byte} (hf : file.drop p = infoEntry h m ++ rest) (hE : p < E) :
    waveINFO h' E acc file p = .ok (.inl (acc ++ [infoRead acc.length m]), p + (infoEntry h m).length) := by
  obtain ⟨id, ht⟩ := Option.isSome_iff_exists.1 hm.known
  have hl := infoEntry_length h hm.toSized
  have h0 := hm.size
  have h1 := hm.small
  have hfill := hm.fill
  unfold waveMiscSize at hl
  rw [ht] at hl
  unfold infoEntry at hf
  rw [ht] at hf
  dsimp only at hl hf
  obtain ⟨k, hk⟩ : ∃ k : Nat, m.size = k := ⟨m.size.toNat, by omega⟩
  simp only [List.append_assoc] at hf
  unfold waveINFO
  rw [Rd.bind_ok (a := p) (p' := p) rfl, if_pos hE, Rd.bind_ok (Rd.tag_ok hf (miscTag_length ht))]
  have e1 := drop_step hf (miscTag_length ht)
  rw [Rd.bind_ok (Rd.field_ok e1).2]
  have e2 := drop_step e1 (fieldBytes_length _ _ _ _)
  rw [infoType_tag ht, p4]
  have q : (m.size % 2 ^ 32).toNat = k := by omega
  rw [q]
  dsimp only
  rw [Rd.bind_ok (Rd.read_ok e2 (by omega : (miscFill m).length = k))]
  rw [Rd.bind_ok (a := ()) (p' := p + 4 + FieldSize.s4.bytes + k + k % 2) rfl]
  have hkk : (if m.size.tmod 2 ≠ 0 then (1 : Int) else 0) = (k % 2 : Nat) := by
    rw [hk, ← padOf_nat, padOf_length]
  rw [hkk] at hl
  have e3 : p + 4 + FieldSize.s4.bytes + k + k % 2 = p + (infoEntry h m).length := by rw [b4]; omega
  rw [e3]
  have e4 : wrapS 32 (k : Int) = k := wrapS_id (by omega) (by omega)
  have e5 : infoRead acc.length m = ⟨acc.length + 1, m.type, wrapS 32 (k : Int), if k = 0 then none else some (miscFill m), 0⟩ := by
    unfold infoRead
    rw [e4, hk]
    by_cases hz : k = 0
    · rw [if_pos hz, if_pos (Int.natCast_eq_zero.2 hz)]
    · rw [if_neg hz, if_neg (fun e => hz (Int.natCast_eq_zero.1 e))]
  rw [e5]
  rfl

theorem info_loop (h h' : Endian) (ms : List Misc) (hm : ∀ m ∈ ms, InfoOK m) :
    ∀ (acc : List Misc) (file : List Byte) (p : Nat) (rest : List Byte) (fuel : Nat),
      file.drop p = ms.flatMap (infoEntry h) ++ rest → ms.length < fuel →
      Rd.loop (waveINFO h' (p + (ms.flatMap (infoEntry h)).length)) fuel acc file p =
        .ok (acc ++ ms.mapIdx (fun i m => infoRead (acc.length + i) m), p + (ms.flatMap (infoEntry h)).length) := by
  induction ms with
  | nil =>
    intro acc file p rest fuel hf hfuel
    obtain ⟨n, rfl⟩ : ∃ n, fuel = n + 1 := ⟨fuel - 1, by simp at hfuel; omega⟩
    refine Rd.loop_done ?_
    unfold waveINFO
    rw [Rd.bind_ok (a := p) (p' := p) rfl, if_neg (by simp)]
    simp
    rfl
  | cons m ms ih =>
    intro acc file p rest fuel hf hfuel
    obtain ⟨n, rfl⟩ : ∃ n, fuel = n + 1 := ⟨fuel - 1, by simp at hfuel; omega⟩
    have hmm := hm m (by simp)
    have hl := infoEntry_length h hmm.toSized
    have hpos : 0 < (infoEntry h m).length := by
      unfold waveMiscSize at hl
      obtain ⟨id, ht⟩ := Option.isSome_iff_exists.1 hmm.known
      rw [ht] at hl
      have := hmm.size
      dsimp only at hl
      split at hl <;> omega
    rw [List.flatMap_cons, List.append_assoc] at hf
    rw [List.flatMap_cons, List.length_append, ← Nat.add_assoc]
    rw [Rd.loop_step (info_step h h' hmm acc hf (by omega))]
    rw [ih (fun x hx => hm x (by simp [hx])) _ file _ rest n (drop_step hf rfl) (by simp at hfuel; omega)]
    have e : (acc ++ [infoRead acc.length m]) ++ ms.mapIdx (fun i m' => infoRead ((acc ++ [infoRead acc.length m]).length + i) m') =
        acc ++ (m :: ms).mapIdx (fun i m => infoRead (acc.length + i) m) := by
      rw [List.mapIdx_cons, List.append_assoc, List.singleton_append, List.length_append, List.length_singleton]
      have : (fun (i : Nat) (m' : Misc) => infoRead (acc.length + 1 + i) m') = fun i m => infoRead (acc.length + (i + 1)) m := by
        funext i x; congr 1; omega
      rw [this]; rfl
    rw [e]

/-! ## Markers -/

theorem fb (h o : Endian) (k : FieldSize) (x : Int) {rest : List Byte} {p : Nat} {file : List Byte}
    (hf : file.drop p = fieldBytes h o k x ++ rest) : file.drop (p + k.bytes) = rest := drop_step hf (fieldBytes_length _ _ _ _)

structure CueOK (m : WMark) : Prop where
  id : -2 ^ 15 ≤ m.id ∧ m.id < 2 ^ 15
  pos : 0 ≤ m.position ∧ m.position < 2 ^ 32

theorem wrapS_mod {n : Nat} {x : Int} (hn : n = 16 ∨ n = 32) (h1 : -2 ^ 15 ≤ x) (h2 : x < 2 ^ 15) :
    wrapS n ((x % 2 ^ 32).toNat : Int) = x := by
  have e : ((x % 2 ^ 32).toNat : Int) = x % 2 ^ 32 := by omega
  rw [e]
  unfold wrapS Int.bmod
  rcases hn with rfl | rfl
  · have : ((2 ^ 16 : Nat) : Int) = 65536 := rfl
    rw [this]
    have : x % 2 ^ 32 % 65536 = x % 65536 := by omega
    rw [this]
    dsimp only
    split <;> omega
  · have : ((2 ^ 32 : Nat) : Int) = 4294967296 := rfl
    rw [this]
    dsimp only
    split <;> omega

def cueRead (m : WMark) : RMark := ⟨m.id, m.position, [0], [0]⟩
def labelRead (m : WMark) : RMark := ⟨m.id, m.position, zString m.name, zString m.comment⟩

theorem cue_reads (h h' : Endian) (i : Nat) {m : WMark} (hm : CueOK m) : Reads (waveReadCue h') (waveCue h i m) (cueRead m) := by
  intro file p rest hf
  unfold waveCue at hf
  simp only [List.append_assoc] at hf
  unfold waveReadCue
  rw [Rd.bind_ok (Rd.field_ok hf).2]
  have e1 := drop_step hf (fieldBytes_length _ _ _ _)
  rw [Rd.bind_ok (Rd.field_ok e1).1]
  have e2 := drop_step e1 (fieldBytes_length _ _ _ _)
  have e2' : file.drop (p + FieldSize.s4.bytes + FieldSize.s4.bytes) = fieldBytes h .little .s4 0x61746164 ++
      (fieldBytes h .little .s4 0 ++ (fieldBytes h .little .s4 0 ++ (fieldBytes h .little .s4 m.position ++ rest))) := by
    rw [e2]
    congr 1
    rw [fieldBytes, writeField_eq]
    decide
  rw [Rd.bind_ok (Rd.field_ok e2').1]
  have e3 := drop_step e2' (fieldBytes_length _ _ _ _)
  rw [Rd.bind_ok (Rd.field_ok e3).1]
  have e4 := drop_step e3 (fieldBytes_length _ _ _ _)
  rw [Rd.bind_ok (Rd.field_ok e4).1]
  have e5 := drop_step e4 (fieldBytes_length _ _ _ _)
  rw [Rd.bind_ok (Rd.field_ok e5).2]
  rw [waveCue_length, p4, wrapS_mod (Or.inl rfl) hm.id.1 hm.id.2]
  have : ((m.position % 2 ^ 32).toNat : Int) = m.position := by have := hm.pos; omega
  rw [this]
  rfl

theorem cues_read (h h' : Endian) (ms : List WMark) (hm : ∀ m ∈ ms, CueOK m) :
    ∀ k, Reads (Rd.times (waveReadCue h') ms.length) ((ms.zipIdx k).flatMap fun p => waveCue h p.2 p.1) (ms.map cueRead) := by
  induction ms with
  | nil => intro k; exact Reads.pure _
  | cons m ms ih =>
    intro k
    have h1 := (cue_reads h h' k (hm m (by simp))).bind (g := fun a => do let as ← Rd.times (waveReadCue h') ms.length; return a :: as)
      ((ih (fun x hx => hm x (by simp [hx])) (k + 1)).bind (Reads.pure _))
    simpa [List.zipIdx_cons, Rd.times] using h1

/-- One text of a marker. -/
def waveText (h : Endian) (isName : Bool) (id : Int) (z : List Byte) : List Byte :=
  tag (if isName then "labl" else "note") ++ fieldBytes h .little .s4 (4 + z.length) ++ fieldBytes h .little .s4 id ++ z

theorem waveText_length (h : Endian) (b : Bool) (id : Int) (z : List Byte) : (waveText h b id z).length = 12 + z.length := by
  unfold waveText
  rw [List.length_append, List.length_append, List.length_append, fieldBytes_length, fieldBytes_length]
  cases b <;> simp [tag, FieldSize.bytes] <;> omega

theorem adtl_step (h h' : Endian) (isName : Bool) {id : Int} (hid : -2 ^ 15 ≤ id ∧ id < 2 ^ 15) {z : List Byte}
    (hz : z.length % 2 = 0) (hz' : z.length + 4 < 2 ^ 32) (ms : List RMark) {file : List Byte} {p E : Nat} {rest : List Byte}
    (hf : file.drop p = waveText h isName id z ++ rest) (hE : p < E) :
    waveADTL h' E ms file p = .ok (.inl (setText isName z id ms), p + (12 + z.length)) := by
  unfold waveText at hf
  simp only [List.append_assoc] at hf
  have ht : (tag (if isName then "labl" else "note")).length = 4 := by cases isName <;> rfl
  unfold waveADTL
  rw [Rd.bind_ok (a := p) (p' := p) rfl, if_pos hE, Rd.bind_ok (Rd.tag_ok hf ht)]
  have e1 := drop_step hf ht
  rw [Rd.bind_ok (Rd.field_ok e1).2]
  have e2 := drop_step e1 (fieldBytes_length _ _ _ _)
  have htt : tag (if isName then "labl" else "note") = tag "labl" ∨ tag (if isName then "labl" else "note") = tag "note" := by
    cases isName
    · exact Or.inr rfl
    · exact Or.inl rfl
  rw [if_pos htt, Rd.bind_ok (Rd.field_ok e2).1]
  have e3 := drop_step e2 (fieldBytes_length _ _ _ _)
  have q1 : ((4 + (z.length : Int)) % 256 ^ FieldSize.s4.bytes).toNat = 4 + z.length := by rw [p4]; omega
  have q2 : (4 + z.length + 2 ^ 32 - 4) % 2 ^ 32 = z.length := by omega
  have q3 : (4 + z.length) % 2 = 0 := by omega
  rw [q1, q2, q3, Rd.bind_ok (Rd.read_ok e3 rfl)]
  dsimp only
  rw [p4, wrapS_mod (Or.inr rfl) hid.1 hid.2]
  have q4 : (decide (tag (if isName = true then "labl" else "note") = tag "labl")) = isName := by
    cases isName <;> decide
  rw [q4]
  have q5 : p + 4 + FieldSize.s4.bytes + FieldSize.s4.bytes + z.length + 0 = p + (12 + z.length) := by rw [b4]; omega
  rw [Rd.bind_ok (a := ()) (p' := p + 4 + FieldSize.s4.bytes + FieldSize.s4.bytes + z.length + 0) rfl, q5]
  rfl

theorem waveLabel_eq (h : Endian) (m : WMark) :
    waveLabel h m = waveText h true m.id (zString m.name) ++ waveText h false m.id (zString m.comment) := by
  unfold waveLabel waveText
  simp [List.append_assoc]

theorem setText_mid (isName : Bool) (z : List Byte) (id : Int) (done : List RMark) (m : RMark) (todo : List RMark)
    (hd : ∀ x ∈ done, x.id ≠ id) (hm : m.id = id) :
    setText isName z id (done ++ m :: todo) =
      done ++ (if isName then { m with name := z } else { m with comment := z }) :: todo := by
  unfold setText
  induction done with
  | nil =>
    rw [List.nil_append, List.nil_append, Meta.updFirst, if_pos (by simp [hm])]
  | cons a l ih =>
    rw [List.cons_append, Meta.updFirst, if_neg (by simpa using hd a (by simp)), ih (fun x hx => hd x (by simp [hx]))]
    rfl

theorem zString_even (s : List Byte) : (zString s).length % 2 = 0 := by rw [zString_length]; omega

structure LabelOK (m : WMark) : Prop where
  id : -2 ^ 15 ≤ m.id ∧ m.id < 2 ^ 15
  name : (zString m.name).length + 4 < 2 ^ 32
  comment : (zString m.comment).length + 4 < 2 ^ 32

theorem adtl_loop (h h' : Endian) (ms : List WMark) (hm : ∀ m ∈ ms, LabelOK m) :
    ∀ (done : List RMark) (file : List Byte) (p : Nat) (rest : List Byte) (fuel : Nat),
      (∀ x ∈ done, ∀ m ∈ ms, x.id ≠ m.id) → (ms.map (·.id)).Nodup →
      file.drop p = ms.flatMap (waveLabel h) ++ rest → 2 * ms.length < fuel →
      Rd.loop (waveADTL h' (p + (ms.flatMap (waveLabel h)).length)) fuel (done ++ ms.map cueRead) file p =
        .ok (done ++ ms.map labelRead, p + (ms.flatMap (waveLabel h)).length) := by
  induction ms with
  | nil =>
    intro done file p rest fuel hd hnd hf hfuel
    obtain ⟨n, rfl⟩ : ∃ n, fuel = n + 1 := ⟨fuel - 1, by simp at hfuel; omega⟩
    refine Rd.loop_done ?_
    unfold waveADTL
    rw [Rd.bind_ok (a := p) (p' := p) rfl, if_neg (by simp)]
    simp
    rfl
  | cons m ms ih =>
    intro done file p rest fuel hd hnd hf hfuel
    obtain ⟨n, rfl⟩ : ∃ n, fuel = n + 2 := ⟨fuel - 2, by simp at hfuel; omega⟩
    have hmm := hm m (by simp)
    rw [List.flatMap_cons, List.append_assoc, waveLabel_eq, List.append_assoc] at hf
    have hl : (waveLabel h m).length = (12 + (zString m.name).length) + (12 + (zString m.comment).length) := waveLabel_length h m
    rw [List.flatMap_cons, List.length_append, ← Nat.add_assoc, List.map_cons]
    have hd' : ∀ x ∈ done, x.id ≠ m.id := fun x hx => hd x hx m (by simp)
    rw [Rd.loop_step (adtl_step h h' true hmm.id (zString_even _) hmm.name _ hf (by omega)),
      setText_mid _ _ _ _ _ _ hd' rfl]
    have hf2 := drop_step hf (n := 12 + (zString m.name).length) (waveText_length _ _ _ _)
    rw [Rd.loop_step (adtl_step h h' false hmm.id (zString_even _) hmm.comment _ hf2 (by omega)),
      setText_mid _ _ _ _ _ _ hd' rfl]
    have hf3 := drop_step hf2 (n := 12 + (zString m.comment).length) (waveText_length _ _ _ _)
    have hp : p + (12 + (zString m.name).length) + (12 + (zString m.comment).length) = p + (waveLabel h m).length := by omega
    rw [hp] at hf3 ⊢
    have hnd' : m.id ∉ ms.map (·.id) ∧ (ms.map (·.id)).Nodup := by simpa using hnd
    have := ih (fun x hx => hm x (by simp [hx])) (done ++ [labelRead m]) file (p + (waveLabel h m).length) rest n
      (by
        intro x hx y hy
        rcases List.mem_append.1 hx with hx | hx
        · exact hd x hx y (by simp [hy])
        · obtain rfl : x = labelRead m := by simpa using hx
          intro e
          exact hnd'.1 (List.mem_map.2 ⟨y, hy, e.symm⟩))
      hnd'.2 hf3 (by simp at hfuel; omega)
    simp only [List.append_assoc, List.singleton_append] at this
    exact this

end AF.Files
