import Verif.Model.Files.WAVE
import Verif.Proof.Chunks
import Verif.Proof.Shape
import Verif.Proof.Files.Simple
/-!
# WAVE files: the bytes that are left by a session
-/
namespace AF.Files
open AF AF.Setup AF.Spec.Files AF.Meta

/-! ## The header -/

/-- The bytes of a miscellaneous item: zeros if nothing was ever stored. -/
def miscFill (m : Misc) : List Byte := m.buffer.getD (List.replicate m.size.toNat 0)

def padOf (n : Int) : List Byte := if n.tmod 2 ≠ 0 then [0] else []

def infoEntry (h : Endian) (m : Misc) : List Byte :=
  match waveMiscTag m.type with
  | none => []
  | some id => id ++ fieldBytes h .little .s4 m.size ++ miscFill m ++ padOf m.size

def infoPart (h : Endian) (ms : List Misc) : List Byte :=
  if ms.length = 0 then [] else
    tag "LIST" ++ fieldBytes h .little .s4 (12 + (ms.map waveMiscSize).sum - 8) ++ tag "INFO" ++ ms.flatMap (infoEntry h)

def cuePart (h : Endian) (ms : List WMark) : List Byte := if ms.length = 0 then [] else waveCueBytes h ms

def hasFact (f : AFmt) : Bool := !(f.compression = NONE ∧ (f.sampleFormat = TWOSCOMP ∨ f.sampleFormat = UNSIGNED))

def factPart (h : Endian) (f : AFmt) (n : Int) : List Byte :=
  if hasFact f then tag "fact" ++ fieldBytes h .little .s4 4 ++ fieldBytes h .little .s4 n else []

def waveHead (h : Endian) (f : AFmt) (L : List Byte) (misc : List Misc) (marks : List WMark) (n size : Int) : List Byte :=
  tag "RIFF" ++ L ++ tag "WAVE" ++ infoPart h misc ++ cuePart h marks ++ waveFmt h (waveTrack f) ++
    factPart h f n ++ tag "data" ++ fieldBytes h .little .s4 size

theorem waveFmt_congr (h : Endian) {t t' : Trk} (h1 : t.f = t'.f) (h2 : t.fpp = t'.fpp) (h3 : t.bpp = t'.bpp) :
    waveFmt h t = waveFmt h t' := by
  unfold waveFmt waveFmtParams waveAverage waveFmtExtra
  rw [h1, h2, h3]

theorem waveTrack_f (f : AFmt) : (waveTrack f).f = f := by
  unfold waveTrack
  split
  · rfl
  · split <;> rfl

/-- What is fixed about the items. -/
structure Sized (m : Misc) : Prop where
  size : 0 ≤ m.size
  good : m.Good

theorem Sized.over {m m' : Misc} (hm : Sized m) (h : MiscOver m m') : Sized m' := ⟨by rw [h.size]; exact hm.size, h.good hm.good⟩

theorem Sized.fill {m : Misc} (hm : Sized m) : ((miscFill m).length : Int) = m.size := by
  unfold miscFill
  cases hb : m.buffer with
  | none => have := hm.size; simp; omega
  | some b => exact hm.good b hb

theorem padOf_length (n : Int) : ((padOf n).length : Int) = if n.tmod 2 ≠ 0 then 1 else 0 := by
  unfold padOf; split <;> simp

theorem miscTag_length {type : Int} {id : List Byte} (h : waveMiscTag type = some id) : id.length = 4 := by
  unfold waveMiscTag at h
  repeat' split at h
  all_goals first | (cases h; rfl) | cases h

theorem infoEntry_length (h : Endian) {m : Misc} (hm : Sized m) : ((infoEntry h m).length : Int) = waveMiscSize m := by
  unfold infoEntry waveMiscSize
  match ht : waveMiscTag m.type with
  | none => simp
  | some id =>
    have h1 := hm.fill
    have h2 := padOf_length m.size
    have h3 := miscTag_length ht
    simp only [List.length_append, fieldBytes_length, FieldSize.bytes]
    omega

theorem _root_.AF.Meta.MiscOver.miscSize {m m' : Misc} (h : MiscOver m m') : waveMiscSize m' = waveMiscSize m := by
  unfold waveMiscSize; rw [h.type, h.size]

theorem s1_zero (h o : Endian) : fieldBytes h o .s1 0 = [0] := by
  rw [fieldBytes, writeField_eq]; cases o <;> rfl

theorem waveMisc_end {h : Endian} {d : Disk} {P : List Byte} {m : Misc} (hm : Sized m) (hd : AtEnd d P) :
    AtEnd (waveMisc h d m) (P ++ infoEntry h m) := by
  unfold waveMisc infoEntry
  match ht : waveMiscTag m.type with
  | none => simpa using hd
  | some id =>
    have h1 := hd.write (bs := id ++ fieldBytes h .little .s4 m.size)
    dsimp only
    cases hb : m.buffer with
    | some b =>
      have h2 := h1.write (bs := b)
      dsimp only
      unfold padOf
      split
      · have h3 := h2.write (bs := [0])
        rw [s1_zero]
        simpa [miscFill, hb, List.append_assoc] using h3
      · simpa [miscFill, hb, List.append_assoc] using h2
    | none =>
      have := hm.size
      have h2 := h1.skip (n := m.size + if m.size.tmod 2 ≠ 0 then 1 else 0) (by split <;> omega)
      have e : List.replicate (m.size + if m.size.tmod 2 ≠ 0 then 1 else 0).toNat (0 : Byte) = miscFill m ++ padOf m.size := by
        unfold padOf
        split
        · rw [show (m.size + 1).toNat = m.size.toNat + 1 by omega, ← List.replicate_append_replicate]; simp [miscFill, hb]
        · simp [miscFill, hb]
      rw [e] at h2
      simpa [List.append_assoc] using h2

theorem waveMisc_between {h : Endian} {d : Disk} {A Z : List Byte} {m m' : Misc} (hm : Sized m) (ho : MiscOver m m')
    (hd : Between d A (infoEntry h m ++ Z)) : Between (waveMisc h d m') (A ++ infoEntry h m') Z := by
  have hm' := hm.over ho
  unfold waveMisc
  have ht' := ho.type
  unfold infoEntry at hd ⊢
  rw [ht']
  match ht : waveMiscTag m.type with
  | none => rw [ht] at hd; simpa using hd
  | some id =>
    rw [ht] at hd
    simp only [List.append_assoc] at hd
    rw [← List.append_assoc] at hd
    have h1 := hd.write (B' := id ++ fieldBytes h .little .s4 m'.size) (by simp [fieldBytes_length])
    dsimp only
    cases hb : m'.buffer with
    | some b =>
      have hl : b.length = (miscFill m).length := by
        have h2 := hm.fill; have h3 := hm'.good b hb; have h4 := ho.size; omega
      have h2 := h1.write (B' := b) hl
      dsimp only
      unfold padOf at h2 ⊢
      rw [ho.size] at h2 ⊢
      split
      · rename_i hp
        rw [if_pos hp] at h2
        have h3 := h2.write (B' := [0]) rfl
        rw [s1_zero]
        simpa [miscFill, hb, List.append_assoc] using h3
      · rename_i hp
        rw [if_neg hp] at h2
        simpa [miscFill, hb, List.append_assoc] using h2
    | none =>
      have e : miscFill m = miscFill m' := by
        unfold miscFill; rw [hb, ho.null hb, ho.size]
      rw [← ho.size, e, ← List.append_assoc (miscFill m')] at h1
      have h2 := h1.skip (n := m'.size + if m'.size.tmod 2 ≠ 0 then 1 else 0) (by
        have := hm'.fill; have := padOf_length m'.size
        rw [List.length_append]; omega)
      simpa [List.append_assoc] using h2

theorem foldl_end {h : Endian} (ms : List Misc) {d : Disk} {P : List Byte} (hm : ∀ m ∈ ms, Sized m) (hd : AtEnd d P) :
    AtEnd (ms.foldl (waveMisc h) d) (P ++ ms.flatMap (infoEntry h)) := by
  induction ms generalizing d P with
  | nil => simpa using hd
  | cons m ms ih =>
    have h1 := waveMisc_end (h := h) (hm m (by simp)) hd
    have h2 := ih (fun x hx => hm x (by simp [hx])) h1
    simpa [List.append_assoc] using h2

theorem foldl_between {h : Endian} {ms ms' : List Misc} (ho : All2 MiscOver ms ms') {d : Disk} {A Z : List Byte}
    (hm : ∀ m ∈ ms, Sized m) (hd : Between d A (ms.flatMap (infoEntry h) ++ Z)) :
    Between (ms'.foldl (waveMisc h) d) (A ++ ms'.flatMap (infoEntry h)) Z := by
  induction ho generalizing d A with
  | nil => simpa using hd
  | cons hab _ ih =>
    rw [List.flatMap_cons, List.append_assoc] at hd
    have h1 := waveMisc_between (h := h) (hm _ (by simp)) hab hd
    have h2 := ih (fun x hx => hm x (by simp [hx])) h1
    simpa [List.append_assoc] using h2

theorem over_sized {ms ms' : List Misc} (ho : All2 MiscOver ms ms') (hm : ∀ m ∈ ms, Sized m) : ∀ m ∈ ms', Sized m := by
  intro m hm'
  obtain ⟨a, ha, hr⟩ := ho.mem hm'
  exact (hm a ha).over hr

theorem over_length {h : Endian} {ms ms' : List Misc} (ho : All2 MiscOver ms ms') (hm : ∀ m ∈ ms, Sized m) :
    (infoPart h ms').length = (infoPart h ms).length := by
  have hl := ho.length
  unfold infoPart
  rw [hl]
  have : (ms'.flatMap (infoEntry h)).length = (ms.flatMap (infoEntry h)).length := by
      clear hl
      induction ho with
      | nil => rfl
      | cons hab _ ih =>
        have h0 := hm _ List.mem_cons_self
        have h1 := infoEntry_length h h0
        have h2 := infoEntry_length h (h0.over hab)
        have h3 := hab.miscSize
        have h4 := ih (fun x hx => hm x (by simp [hx]))
        simp only [List.flatMap_cons, List.length_append]
        omega
  split
  · rfl
  · simp only [List.length_append, fieldBytes_length, this]

/-- The first write of the miscellaneous data. -/
theorem waveWriteMisc_end {h : Endian} {x : WaveObj} {d : Disk} {P : List Byte} (hx : x.miscOffset = 0)
    (hm : ∀ m ∈ x.handle.misc, Sized m) (hd : AtEnd d P) :
    AtEnd (waveWriteMisc h x d).1 (P ++ infoPart h x.handle.misc) ∧
    (waveWriteMisc h x d).2 = { x with miscOffset := if x.handle.misc.length = 0 then 0 else P.length } := by
  unfold waveWriteMisc infoPart
  split
  · rw [List.append_nil]; exact ⟨hd, by rw [← hx]⟩
  · try rw [if_pos hx]
    dsimp only
    have h1 := (hd.seek hd.1).write (bs := tag "LIST" ++ fieldBytes h .little .s4 (12 + (x.handle.misc.map waveMiscSize).sum - 8) ++ tag "INFO")
    have h2 := foldl_end (h := h) _ hm h1
    exact ⟨by simpa [List.append_assoc] using h2, by rw [hd.1]⟩

/-- Later ones. -/
theorem waveWriteMisc_between {h : Endian} {x : WaveObj} {d : Disk} {A Z : List Byte} {ms : List Misc}
    (ho : All2 MiscOver ms x.handle.misc) (hm : ∀ m ∈ ms, Sized m) (hA : A ≠ [])
    (hx : x.miscOffset = if x.handle.misc.length = 0 then 0 else A.length)
    (hd : d.bytes = A ++ (infoPart h ms ++ Z)) :
    (waveWriteMisc h x d).1.bytes = A ++ (infoPart h x.handle.misc ++ Z) ∧ (waveWriteMisc h x d).2 = x := by
  have hl := ho.length
  unfold waveWriteMisc
  unfold infoPart at hd ⊢
  split
  · rename_i hz
    rw [if_pos (by omega)] at hd
    exact ⟨hd, rfl⟩
  · rename_i hz
    rw [if_neg hz] at hx
    have : A.length ≠ 0 := fun e => hA (List.eq_nil_of_length_eq_zero e)
    rw [if_neg (by omega)] at hd
    rw [if_neg (by omega)]
    dsimp only
    simp only [List.append_assoc] at hd
    rw [← List.append_assoc (tag "LIST"), ← List.append_assoc (tag "LIST" ++ _)] at hd
    have h0 := Between.seek hd hx
    have h1 := h0.write (B' := tag "LIST" ++ fieldBytes h .little .s4 (12 + (x.handle.misc.map waveMiscSize).sum - 8) ++ tag "INFO")
      (by simp [fieldBytes_length])
    have h2 := foldl_between (h := h) ho hm h1
    refine ⟨by rw [h2.1]; simp [List.append_assoc], ?_⟩
    cases x; rfl

/-! ## Cue points -/

theorem zString_length (s : List Byte) : (zString s).length = s.length + 1 + (s.length + 1) % 2 := by
  unfold zString
  split <;> simp <;> omega

theorem waveCue_length (h : Endian) (i : Nat) (m : WMark) : (waveCue h i m).length = 24 := by
  simp [waveCue, fieldBytes_length, FieldSize.bytes, tag]

theorem waveLabel_length (h : Endian) (m : WMark) :
    (waveLabel h m).length = 12 + (zString m.name).length + (12 + (zString m.comment).length) := by
  simp [waveLabel, fieldBytes_length, FieldSize.bytes, tag]; omega

/-- Only the texts matter for the size. -/
theorem cuePart_length (h : Endian) {ms ms' : List WMark}
    (he : ms'.map (fun m => (m.name, m.comment)) = ms.map (fun m => (m.name, m.comment))) :
    (cuePart h ms').length = (cuePart h ms).length := by
  have hl : ms'.length = ms.length := by simpa using congrArg List.length he
  have h1 : ∀ (l : List WMark) (k : Nat), ((l.zipIdx k).flatMap fun p => waveCue h p.2 p.1).length = 24 * l.length := by
    intro l
    induction l with
    | nil => simp
    | cons m l ih => intro k; simp [List.zipIdx_cons, waveCue_length, ih]; omega
  have h2 : ∀ l : List WMark, (l.flatMap (waveLabel h)).length = ((l.map (fun m => (m.name, m.comment))).map
      fun p => 12 + (zString p.1).length + (12 + (zString p.2).length)).sum := by
    intro l
    induction l with
    | nil => rfl
    | cons m l ih => simp [waveLabel_length, ih]
  unfold cuePart
  rw [hl]
  split
  · rfl
  · unfold waveCueBytes
    simp only [List.length_append, fieldBytes_length, h1, h2, he, hl]

theorem wmarks_shape {a b : Handle} (ho : markShape b = markShape a) (names : List (List Byte × List Byte)) :
    (wmarks b names).map (fun m => (m.id, m.name, m.comment)) = (wmarks a names).map (fun m => (m.id, m.name, m.comment)) := by
  have key : ∀ (l l' : List Marker) (names : List (List Byte × List Byte)), l.map (·.id) = l'.map (·.id) →
      (l.zipWith (fun m n => (⟨m.id, m.position, n.1, n.2⟩ : WMark)) names).map (fun m => (m.id, m.name, m.comment)) =
      (l'.zipWith (fun m n => (⟨m.id, m.position, n.1, n.2⟩ : WMark)) names).map (fun m => (m.id, m.name, m.comment)) := by
    intro l
    induction l with
    | nil => intro l' names h; cases l' <;> simp_all
    | cons m l ih =>
      intro l' names h
      cases l' with
      | nil => simp at h
      | cons m' l' =>
        simp only [List.map_cons, List.cons.injEq] at h
        cases names with
        | nil => simp
        | cons n names => simp [h.1, ih l' names h.2]
  unfold markShape at ho
  unfold wmarks
  match ha : a.tracks, hb : b.tracks with
  | [], [] => rfl
  | [], _ :: _ => simp [ha, hb] at ho
  | _ :: _, [] => simp [ha, hb] at ho
  | t :: _, t' :: _ =>
    simp only [ha, hb, List.map_cons, List.cons.injEq, Prod.mk.injEq] at ho
    exact key _ _ _ ho.1.2

theorem wmarks_texts {a b : Handle} (ho : markShape b = markShape a) (names : List (List Byte × List Byte)) :
    (wmarks b names).map (fun m => (m.name, m.comment)) = (wmarks a names).map (fun m => (m.name, m.comment)) := by
  have := congrArg (List.map fun p : Int × List Byte × List Byte => p.2) (wmarks_shape ho names)
  simpa [List.map_map, Function.comp_def] using this

theorem waveWriteCues_end {h : Endian} {x : WaveObj} {d : Disk} {P : List Byte} (hx : x.markOffset = 0) (hd : AtEnd d P) :
    AtEnd (waveWriteCues h x d).1 (P ++ cuePart h (wmarks x.handle x.names)) ∧
    (waveWriteCues h x d).2 = { x with markOffset := if (wmarks x.handle x.names).length = 0 then 0 else P.length } := by
  unfold waveWriteCues cuePart
  dsimp only
  split
  · rw [List.append_nil]; exact ⟨hd, by rw [← hx]⟩
  · try rw [if_pos hx]
    exact ⟨(hd.seek hd.1).write, by rw [hd.1]⟩

theorem waveWriteCues_between {h : Endian} {x : WaveObj} {d : Disk} {A Z : List Byte} {ms : List WMark}
    (ho : (wmarks x.handle x.names).map (fun m => (m.name, m.comment)) = ms.map (fun m => (m.name, m.comment))) (hA : A ≠ [])
    (hx : x.markOffset = if (wmarks x.handle x.names).length = 0 then 0 else A.length)
    (hd : d.bytes = A ++ (cuePart h ms ++ Z)) :
    (waveWriteCues h x d).1.bytes = A ++ (cuePart h (wmarks x.handle x.names) ++ Z) ∧ (waveWriteCues h x d).2 = x := by
  have hl : (wmarks x.handle x.names).length = ms.length := by simpa using congrArg List.length ho
  have hl2 := cuePart_length h ho
  unfold waveWriteCues
  unfold cuePart at hd hl2 ⊢
  dsimp only
  split
  · rename_i hz
    rw [if_pos (by omega)] at hd
    exact ⟨hd, rfl⟩
  · rename_i hz
    rw [if_neg hz] at hx
    have : A.length ≠ 0 := fun e => hA (List.eq_nil_of_length_eq_zero e)
    rw [if_neg (by omega)] at hd
    rw [if_neg hz, if_neg (by omega)] at hl2
    rw [if_neg (by omega)]
    have h1 := (Between.seek hd hx).write (B' := waveCueBytes h (wmarks x.handle x.names)) hl2
    refine ⟨by rw [h1.1]; simp [List.append_assoc], ?_⟩
    cases x; rfl

/-! ## The frame count -/

theorem factPart_length (h : Endian) (f : AFmt) (n m : Int) : (factPart h f n).length = (factPart h f m).length := by
  unfold factPart; split <;> simp [fieldBytes_length]

theorem waveWriteFact_end {h : Endian} {t : Trk} {x : WaveObj} {d : Disk} {P : List Byte} (hx : x.factOffset = 0) (hd : AtEnd d P) :
    AtEnd (waveWriteFact h t x d).1 (P ++ factPart h t.f t.frames) ∧
    (waveWriteFact h t x d).2 = { x with factOffset := if hasFact t.f then P.length else 0 } := by
  by_cases hc : (t.f.compression = NONE ∧ (t.f.sampleFormat = TWOSCOMP ∨ t.f.sampleFormat = UNSIGNED))
  · have : hasFact t.f = false := by unfold hasFact; simp only [hc]; simp
    have e1 : waveWriteFact h t x d = (d, x) := by unfold waveWriteFact; rw [if_pos hc]
    have e2 : factPart h t.f t.frames = [] := by unfold factPart; rw [this]; rfl
    rw [e1, e2, this, List.append_nil]
    refine ⟨hd, ?_⟩
    cases x
    dsimp only at hx
    subst hx
    rfl
  · have : hasFact t.f = true := by unfold hasFact; simp only [hc]; simp
    have e1 : waveWriteFact h t x d = ((d.seek d.pos).write
        (tag "fact" ++ fieldBytes h .little .s4 4 ++ fieldBytes h .little .s4 t.frames), { x with factOffset := d.pos }) := by
      unfold waveWriteFact; rw [if_neg hc, if_pos hx]
    have e2 : factPart h t.f t.frames = tag "fact" ++ fieldBytes h .little .s4 4 ++ fieldBytes h .little .s4 t.frames := by
      unfold factPart; rw [this, if_pos rfl]
    rw [e1, e2, this]
    have h1 := (hd.seek hd.1).write
      (bs := tag "fact" ++ fieldBytes h .little .s4 4 ++ fieldBytes h .little .s4 t.frames)
    exact ⟨h1, by rw [hd.1, if_pos rfl]⟩

theorem waveWriteFact_between {h : Endian} {t : Trk} {x : WaveObj} {d : Disk} {A Z : List Byte} {n : Int} (hA : A ≠ [])
    (hx : x.factOffset = if hasFact t.f then A.length else 0) (hd : d.bytes = A ++ (factPart h t.f n ++ Z)) :
    (waveWriteFact h t x d).1.bytes = A ++ (factPart h t.f t.frames ++ Z) ∧ (waveWriteFact h t x d).2 = x := by
  have hl := factPart_length h t.f t.frames n
  unfold waveWriteFact
  unfold factPart at hd hl ⊢
  by_cases hc : (t.f.compression = NONE ∧ (t.f.sampleFormat = TWOSCOMP ∨ t.f.sampleFormat = UNSIGNED))
  · have : hasFact t.f = false := by unfold hasFact; simp only [hc]; simp
    have e1 : ∀ n, (if hasFact t.f = true then tag "fact" ++ fieldBytes h .little .s4 4 ++ fieldBytes h .little .s4 n
        else []) = [] := fun n => if_neg (by rw [this]; exact Bool.false_ne_true)
    rw [if_pos hc]
    rw [e1] at hd ⊢
    exact ⟨hd, rfl⟩
  · have : hasFact t.f = true := by unfold hasFact; simp only [hc]; simp
    rw [if_neg hc]
    rw [this] at hd hl hx ⊢
    simp only [if_true] at hd hl hx ⊢
    have : A.length ≠ 0 := fun e => hA (List.eq_nil_of_length_eq_zero e)
    rw [if_neg (by omega)]
    have h1 := (Between.seek hd hx).write (B' := tag "fact" ++ fieldBytes h .little .s4 4 ++ fieldBytes h .little .s4 t.frames) hl
    refine ⟨by rw [h1.1]; simp [List.append_assoc], ?_⟩
    cases x; rfl

/-! ## Opening -/

/-- Offsets of the parts that are rewritten. -/
def waveOffsets (h : Endian) (f : AFmt) (handle : Handle) (names : List (List Byte × List Byte)) (x : WaveObj) : Prop :=
  let i := (infoPart h handle.misc).length
  let c := (cuePart h (wmarks handle names)).length
  let w := (waveFmt h (waveTrack f)).length
  x.names = names ∧
  x.miscOffset = (if handle.misc.length = 0 then 0 else 12) ∧
  x.markOffset = (if (wmarks handle names).length = 0 then 0 else 12 + i) ∧
  x.factOffset = (if hasFact f then 12 + i + c + w else 0) ∧
  x.dataSizeOffset = 12 + i + c + w + (factPart h f 0).length + 4

theorem ne_of_len {l : List Byte} (h : 0 < l.length) : l ≠ [] := by intro e; rw [e] at h; simp at h

theorem preLength (_ : Endian) {L : List Byte} (hL : L.length = 4) : (tag "RIFF" ++ L ++ tag "WAVE").length = 12 := by
  rw [List.length_append, List.length_append, hL]; rfl

theorem waveInit_eq (h : Endian) (handle : Handle) (names : List (List Byte × List Byte)) (f : AFmt)
    (hm : ∀ m ∈ handle.misc, Sized m) :
    (waveInit h handle names f).1.bytes = waveHead h f [0, 0, 0, 0] handle.misc (wmarks handle names) 0 0 ∧
    (waveInit h handle names f).2.1 =
      { waveTrack f with first := ((waveHead h f [0, 0, 0, 0] handle.misc (wmarks handle names) 0 0).length : Nat) } ∧
    (waveInit h handle names f).2.2.handle = handle ∧
    waveOffsets h f handle names (waveInit h handle names f).2.2 := by
  have ht : (waveTrack f).frames = 0 ∧ (waveTrack f).dataSize = 0 := by
    unfold waveTrack
    split
    · exact ⟨rfl, rfl⟩
    · split <;> exact ⟨rfl, rfl⟩
  unfold waveInit
  dsimp only
  have h0 : AtEnd (((⟨[], 0⟩ : Disk).seek 0).write (tag "RIFF" ++ [0, 0, 0, 0] ++ tag "WAVE"))
      (tag "RIFF" ++ [0, 0, 0, 0] ++ tag "WAVE") := (AtEnd.nil.seek rfl).write
  generalize ((⟨[], 0⟩ : Disk).seek 0).write (tag "RIFF" ++ [0, 0, 0, 0] ++ tag "WAVE") = d0 at *
  obtain ⟨h1, e1⟩ := waveWriteMisc_end (h := h) (x := ⟨handle, names, 0, 0, 0, 0⟩) rfl hm h0
  generalize waveWriteMisc h ⟨handle, names, 0, 0, 0, 0⟩ d0 = r1 at *
  obtain ⟨d1, x1⟩ := r1
  dsimp only at h1 e1 ⊢
  subst e1
  obtain ⟨h2, e2⟩ := waveWriteCues_end (h := h) (x := ⟨handle, names, _, 0, 0, 0⟩) rfl h1
  generalize waveWriteCues h _ d1 = r2 at *
  obtain ⟨d2, x2⟩ := r2
  dsimp only at h2 e2 ⊢
  subst e2
  have h3 := h2.write (bs := waveFmt h (waveTrack f))
  generalize d2.write (waveFmt h (waveTrack f)) = d3 at *
  obtain ⟨h4, e4⟩ := waveWriteFact_end (h := h) (t := waveTrack f) (x := ⟨handle, names, _, _, 0, 0⟩) rfl h3
  generalize waveWriteFact h (waveTrack f) _ d3 = r4 at *
  obtain ⟨d4, x4⟩ := r4
  dsimp only at h4 e4 ⊢
  subst e4
  have h5 := h4.write (bs := tag "data")
  generalize d4.write (tag "data") = d5 at *
  have hne : fieldBytes h .little .s4 (waveTrack f).dataSize ≠ [] := by
    intro e; have := fieldBytes_length h .little .s4 (waveTrack f).dataSize; rw [e] at this; simp [FieldSize.bytes] at this
  have h6 := h5.write_bytes hne
  have h7 := (h5.write (bs := fieldBytes h .little .s4 (waveTrack f).dataSize)).1
  rw [waveTrack_f, ht.1, ht.2] at *
  refine ⟨by rw [h6]; rfl, by rw [h7]; rfl, rfl, rfl, ?_, ?_, ?_, ?_⟩
  · rfl
  · dsimp only
    rw [List.length_append (as := tag "RIFF" ++ [0, 0, 0, 0] ++ tag "WAVE"), preLength h rfl]
  · dsimp only
    rw [List.length_append, List.length_append, List.length_append (as := tag "RIFF" ++ [0, 0, 0, 0] ++ tag "WAVE"),
      preLength h rfl]
  · dsimp only
    rw [h5.1, List.length_append, List.length_append, List.length_append, List.length_append, List.length_append, preLength h rfl]
    rfl

/-! ## Updating -/

theorem waveUpdate_eq {h : Endian} {f : AFmt} {handle0 : Handle} {names : List (List Byte × List Byte)} {d : Disk} {t : Trk}
    {x : WaveObj} {old : Handle} {L D : List Byte} {n s : Int}
    (hm : ∀ m ∈ handle0.misc, Sized m) (hox : Over handle0 old) (ho : Over old x.handle)
    (hx : waveOffsets h f handle0 names x) (hL : L.length = 4)
    (hd : d.bytes = waveHead h f L old.misc (wmarks old names) n s ++ D)
    (hf : t.f = f) (hfirst : t.first ≠ 0) :
    (waveUpdate h t x d).1.bytes =
      waveHead h f (fieldBytes h .little .s4 ((d.bytes.length : Int) - 8)) x.handle.misc (wmarks x.handle names) t.frames t.dataSize ++ D ∧
    (waveUpdate h t x d).2 = x := by
  obtain ⟨hn, o1, o2, o3, o4⟩ := hx
  have hox' := hox.trans ho
  have l1 := over_length (h := h) hox.misc hm
  have l2 := cuePart_length h (wmarks_texts hox.marks names)
  have l3 := hox'.misc.length
  have l4 : (wmarks x.handle names).length = (wmarks handle0 names).length := by
    simpa using congrArg List.length (wmarks_texts hox'.marks names)
  have l6 := over_length (h := h) hox'.misc hm
  have hz : ∀ n, (factPart h f n).length = (factPart h f 0).length := fun n => factPart_length h f n 0
  unfold waveUpdate
  rw [if_pos hfirst]
  -- the frame count
  have e1 : (tag "RIFF" ++ L ++ tag "WAVE" ++ infoPart h old.misc ++ cuePart h (wmarks old names) ++
      waveFmt h (waveTrack f)).length = 12 + (infoPart h handle0.misc).length + (cuePart h (wmarks handle0 names)).length +
        (waveFmt h (waveTrack f)).length := by
    rw [List.length_append, List.length_append, List.length_append, preLength h hL, l1, l2]
  obtain ⟨b1, x1⟩ := waveWriteFact_between (h := h) (t := t) (x := x) (d := d) (n := n)
    (A := tag "RIFF" ++ L ++ tag "WAVE" ++ infoPart h old.misc ++ cuePart h (wmarks old names) ++ waveFmt h (waveTrack f))
    (Z := tag "data" ++ fieldBytes h .little .s4 s ++ D)
    (ne_of_len (by rw [e1]; omega)) (by rw [hf, o3, e1]) (by rw [hd, waveHead, hf]; simp only [List.append_assoc])
  generalize waveWriteFact h t x d = r1 at *
  obtain ⟨d1, x1'⟩ := r1
  dsimp only at b1 x1 ⊢
  rw [x1]
  clear x1
  -- the data size
  have b2 := Disk.patch (d := d1) (B' := fieldBytes h .little .s4 t.dataSize) (B := fieldBytes h .little .s4 s) (C := D)
    (A := tag "RIFF" ++ L ++ tag "WAVE" ++ infoPart h old.misc ++ cuePart h (wmarks old names) ++ waveFmt h (waveTrack f) ++
      factPart h t.f t.frames ++ tag "data") (by rw [b1]; simp only [List.append_assoc]) (by simp [fieldBytes_length])
  have e2 : (tag "RIFF" ++ L ++ tag "WAVE" ++ infoPart h old.misc ++ cuePart h (wmarks old names) ++ waveFmt h (waveTrack f) ++
      factPart h t.f t.frames ++ tag "data").length = x.dataSizeOffset := by
    rw [o4, hf, List.length_append, List.length_append, e1, hz]; rfl
  rw [e2] at b2
  generalize (d1.seek x.dataSizeOffset).write (fieldBytes h .little .s4 t.dataSize) = d2 at *
  have hlen : d2.bytes.length = d.bytes.length := by
    rw [b2, hd, waveHead, hf]
    simp [fieldBytes_length, hz]
  -- the file size
  have b3 := Disk.patch (d := d2) (B' := fieldBytes h .little .s4 ((d2.bytes.length : Int) - 8)) (B := L) (A := tag "RIFF")
    (C := tag "WAVE" ++ infoPart h old.misc ++ cuePart h (wmarks old names) ++ waveFmt h (waveTrack f) ++
      factPart h t.f t.frames ++ tag "data" ++ fieldBytes h .little .s4 t.dataSize ++ D)
    (by rw [b2]; simp only [List.append_assoc]) (by simp [fieldBytes_length, hL, FieldSize.bytes])
  rw [show (tag "RIFF").length = 4 from rfl, hlen] at b3
  rw [hlen]
  generalize (d2.seek 4).write (fieldBytes h .little .s4 ((d.bytes.length : Int) - 8)) = d3 at *
  -- miscellaneous data
  have e3 : (tag "RIFF" ++ fieldBytes h .little .s4 ((d.bytes.length : Int) - 8) ++ tag "WAVE").length = 12 :=
    preLength h (fieldBytes_length _ _ _ _)
  obtain ⟨b4, x4⟩ := waveWriteMisc_between (h := h) (x := x) (d := d3) (ms := old.misc)
    (A := tag "RIFF" ++ fieldBytes h .little .s4 ((d.bytes.length : Int) - 8) ++ tag "WAVE")
    (Z := cuePart h (wmarks old names) ++ waveFmt h (waveTrack f) ++
      factPart h t.f t.frames ++ tag "data" ++ fieldBytes h .little .s4 t.dataSize ++ D)
    ho.misc (over_sized hox.misc hm) (ne_of_len (by rw [e3]; omega))
    (by rw [o1, l3, e3]) (by rw [b3]; simp only [List.append_assoc])
  generalize waveWriteMisc h x d3 = r4 at *
  obtain ⟨d4, x4'⟩ := r4
  dsimp only at b4 x4 ⊢
  rw [x4]
  clear x4
  -- markers
  obtain ⟨b5, x5⟩ := waveWriteCues_between (h := h) (x := x) (d := d4) (ms := wmarks old names)
    (A := tag "RIFF" ++ fieldBytes h .little .s4 ((d.bytes.length : Int) - 8) ++ tag "WAVE" ++ infoPart h x.handle.misc)
    (Z := waveFmt h (waveTrack f) ++
      factPart h t.f t.frames ++ tag "data" ++ fieldBytes h .little .s4 t.dataSize ++ D)
    (by rw [hn]; exact wmarks_texts ho.marks names)
    (ne_of_len (by rw [List.length_append, e3]; omega))
    (by rw [hn, o2, l4, List.length_append, e3, l6]) (by rw [b4]; simp only [List.append_assoc])
  refine ⟨?_, x5⟩
  rw [b5, hn, waveHead, hf]
  simp only [List.append_assoc]

/-! ## A session -/

theorem waveHead_length {h : Endian} {f : AFmt} {L L' : List Byte} {a b : Handle} {names : List (List Byte × List Byte)}
    {n n' s s' : Int} (hm : ∀ m ∈ a.misc, Sized m) (ho : Over a b) (hL : L'.length = L.length) :
    (waveHead h f L' b.misc (wmarks b names) n' s').length = (waveHead h f L a.misc (wmarks a names) n s).length := by
  unfold waveHead
  simp [hL, over_length ho.misc hm, cuePart_length h (wmarks_texts ho.marks names), factPart_length h f n' n, fieldBytes_length]

/-- Every WAVE file the library leaves. -/
theorem wave_file (h : Endian) (handle0 : Handle) (names : List (List Byte × List Byte)) (f : AFmt)
    (hm : ∀ m ∈ handle0.misc, Sized m) (evs : List MEv) {file : List Byte} {x : WaveObj}
    (hfile : msession (waveUpdate h) waveCall (waveInit h handle0 names f) evs = .ok (file, x)) :
    Over handle0 x.handle ∧ file = waveHead h f (fieldBytes h .little .s4 ((file.length : Int) - 8)) x.handle.misc
      (wmarks x.handle names) (framesOfM evs) (dataOfM evs).length ++ dataOfM evs := by
  obtain ⟨i1, i2, i3, i4⟩ := waveInit_eq h handle0 names f hm
  have hpos : ((waveHead h f [0, 0, 0, 0] handle0.misc (wmarks handle0 names) 0 0).length : Int) ≠ 0 := by
    unfold waveHead
    simp only [List.length_append, fieldBytes_length, FieldSize.bytes]
    omega
  generalize hN : (waveHead h f [0, 0, 0, 0] handle0.misc (wmarks handle0 names) 0 0).length = N at *
  obtain ⟨d, t, y, ⟨hf, hfirst, hds, hfr, hO, hoff, old, L, n, s, h1, h2, hL, hd⟩, he, hx⟩ :=
    msession_induct (waveUpdate h) waveCall
      (fun d t x D k => t.f = f ∧ t.first = N ∧ t.dataSize = D.length ∧ t.frames = k ∧ Over handle0 x.handle ∧
        waveOffsets h f handle0 names x ∧
        ∃ old L n s, Over handle0 old ∧ Over old x.handle ∧ L.length = 4 ∧
          d.bytes = waveHead h f L old.misc (wmarks old names) n s ++ D)
      (waveInit h handle0 names f) evs
      (by
        rw [i2]
        refine ⟨waveTrack_f f, rfl, ?_, ?_, by rw [i3]; exact Over.refl _, i4, handle0, [0, 0, 0, 0], 0, 0, Over.refl _,
          by rw [i3]; exact Over.refl _, rfl, by rw [Disk.seek_bytes, i1, List.append_nil]⟩
        all_goals
          unfold waveTrack
          split
          · rfl
          · split <;> rfl)
      (by
        rintro d t x D k bs j - ⟨hf, hfirst, hds, hfr, hO, hoff, old, L, n, s, h1, h2, hL, hd⟩
        refine ⟨hf, hfirst, by dsimp only; rw [hds]; simp, by dsimp only; rw [hfr]; simp, hO, hoff, old, L, n, s, h1, h2, hL, ?_⟩
        have hl := waveHead_length (h := h) (f := f) (L' := L) (L := [0, 0, 0, 0]) (names := names) (n := 0) (s := 0)
          (n' := n) (s' := s) hm h1 (by rw [hL]; rfl)
        have e : (t.first + t.dataSize).toNat = d.bytes.length := by
          rw [hfirst, hds, hd, List.length_append, hl, hN]; omega
        rw [e, Disk.write_end rfl]
        dsimp only [Disk.seek_bytes]
        rw [hd, List.append_assoc])
      (by
        rintro d t x D k ⟨hf, hfirst, hds, hfr, hO, hoff, old, L, n, s, h1, h2, hL, hd⟩
        obtain ⟨a, b⟩ := waveUpdate_eq (t := { t with afterData := d.pos }) hm h1 h2 hoff hL hd hf (by rw [hfirst]; exact hpos)
        rw [b]
        exact ⟨hf, hfirst, hds, hfr, hO, hoff, x.handle, _, _, _, hO, Over.refl _, fieldBytes_length _ _ _ _, a⟩)
      (by
        rintro d t x D k op x' ⟨hf, hfirst, hds, hfr, hO, hoff, old, L, n, s, h1, h2, hL, hd⟩ hc
        unfold waveCall at hc
        match hs : Meta.step x.handle op with
        | .error e => rw [hs] at hc; cases hc
        | .ok (r, h') =>
          rw [hs] at hc
          have := step_over hs
          cases hc
          exact ⟨hf, hfirst, hds, hfr, hO.trans this, hoff, old, L, n, s, h1, h2.trans this, hL, hd⟩)
      hfile
  obtain ⟨a, b⟩ := waveUpdate_eq (t := { t with afterData := d.pos }) hm h1 h2 hoff hL hd hf (by rw [hfirst]; exact hpos)
  rw [b] at hx
  subst hx
  rw [a] at he
  dsimp only at he
  refine ⟨hO, ?_⟩
  have hl := waveHead_length (h := h) (f := f) (L := L) (L' := fieldBytes h .little .s4 ((d.bytes.length : Int) - 8))
    (names := names) (n := n) (s := s) (n' := t.frames) (s' := t.dataSize) (over_sized h1.misc hm) h2
    (by rw [hL]; exact fieldBytes_length _ _ _ _)
  have : file.length = d.bytes.length := by
    have := congrArg List.length hd
    rw [List.length_append] at this
    rw [he, List.length_append, hl, this]
  rw [this, ← hds, ← hfr]
  exact he

end AF.Files
