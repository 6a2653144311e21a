import Verif.Model.Files.AIFF
import Verif.Proof.Files.FORM
/-!
# AIFF files: the bytes that are left by a session
-/
namespace AF.Files
open AF AF.Setup AF.Spec.Files AF.Meta

theorem aiffMiscTag_length (t : Int) : (aiffMiscTag t).length = 4 := by
  unfold aiffMiscTag
  repeat' split
  all_goals rfl

/-! ## The parts of the header -/

def fverPart (h : Endian) (aifc : Bool) : List Byte := if aifc then aiffFVER h else []
def markPart (h : Endian) (ms : List WMark) : List Byte := if ms.length = 0 then [] else aiffMARK h ms
def aesPart (h : Endian) : Option (List Byte) → List Byte
  | none => []
  | some b => tag "AESD" ++ fieldBytes h .big .s4 24 ++ b
def miscPart (h : Endian) (ms : List Misc) : List Byte := ms.flatMap (formEntry aiffMiscTag h)
def ssndPart (h : Endian) (size : Int) : List Byte :=
  tag "SSND" ++ fieldBytes h .big .s4 (size + 8) ++ fieldBytes h .big .s4 0 ++ fieldBytes h .big .s4 0

/-- Everything between the 12 bytes at the start and the audio data. -/
def aiffBody (h : Endian) (aifc : Bool) (t : Trk) (hd : Handle) (names : List (List Byte × List Byte)) : List Byte :=
  fverPart h aifc ++ (aiffCOMM h aifc t ++ (markPart h (wmarks hd names) ++ (aiffINST h hd ++ (aesPart h (aesOf hd) ++
    (miscPart h hd.misc ++ ssndPart h t.dataSize)))))

theorem aiffCOMM_length (h : Endian) (aifc : Bool) {t t' : Trk} (hf : t.f = t'.f) :
    (aiffCOMM h aifc t).length = (aiffCOMM h aifc t').length := by
  unfold aiffCOMM
  simp only [List.length_append, fieldBytes_length, hf]

theorem aiffMark_length (h : Endian) (m : WMark) : (aiffMark h m).length = 6 + (pString m.name).length := by
  unfold aiffMark
  simp only [List.length_append, fieldBytes_length, FieldSize.bytes]

theorem markPart_length (h : Endian) {a b : Handle} (ho : Over a b) (names : List (List Byte × List Byte)) :
    (markPart h (wmarks b names)).length = (markPart h (wmarks a names)).length := by
  have h1 := wmarks_texts ho.marks names
  generalize wmarks b names = B at *
  generalize wmarks a names = A at *
  have hl : B.length = A.length := by simpa using congrArg List.length h1
  have h2 : (B.flatMap (aiffMark h)).length = (A.flatMap (aiffMark h)).length := by
    clear hl
    induction B generalizing A with
    | nil => cases A with
      | nil => rfl
      | cons _ _ => simp at h1
    | cons b B ih => cases A with
      | nil => simp at h1
      | cons a A =>
        simp only [List.map_cons, List.cons.injEq, Prod.mk.injEq] at h1
        rw [List.flatMap_cons, List.flatMap_cons, List.length_append, List.length_append, aiffMark_length, aiffMark_length,
          h1.1.1, ih A h1.2]
  unfold markPart
  rw [hl]
  split
  · rfl
  · unfold aiffMARK
    simp only [List.length_append, fieldBytes_length, h2]

theorem aiffINST_length (h : Endian) (hd : Handle) : (aiffINST h hd).length = 28 := by
  unfold aiffINST
  simp only [List.length_append, fieldBytes_length, FieldSize.bytes]
  rfl

theorem aesOf_length {hd : Handle} {b : List Byte} (h : aesOf hd = some b) : b.length = 24 := by
  unfold aesOf at h
  split at h
  · cases h
  · split at h
    · cases h; simp
    · cases h

theorem aesOf_over {a b : Handle} (ho : Over a b) : (aesOf b).isSome = (aesOf a).isSome := by
  have := ho.aes
  unfold aesOf
  match ha : a.tracks, hb : b.tracks with
  | [], [] => rfl
  | [], _ :: _ => rw [ha, hb] at this; simp at this
  | _ :: _, [] => rw [ha, hb] at this; simp at this
  | t :: _, t' :: _ =>
    rw [ha, hb] at this
    simp only [List.map_cons, List.cons.injEq] at this
    dsimp only
    rw [this.1]
    split <;> rfl

theorem aesPart_length (h : Endian) {a b : Handle} (ho : Over a b) :
    (aesPart h (aesOf b)).length = (aesPart h (aesOf a)).length := by
  have h1 := aesOf_over ho
  match ha : aesOf a, hb : aesOf b with
  | none, none => rfl
  | none, some _ => rw [ha, hb] at h1; simp at h1
  | some _, none => rw [ha, hb] at h1; simp at h1
  | some x, some y =>
    unfold aesPart
    simp only [List.length_append, aesOf_length ha, aesOf_length hb]

theorem miscPart_length (h : Endian) {a b : Handle} (ho : Over a b) (hm : ∀ m ∈ a.misc, Sized m) :
    (miscPart h b.misc).length = (miscPart h a.misc).length := flatEntry_length aiffMiscTag_length ho.misc hm

theorem ssndPart_length (h : Endian) (n : Int) : (ssndPart h n).length = 16 := by
  unfold ssndPart
  simp only [List.length_append, fieldBytes_length, FieldSize.bytes]
  rfl

/-! ## One pass over the header -/

/-- Every place is unset or right. -/
structure AiffPlaces (h : Endian) (aifc : Bool) (t : Trk) (hd : Handle) (names : List (List Byte × List Byte)) (x : AiffObj) : Prop where
  isC : x.aifc = aifc
  texts : x.names = names
  fver : x.fver = 0 ∨ x.fver = 12
  comm : x.comm = 0 ∨ x.comm = 12 + (fverPart h aifc).length
  mark : x.mark = 0 ∨ x.mark = 12 + (fverPart h aifc).length + (aiffCOMM h aifc t).length
  aesd : x.aesd = 0 ∨ x.aesd = 12 + (fverPart h aifc).length + (aiffCOMM h aifc t).length +
    (markPart h (wmarks hd names)).length + 28
  misc : x.misc = 0 ∨ x.misc = 12 + (fverPart h aifc).length + (aiffCOMM h aifc t).length +
    (markPart h (wmarks hd names)).length + 28 + (aesPart h (aesOf hd)).length
  ssnd : x.ssnd = 0 ∨ x.ssnd = 12 + (fverPart h aifc).length + (aiffCOMM h aifc t).length +
    (markPart h (wmarks hd names)).length + 28 + (aesPart h (aesOf hd)).length + (miscPart h hd.misc).length

theorem AiffPlaces.over {h : Endian} {aifc : Bool} {t t' : Trk} {a b : Handle} {names : List (List Byte × List Byte)} {x : AiffObj}
    (hp : AiffPlaces h aifc t a names x) (ho : Over a b) (hm : ∀ m ∈ a.misc, Sized m) (hf : t'.f = t.f) :
    AiffPlaces h aifc t' b names x := by
  obtain ⟨h1, h2, h3, h4, h5, h6, h7, h8⟩ := hp
  have e1 := aiffCOMM_length h aifc hf
  have e2 := markPart_length h ho names
  have e3 := aesPart_length h ho
  have e4 := miscPart_length h ho hm
  exact ⟨h1, h2, h3, h4, by omega, by omega, by omega, by omega⟩

/-- The first chunk has its place. -/
def AiffStarted (h : Endian) (aifc : Bool) (x : AiffObj) : Prop :=
  x.aifc = aifc ∧ (aifc = true → x.fver = 12) ∧ x.comm = 12 + (fverPart h aifc).length

theorem aiff_write {h : Endian} {aifc : Bool} {t t0 : Trk} {old : Handle} {names : List (List Byte × List Byte)} {x : AiffObj}
    {d : Disk} {A Z Z' : List Byte} (hm : ∀ m ∈ old.misc, Sized m) (ho : Over old x.handle) (hf : t.f = t0.f)
    (hp : AiffPlaces h aifc t x.handle names x) (hA : A.length = 12) (hd : Stands d A Z)
    (hr : Room Z (aiffBody h aifc t0 old names) Z') :
    (aiffWrite h t x d).1.bytes = A ++ aiffBody h aifc t x.handle names ++ Z' ∧
    (aiffWrite h t x d).1.pos = (A ++ aiffBody h aifc t x.handle names).length ∧
    (aiffWrite h t x d).2.handle = x.handle ∧ AiffPlaces h aifc t x.handle names (aiffWrite h t x d).2 ∧
    AiffStarted h aifc (aiffWrite h t x d).2 := by
  obtain ⟨ac, hd0, nm, fv, cm, mk, ad, ms, sd⟩ := x
  obtain ⟨h1, h2, h3, h4, h5, h6, h7, h8⟩ := hp
  dsimp only at *
  subst h1 h2
  unfold aiffBody at hr
  obtain ⟨Z1, r1, hr⟩ := hr.split
  obtain ⟨Z2, r2, hr⟩ := hr.split
  obtain ⟨Z3, r3, hr⟩ := hr.split
  obtain ⟨Z4, r4, hr⟩ := hr.split
  obtain ⟨Z5, r5, hr⟩ := hr.split
  obtain ⟨Z6, r6, r7⟩ := hr.split
  have e2 := aiffCOMM_length h ac hf
  have e3 := markPart_length h ho nm
  have e4 := aesPart_length h ho
  -- FVER
  have s1 : ∃ d1 fv1, (fv1 = 0 ∨ fv1 = 12) ∧ (ac = true → fv1 = 12) ∧ Stands d1 (A ++ fverPart h ac) Z1 ∧
      (if ac = true then
        let (d, offset) := d.atOffset fv
        (d.write (aiffFVER h), (⟨ac, hd0, nm, offset, cm, mk, ad, ms, sd⟩ : AiffObj))
      else (d, ⟨ac, hd0, nm, fv, cm, mk, ad, ms, sd⟩)) = (d1, ⟨ac, hd0, nm, fv1, cm, mk, ad, ms, sd⟩) := by
    cases ac with
    | true =>
      rw [if_pos rfl, hd.offset (by rw [hA]; exact h3)]
      exact ⟨_, _, Or.inr hA, fun _ => hA, hd.put r1 _ rfl, rfl⟩
    | false =>
      have := r1.nil
      exact ⟨d, fv, h3, nofun, by rw [← this]; simpa [fverPart] using hd, rfl⟩
  obtain ⟨d1, fv1, hfv1, hst, s1, q1⟩ := s1
  unfold aiffWrite
  dsimp only at q1 ⊢
  rw [q1]
  dsimp only
  clear q1
  have l1 : (A ++ fverPart h ac).length = 12 + (fverPart h ac).length := by rw [List.length_append, hA]
  -- COMM
  rw [s1.offset (by rw [l1]; exact h4), l1]
  dsimp only
  have s2 := s1.put r2 (aiffCOMM h ac t) e2
  generalize d1.write (aiffCOMM h ac t) = d2 at s2 ⊢
  have l2 := List.length_append (as := A ++ fverPart h ac) (bs := aiffCOMM h ac t)
  rw [l1] at l2
  -- MARK
  have s3 : ∃ d3 mk3, (mk3 = 0 ∨ mk3 = 12 + (fverPart h ac).length + (aiffCOMM h ac t).length) ∧
      Stands d3 (A ++ fverPart h ac ++ aiffCOMM h ac t ++ markPart h (wmarks hd0 nm)) Z3 ∧
      aiffWriteMARK h ⟨ac, hd0, nm, fv1, 12 + (fverPart h ac).length, mk, ad, ms, sd⟩ d2 =
        (d3, ⟨ac, hd0, nm, fv1, 12 + (fverPart h ac).length, mk3, ad, ms, sd⟩) := by
    unfold aiffWriteMARK
    dsimp only
    by_cases hz : (wmarks hd0 nm).length = 0
    · rw [if_pos hz]
      have e0 : markPart h (wmarks hd0 nm) = [] := by rw [markPart, if_pos hz]
      rw [e0] at e3 ⊢
      have : markPart h (wmarks old nm) = [] := List.eq_nil_of_length_eq_zero e3.symm
      rw [this] at r3
      have := r3.nil
      exact ⟨d2, mk, h5, by rw [← this, List.append_nil]; exact s2, rfl⟩
    · rw [if_neg hz, s2.offset (by rw [l2]; exact h5)]
      have e0 : markPart h (wmarks hd0 nm) = aiffMARK h (wmarks hd0 nm) := by rw [markPart, if_neg hz]
      rw [e0] at e3 ⊢
      exact ⟨_, _, Or.inr l2, s2.put r3 _ e3, rfl⟩
  obtain ⟨d3, mk3, hmk3, s3, q3⟩ := s3
  rw [q3]
  dsimp only
  clear q3
  have l3 := List.length_append (as := A ++ fverPart h ac ++ aiffCOMM h ac t) (bs := markPart h (wmarks hd0 nm))
  rw [l2] at l3
  -- INST
  have s4 := s3.put r4 (aiffINST h hd0) (by rw [aiffINST_length, aiffINST_length])
  generalize d3.write (aiffINST h hd0) = d4 at s4 ⊢
  have l4 := List.length_append (as := A ++ fverPart h ac ++ aiffCOMM h ac t ++ markPart h (wmarks hd0 nm)) (bs := aiffINST h hd0)
  rw [l3, aiffINST_length] at l4
  generalize hA4 : A ++ fverPart h ac ++ aiffCOMM h ac t ++ markPart h (wmarks hd0 nm) ++ aiffINST h hd0 = A4 at *
  -- AESD
  have s5 : ∃ d5 ad5, (ad5 = 0 ∨ ad5 = 12 + (fverPart h ac).length + (aiffCOMM h ac t).length +
        (markPart h (wmarks hd0 nm)).length + 28) ∧
      Stands d5 (A4 ++ aesPart h (aesOf hd0)) Z5 ∧
      aiffWriteAESD h ⟨ac, hd0, nm, fv1, 12 + (fverPart h ac).length, mk3, ad, ms, sd⟩ d4 =
        (d5, ⟨ac, hd0, nm, fv1, 12 + (fverPart h ac).length, mk3, ad5, ms, sd⟩) := by
    unfold aiffWriteAESD
    dsimp only
    cases hz : aesOf hd0 with
    | none =>
      rw [hz] at e4
      have : aesPart h (aesOf old) = [] := List.eq_nil_of_length_eq_zero e4.symm
      rw [this] at r5
      have := r5.nil
      exact ⟨d4, ad, h6, by rw [← this]; simpa [aesPart] using s4, rfl⟩
    | some b =>
      rw [hz] at e4
      dsimp only
      rw [s4.offset (by rw [l4]; exact h6)]
      exact ⟨_, _, Or.inr l4, s4.put r5 _ e4, rfl⟩
  obtain ⟨d5, ad5, had5, s5, q5⟩ := s5
  rw [q5]
  dsimp only
  clear q5
  have l5 := List.length_append (as := A4) (bs := aesPart h (aesOf hd0))
  rw [l4] at l5
  -- misc
  unfold aiffWriteMisc
  dsimp only
  rw [s5.offset (by rw [l5]; exact h7), l5]
  have s6 := foldl_put ho.misc hm s5 r6
  dsimp only
  generalize hd0.misc.foldl (formMisc aiffMiscTag h) d5 = d6 at s6 ⊢
  have l6 : (A4 ++ aesPart h (aesOf hd0) ++ hd0.misc.flatMap (formEntry aiffMiscTag h)).length =
    12 + (fverPart h ac).length + (aiffCOMM h ac t).length + (markPart h (wmarks hd0 nm)).length + 28 +
      (aesPart h (aesOf hd0)).length + (miscPart h hd0.misc).length := by
    rw [List.length_append, l5, miscPart]
  -- SSND
  unfold aiffWriteSSND
  dsimp only
  rw [s6.offset (by rw [l6]; exact h8), l6]
  have s7 := s6.put r7 (ssndPart h t.dataSize) (by rw [ssndPart_length, ssndPart_length])
  have hb := s7.bytes (ne_of_len (by rw [ssndPart_length]; omega))
  have hpos := s7.1
  have eb : A4 ++ aesPart h (aesOf hd0) ++ hd0.misc.flatMap (formEntry aiffMiscTag h) ++ ssndPart h t.dataSize =
      A ++ aiffBody h ac t hd0 nm := by
    rw [← hA4]
    unfold aiffBody miscPart
    simp only [List.append_assoc]
  rw [eb] at hb hpos
  unfold ssndPart at hb hpos
  exact ⟨hb, hpos, rfl, ⟨rfl, rfl, hfv1, Or.inr rfl, hmk3, had5, Or.inr rfl, Or.inr rfl⟩, rfl, hst, rfl⟩

/-! ## Sessions -/

def formStart (aifc : Bool) (L : List Byte) : List Byte := tag "FORM" ++ L ++ tag (if aifc then "AIFC" else "AIFF")

theorem formStart_length (aifc : Bool) {L : List Byte} (hL : L.length = 4) : (formStart aifc L).length = 12 := by
  unfold formStart
  rw [List.length_append, List.length_append, hL]
  cases aifc <;> rfl

theorem aiffTrack_f (f : AFmt) : (aiffTrack f).f = f := by unfold aiffTrack; split <;> rfl

/-- The track once `n` frames of `k` bytes in all have been written. -/
def aiffTrackOf (f : AFmt) (n k : Int) : Trk := { aiffTrack f with frames := n, dataSize := k }

theorem aiffBody_congr (h : Endian) (aifc : Bool) {t t' : Trk} (hf : t.f = t'.f) (hp : t.fpp = t'.fpp) (hn : t.frames = t'.frames)
    (hs : t.dataSize = t'.dataSize) (hd : Handle) (names : List (List Byte × List Byte)) :
    aiffBody h aifc t hd names = aiffBody h aifc t' hd names := by
  unfold aiffBody aiffCOMM aiffFrameCount
  rw [hf, hp, hn, hs]

theorem aiffBody_length (h : Endian) (aifc : Bool) {t t' : Trk} {a b : Handle} {names : List (List Byte × List Byte)}
    (ho : Over a b) (hm : ∀ m ∈ a.misc, Sized m) (hf : t.f = t'.f) :
    (aiffBody h aifc t b names).length = (aiffBody h aifc t' a names).length := by
  unfold aiffBody
  simp only [List.length_append, aiffCOMM_length h aifc hf, markPart_length h ho names, aiffINST_length, aesPart_length h ho,
    miscPart_length h ho hm, ssndPart_length]

/-- Where the disk stands before the first chunk is of no interest when that has its place. -/
theorem aiffWrite_seek {h : Endian} {aifc : Bool} {x : AiffObj} (hx : AiffStarted h aifc x) (t : Trk) (d : Disk) :
    aiffWrite h t x d = aiffWrite h t x (d.seek 12) := by
  obtain ⟨h1, h2, h3⟩ := hx
  unfold aiffWrite
  cases aifc with
  | true =>
    have e : d.atOffset x.fver = (d.seek 12).atOffset x.fver := by rw [h2 rfl]; rfl
    rw [h1, if_pos rfl, if_pos rfl, e]
  | false =>
    have e : d.atOffset x.comm = (d.seek 12).atOffset x.comm := by rw [h3]; rfl
    rw [h1, if_neg (by decide), if_neg (by decide)]
    dsimp only
    rw [e]

theorem aiffUpdate_eq {h : Endian} {aifc : Bool} {t t0 : Trk} {old : Handle} {names : List (List Byte × List Byte)} {x : AiffObj}
    {d : Disk} {L D : List Byte} (hm : ∀ m ∈ old.misc, Sized m) (ho : Over old x.handle) (hf : t.f = t0.f)
    (hp : AiffPlaces h aifc t x.handle names x) (hst : AiffStarted h aifc x) (hL : L.length = 4)
    (hd : d.bytes = formStart aifc L ++ aiffBody h aifc t0 old names ++ D) :
    (aiffUpdate h t x d).1.bytes = formStart aifc (fieldBytes h .big .s4 ((d.bytes.length : Int) - 8)) ++
      aiffBody h aifc t x.handle names ++ D ∧
    (aiffUpdate h t x d).2.handle = x.handle ∧ AiffPlaces h aifc t x.handle names (aiffUpdate h t x d).2 ∧
    AiffStarted h aifc (aiffUpdate h t x d).2 := by
  unfold aiffUpdate
  dsimp only
  generalize hl : (d.bytes.length : Int) - 8 = len
  have h0 : d.bytes = tag "FORM" ++ (L ++ (tag (if aifc then "AIFC" else "AIFF") ++ (aiffBody h aifc t0 old names ++ D))) := by
    rw [hd]; unfold formStart; simp only [List.append_assoc]
  have s1 := Stands.of_bytes h0 (n := 4) rfl
  have s2 := s1.put (Or.inr rfl) (fieldBytes h .big .s4 len) (by rw [fieldBytes_length, hL, b4])
  have b2 := s2.bytes (ne_of_len (by rw [fieldBytes_length]; decide))
  generalize (d.seek 4).write (fieldBytes h .big .s4 len) = d2 at b2
  have hA : (formStart aifc (fieldBytes h .big .s4 len)).length = 12 :=
    formStart_length _ (by rw [fieldBytes_length, b4])
  rw [aiffWrite_seek hst]
  have b3 : d2.bytes = formStart aifc (fieldBytes h .big .s4 len) ++ (aiffBody h aifc t0 old names ++ D) := by
    rw [b2]; unfold formStart; simp only [List.append_assoc]
  have s3 := Stands.of_bytes b3 (n := 12) hA.symm
  obtain ⟨c1, -, c2, c3, c4⟩ := aiff_write hm ho hf hp hA s3 (Or.inr rfl)
  exact ⟨c1, c2, c3, c4⟩

theorem aiffInit_eq (h : Endian) (aifc : Bool) (handle : Handle) (names : List (List Byte × List Byte)) (f : AFmt)
    (hm : ∀ m ∈ handle.misc, Sized m) :
    (aiffInit h aifc handle names f).1.bytes =
      formStart aifc (fieldBytes h .big .s4 0) ++ aiffBody h aifc (aiffTrack f) handle names ∧
    (aiffInit h aifc handle names f).2.1 = { aiffTrack f with
      first := ((formStart aifc (fieldBytes h .big .s4 0) ++ aiffBody h aifc (aiffTrack f) handle names).length : Nat) } ∧
    (aiffInit h aifc handle names f).2.2.handle = handle ∧
    AiffPlaces h aifc (aiffTrack f) handle names (aiffInit h aifc handle names f).2.2 ∧
    AiffStarted h aifc (aiffInit h aifc handle names f).2.2 := by
  unfold aiffInit
  dsimp only
  have hA : (formStart aifc (fieldBytes h .big .s4 0)).length = 12 := formStart_length _ (by rw [fieldBytes_length, b4])
  have s0 := Stands.nil.write (formStart aifc (fieldBytes h .big .s4 0))
  rw [List.nil_append, List.drop_nil] at s0
  have e : tag "FORM" ++ fieldBytes h .big .s4 0 ++ tag (if aifc then "AIFC" else "AIFF") =
    formStart aifc (fieldBytes h .big .s4 0) := rfl
  rw [e]
  obtain ⟨c1, c2, c3, c4, c5⟩ := aiff_write (aifc := aifc) (t := aiffTrack f) (t0 := aiffTrack f) (old := handle) (names := names)
    (x := ⟨aifc, handle, names, 0, 0, 0, 0, 0, 0⟩) hm (Over.refl _) rfl
    ⟨rfl, rfl, Or.inl rfl, Or.inl rfl, Or.inl rfl, Or.inl rfl, Or.inl rfl, Or.inl rfl⟩ hA s0 (Or.inl ⟨rfl, rfl⟩)
  dsimp only at c1 c2 c3 c4 c5
  rw [List.append_nil] at c1
  exact ⟨c1, by rw [c2], c3, c4, c5⟩

theorem over_sized' {a b : Handle} (ho : Over a b) (hm : ∀ m ∈ a.misc, Sized m) : ∀ m ∈ b.misc, Sized m :=
  over_sized ho.misc hm

/-- The file that a session leaves. -/
theorem aiff_file (h : Endian) (aifc : Bool) (handle0 : Handle) (names : List (List Byte × List Byte)) (f : AFmt)
    (hm : ∀ m ∈ handle0.misc, Sized m) (evs : List MEv) {file : List Byte} {x : AiffObj}
    (hfile : msession (aiffUpdate h) aiffCall (aiffInit h aifc handle0 names f) evs = .ok (file, x)) :
    Over handle0 x.handle ∧ file = formStart aifc (fieldBytes h .big .s4 ((file.length : Int) - 8)) ++
      aiffBody h aifc (aiffTrackOf f (framesOfM evs) (dataOfM evs).length) x.handle names ++ dataOfM evs := by
  obtain ⟨i1, i2, i3, i4, i5⟩ := aiffInit_eq h aifc handle0 names f hm
  have hL0 : (fieldBytes h .big .s4 0).length = 4 := by rw [fieldBytes_length, b4]
  have hN : (formStart aifc (fieldBytes h .big .s4 0) ++ aiffBody h aifc (aiffTrack f) handle0 names).length =
      12 + (aiffBody h aifc (aiffTrack f) handle0 names).length := by rw [List.length_append, formStart_length _ hL0]
  rw [hN] at i2
  obtain ⟨d, t, y, ⟨hf, hfpp, hfirst, hds, hfr, hO, hpl, hst, old, L, t0, h1, h2, hL, ht0, hd⟩, he, hx⟩ :=
    msession_induct (aiffUpdate h) aiffCall
      (fun d t x D k => t.f = f ∧ t.fpp = (aiffTrack f).fpp ∧
        t.first = (12 + (aiffBody h aifc (aiffTrack f) handle0 names).length : Nat) ∧ t.dataSize = D.length ∧
        t.frames = k ∧ Over handle0 x.handle ∧ AiffPlaces h aifc (aiffTrack f) handle0 names x ∧ AiffStarted h aifc x ∧
        ∃ old L t0, Over handle0 old ∧ Over old x.handle ∧ L.length = 4 ∧ t0.f = f ∧
          d.bytes = formStart aifc L ++ aiffBody h aifc t0 old names ++ D)
      (aiffInit h aifc handle0 names f) evs
      (by
        rw [i2]
        refine ⟨aiffTrack_f f, rfl, rfl, ?_, ?_, by rw [i3]; exact Over.refl _, i4, i5, handle0, fieldBytes h .big .s4 0, aiffTrack f,
          Over.refl _, by rw [i3]; exact Over.refl _, hL0, aiffTrack_f f, by rw [Disk.seek_bytes, i1, List.append_nil]⟩
        all_goals
          unfold aiffTrack
          split <;> rfl)
      (by
        rintro d t x D k bs j - ⟨hf, hfpp, hfirst, hds, hfr, hO, hpl, hst, old, L, t0, h1, h2, hL, ht0, hd⟩
        refine ⟨hf, hfpp, hfirst, by dsimp only; rw [hds]; simp, by dsimp only; rw [hfr]; simp, hO, hpl, hst, old, L, t0, h1, h2,
          hL, ht0, ?_⟩
        have hl := aiffBody_length h aifc (t := t0) (t' := aiffTrack f) (names := names) h1 hm (by rw [ht0, aiffTrack_f])
        have e : (t.first + t.dataSize).toNat = d.bytes.length := by
          rw [hfirst, hds, hd, List.length_append, List.length_append, formStart_length _ hL, hl]; omega
        rw [e, Disk.write_end rfl]
        dsimp only [Disk.seek_bytes]
        rw [hd, List.append_assoc])
      (by
        rintro d t x D k ⟨hf, hfpp, hfirst, hds, hfr, hO, hpl, hst, old, L, t0, h1, h2, hL, ht0, hd⟩
        obtain ⟨c1, c2, c3, c4⟩ := aiffUpdate_eq (t := { t with afterData := d.pos }) (over_sized' h1 hm) h2 (by rw [ht0]; exact hf)
          (hpl.over hO hm (by rw [aiffTrack_f]; exact hf)) hst hL hd
        refine ⟨hf, hfpp, hfirst, hds, hfr, by rw [c2]; exact hO, ?_, c4, x.handle, _, _, hO, by rw [c2]; exact Over.refl _,
          by rw [fieldBytes_length, b4], hf, c1⟩
        have e1 := aiffCOMM_length h aifc (t := { t with afterData := d.pos }) (t' := aiffTrack f) (by rw [aiffTrack_f]; exact hf)
        have e2 := markPart_length h hO names
        have e3 := aesPart_length h hO
        have e4 := miscPart_length h hO hm
        obtain ⟨h1, h2, h3, h4, h5, h6, h7, h8⟩ := c3
        exact ⟨h1, h2, h3, h4, by omega, by omega, by omega, by omega⟩)
      (by
        rintro d t x D k op x' ⟨hf, hfpp, hfirst, hds, hfr, hO, hpl, hst, old, L, t0, h1, h2, hL, ht0, hd⟩ hc
        unfold aiffCall at hc
        match hs : Meta.step x.handle op with
        | .error e => rw [hs] at hc; cases hc
        | .ok (r, hd') =>
          rw [hs] at hc
          cases hc
          have ho := step_over hs
          obtain ⟨g1, g2, g3, g4, g5, g6, g7, g8⟩ := hpl
          exact ⟨hf, hfpp, hfirst, hds, hfr, hO.trans ho, ⟨g1, g2, g3, g4, g5, g6, g7, g8⟩, hst, old, L, t0, h1, h2.trans ho, hL, ht0, hd⟩)
      hfile
  obtain ⟨c1, c2, c3, c4⟩ := aiffUpdate_eq (t := { t with afterData := d.pos }) (over_sized' h1 hm) h2 (by rw [ht0]; exact hf)
    (hpl.over hO hm (by rw [aiffTrack_f]; exact hf)) hst hL hd
  rw [← he] at c1
  rw [← hx] at c2
  refine ⟨by rw [c2]; exact hO, ?_⟩
  have hlen : file.length = d.bytes.length := by
    rw [c1, hd]
    simp only [List.length_append]
    rw [formStart_length _ hL, formStart_length _ (by rw [fieldBytes_length, b4]),
      aiffBody_length h aifc (t := { t with afterData := d.pos }) (t' := t0) h2 (over_sized' h1 hm) (by rw [ht0]; exact hf)]
  rw [hlen, c2, ← aiffBody_congr h aifc (t := { t with afterData := d.pos })
    (t' := aiffTrackOf f (framesOfM evs) (dataOfM evs).length) (by
    show t.f = (aiffTrack f).f
    rw [aiffTrack_f]; exact hf) hfpp hfr hds]
  exact c1

end AF.Files
