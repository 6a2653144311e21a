import Verif.Proof.Files.AIFFRead
/-!
# AIFF files: the chunk walk
-/
namespace AF.Files
open AF AF.Setup AF.Spec AF.Spec.Files AF.Meta AF.Convert

/-- A chunk with its padding. -/
theorem form_part {σ : Type} {chunk : List Byte → Nat → σ → Rd σ} {h h' : Endian} {size : Nat} {file : List Byte}
    {i p q : Nat} {x x' : σ} {id body rest P : List Byte} {sz : Nat}
    (hp : p = i + 8) (hev : i % 2 = 0) (hlt : i < size) (he : file.drop p = P ++ rest)
    (hP : P = id ++ (fieldBytes h .big .s4 sz ++ body)) (hid : id.length = 4) (hl : P.length = 8 + sz + sz % 2)
    (hb : sz + 8 < 2 ^ 32) (hc : chunk id sz x file (p + 8) = .ok (x', q)) :
    FWalk chunk h' size file 1 (i, x) p (i + P.length, x') (p + P.length) := by
  rw [hl]
  refine form_chunk (h := h) (id := id) (rest := body ++ rest) hp hlt ?_ hid hev hb hc
  rw [he, hP, List.append_assoc, List.append_assoc]

section
variable {rnd : Rat → Dbl} {h h' : Endian} {aifc : Bool} {size : Nat} {file : List Byte} {i p : Nat} {s : AiffRead}

theorem walk_fver {rest : List Byte} (hp : p = i + 8) (hev : i % 2 = 0) (hlt : i < size)
    (he : file.drop p = fverPart h aifc ++ rest) :
    ∃ k, k ≤ 1 ∧ FWalk (aiffChunk rnd h' aifc) h' size file k (i, s) p (i + (fverPart h aifc).length, s) (p + (fverPart h aifc).length) := by
  cases aifc with
  | false => exact ⟨0, by omega, FWalk.refl _ _⟩
  | true =>
    refine ⟨1, by omega, ?_⟩
    have hP : fverPart h true = tag "FVER" ++ (fieldBytes h .big .s4 ((4 : Nat) : Int) ++ fieldBytes h .big .s4 0xa2805140) := by
      show aiffFVER h = _
      unfold aiffFVER
      rw [List.append_assoc]; rfl
    have e2 : file.drop (p + 8) = fieldBytes h .big .s4 0xa2805140 ++ rest := by
      rw [hP] at he
      simp only [List.append_assoc] at he
      have := fb _ _ _ _ (drop_step he (n := 4) rfl)
      rw [b4, Nat.add_assoc] at this
      exact this
    refine form_part hp hev hlt he hP rfl ?_ (by decide) (x := s) (x' := s) (q := p + 8 + FieldSize.s4.bytes) ?_
    · rw [hP, List.length_append, List.length_append, fieldBytes_length, fieldBytes_length]; rfl
    · show (do let _ ← Rd.field? h' .big .s4; return s : Rd AiffRead) file (p + 8) = _
      rw [Rd.bind_ok (Rd.field_ok e2).1]
      rfl

theorem aiffCOMM_size (h : Endian) (aifc : Bool) (t : Trk) :
    ∃ (sz : Nat) (B : List Byte), aiffCOMM h aifc t = tag "COMM" ++ (fieldBytes h .big .s4 sz ++ B) ∧ sz < 300 ∧
      (((Extended.encode (.fin t.f.rate)).length = 10) → (aiffCOMM h aifc t).length = 8 + sz + sz % 2) := by
  refine ⟨if aifc then 22 + (aiffCompression t.f).2.length + 1 else 18,
    fieldBytes h .big .s2 t.f.channels ++ (fieldBytes h .big .s4 (aiffFrameCount t) ++ (fieldBytes h .big .s2 t.f.sampleWidth ++
      (Extended.encode (.fin t.f.rate) ++ if aifc then (aiffCompression t.f).1 ++ pString (aiffCompression t.f).2 else []))), ?_, ?_, ?_⟩
  · unfold aiffCOMM
    rw [List.append_assoc, List.append_assoc, List.append_assoc, List.append_assoc, List.append_assoc]
    cases aifc <;> rfl
  · have := (aiffCompression_lengths t.f).2
    split <;> omega
  · intro hr
    obtain ⟨h1, h2⟩ := aiffCompression_lengths t.f
    have e1 : (tag "COMM").length = 4 := rfl
    unfold aiffCOMM
    simp only [List.length_append, fieldBytes_length, hr, e1]
    rw [b2, b4]
    cases aifc with
    | false => simp
    | true =>
      simp only [if_true, List.length_append, h1, pString_length h2]
      omega

theorem walk_comm (hrnd : ExactOnDoubles rnd) {t : Trk} (hf : AiffFormat aifc t.f)
    (hn : 0 ≤ aiffFrameCount t) (hn' : aiffFrameCount t < 2 ^ 32) {rest : List Byte} (hp : p = i + 8) (hev : i % 2 = 0) (hlt : i < size)
    (he : file.drop p = aiffCOMM h aifc t ++ rest) :
    ∃ t', CommRead t.f (aiffFrameCount t) t' ∧ t'.first = s.t.first ∧ t'.dataSize = s.t.dataSize ∧
      FWalk (aiffChunk rnd h' aifc) h' size file 1 (i, s) p (i + (aiffCOMM h aifc t).length, { s with hasCOMM := true, t := t' })
        (p + (aiffCOMM h aifc t).length) := by
  obtain ⟨t', q, c1, c2, c3, c4⟩ := comm_chunk rnd hrnd h h' hf hn hn' s he
  obtain ⟨sz, B, b1, b2, b3⟩ := aiffCOMM_size h aifc t
  refine ⟨t', c2, c3, c4, ?_⟩
  exact form_part hp hev hlt he b1 rfl (b3 (AF.Props.C24_rate_roundtrip rnd hrnd t.f.rate hf.rate).1) (by omega) c1

theorem aiffMark_even (h : Endian) {m : WMark} (hm : AMarkOK m) : (aiffMark h m).length % 2 = 0 := by
  rw [aiffMark_length, pString_length hm.name]; omega

theorem walk_mark {ms : List WMark} (hm : ∀ m ∈ ms, AMarkOK m) (hcnt : ms.length < 2 ^ 16) (hs : s.markers = []) {rest : List Byte}
    (hp : p = i + 8) (hev : i % 2 = 0) (hlt : i < size)
    (hb : (markPart h ms).length < 2 ^ 32) (he : file.drop p = markPart h ms ++ rest) :
    ∃ k, k ≤ 1 ∧ FWalk (aiffChunk rnd h' aifc) h' size file k (i, s) p
      (i + (markPart h ms).length, { s with markers := ms.map amarkRead }) (p + (markPart h ms).length) := by
  by_cases hz : ms.length = 0
  · obtain rfl := List.eq_nil_of_length_eq_zero hz
    refine ⟨0, by omega, ?_⟩
    have e : { s with markers := ([] : List WMark).map amarkRead } = s := by cases s; simp only at hs; subst hs; rfl
    rw [e]
    exact FWalk.refl _ _
  · refine ⟨1, by omega, ?_⟩
    have hE := congrArg List.length he
    generalize hbody : fieldBytes h .big .s2 ms.length ++ ms.flatMap (aiffMark h) = body
    have hP : markPart h ms = tag "MARK" ++ (fieldBytes h .big .s4 (body.length : Nat) ++ body) := by
      unfold markPart
      rw [if_neg hz]
      unfold aiffMARK
      dsimp only
      rw [hbody, List.append_assoc]
    have hev2 : body.length % 2 = 0 := by
      have : (ms.flatMap (aiffMark h)).length % 2 = 0 := by
        clear hz hE hbody hP hcnt he hb
        induction ms with
        | nil => rfl
        | cons a l ih =>
          have h1 := aiffMark_even h (hm a (by simp))
          have h2 := ih (fun x hx => hm x (by simp [hx]))
          rw [List.flatMap_cons, List.length_append]
          omega
      rw [← hbody, List.length_append, fieldBytes_length, b2]
      omega
    have hPl : (markPart h ms).length = 8 + body.length := by
      rw [hP, List.length_append, List.length_append, fieldBytes_length, b4]
      show 4 + _ = _
      omega
    rw [List.length_drop, List.length_append, hPl] at hE
    have e2 : file.drop (p + 8) = fieldBytes h .big .s2 ms.length ++ (ms.flatMap (aiffMark h) ++ rest) := by
      rw [hP] at he
      simp only [List.append_assoc] at he
      have := fb _ _ _ _ (drop_step he (n := 4) rfl)
      rw [b4, Nat.add_assoc, ← hbody, List.append_assoc] at this
      exact this
    obtain ⟨q, hq⟩ := mark_chunk h h' ms hm hcnt s e2
    exact form_part hp hev hlt he hP rfl (by omega) (by omega) hq

theorem walk_inst {hd : Handle} {rest : List Byte} (hp : p = i + 8) (hev : i % 2 = 0) (hlt : i < size)
    (he : file.drop p = aiffINST h hd ++ rest) :
    FWalk (aiffChunk rnd h' aifc) h' size file 1 (i, s) p
      (i + (aiffINST h hd).length, { s with inst := some (instRead hd) }) (p + (aiffINST h hd).length) := by
  obtain ⟨q, hq⟩ := inst_reads h h' hd s he
  obtain ⟨B, hB⟩ : ∃ B, aiffINST h hd = tag "INST" ++ (fieldBytes h .big .s4 ((20 : Nat) : Int) ++ B) := by
    unfold aiffINST
    simp only [List.append_assoc]
    exact ⟨_, rfl⟩
  exact form_part hp hev hlt he hB rfl (by rw [aiffINST_length]) (by decide) hq

theorem walk_aes {a : Option (List Byte)} (ha : ∀ b, a = some b → b.length = 24) {rest : List Byte} (hp : p = i + 8)
    (hev : i % 2 = 0) (hlt : i < size) (hs : s.aes = none) (he : file.drop p = aesPart h a ++ rest) :
    ∃ k, k ≤ 1 ∧ FWalk (aiffChunk rnd h' aifc) h' size file k (i, s) p
      (i + (aesPart h a).length, { s with aes := a }) (p + (aesPart h a).length) := by
  cases a with
  | none =>
    refine ⟨0, by omega, ?_⟩
    have e : { s with aes := none } = s := by cases s; simp only at hs; subst hs; rfl
    rw [e]
    exact FWalk.refl _ _
  | some b =>
    refine ⟨1, by omega, ?_⟩
    have hb := ha b rfl
    have hP : aesPart h (some b) = tag "AESD" ++ (fieldBytes h .big .s4 ((24 : Nat) : Int) ++ b) := by
      show tag "AESD" ++ fieldBytes h .big .s4 24 ++ b = _
      rw [List.append_assoc]; rfl
    have e2 : file.drop (p + 8) = b ++ rest := by
      rw [hP] at he
      simp only [List.append_assoc] at he
      have := fb _ _ _ _ (drop_step he (n := 4) rfl)
      rw [b4, Nat.add_assoc] at this
      exact this
    refine form_part hp hev hlt he hP rfl ?_ (by decide) (x := s) (x' := { s with aes := some b }) (q := p + 8 + 24) ?_
    · rw [hP, List.length_append, List.length_append, fieldBytes_length, hb]; rfl
    · show aiffParseAESD s file (p + 8) = _
      unfold aiffParseAESD
      rw [Rd.bind_ok (Rd.read_ok e2 hb), if_pos hb]
      rfl

/-! ## Miscellaneous data -/

/-- What reading one item does: an item of size 0 is dropped. -/
def miscRead1 (acc : List Misc) (m : Misc) : List Misc :=
  if m.size = 0 then acc else acc ++ [⟨acc.length + 1, m.type, m.size, some (miscFill m), 0⟩]

structure AMiscOK (types : List Int) (m : Misc) : Prop extends Sized m where
  small : m.size < 2 ^ 31
  known : m.type ∈ types

theorem formParse_ok {type : Int} {m : Misc} (hm : Sized m) (hs : m.size < 2 ^ 31) (ht : m.type = type) (acc : List Misc)
    {rest : List Byte} (he : file.drop p = miscFill m ++ rest) :
    ∃ q, formParseMisc type m.size.toNat acc file p = .ok (miscRead1 acc m, q) := by
  have h0 := hm.size
  have hl := hm.fill
  unfold formParseMisc miscRead1
  by_cases hz : m.size = 0
  · rw [if_pos (by omega), if_pos hz]
    exact ⟨_, rfl⟩
  · rw [if_neg (by omega), if_neg hz, Rd.bind_ok (Rd.read_ok he (by omega))]
    have e : wrapS 32 ((m.size.toNat : Nat) : Int) = m.size := by
      rw [show ((m.size.toNat : Nat) : Int) = m.size by omega]
      exact wrapS_id (n := 32) (by omega) (by omega)
    rw [e, ht]
    exact ⟨_, rfl⟩

def aiffTypes : List Int := [201, 202, 203, 204, 205, 206]

theorem aiffChunk_misc {type : Int} (ht : type ∈ aiffTypes) (sz : Nat) :
    aiffChunk rnd h' aifc (aiffMiscTag type) sz s =
      (do let ms ← formParseMisc type sz s.misc; return { s with misc := ms }) := by
  simp only [aiffTypes, List.mem_cons, List.not_mem_nil, or_false] at ht
  rcases ht with rfl | rfl | rfl | rfl | rfl | rfl <;> rfl

theorem walk_misc1 {m : Misc} (hm : AMiscOK aiffTypes m) {rest : List Byte} (hp : p = i + 8) (hev : i % 2 = 0) (hlt : i < size)
    (he : file.drop p = formEntry aiffMiscTag h m ++ rest) :
    FWalk (aiffChunk rnd h' aifc) h' size file 1 (i, s) p
      (i + (formEntry aiffMiscTag h m).length, { s with misc := miscRead1 s.misc m }) (p + (formEntry aiffMiscTag h m).length) := by
  have hl := formEntry_length aiffMiscTag_length h hm.toSized
  have h0 := hm.size
  have h1 := hm.small
  have hP : formEntry aiffMiscTag h m = aiffMiscTag m.type ++ (fieldBytes h .big .s4 ((m.size.toNat : Nat) : Int) ++ (miscFill m ++ padOf m.size)) := by
    unfold formEntry
    rw [show ((m.size.toNat : Nat) : Int) = m.size by omega, List.append_assoc]
  have e2 : file.drop (p + 8) = miscFill m ++ (padOf m.size ++ rest) := by
    rw [hP] at he
    simp only [List.append_assoc] at he
    have := fb _ _ _ _ (drop_step he (aiffMiscTag_length _))
    rw [b4, Nat.add_assoc] at this
    exact this
  obtain ⟨q, hq⟩ := formParse_ok hm.toSized hm.small rfl s.misc e2
  refine form_part (q := q) hp hev hlt he hP (aiffMiscTag_length _) (by omega) (by omega) ?_
  rw [aiffChunk_misc hm.known, Rd.bind_ok hq]
  rfl

theorem walk_misc {ms : List Misc} (hm : ∀ m ∈ ms, AMiscOK aiffTypes m) {rest : List Byte} (hp : p = i + 8) (hev : i % 2 = 0)
    (hlt : i + (miscPart h ms).length ≤ size) (he : file.drop p = miscPart h ms ++ rest) :
    FWalk (aiffChunk rnd h' aifc) h' size file ms.length (i, s) p
      (i + (miscPart h ms).length, { s with misc := ms.foldl miscRead1 s.misc }) (p + (miscPart h ms).length) := by
  induction ms generalizing i p s with
  | nil => exact FWalk.refl _ _
  | cons m ms ih =>
    unfold miscPart at he hlt ⊢
    rw [List.flatMap_cons] at he hlt ⊢
    rw [List.length_append] at hlt ⊢
    rw [List.append_assoc] at he
    have hl := formEntry_length aiffMiscTag_length h (hm m (by simp)).toSized
    have h0 := (hm m (by simp)).size
    have w1 := walk_misc1 (rnd := rnd) (h' := h') (aifc := aifc) (s := s) (size := size) (hm m (by simp)) hp hev (by omega) he
    have w2 := ih (i := i + (formEntry aiffMiscTag h m).length) (p := p + (formEntry aiffMiscTag h m).length)
      (s := { s with misc := miscRead1 s.misc m }) (fun x hx => hm x (by simp [hx])) (by omega) (by omega)
      (by unfold miscPart; omega) (drop_step he rfl)
    have w3 := w1.trans w2
    rw [show 1 + ms.length = (m :: ms).length by rw [List.length_cons]; omega] at w3
    simpa only [Nat.add_assoc, List.foldl_cons, miscPart] using w3

/-! ## SSND -/

theorem walk_ssnd {n : Nat} (hs : s.hasSSND = false) {D : List Byte} (hp : p = i + 8) (hev : i % 2 = 0) (hlt : i < size)
    (hb : n + 16 < 2 ^ 32) (he : file.drop p = ssndPart h n ++ D) :
    FWalk (aiffChunk rnd h' aifc) h' size file 1 (i, s) p (i + (8 + (n + 8) + (n + 8) % 2),
      { s with hasSSND := true, t := { s.t with dataSize := n, first := ((p + 16 : Nat) : Int) } }) (p + (8 + (n + 8) + (n + 8) % 2)) := by
  unfold ssndPart at he
  simp only [List.append_assoc] at he
  have e1 := drop_step he (n := 4) rfl
  have e2 := fb _ _ _ _ e1
  have e3 := fb _ _ _ _ e2
  rw [b4] at e2 e3
  refine form_chunk (h := h) (id := tag "SSND") (sz := n + 8) (q := p + 16) hp hlt (by rw [he]; rfl) rfl hev (by omega) ?_
  have hc : aiffChunk rnd h' aifc (tag "SSND") (n + 8) s = if s.hasSSND then Rd.fail else aiffParseSSND h' (n + 8) s := rfl
  rw [hc, hs, if_neg (by decide)]
  unfold aiffParseSSND
  rw [show p + 8 = p + 4 + 4 by omega, Rd.bind_ok (Rd.field_ok e2).2, b4, Rd.bind_ok (Rd.field_ok e3).1, b4]
  have q0 : ((0 : Int) % 256 ^ 4).toNat = 0 := rfl
  rw [q0]
  show Except.ok (_, _) = _
  have : ((n + 8 : Nat) : Int) - 8 - ((0 : Nat) : Int) = n := by omega
  have e4 : (((p + 4 + 4 + 4 + 4 : Nat) : Int) + ((0 : Nat) : Int)) = ((p + 16 : Nat) : Int) := by omega
  rw [this, e4]
end

/-! ## The whole file -/

/-- What opening reports for a header that the library wrote. -/
structure AiffReport (f : AFmt) (hd : Handle) (marks : List WMark) (n : Int) (D T file : List Byte) (s : AiffRead) : Prop where
  comm : CommRead f n s.t
  markers : s.markers = marks.map amarkRead
  misc : s.misc = hd.misc.foldl miscRead1 []
  inst : s.inst = some (instRead hd)
  aes : s.aes = aesOf hd
  first : 0 ≤ s.t.first
  size : s.t.dataSize = D.length
  audio : file.drop s.t.first.toNat = D ++ T

theorem CommRead.congr {f : AFmt} {n : Int} {t t' : Trk} (h : CommRead f n t) (h1 : t'.f = t.f) (h2 : t'.fpp = t.fpp) (h3 : t'.bpp = t.bpp)
    (h4 : t'.frames = t.frames) : CommRead f n t' := by
  obtain ⟨a, b, c, d, e, f, g, i⟩ := h
  constructor
  all_goals first | rw [h1]; assumption | rw [h2]; assumption | rw [h3]; assumption | rw [h4]; assumption

theorem aiff_report {rnd : Rat → Dbl} (hrnd : ExactOnDoubles rnd) (h h' : Endian) {aifc : Bool} {f : AFmt} (hf : AiffFormat aifc f)
    {hd : Handle} {names : List (List Byte × List Byte)} {n : Nat} {D T file : List Byte}
    (hmisc : ∀ m ∈ hd.misc, AMiscOK aiffTypes m) (hmark : ∀ m ∈ wmarks hd names, AMarkOK m) (hcnt : (wmarks hd names).length < 2 ^ 16)
    (hn : n < 2 ^ 32) (hb : file.length - T.length + 1 < 2 ^ 32)
    (hfile : file = formStart aifc (fieldBytes h .big .s4 ((file.length : Int) - T.length - 8)) ++
      aiffBody h aifc (aiffTrackOf f n D.length) hd names ++ (D ++ T))
    {fuel : Nat} (hfuel : 7 + hd.misc.length ≤ fuel) :
    ∃ s p, aiffRead rnd h' fuel file 0 = .ok (s, p) ∧
      AiffReport f hd (wmarks hd names) (aiffFrameCount (aiffTrackOf f n D.length)) D T file s := by
  generalize hL : (file.length : Int) - T.length - 8 = L at hfile
  have hd0 : file.drop 0 = tag "FORM" ++ (fieldBytes h .big .s4 L ++ (tag (if aifc then "AIFC" else "AIFF") ++
      (aiffBody h aifc (aiffTrackOf f n D.length) hd names ++ (D ++ T)))) := by
    rw [List.drop_zero]
    refine hfile.trans ?_
    unfold formStart
    simp only [List.append_assoc]
  have htag : (tag (if aifc then "AIFC" else "AIFF")).length = 4 := by cases aifc <;> rfl
  have hd1 := drop_step hd0 (n := 4) rfl
  have hd2 := fb _ _ _ _ hd1
  have hd3 := drop_step hd2 htag
  rw [b4] at hd2 hd3
  rw [show 0 + 4 + 4 + 4 = 12 by omega] at hd3
  rw [show 0 + 4 + 4 = 8 by omega] at hd2
  have hlen := congrArg List.length hd3
  rw [List.length_append, List.length_drop, List.length_append] at hlen
  have hbl : 0 < (aiffBody h aifc (aiffTrackOf f n D.length) hd names).length := by
    unfold aiffBody
    simp only [List.length_append, ssndPart_length]
    omega
  have q0 : (L % 256 ^ FieldSize.s4.bytes).toNat = file.length - T.length - 8 := by rw [p4]; omega
  generalize ht : aiffTrackOf f n D.length = t at *
  have htf : t.f = f := by rw [← ht]; exact aiffTrack_f f
  have htd : t.dataSize = D.length := by rw [← ht]; rfl
  have hcount : 0 ≤ aiffFrameCount t ∧ aiffFrameCount t < 2 ^ 32 := by
    have h1 : t.frames = n := by rw [← ht]; rfl
    have h2 : t.f.compression = 519 → t.fpp = 64 := by
      rw [htf]; intro h; rw [← ht]; unfold aiffTrackOf aiffTrack; rw [if_pos h]
    unfold aiffFrameCount
    rw [h1]
    split
    · rename_i hc
      rw [h2 hc]
      rw [Int.tdiv_eq_ediv_of_nonneg (by omega)]
      omega
    · omega
  have hft : AiffFormat aifc t.f := by rw [htf]; exact hf
  generalize hS0 : AiffRead.mk false false
    (Trk.ofFormat ⟨0, 0, 0, 0, ⟨0, 0, 0, 0⟩, 0, 0⟩) [] [] none none = S0
  -- the walk
  unfold aiffBody at hd3 hlen
  simp only [List.length_append, ssndPart_length, aiffINST_length] at hlen
  simp only [List.append_assoc] at hd3
  have r1 : (fverPart h aifc).length % 2 = 0 := by
    cases aifc with
    | true => unfold fverPart aiffFVER; simp only [if_true, List.length_append, fieldBytes_length]; rfl
    | false => rfl
  have r2 : (aiffCOMM h aifc t).length % 2 = 0 := by
    obtain ⟨sz, B, b1, b2, b3⟩ := aiffCOMM_size h aifc t
    have := b3 (AF.Props.C24_rate_roundtrip rnd hrnd t.f.rate hft.rate).1
    omega
  have r3 : (markPart h (wmarks hd names)).length % 2 = 0 := by
    unfold markPart
    split
    · rfl
    · unfold aiffMARK
      have : ((wmarks hd names).flatMap (aiffMark h)).length % 2 = 0 := by
        generalize wmarks hd names = ms at hmark
        clear hcnt
        induction ms with
        | nil => rfl
        | cons a l ih =>
          have h1 := aiffMark_even h (hmark a (by simp))
          have h2 := ih (fun x hx => hmark x (by simp [hx]))
          rw [List.flatMap_cons, List.length_append]
          omega
      have e1 : (tag "MARK").length = 4 := rfl
      simp only [List.length_append, fieldBytes_length, e1]
      rw [b4, b2]
      omega
  have r5 : (aesPart h (aesOf hd)).length % 2 = 0 := by
    cases ha : aesOf hd with
    | none => rfl
    | some b =>
      have := aesOf_length ha
      have e1 : (tag "AESD").length = 4 := rfl
      show (tag "AESD" ++ fieldBytes h .big .s4 24 ++ b).length % 2 = 0
      rw [List.length_append, List.length_append, fieldBytes_length, e1, this]
      rfl
  have r6 : (miscPart h hd.misc).length % 2 = 0 := by
    unfold miscPart
    generalize hd.misc = ms at hmisc
    clear hfuel
    induction ms with
    | nil => rfl
    | cons a l ih =>
      have h1 := formEntry_length aiffMiscTag_length h (hmisc a (by simp)).toSized
      have h0 := (hmisc a (by simp)).size
      have h2 := ih (fun x hx => hmisc x (by simp [hx]))
      rw [List.flatMap_cons, List.length_append]
      omega
  obtain ⟨k1, hk1, w1⟩ := walk_fver (rnd := rnd) (h' := h') (s := S0) (size := file.length - T.length - 8) (i := 4) rfl rfl (by omega) hd3
  have d1 := drop_step hd3 rfl
  obtain ⟨t1, c1, c2, c3, w2⟩ := walk_comm (h' := h') (s := S0) (size := file.length - T.length - 8) (i := 4 + (fverPart h aifc).length) hrnd hft hcount.1 hcount.2
    (by omega) (by omega) (by omega) d1
  have d2 := drop_step d1 rfl
  have ew := w1.trans w2
  generalize hS1 : { S0 with hasCOMM := true, t := t1 } = S1 at ew
  obtain ⟨k3, hk3, w3⟩ := walk_mark (rnd := rnd) (h' := h') (aifc := aifc) (s := S1) (size := file.length - T.length - 8)
    (i := 4 + (fverPart h aifc).length + (aiffCOMM h aifc t).length) hmark hcnt (by rw [← hS1, ← hS0]) (by omega) (by omega) (by omega) (by omega) d2
  have d3 := drop_step d2 rfl
  have ew := ew.trans w3
  have w4 := walk_inst (rnd := rnd) (h' := h') (aifc := aifc) (s := { S1 with markers := (wmarks hd names).map amarkRead }) (size := file.length - T.length - 8)
    (i := 4 + (fverPart h aifc).length + (aiffCOMM h aifc t).length + (markPart h (wmarks hd names)).length) (by omega) (by omega) (by omega) d3
  have d4 := drop_step d3 rfl
  have ew := ew.trans w4
  generalize hS4 : { S1 with markers := (wmarks hd names).map amarkRead, inst := some (instRead hd) } = S4 at ew
  rw [aiffINST_length] at ew d4
  obtain ⟨k5, hk5, w5⟩ := walk_aes (rnd := rnd) (h' := h') (aifc := aifc) (s := S4) (size := file.length - T.length - 8)
    (i := 4 + (fverPart h aifc).length + (aiffCOMM h aifc t).length + (markPart h (wmarks hd names)).length + 28)
    (fun b hb => aesOf_length hb) (by omega) (by omega) (by omega) (by rw [← hS4, ← hS1, ← hS0]) d4
  have d5 := drop_step d4 rfl
  have ew := ew.trans w5
  have w6 := walk_misc (rnd := rnd) (h' := h') (aifc := aifc) (s := { S4 with aes := aesOf hd }) (size := file.length - T.length - 8)
    (i := 4 + (fverPart h aifc).length + (aiffCOMM h aifc t).length + (markPart h (wmarks hd names)).length + 28 +
      (aesPart h (aesOf hd)).length) hmisc (by omega) (by omega) (by omega) d5
  have d6 := drop_step d5 rfl
  have ew := ew.trans w6
  rw [htd] at d6
  have w7 := walk_ssnd (rnd := rnd) (h' := h') (aifc := aifc) (n := D.length)
    (s := { S4 with aes := aesOf hd, misc := hd.misc.foldl miscRead1 S4.misc }) (size := file.length - T.length - 8)
    (i := 4 + (fverPart h aifc).length + (aiffCOMM h aifc t).length + (markPart h (wmarks hd names)).length + 28 +
      (aesPart h (aesOf hd)).length + (miscPart h hd.misc).length) (by rw [← hS4, ← hS1, ← hS0]) (by omega) (by omega) (by omega) (by omega) d6
  have ew := ew.trans w7
  have hend := form_end (n := fuel) (by omega) ew (by omega)
  unfold aiffRead
  rw [Rd.bind_ok (a := ()) (p' := 0) rfl, Rd.bind_ok (Rd.read_ok hd0 (n := 4) rfl), Rd.bind_ok (Rd.field_ok hd1).2, b4,
    show 0 + 4 + 4 = 8 by omega, Rd.bind_ok (Rd.read_ok hd2 htag), p4]
  rw [p4] at q0
  rw [q0, show 8 + 4 = 12 by omega]
  have hno : ¬ (tag "FORM" ≠ tag "FORM" ∨ (tag (if aifc then "AIFC" else "AIFF") ≠ tag "AIFF" ∧
      tag (if aifc then "AIFC" else "AIFF") ≠ tag "AIFC")) := by cases aifc <;> decide
  have hdec : decide (tag (if aifc then "AIFC" else "AIFF") = tag "AIFC") = aifc := by cases aifc <;> decide
  rw [if_neg hno, hdec, hS0]
  rw [Rd.bind_ok hend]
  dsimp only
  have hhas : S4.hasCOMM = true := by rw [← hS4, ← hS1]
  rw [hhas]
  refine ⟨_, _, rfl, ?_⟩
  have hS4t : S4.t = t1 := by rw [← hS4, ← hS1]
  have hS4m : S4.misc = [] := by rw [← hS4, ← hS1, ← hS0]
  have d7 := drop_step d6 (ssndPart_length _ _)
  rw [htf] at c1
  refine ⟨c1.congr (by dsimp only; rw [hS4t]) (by dsimp only; rw [hS4t]) (by dsimp only; rw [hS4t]) (by dsimp only; rw [hS4t]),
    by dsimp only; rw [← hS4], by dsimp only; rw [hS4m], by dsimp only; rw [← hS4], rfl, by dsimp only; omega, rfl, ?_⟩
  dsimp only
  rw [Int.toNat_natCast]
  exact d7

end AF.Files
