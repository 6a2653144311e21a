import Verif.Proof.ForeignAIFF
import Verif.Proof.Files.IFF
/-!
# AIFF and IFF files of other programs, put together
-/
namespace AF.Foreign
open AF AF.Setup AF.Files AF.Convert AF.Spec AF.Spec.Files AF.Spec.Formats AF.Spec.Setup AF.Spec.Foreign

theorem formFile_drop (type : String) (B : List Byte) :
    (formFile type B).drop 0 = text "FORM" ++ (num .big 4 (B.length + 4) ++ (text type ++ B)) := by
  unfold formFile
  rw [List.drop_zero]
  simp only [List.append_assoc, be_num]

theorem formFile_length (type : String) (ht : (text type).length = 4) (B : List Byte) : (formFile type B).length = 12 + B.length := by
  unfold formFile
  simp only [List.length_append, be_length, ht, show (text "FORM").length = 4 from rfl]

/-- The track before anything was read. -/
def blank : Trk := Trk.ofFormat { rate := 0, sampleFormat := 0, sampleWidth := 0, byteOrder := 0, pcm := ⟨0, 0, 0, 0⟩, channels := 0, compression := 0 }

theorem aiff_walk {rnd : Rat → Dbl} (h : Endian) (x : Aiff) (ok : x.Ok) {Q : Trk → Prop}
    (hQ : ∀ t ds fi, Q t → Q { t with dataSize := ds, first := fi })
    (hcomm : ∀ (s : AiffRead) (q : Nat) (rest : List Byte), x.file.drop q = x.comm.body ++ (x.comm.pad ++ rest) →
      ∃ t q', aiffParseCOMM rnd h x.aifc s x.file q = .ok ({ s with hasCOMM := true, t := t }, q') ∧ Q t ∧ t.dataSize = s.t.dataSize ∧ t.first = s.t.first)
    {fuel : Nat} (hfuel : x.file.length < fuel) :
    ∃ s p, aiffRead rnd h fuel x.file 0 = .ok (s, p) ∧ Q s.t ∧ s.t.dataSize = x.sound.length ∧ 0 ≤ s.t.first ∧
      (x.file.drop s.t.first.toNat).take x.sound.length = x.sound := by
  have hsz := ok.size
  have htype : (text (if x.aifc then "AIFC" else "AIFF")).length = 4 := by split <;> rfl
  have hfile : x.file = formFile (if x.aifc then "AIFC" else "AIFF") x.chunks := rfl
  have hlen := formFile_length _ htype x.chunks
  rw [← hfile] at hlen
  have e0 := formFile_drop (if x.aifc then "AIFC" else "AIFF") x.chunks
  rw [← hfile] at e0
  have e1 := drop_step e0 (n := 4) rfl
  have e2 := drop_step e1 (num_length _ _ _)
  have cok : x.comm.Ok := ⟨rfl, ok.commPad⟩
  have sok : x.ssnd.Ok := ⟨rfl, ok.soundPad⟩
  have hgap : x.gap.length < 2 ^ 32 := by
    have h1 := form_length sok
    have h2 : x.ssnd.form.length ≤ x.chunks.length := by
      unfold Aiff.chunks
      cases x.soundFirst <;>
        simp only [List.flatMap_append, List.flatMap_cons, List.flatMap_nil, List.append_nil, List.length_append] <;>
        simp only [if_true, if_false, Bool.false_eq_true] <;> omega
    have h3 : x.ssnd.body.length = 8 + x.gap.length + x.sound.length := by
      unfold Aiff.ssnd
      simp only [List.length_append, be_length]
    omega
  -- the three states
  let Sounded (t : Trk) : Prop := t.dataSize = x.sound.length ∧ 0 ≤ t.first ∧ (x.file.drop t.first.toNat).take x.sound.length = x.sound
  have main : ∃ s p, Rd.loop (formRound (aiffChunk rnd h x.aifc) h (x.file.length - 8)) fuel (4, ⟨false, false, blank, [], [], none, none⟩) x.file 12 =
      .ok (s, p) ∧ (s.hasCOMM = true ∧ Q s.t ∧ Sounded s.t) := by
    cases hsf : x.soundFirst
    · refine walk_two (type := if x.aifc then "AIFC" else "AIFF") (before := x.before) (a := x.comm) (between := x.between) (b := x.ssnd) (after := x.after)
        (I0 := fun s => s.hasSSND = false) (I1 := fun s => s.hasCOMM = true ∧ s.hasSSND = false ∧ Q s.t) ?_ htype hsz ?_ cok sok ?_ ?_ rfl hfuel
      · rw [hfile]; unfold Aiff.chunks; rw [hsf]; rfl
      · intro c hc
        have oc := ok.others c hc
        refine ⟨oc.ok, fun I hI s q rest hs he => ?_⟩
        obtain ⟨s', q', e, a1, a2, a3⟩ := aiff_other (rnd := rnd) (h := h) (aifc := x.aifc) oc (s := s) (a := s.hasCOMM) (b := s.hasSSND) (t := s.t) ⟨rfl, rfl, rfl⟩ he
        refine ⟨s', q', e, ?_⟩
        rcases hI with rfl | rfl | rfl
        · exact a2.trans hs
        · obtain ⟨b1, b2, b3⟩ := hs
          exact ⟨a1.trans b1, a2.trans b2, by rw [a3]; exact b3⟩
        · obtain ⟨b1, b2, b3⟩ := hs
          exact ⟨a1.trans b1, by rw [a3]; exact b2, by rw [a3]; exact b3⟩
      · intro s q rest hs _ he
        obtain ⟨t, q', e, c1, -⟩ := hcomm s _ _ he
        exact ⟨_, q', e, rfl, hs, c1⟩
      · intro s q rest hs _ he
        obtain ⟨q', e, c1⟩ := aiff_ssnd (h := h) s hgap he
        obtain ⟨s1, s2, s3⟩ := hs
        refine ⟨{ s with hasSSND := true, t := { s.t with dataSize := x.sound.length, first := ((q + 8 + x.gap.length : Nat) : Int) } }, q', ?_, s1, hQ _ _ _ s3, rfl, ?_, ?_⟩
        · show (if s.hasSSND then Rd.fail else aiffParseSSND h x.ssnd.body.length s) x.file q = _
          rw [if_neg (by rw [s2]; decide)]
          exact e
        · show (0 : Int) ≤ ((_ : Nat) : Int)
          omega
        · show (x.file.drop (Int.toNat ((_ : Nat) : Int))).take _ = _
          rw [Int.toNat_natCast]
          exact c1
    · refine walk_two (type := if x.aifc then "AIFC" else "AIFF") (before := x.before) (a := x.ssnd) (between := x.between) (b := x.comm) (after := x.after)
        (I0 := fun s => s.hasSSND = false) (I1 := fun s => Sounded s.t) ?_ htype hsz ?_ sok cok ?_ ?_ rfl hfuel
      · rw [hfile]; unfold Aiff.chunks; rw [hsf]; rfl
      · intro c hc
        have oc := ok.others c hc
        refine ⟨oc.ok, fun I hI s q rest hs he => ?_⟩
        obtain ⟨s', q', e, a1, a2, a3⟩ := aiff_other (rnd := rnd) (h := h) (aifc := x.aifc) oc (s := s) (a := s.hasCOMM) (b := s.hasSSND) (t := s.t) ⟨rfl, rfl, rfl⟩ he
        refine ⟨s', q', e, ?_⟩
        rcases hI with rfl | rfl | rfl
        · exact a2.trans hs
        · show Sounded s'.t
          rw [a3]; exact hs
        · obtain ⟨b1, b2, b3⟩ := hs
          exact ⟨a1.trans b1, by rw [a3]; exact b2, by rw [a3]; exact b3⟩
      · intro s q rest hs _ he
        obtain ⟨q', e, c1⟩ := aiff_ssnd (h := h) s hgap he
        refine ⟨{ s with hasSSND := true, t := { s.t with dataSize := x.sound.length, first := ((q + 8 + x.gap.length : Nat) : Int) } }, q', ?_, rfl, ?_, ?_⟩
        · show (if s.hasSSND then Rd.fail else aiffParseSSND h x.ssnd.body.length s) x.file q = _
          rw [if_neg (by rw [hs]; decide)]
          exact e
        · show (0 : Int) ≤ ((_ : Nat) : Int)
          omega
        · show (x.file.drop (Int.toNat ((_ : Nat) : Int))).take _ = _
          rw [Int.toNat_natCast]
          exact c1
      · intro s q rest hs _ he
        obtain ⟨t, q', e, c1, c2, c3⟩ := hcomm s _ _ he
        obtain ⟨s1, s2, s3⟩ := hs
        refine ⟨_, q', e, rfl, c1, ?_, ?_, ?_⟩
        · show t.dataSize = _
          rw [c2]; exact s1
        · show 0 ≤ t.first
          rw [c3]; exact s2
        · show (x.file.drop t.first.toNat).take _ = _
          rw [c3]; exact s3
  obtain ⟨s, p, hl, m1, m2, m5, m6, m7⟩ := main
  refine ⟨s, p, ?_, m2, m5, m6, m7⟩
  have hb : decide (text (if x.aifc then "AIFC" else "AIFF") = tag "AIFC") = x.aifc := by cases x.aifc <;> decide
  have hft : ¬ (text "FORM" ≠ tag "FORM" ∨ (text (if x.aifc then "AIFC" else "AIFF") ≠ tag "AIFF" ∧ text (if x.aifc then "AIFC" else "AIFF") ≠ tag "AIFC")) := by
    cases x.aifc <;> decide
  unfold aiffRead
  rw [Rd.bind_ok (m := Rd.seek 0) (a := ()) (p' := 0) rfl, Rd.bind_ok (Rd.read_ok (n := 4) e0 rfl),
    Rd.bind_ok (field_num (k := .s4) e1 (show _ < 2 ^ 32 by omega)).2,
    Rd.bind_ok (Rd.read_ok (n := 4) (p := 0 + 4 + FieldSize.s4.bytes) e2 htype)]
  rw [if_neg hft, hb, show x.chunks.length + 4 = x.file.length - 8 by omega]
  have hl' : Rd.loop (formRound (aiffChunk rnd h x.aifc) h (x.file.length - 8)) fuel
      (4, ⟨false, false, blank, [], [], none, none⟩) x.file (0 + 4 + FieldSize.s4.bytes + 4) = .ok (s, p) := hl
  refine (Rd.bind_ok hl').trans ?_
  rw [m1]
  rfl

theorem aiff_found {rnd : Rat → Dbl} (hrnd : ExactOnDoubles rnd) (h : Endian) (x : Aiff) (ok : x.Ok) {k : Kind} {order : Int}
    (hk : x.kind = some (k, order)) {fuel : Nat} (hfuel : x.file.length < fuel) :
    ∃ s p, aiffRead rnd h fuel x.file 0 = .ok (s, p) ∧ SameSound (described x.rate x.channels order k) x.sound x.frames x.file s.t := by
  have good : Kind.Good k := (aiff_kind (h := h) hk x.rate x.channels x.frames).1
  obtain ⟨s, p, h1, ⟨⟨g, m2, m3⟩, m4⟩, m5, m6, m7⟩ := aiff_walk (rnd := rnd) h x ok (Q := Commed h x k order)
    (fun t ds fi hQ => by obtain ⟨⟨g, a, b⟩, c⟩ := hQ; exact ⟨⟨g, a, b⟩, c⟩)
    (fun s q rest he => aiff_comm hrnd (h := h) ok hk s he) hfuel
  exact ⟨s, p, h1, found_same good m2 m3 m6 m5 m7 m4⟩

/-! ## IFF -/

theorem iff_other {h : Endian} {c : Chunk} (hid : c.id ∉ [text "VHDR", text "BODY"]) {file : List Byte} {q : Nat} (s : IffRead) :
    ∃ s' q', iffChunk h c.id c.body.length s file q = .ok (s', q') ∧ s'.hasVHDR = s.hasVHDR ∧ s'.t = s.t := by
  simp only [List.mem_cons, List.not_mem_nil, or_false, not_or] at hid
  unfold iffChunk
  rw [if_neg (show c.id ≠ tag "VHDR" from hid.1), if_neg (show c.id ≠ tag "BODY" from hid.2)]
  cases hm : iffMiscType c.id with
  | some type =>
    dsimp only
    obtain ⟨r, q', e⟩ := misc_any type c.body.length s.misc file q
    rw [Rd.bind_ok e]
    exact ⟨_, _, rfl, rfl, rfl⟩
  | none => exact ⟨_, _, rfl, rfl, rfl⟩

/-- The library's format of an 8SVX file. -/
def iffFmt (rate : Nat) : AFmt :=
  { rate := rate, sampleFormat := TWOSCOMP, sampleWidth := 8, byteOrder := BIG, pcm := ⟨0, 0, 0, 0⟩, channels := 1, compression := NONE }

theorem iff_vhdr {h : Endian} {x : Svx} (hr : x.rate < 2 ^ 16) {file rest : List Byte} {q : Nat} (s : IffRead)
    (he : file.drop q = x.vhdr.body ++ (x.vhdr.pad ++ rest)) :
    ∃ q', iffParseVHDR h s file q =
      .ok ({ s with hasVHDR := true, t := { s.t with f := (setSampleFormat (iffFmt x.rate) TWOSCOMP 8).2, fpp := 1, bpp := pcmBytesPerPacket (iffFmt x.rate) } }, q') := by
  have he' : file.drop q = num .big 4 x.oneShot ++ (num .big 4 x.repeated ++ (num .big 4 x.cycle ++ (num .big 2 x.rate ++
      (num .big 1 x.octaves ++ (num .big 1 x.compression ++ (num .big 4 x.volume ++ (x.more ++ (x.vhdr.pad ++ rest)))))))) := by
    rw [he]
    unfold Svx.vhdr
    dsimp only
    simp only [List.append_assoc, be_num]
  have e1 := drop_step he' (num_length _ _ _)
  have e2 := drop_step e1 (num_length _ _ _)
  have e3 := drop_step e2 (num_length _ _ _)
  have e4 := drop_step e3 (num_length _ _ _)
  have e5 := drop_step e4 (num_length _ _ _)
  have e6 := drop_step e5 (num_length _ _ _)
  obtain ⟨y1, f1, -⟩ := field_any (h := h) (k := .s4) he'
  obtain ⟨y2, f2, -⟩ := field_any (h := h) (k := .s4) e1
  obtain ⟨y3, f3, -⟩ := field_any (h := h) (k := .s4) e2
  have f4 := (field_num (h := h) (k := .s2) e3 hr).2
  obtain ⟨y5, f5, -⟩ := field_any (h := h) (k := .s1) e4
  obtain ⟨y6, f6, -⟩ := field_any (h := h) (k := .s1) e5
  obtain ⟨y7, f7, -⟩ := field_any (h := h) (k := .s4) e6
  unfold iffParseVHDR
  rw [Rd.bind_ok f1, Rd.bind_ok (p := q + FieldSize.s4.bytes) (p' := q + 4 + 4) f2, Rd.bind_ok (p' := q + 4 + 4 + 4) f3,
    Rd.bind_ok (p' := q + 4 + 4 + 4 + 2) f4, Rd.bind_ok (p' := q + 4 + 4 + 4 + 2 + 1) f5, Rd.bind_ok (p' := q + 4 + 4 + 4 + 2 + 1 + 1) f6,
    Rd.bind_ok f7]
  exact ⟨_, rfl⟩

theorem iff_found (h : Endian) (x : Svx) (ok : x.Ok) {fuel : Nat} (hfuel : x.file.length < fuel) :
    ∃ s p, iffRead h fuel x.file 0 = .ok (s, p) ∧ SameSound (described x.rate 1 BIG (signed 8)) x.sound x.sound.length x.file s.t := by
  have hsz := ok.size
  have hfile : x.file = formFile "8SVX" x.chunks := rfl
  have hlen := formFile_length "8SVX" rfl x.chunks
  rw [← hfile] at hlen
  have e0 := formFile_drop "8SVX" x.chunks
  rw [← hfile] at e0
  have e1 := drop_step e0 (n := 4) rfl
  have e2 := drop_step e1 (num_length _ _ _)
  have vok : x.vhdr.Ok := ⟨rfl, ok.vhdrPad⟩
  have bok : x.body.Ok := ⟨rfl, ok.soundPad⟩
  let Headed (t : Trk) : Prop := t.f = (setSampleFormat (iffFmt x.rate) TWOSCOMP 8).2
  let Sounded (t : Trk) : Prop := t.dataSize = x.sound.length ∧ t.frames = x.sound.length ∧ 0 ≤ t.first ∧
    (x.file.drop t.first.toNat).take x.sound.length = x.sound
  have hbody : ∀ (s : IffRead) (q : Nat) (rest : List Byte), x.file.drop q = x.body.body ++ (x.body.pad ++ rest) →
      ∃ s' q', iffChunk h x.body.id x.body.body.length s x.file q = .ok (s', q') ∧ s'.hasVHDR = s.hasVHDR ∧ s'.t.f = s.t.f ∧ Sounded s'.t := by
    intro s q rest he
    refine ⟨_, _, rfl, rfl, rfl, rfl, rfl, ?_, ?_⟩
    · show (0 : Int) ≤ ((_ : Nat) : Int)
      omega
    · show (x.file.drop (Int.toNat ((q : Nat) : Int))).take _ = _
      rw [Int.toNat_natCast, he]
      exact List.take_left
  have main : ∃ s p, Rd.loop (formRound (iffChunk h) h (x.file.length - 8)) fuel (4, ⟨false, blank, []⟩) x.file 12 =
      .ok (s, p) ∧ (s.hasVHDR = true ∧ Headed s.t ∧ Sounded s.t) := by
    have hoth : ∀ (c : Chunk) (hc : c ∈ x.before ++ x.between ++ x.after) (P : Bool → Trk → Prop) (s : IffRead) (q : Nat), P s.hasVHDR s.t →
        ∃ s' q', iffChunk h c.id c.body.length s x.file q = .ok (s', q') ∧ P s'.hasVHDR s'.t := by
      intro c hc P s q hP
      obtain ⟨s', q', e, a1, a2⟩ := iff_other (h := h) (ok.others c hc).2 (file := x.file) (q := q) s
      exact ⟨s', q', e, by rw [a1, a2]; exact hP⟩
    cases hsf : x.soundFirst
    · refine walk_two (type := "8SVX") (before := x.before) (a := x.vhdr) (between := x.between) (b := x.body) (after := x.after)
        (I0 := fun s => True) (I1 := fun s => s.hasVHDR = true ∧ Headed s.t) ?_ rfl hsz ?_ vok bok ?_ ?_ trivial hfuel
      · rw [hfile]; unfold Svx.chunks; rw [hsf]; rfl
      · intro c hc
        refine ⟨(ok.others c hc).1, fun I hI s q rest hs he => ?_⟩
        rcases hI with rfl | rfl | rfl
        · exact hoth c hc (fun _ _ => True) s q trivial
        · exact hoth c hc (fun a t => a = true ∧ Headed t) s q hs
        · exact hoth c hc (fun a t => a = true ∧ Headed t ∧ Sounded t) s q hs
      · intro s q rest hs _ he
        obtain ⟨q', e⟩ := iff_vhdr (h := h) ok.rate s he
        exact ⟨_, q', e, rfl, rfl⟩
      · intro s q rest hs _ he
        obtain ⟨s', q', e, a1, a2, a3⟩ := hbody s q rest he
        exact ⟨s', q', e, a1.trans hs.1, a2.trans hs.2, a3⟩
    · refine walk_two (type := "8SVX") (before := x.before) (a := x.body) (between := x.between) (b := x.vhdr) (after := x.after)
        (I0 := fun s => True) (I1 := fun s => Sounded s.t) ?_ rfl hsz ?_ bok vok ?_ ?_ trivial hfuel
      · rw [hfile]; unfold Svx.chunks; rw [hsf]; rfl
      · intro c hc
        refine ⟨(ok.others c hc).1, fun I hI s q rest hs he => ?_⟩
        rcases hI with rfl | rfl | rfl
        · exact hoth c hc (fun _ _ => True) s q trivial
        · exact hoth c hc (fun a t => Sounded t) s q hs
        · exact hoth c hc (fun a t => a = true ∧ Headed t ∧ Sounded t) s q hs
      · intro s q rest hs _ he
        obtain ⟨s', q', e, a1, a2, a3⟩ := hbody s q rest he
        exact ⟨s', q', e, a3⟩
      · intro s q rest hs _ he
        obtain ⟨q', e⟩ := iff_vhdr (h := h) ok.rate s he
        exact ⟨_, q', e, rfl, rfl, hs⟩
  obtain ⟨s, p, hl, m1, m2, m3, m4, m5, m6⟩ := main
  refine ⟨s, p, ?_, found_same (g := iffFmt x.rate) (h := h) (good_signed (by decide)) ⟨rfl, rfl, rfl, rfl, rfl, fun _ _ => rfl⟩ m2 m5 m3 m6 m4⟩
  unfold iffRead
  rw [Rd.bind_ok (m := Rd.seek 0) (a := ()) (p' := 0) rfl, Rd.bind_ok (Rd.read_ok (n := 4) e0 rfl),
    Rd.bind_ok (field_num (k := .s4) e1 (show _ < 2 ^ 32 by omega)).2,
    Rd.bind_ok (Rd.read_ok (n := 4) (p := 0 + 4 + FieldSize.s4.bytes) e2 rfl)]
  rw [if_neg (by decide), show x.chunks.length + 4 = x.file.length - 8 by omega]
  have hl' : Rd.loop (formRound (iffChunk h) h (x.file.length - 8)) fuel
      (4, ⟨false, blank, []⟩) x.file (0 + 4 + FieldSize.s4.bytes + 4) = .ok (s, p) := hl
  refine (Rd.bind_ok hl').trans ?_
  rw [m1]
  rfl

end AF.Foreign
