import Verif.Spec.ForeignCaf
import Verif.Proof.ForeignFormFiles
import Verif.Proof.Files.CAF
/-!
# Reading Core Audio files of other programs
-/
namespace AF.Foreign
open AF AF.Setup AF.Files AF.Spec.Files AF.Spec.Formats AF.Spec.Setup AF.Spec.Foreign

theorem caff_length {c : Caff} (h : c.id.length = 4) : c.bytes.length = 12 + c.body.length := by
  unfold Caff.bytes
  simp only [List.length_append, be_length, h]

section
variable {F : Files.Float64} {h : Endian} {file : List Byte}

/-- One round of the walk after another. -/
def CafWalk (F : Files.Float64) (h : Endian) (file : List Byte) (k : Nat) (s : CafRead) (p : Nat) (s' : CafRead) (p' : Nat) : Prop :=
  ∀ n, Rd.loop (cafRound F h file.length) (k + n) ((p : Int), s) file p = Rd.loop (cafRound F h file.length) n ((p' : Int), s') file p'

theorem CafWalk.trans {k k' : Nat} {s s' s'' : CafRead} {p p' p'' : Nat} (a : CafWalk F h file k s p s' p') (b : CafWalk F h file k' s' p' s'' p'') :
    CafWalk F h file (k + k') s p s'' p'' := by
  intro n
  rw [Nat.add_assoc, a, b]

theorem CafWalk.one {s s' : CafRead} {p p' : Nat}
    (e : cafRound F h file.length ((p : Int), s) file p = .ok (.inl ((p' : Int), s'), p')) : CafWalk F h file 1 s p s' p' := by
  intro n
  rw [Nat.add_comm, Rd.loop_step e]

theorem walk_caff {c : Caff} {s s' : CafRead} {p q : Nat} {rest : List Byte} (hid : c.id.length = 4) (he : file.drop p = c.bytes ++ rest)
    (hlen : file.length < 2 ^ 63) (hc : cafChunk F h c.id c.body.length s file (p + 12) = .ok (s', q)) :
    CafWalk F h file 1 s p s' (p + c.bytes.length) ∧ file.drop (p + c.bytes.length) = rest := by
  have hl := caff_length hid
  refine ⟨?_, drop_step he rfl⟩
  have he' : file.drop p = c.id ++ (fieldBytes .little .big .s8 (c.body.length : Int) ++ (c.body ++ rest)) := by
    rw [he]
    unfold Caff.bytes
    rw [be_num, show num .big 8 c.body.length = num .big FieldSize.s8.bytes c.body.length from rfl, num_field .little]
    simp only [List.append_assoc]
  have hle := congrArg List.length he
  rw [List.length_drop, List.length_append] at hle
  have := caf_chunk (F := F) (h' := h) hid he' (by omega) hc (by omega)
  refine CafWalk.one ?_
  rw [hl, ← Nat.add_assoc]
  exact this

/-- A chunk that says nothing about the sound. -/
theorem caf_other {c : Caff} (hid : c.id ∉ [text "desc", text "data", text "pakt"]) {q : Nat} {rest : List Byte} (s : CafRead)
    (he : file.drop q = c.body ++ rest) :
    ∃ s' q', cafChunk F h c.id c.body.length s file q = .ok (s', q') ∧ s'.hasDesc = s.hasDesc ∧ s'.t = s.t := by
  have h1 : c.id ≠ tag "desc" := fun e => hid (by rw [e]; simp [text, tag])
  have h2 : c.id ≠ tag "data" := fun e => hid (by rw [e]; simp [text, tag])
  have h3 : c.id ≠ tag "pakt" := fun e => hid (by rw [e]; simp [text, tag])
  unfold cafChunk
  rw [if_neg h1, if_neg h2, if_neg h3]
  by_cases h4 : c.id = tag "kuki"
  · rw [if_pos h4]
    unfold cafParseCookie
    rw [if_neg (by omega), Int.toNat_natCast, Rd.bind_ok (Rd.read_ok he rfl), if_neg (by omega)]
    exact ⟨_, _, rfl, rfl, rfl⟩
  · rw [if_neg h4]
    exact ⟨_, _, rfl, rfl, rfl⟩

theorem walk_caffs (cs : List Caff) : ∀ {s : CafRead} {p : Nat} {rest : List Byte},
    (∀ c ∈ cs, c.id.length = 4 ∧ c.id ∉ [text "desc", text "data", text "pakt"]) → file.length < 2 ^ 63 →
    file.drop p = cs.flatMap Caff.bytes ++ rest →
    ∃ s', s'.hasDesc = s.hasDesc ∧ s'.t = s.t ∧ CafWalk F h file cs.length s p s' (p + (cs.flatMap Caff.bytes).length) ∧
      file.drop (p + (cs.flatMap Caff.bytes).length) = rest := by
  induction cs with
  | nil => intro s p rest _ _ he; exact ⟨s, rfl, rfl, fun n => by rw [List.length_nil, Nat.zero_add]; rfl, he⟩
  | cons c cs ih =>
    intro s p rest hok hlen he
    rw [List.flatMap_cons, List.length_append] at *
    rw [List.append_assoc] at he
    obtain ⟨hid, hne⟩ := hok c List.mem_cons_self
    have hb : file.drop (p + 12) = c.body ++ (cs.flatMap Caff.bytes ++ rest) := by
      have he' := he
      unfold Caff.bytes at he'
      rw [List.append_assoc, List.append_assoc] at he'
      have h1 := drop_step (drop_step he' hid) (be_length _ _)
      rw [Nat.add_assoc] at h1
      exact h1
    obtain ⟨s1, q1, e1, a1, a2⟩ := caf_other (F := F) (h := h) hne s hb
    obtain ⟨w1, d1⟩ := walk_caff hid he hlen e1
    obtain ⟨s2, b1, b2, w2, d2⟩ := ih (s := s1) (fun x hx => hok x (List.mem_cons_of_mem _ hx)) hlen d1
    refine ⟨s2, b1.trans a1, b2.trans a2, ?_, ?_⟩
    · have w := w1.trans w2
      rw [List.length_cons, Nat.add_comm cs.length 1]
      rw [Nat.add_assoc] at w
      exact w
    · rw [Nat.add_assoc] at d2; exact d2

theorem caffs_length {cs : List Caff} (h : ∀ c ∈ cs, c.id.length = 4) : cs.length ≤ (cs.flatMap Caff.bytes).length := by
  induction cs with
  | nil => exact Nat.le_refl _
  | cons c cs ih =>
    rw [List.flatMap_cons, List.length_append, List.length_cons, caff_length (h c List.mem_cons_self)]
    have := ih fun x hx => h x (List.mem_cons_of_mem _ hx)
    omega

theorem u32_num {p x : Nat} {rest : List Byte} (he : file.drop p = num .big 4 x ++ rest) (hx : x < 2 ^ 32) :
    Rd.u32 h file p = .ok (x, p + 4) := by
  unfold Rd.u32
  rw [Rd.bind_ok (field_num (k := .s4) he hx).1]
  rfl

theorem u32_some {p x : Nat} {rest : List Byte} (he : file.drop p = num .big 4 x ++ rest) :
    ∃ y, Rd.u32 h file p = .ok (y, p + 4) := by
  obtain ⟨y, hy, -⟩ := field_any (h := h) (k := .s4) he
  refine ⟨y, ?_⟩
  unfold Rd.u32
  rw [Rd.bind_ok hy]
  rfl
end

/-- What the description says: the model's format, and how many bytes a frame has. -/
theorem caf_kind {h : Endian} {format : List Byte} {flags bits : Nat} {k : Kind} {order : Int} (hk : cafKind format flags bits = some (k, order)) 
    (rate : Rat) (channels fpp : Nat) (hch : channels < 2 ^ 31) (s : CafRead) :
    Kind.Good k ∧ ∃ g s', cafFormat h format flags fpp bits { rate := rate, sampleFormat := 0, sampleWidth := wrapS 32 bits, byteOrder := 0, pcm := ⟨0, 0, 0, 0⟩, channels := wrapS 32 channels, compression := 0 } s = some s' ∧ Found h (described rate channels order k) g ∧
      s'.hasDesc = true ∧ s'.t.f = (setSampleFormat g g.sampleFormat g.sampleWidth).2 ∧ s'.t.fpp = 1 ∧
      s'.t.bpp = ((k.bytes * channels : Nat) : Int) := by
  unfold cafKind at hk
  have hcw : wrapS 32 (channels : Int) = channels := wrapS_id (by omega) (by omega)
  rw [hcw]
  dsimp only at hk
  by_cases h1 : format = text "lpcm"
  · rw [if_pos h1] at hk
    have h1' : format = tag "lpcm" := h1
    have key : ∀ (kk : Kind) (fmt : Int), kk = ⟨fmt, bits, NONE⟩ → Kind.Good kk → (if flags % 2 = 1 then (if bits = 32 then FLOAT else DOUBLE) else TWOSCOMP) = fmt →
        ¬ (flags % 2 = 1 ∧ bits ≠ 32 ∧ bits ≠ 64) → bits ≤ 64 →
        ∃ g s', cafFormat h format flags fpp bits { rate := rate, sampleFormat := 0, sampleWidth := wrapS 32 bits, byteOrder := 0, pcm := ⟨0, 0, 0, 0⟩, channels := channels, compression := 0 } s = some s' ∧
          Found h (described rate channels (if flags / 2 % 2 = 1 then LITTLE else BIG) kk) g ∧
          s'.hasDesc = true ∧ s'.t.f = (setSampleFormat g g.sampleFormat g.sampleWidth).2 ∧ s'.t.fpp = 1 ∧
          s'.t.bpp = ((kk.bytes * channels : Nat) : Int) := by
      intro kk fmt hkk good hfmt hno hb
      subst hkk
      have hw : wrapS 32 (bits : Int) = bits := wrapS_id (by omega) (by omega)
      unfold cafFormat
      dsimp only
      rw [if_pos h1', if_neg hno, hfmt, hw]
      let g : AFmt := { rate := rate, sampleFormat := fmt, sampleWidth := bits, byteOrder := if flags / 2 % 2 = 1 then LITTLE else BIG
                        pcm := ⟨0, 0, 0, 0⟩, channels := channels, compression := NONE }
      have hF : Found h (described rate channels (if flags / 2 % 2 = 1 then LITTLE else BIG) ⟨fmt, bits, NONE⟩) g :=
        ⟨rfl, rfl, rfl, rfl, rfl, fun _ _ => rfl⟩
      obtain ⟨m, -, hm⟩ := set_self (f := g) good.1
      have hm' : setSampleFormat g fmt bits = (true, { g with pcm := m }) := hm
      rw [show setSampleFormat { rate := rate, sampleFormat := fmt, sampleWidth := (bits : Int), byteOrder := if flags / 2 % 2 = 1 then LITTLE else BIG, pcm := ⟨0, 0, 0, 0⟩, channels := (channels : Int), compression := NONE } fmt (bits : Int) = (true, { g with pcm := m }) from hm']
      refine ⟨g, _, rfl, hF, rfl, by rw [hm], rfl, ?_⟩
      have := found_bpp hF
      rw [if_pos (by rfl)] at this
      exact this
    by_cases h2 : flags % 2 = 1
    · rw [if_pos h2] at hk
      by_cases h3 : bits = 32
      · rw [if_pos h3] at hk; injection hk with hk; injection hk with hk ho; subst hk; subst ho
        exact ⟨good_float, key _ FLOAT (by rw [h3]; rfl) good_float (by rw [if_pos h2, if_pos h3]) (by omega) (by omega)⟩
      · rw [if_neg h3] at hk
        by_cases h4 : bits = 64
        · rw [if_pos h4] at hk; injection hk with hk; injection hk with hk ho; subst hk; subst ho
          exact ⟨good_double, key _ DOUBLE (by rw [h4]; rfl) good_double (by rw [if_pos h2, if_neg h3]) (by omega) (by omega)⟩
        · rw [if_neg h4] at hk; cases hk
    · rw [if_neg h2] at hk
      by_cases h3 : 1 ≤ bits ∧ bits ≤ 32
      · rw [if_pos h3] at hk; injection hk with hk; injection hk with hk ho; subst hk; subst ho
        exact ⟨good_signed h3, key _ TWOSCOMP rfl (good_signed h3) (by rw [if_neg h2]) (by omega) (by omega)⟩
      · rw [if_neg h3] at hk; cases hk
  · rw [if_neg h1] at hk
    have hb1 : ((1 * channels : Nat) : Int) = channels := by rw [Nat.one_mul]
    by_cases h2 : format = text "ulaw"
    · rw [if_pos h2] at hk; injection hk with hk; injection hk with hk ho; subst hk; subst ho
      subst h2
      refine ⟨good_muLaw, { rate := rate, sampleFormat := TWOSCOMP, sampleWidth := 16, byteOrder := native h, pcm := ⟨0, 0, 0, 0⟩, channels := channels, compression := ULAW }, _, rfl, ⟨rfl, rfl, rfl, rfl, rfl, fun h => by cases h⟩, rfl, rfl, rfl, ?_⟩
      exact hb1.symm
    · rw [if_neg h2] at hk
      by_cases h3 : format = text "alaw"
      · rw [if_pos h3] at hk; injection hk with hk; injection hk with hk ho; subst hk; subst ho
        subst h3
        refine ⟨good_aLaw, { rate := rate, sampleFormat := TWOSCOMP, sampleWidth := 16, byteOrder := native h, pcm := ⟨0, 0, 0, 0⟩, channels := channels, compression := ALAW }, _, rfl, ⟨rfl, rfl, rfl, rfl, rfl, fun h => by cases h⟩, rfl, rfl, rfl, ?_⟩
        exact hb1.symm
      · rw [if_neg h3] at hk; cases hk

theorem caf_desc {F : Files.Float64} {h : Endian} {x : Caf} (ok : x.Shape) {k : Kind} {order : Int} (hk : x.kind = some (k, order)) {file rest : List Byte} {q : Nat} (s : CafRead)
    (he : file.drop q = x.desc.body ++ rest) :
    ∃ g s' q', cafChunk F h x.desc.id x.desc.body.length s file q = .ok (s', q') ∧ Found h (described (F.dec x.rate) x.channels order k) g ∧
      s'.hasDesc = true ∧ s'.t.f = (setSampleFormat g g.sampleFormat g.sampleWidth).2 ∧ s'.t.fpp = 1 ∧
      s'.t.bpp = ((k.bytes * x.channels : Nat) : Int) := by
  have he' : file.drop q = num .big 8 x.rate.toNat ++ (x.format ++ (num .big 4 x.flags ++ (num .big 4 x.bytesPerPacket ++
      (num .big 4 x.framesPerPacket ++ (num .big 4 x.channels ++ (num .big 4 x.bits ++ rest)))))) := by
    rw [he]
    unfold Caf.desc
    simp only [List.append_assoc, be_num]
  have e1 := drop_step he' (num_length _ _ _)
  have e2 := drop_step e1 ok.format
  have e3 := drop_step e2 (num_length _ _ _)
  have e4 := drop_step e3 (num_length _ _ _)
  have e5 := drop_step e4 (num_length _ _ _)
  have e6 := drop_step e5 (num_length _ _ _)
  obtain ⟨y, hy⟩ := u32_some (h := h) e3
  obtain ⟨z, hz⟩ := u32_some (h := h) e4
  have hc := ok.channels
  obtain ⟨-, g, s', c1, c2⟩ := caf_kind (h := h) hk (F.dec x.rate) x.channels z hc.2 s
  refine ⟨g, s', q + 8 + 4 + 4 + 4 + 4 + 4 + 4, ?_, c2⟩
  show cafParseDesc F h s file q = _
  unfold cafParseDesc
  rw [Rd.bind_ok (field_num (k := .s8) he' x.rate.isLt).1]
  dsimp only
  rw [show FieldSize.s8.bytes = 8 from rfl, Rd.bind_ok (tag4_ok ok.format e1), Rd.bind_ok (u32_num e2 ok.flags), Rd.bind_ok hy, Rd.bind_ok hz,
    Rd.bind_ok (u32_num e5 (by omega)), Rd.bind_ok (u32_num e6 ok.bits), if_neg (by omega), BitVec.ofNat_toNat, BitVec.setWidth_eq, c1]
  rfl

theorem caf_walk (F : Files.Float64) (h : Endian) (x : Caf) (ok : x.Shape) {P : AFmt → Prop} {fpp bpp : Int}
    (hdesc : ∀ (s : CafRead) (q : Nat) (rest : List Byte), x.file.drop q = x.desc.body ++ rest →
      ∃ s' q', cafChunk F h x.desc.id x.desc.body.length s x.file q = .ok (s', q') ∧ s'.hasDesc = true ∧ P s'.t.f ∧ s'.t.fpp = fpp ∧ s'.t.bpp = bpp)
    {fuel : Nat} (hfuel : x.file.length < fuel) :
    ∃ s p f first ad fr, P f ∧ cafRead F h fuel x.file 0 = .ok (s, p) ∧ (x.file.drop first).take x.sound.length = x.sound ∧
      s.t = (Trk.mk f fpp bpp (first : Nat) ad x.sound.length fr).computeTotalFileFrames := by
  have hsz := ok.size
  have hd8 : x.file.drop 8 = x.desc.bytes ++ (x.between.flatMap Caff.bytes ++ (x.data ++ x.after.flatMap Caff.bytes)) := by
    unfold Caf.file
    simp only [List.append_assoc]
    rfl
  have hdl : x.desc.bytes.length = 44 := by
    rw [caff_length rfl]
    unfold Caf.desc
    simp only [List.length_append, be_length, ok.format]
  have hb : x.file.drop 20 = x.desc.body ++ (x.between.flatMap Caff.bytes ++ (x.data ++ x.after.flatMap Caff.bytes)) := by
    have hdb : x.desc.bytes = x.desc.id ++ (be 8 x.desc.body.length ++ x.desc.body) := by
      unfold Caff.bytes; rw [List.append_assoc]
    have he' := hd8
    rw [hdb, List.append_assoc, List.append_assoc] at he'
    exact drop_step (drop_step he' (n := 4) rfl) (be_length _ _)
  obtain ⟨s1, q1, c1, a1, a2, a3, a4⟩ := hdesc ⟨false, blank, .none, none⟩ _ _ hb
  obtain ⟨w1, d1⟩ := walk_caff (p := 8) rfl hd8 hsz c1
  obtain ⟨s2, b1, b2, w2, d2⟩ := walk_caffs (F := F) (h := h) x.between (s := s1) (fun c hc => ok.others c (by simp [hc])) hsz d1
  have lB := caffs_length (cs := x.between) fun c hc => (ok.others c (by simp [hc])).1
  have lA := caffs_length (cs := x.after) fun c hc => (ok.others c (by simp [hc])).1
  generalize hp : 8 + x.desc.bytes.length + (x.between.flatMap Caff.bytes).length = p at *
  have hdata : x.data.length = 16 + x.sound.length := by
    unfold Caf.data
    have : (if x.toEnd then List.replicate 8 255 else be 8 (4 + x.sound.length)).length = 8 := by
      split
      · rfl
      · exact be_length _ _
    simp only [List.length_append, this, be_length]
    show 4 + _ + _ + _ = _
    omega
  have hflen : x.file.length = p + (x.data.length + (x.after.flatMap Caff.bytes).length) := by
    have := congrArg List.length d2
    rw [List.length_drop, List.length_append] at this
    omega
  have d2' : x.file.drop p = text "data" ++ ((if x.toEnd then List.replicate 8 255 else be 8 (4 + x.sound.length)) ++
      (num .big 4 x.editCount ++ (x.sound ++ x.after.flatMap Caff.bytes))) := by
    rw [d2]
    unfold Caf.data
    simp only [List.append_assoc, be_num]
  have f1 := drop_step d2' (n := 4) rfl
  have hl8 : (if x.toEnd then List.replicate 8 255 else be 8 (4 + x.sound.length)).length = 8 := by
    split
    · rfl
    · exact be_length _ _
  have f2 := drop_step f1 hl8
  have f3 := drop_step f2 (num_length _ _ _)
  obtain ⟨y, hy⟩ := u32_some (h := h) f2
  -- the data chunk
  let s3 : CafRead := { s2 with t := Trk.computeTotalFileFrames { s2.t with dataSize := x.sound.length, first := ((p + 16 : Nat) : Int) } }
  have hround : cafRound F h x.file.length ((p : Int), s2) x.file p = .ok (.inl (((p + x.data.length : Nat) : Int), s3), p + x.data.length) := by
    have hdd : cafParseData h ((4 + x.sound.length : Nat) : Int) s2 x.file (p + 12) = .ok (s3, p + 16) := by
      unfold cafParseData
      rw [Rd.bind_ok (show Rd.u32 h x.file (p + 12) = .ok (y, p + 16) from hy), Rd.bind_ok (m := Rd.tell) (a := p + 16) (p' := p + 16) rfl, if_neg (by rw [b1, a1]; decide)]
      have : ((4 + x.sound.length : Nat) : Int) - 4 = x.sound.length := by omega
      rw [this]
      rfl
    cases hE : x.toEnd
    · rw [hE] at f1
      have d3 : x.file.drop p = tag "data" ++ (fieldBytes .little .big .s8 ((4 + x.sound.length : Nat) : Int) ++
          (num .big 4 x.editCount ++ (x.sound ++ x.after.flatMap Caff.bytes))) := by
        rw [d2', hE, if_neg (by decide), be_num, show num .big 8 (4 + x.sound.length) = num .big FieldSize.s8.bytes (4 + x.sound.length) from rfl, num_field .little]
        rfl
      have := caf_chunk (F := F) (h' := h) (type := tag "data") rfl (q := p + 16) d3 (by omega) (x := s3) (s := s2) hdd (by omega)
      rw [show p + x.data.length = p + 12 + (4 + x.sound.length) by omega]
      exact this
    · have haft := ok.last hE
      rw [hE] at f1
      rw [haft] at hflen
      have hflen' : x.file.length = p + x.data.length := by
        rw [hflen]; rfl
      unfold cafRound
      dsimp only
      have hs64 : Rd.s64 h x.file (p + 4) = .ok (-1, p + 12) := by
        have f1' : x.file.drop (p + 4) = fieldBytes h .big .s8 (-1) ++ (num .big 4 x.editCount ++ (x.sound ++ x.after.flatMap Caff.bytes)) := by
          rw [f1]
          cases h <;> rfl
        exact s64_ok (h := h) (by omega) f1'
      rw [if_pos (by omega), Rd.bind_ok (tag4_ok (id := tag "data") rfl d2'), Rd.bind_ok hs64,
        if_pos (show tag "data" = tag "data" ∧ (-1 : Int) = -1 from ⟨rfl, rfl⟩)]
      have hlen' : (x.file.length : Int) - ((p : Int) + 12) = ((4 + x.sound.length : Nat) : Int) := by omega
      rw [hlen']
      have hcc : cafChunk F h (tag "data") ((4 + x.sound.length : Nat) : Int) s2 x.file (p + 12) = .ok (s3, p + 16) := hdd
      rw [Rd.bind_ok hcc, if_neg (by omega), if_neg (by omega),
        show ((p : Int) + 12 + ((4 + x.sound.length : Nat) : Int)) = ((p + x.data.length : Nat) : Int) by omega, Int.toNat_natCast]
      rfl
  have w3 := CafWalk.one hround
  have d3 : x.file.drop (p + x.data.length) = x.after.flatMap Caff.bytes ++ [] := by
    rw [List.append_nil]
    exact drop_step d2 rfl
  obtain ⟨s4, e1, e2, w4, -⟩ := walk_caffs (F := F) (h := h) x.after (s := s3) (fun c hc => ok.others c (by simp [hc])) hsz d3
  have wall := ((w1.trans w2).trans w3).trans w4
  have hend : p + x.data.length + (x.after.flatMap Caff.bytes).length = x.file.length := by omega
  rw [hend] at wall
  refine ⟨s4, x.file.length, s2.t.f, p + 16, s2.t.afterData, s2.t.frames, by rw [b2]; exact a2, ?_, ?_, ?_⟩
  · unfold cafRead
    rw [Rd.bind_ok (m := Rd.seek 8) (a := ()) (p' := 8) rfl, Rd.bind_ok (a := x.file.length) (p' := 8) rfl]
    have hl : Rd.loop (cafRound F h x.file.length) fuel (8, ⟨false, blank, .none, none⟩) x.file 8 = .ok (s4, x.file.length) := by
      have hle : 1 + x.between.length + 1 + x.after.length < fuel := by omega
      obtain ⟨m, hm⟩ := Nat.exists_eq_add_of_lt hle
      rw [hm, Nat.add_assoc _ m 1]
      exact (wall (m + 1)).trans (caf_end (by omega))
    refine (Rd.bind_ok hl).trans ?_
    rw [e1, show s3.hasDesc = s2.hasDesc from rfl, b1, a1]
    rfl
  · have f3' : x.file.drop (p + 16) = x.sound ++ x.after.flatMap Caff.bytes := f3
    rw [f3', List.take_left]
  · rw [e2]
    show Trk.computeTotalFileFrames { s2.t with dataSize := x.sound.length, first := ((p + 16 : Nat) : Int) } = _
    have h1 : s2.t.fpp = fpp := by rw [b2]; exact a3
    have h2 : s2.t.bpp = bpp := by rw [b2]; exact a4
    dsimp only
    rw [h1, h2]

theorem caf_found (F : Files.Float64) (h : Endian) (x : Caf) (ok : x.Shape) {k : Kind} {order : Int} (hk : x.kind = some (k, order)) {fuel : Nat}
    (hfuel : x.file.length < fuel) :
    ∃ s p, cafRead F h fuel x.file 0 = .ok (s, p) ∧
      SameSound (described (F.dec x.rate) x.channels order k) x.sound (x.sound.length / (k.bytes * x.channels)) x.file s.t := by
  have hsz := ok.size
  have good : Kind.Good k := (caf_kind (h := h) hk (F.dec x.rate) x.channels 1 ok.channels.2 ⟨false, blank, .none, none⟩).1
  obtain ⟨s, p, f, first, ad, fr, ⟨g, hF, hf⟩, h1, h2, h3⟩ := caf_walk F h x ok
    (P := fun f => ∃ g, Found h (described (F.dec x.rate) x.channels order k) g ∧ f = (setSampleFormat g g.sampleFormat g.sampleWidth).2)
    (fpp := 1) (bpp := ((k.bytes * x.channels : Nat) : Int)) (fun s q rest he => by
      obtain ⟨g, s', q', e1, e2, e3, e4, e5, e6⟩ := caf_desc (F := F) (h := h) ok hk s he
      exact ⟨s', q', e1, e3, ⟨g, e2, e4⟩, e5, e6⟩) hfuel
  refine ⟨s, p, h1, ?_⟩
  have hsl : x.sound.length ≤ x.file.length := by
    have := congrArg List.length h2
    rw [List.length_take, List.length_drop] at this
    omega
  rw [h3]
  exact found_counted' good hF hf ok.channels.1 (by have := ok.channels.2; omega) (by omega) rfl rfl h2

end AF.Foreign
