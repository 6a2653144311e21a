import Verif.Proof.Files.WAVERead
/-!
# WAVE files: the chunk walk
-/
namespace AF.Files
open AF AF.Setup AF.Spec.Files AF.Meta

/-- From one state of the chunk walk to another in `k` rounds. -/
def Walk (h : Endian) (fuel size : Nat) (file : List Byte) (k : Nat) (s : WaveRead) (p : Nat) (s' : WaveRead) (p' : Nat) : Prop :=
  ∀ n, Rd.loop (waveRound h fuel size) (n + k) s file p = Rd.loop (waveRound h fuel size) n s' file p'

theorem Walk.refl (h : Endian) (fuel size : Nat) (file : List Byte) (s : WaveRead) (p : Nat) :
    Walk h fuel size file 0 s p s p := fun _ => rfl

theorem Walk.trans {h : Endian} {fuel size : Nat} {file : List Byte} {k k' : Nat} {s s' s'' : WaveRead} {p p' p'' : Nat}
    (h1 : Walk h fuel size file k s p s' p') (h2 : Walk h fuel size file k' s' p' s'' p'') :
    Walk h fuel size file (k + k') s p s'' p'' := by
  intro n
  rw [show n + (k + k') = (n + k') + k by omega, h1, h2]

/-- One chunk. -/
theorem walk_chunk {h h' : Endian} {fuel size : Nat} {file : List Byte} {s s' : WaveRead} {p q : Nat} {id rest : List Byte} {sz : Nat}
    (hp : p = s.index + 8) (hlt : s.index < size) (he : file.drop p = id ++ (fieldBytes h .little .s4 sz ++ rest))
    (hid : id.length = 4) (hev : s.index % 2 = 0) (hb : s.index + 16 + sz + 1 < 2 ^ 32)
    (hc : waveChunk h' fuel id sz s file (p + 8) = .ok (s', q)) (hi : s'.index = s.index) :
    Walk h' fuel size file 1 s p { s' with index := s.index + 8 + sz + sz % 2 } (p + 8 + sz + sz % 2) := by
  intro n
  refine Rd.loop_step ?_
  unfold waveRound
  rw [if_pos hlt, Rd.bind_ok (Rd.tag_ok he hid)]
  have e1 := drop_step he hid
  rw [Rd.bind_ok (Rd.u32Init_ok e1)]
  have q1 : ((sz : Int) % 2 ^ 32).toNat = sz := by omega
  rw [q1]
  have q2 : p + 4 + 4 = p + 8 := by omega
  rw [q2, Rd.bind_ok hc, hi]
  have q3 : waveNext s.index sz = s.index + 8 + sz + sz % 2 := by
    unfold waveNext
    have : (s.index + (sz + 8)) % 2 ^ 32 = s.index + 8 + sz := by omega
    rw [this]
    dsimp only
    split
    · omega
    · omega
  rw [q3]
  have q4 : (s.index + 8 + sz + sz % 2 + 8) % 2 ^ 32 = p + 8 + sz + sz % 2 := by omega
  rw [q4]
  rfl

/-! ## Miscellaneous data -/

theorem sum_infoSize (h : Endian) (ms : List Misc) (hm : ∀ m ∈ ms, Sized m) :
    (ms.map waveMiscSize).sum = ((ms.flatMap (infoEntry h)).length : Nat) := by
  induction ms with
  | nil => rfl
  | cons m ms ih =>
    rw [List.map_cons, List.sum_cons, ih (fun x hx => hm x (by simp [hx])), List.flatMap_cons, List.length_append,
      ← infoEntry_length h (hm m (by simp))]
    omega

theorem infoEntry_even (h : Endian) {m : Misc} (hm : Sized m) : (infoEntry h m).length % 2 = 0 := by
  have hl := infoEntry_length h hm
  unfold waveMiscSize at hl
  split at hl
  · omega
  · obtain ⟨k, hk⟩ : ∃ k : Nat, m.size = k := ⟨m.size.toNat, by have := hm.size; omega⟩
    rw [hk] at hl
    have : ((k : Int).tmod 2) = ((k % 2 : Nat) : Int) := rfl
    rw [this] at hl
    split at hl <;> omega

theorem flat_even {α : Type} (f : α → List Byte) (l : List α) (h : ∀ a ∈ l, (f a).length % 2 = 0) : (l.flatMap f).length % 2 = 0 := by
  induction l with
  | nil => rfl
  | cons a l ih =>
    have h1 := h a (by simp)
    have h2 := ih (fun x hx => h x (by simp [hx]))
    rw [List.flatMap_cons, List.length_append]
    omega

theorem infoPart_even (h : Endian) {ms : List Misc} (hm : ∀ m ∈ ms, Sized m) : (infoPart h ms).length % 2 = 0 := by
  unfold infoPart
  split
  · rfl
  · have := flat_even (infoEntry h) ms fun m h' => infoEntry_even h (hm m h')
    simp only [List.length_append, fieldBytes_length]
    have := b4
    have e1 : (tag "LIST").length = 4 := rfl
    have e2 : (tag "INFO").length = 4 := rfl
    omega

theorem walk_info {h h' : Endian} {fuel size : Nat} {file : List Byte} {s : WaveRead} {p : Nat} {rest : List Byte} {ms : List Misc}
    (hm : ∀ m ∈ ms, InfoOK m) (hfuel : ms.length < fuel) (hp : p = s.index + 8) (hev : s.index % 2 = 0)
    (hlt : s.index + (infoPart h ms).length ≤ size) (hb : size + 9 < 2 ^ 32) (hmisc : s.misc = [])
    (he : file.drop p = infoPart h ms ++ rest) :
    ∃ k, k ≤ 1 ∧ Walk h' fuel size file k s p
      { s with misc := ms.mapIdx infoRead, index := s.index + (infoPart h ms).length } (p + (infoPart h ms).length) := by
  by_cases hz : ms.length = 0
  · obtain rfl := List.eq_nil_of_length_eq_zero hz
    refine ⟨0, by omega, ?_⟩
    have : { s with misc := [], index := s.index + 0 } = s := by cases s; simp only at hmisc; subst hmisc; rfl
    have := Walk.refl h' fuel size file s p
    have e : s.misc.mapIdx infoRead = s.misc := by rw [hmisc]; rfl
    simpa [infoPart, ← hmisc, e] using this
  · have hs : ∀ m ∈ ms, Sized m := fun m h => (hm m h).toSized
    have hev2 := flat_even (infoEntry h) ms fun m h' => infoEntry_even h (hs m h')
    have hlen : file.length = p + (infoPart h ms).length + rest.length ∨ file.length ≤ p := by
      have := congrArg List.length he
      rw [List.length_drop, List.length_append] at this
      omega
    unfold infoPart at he hlt hlen ⊢
    rw [if_neg hz] at he hlt hlen ⊢
    rw [sum_infoSize h ms hs] at he hlt hlen ⊢
    generalize hE : ms.flatMap (infoEntry h) = E at *
    have e0 : (12 : Int) + ((E.length : Nat) : Int) - 8 = ((4 + E.length : Nat) : Int) := by omega
    rw [e0] at he hlt hlen ⊢
    have hL : (tag "LIST" ++ fieldBytes h .little .s4 ((4 + E.length : Nat) : Int) ++ tag "INFO" ++ E).length = 12 + E.length := by
      rw [List.length_append, List.length_append, List.length_append, fieldBytes_length]; rfl
    rw [hL] at hlt hlen ⊢
    simp only [List.append_assoc] at he
    refine ⟨1, by omega, ?_⟩
    have hne : file.drop p ≠ [] := by
      intro e
      have h1 := congrArg List.length he
      rw [e, List.length_append] at h1
      have : (tag "LIST").length = 4 := rfl
      simp at h1
      omega
    have hlen' : file.length = p + (12 + E.length) + rest.length := by
      rcases hlen with h | h
      · exact h
      · exact absurd (List.drop_eq_nil_of_le h) hne
    have hd1 := drop_step he (n := 4) rfl
    have hd2 := drop_step hd1 (fieldBytes_length _ _ _ _)
    rw [b4, show p + 4 + 4 = p + 8 by omega] at hd2
    have hd3 := drop_step hd2 (n := 4) rfl
    have hc : waveChunk h' fuel (tag "LIST") (4 + E.length) s file (p + 8) =
        .ok ({ s with misc := ms.mapIdx infoRead }, p + 8 + 4 + E.length) := by
      unfold waveChunk
      rw [if_neg (by decide), if_neg (by decide), if_neg (by decide), if_neg (by decide), if_neg (by decide),
        if_pos (Or.inl rfl)]
      unfold waveParseList
      rw [Rd.bind_ok (Rd.tag_ok hd2 rfl)]
      have q : (4 + E.length + 2 ^ 32 - 4) % 2 ^ 32 = E.length := by omega
      rw [q, Rd.bind_ok (a := p + 8 + 4) (p' := p + 8 + 4) rfl, if_neg (by decide), if_pos rfl]
      have := info_loop h h' ms hm [] file (p + 8 + 4) rest fuel (by rw [hE]; exact hd3) hfuel
      rw [hE] at this
      rw [hmisc, Rd.bind_ok this]
      simp only [List.length_nil, List.nil_append]
      have e : (fun (i : Nat) (m : Misc) => infoRead (0 + i) m) = infoRead := by funext i m; rw [Nat.zero_add]
      rw [e]
      rfl
    have := walk_chunk (h := h) (h' := h') (size := size) (sz := 4 + E.length) hp (by omega) he rfl hev (by omega) hc rfl
    have q1 : s.index + 8 + (4 + E.length) + (4 + E.length) % 2 = s.index + (12 + E.length) := by omega
    have q2 : p + 8 + (4 + E.length) + (4 + E.length) % 2 = p + (12 + E.length) := by omega
    rw [q1, q2] at this
    exact this

/-! ## Markers -/

theorem cues_length (h : Endian) (ms : List WMark) : ∀ k, ((ms.zipIdx k).flatMap fun p => waveCue h p.2 p.1).length = ms.length * 24 := by
  induction ms with
  | nil => intro k; rfl
  | cons m ms ih => intro k; rw [List.zipIdx_cons, List.flatMap_cons, List.length_append, waveCue_length, ih]; simp; omega

theorem labels_length (h : Endian) (ms : List WMark) :
    (ms.map fun m => ((12 + (zString m.name).length + (12 + (zString m.comment).length) : Nat) : Int)).sum =
      ((ms.flatMap (waveLabel h)).length : Nat) := by
  induction ms with
  | nil => rfl
  | cons m ms ih => rw [List.map_cons, List.sum_cons, ih, List.flatMap_cons, List.length_append, waveLabel_length]; omega

theorem waveLabel_even (h : Endian) (m : WMark) : (waveLabel h m).length % 2 = 0 := by
  rw [waveLabel_length]
  have := zString_even m.name
  have := zString_even m.comment
  omega

/-- The two chunks of the markers. -/
theorem waveCueBytes_eq (h : Endian) (ms : List WMark) :
    waveCueBytes h ms = tag "cue " ++ (fieldBytes h .little .s4 ((4 + ms.length * 24 : Nat) : Int) ++
      (fieldBytes h .little .s4 ms.length ++ ((ms.zipIdx.flatMap fun p => waveCue h p.2 p.1) ++
      (tag "LIST" ++ (fieldBytes h .little .s4 ((4 + (ms.flatMap (waveLabel h)).length : Nat) : Int) ++
      (tag "adtl" ++ ms.flatMap (waveLabel h))))))) := by
  unfold waveCueBytes
  rw [labels_length h]
  have e1 : (4 : Int) + (ms.length : Int) * 24 = ((4 + ms.length * 24 : Nat) : Int) := by omega
  have e2 : (4 : Int) + (((ms.flatMap (waveLabel h)).length : Nat) : Int) = ((4 + (ms.flatMap (waveLabel h)).length : Nat) : Int) := by omega
  rw [e1, e2]
  simp only [List.append_assoc]

theorem waveCueBytes_length (h : Endian) (ms : List WMark) :
    (waveCueBytes h ms).length = 24 + ms.length * 24 + (ms.flatMap (waveLabel h)).length := by
  rw [waveCueBytes_eq]
  have e1 : (tag "cue ").length = 4 := rfl
  have e2 : (tag "LIST").length = 4 := rfl
  have e3 : (tag "adtl").length = 4 := rfl
  simp only [List.length_append, fieldBytes_length, cues_length, e1, e2, e3]
  have := b4
  omega

theorem cuePart_even (h : Endian) (ms : List WMark) : (cuePart h ms).length % 2 = 0 := by
  unfold cuePart
  split
  · rfl
  · have := flat_even (waveLabel h) ms fun m _ => waveLabel_even h m
    rw [waveCueBytes_length]
    omega

structure MarkOK (m : WMark) : Prop where
  id : -2 ^ 15 ≤ m.id ∧ m.id < 2 ^ 15
  pos : 0 ≤ m.position ∧ m.position < 2 ^ 32

theorem zString_le (h : Endian) (ms : List WMark) (m : WMark) (hm : m ∈ ms) :
    (zString m.name).length ≤ (ms.flatMap (waveLabel h)).length ∧ (zString m.comment).length ≤ (ms.flatMap (waveLabel h)).length := by
  induction ms with
  | nil => cases hm
  | cons a ms ih =>
    rw [List.flatMap_cons, List.length_append]
    rcases List.mem_cons.1 hm with rfl | hm
    · rw [waveLabel_length]; omega
    · have := ih hm; omega

theorem walk_cues {h h' : Endian} {fuel size : Nat} {file : List Byte} {s : WaveRead} {p : Nat} {rest : List Byte} {ms : List WMark}
    (hm : ∀ m ∈ ms, MarkOK m) (hnd : (ms.map (·.id)).Nodup) (hfuel : 2 * ms.length < fuel) (hp : p = s.index + 8)
    (hev : s.index % 2 = 0)
    (hlt : s.index + (cuePart h ms).length ≤ size) (hb : size + 9 < 2 ^ 32) (hmarks : s.markers = [])
    (he : file.drop p = cuePart h ms ++ rest) :
    ∃ k, k ≤ 2 ∧ Walk h' fuel size file k s p
      { s with markers := ms.map labelRead, index := s.index + (cuePart h ms).length } (p + (cuePart h ms).length) := by
  by_cases hz : ms.length = 0
  · obtain rfl := List.eq_nil_of_length_eq_zero hz
    refine ⟨0, by omega, ?_⟩
    have := Walk.refl h' fuel size file s p
    simpa [cuePart, ← hmarks] using this
  · have hev2 := flat_even (waveLabel h) ms fun m _ => waveLabel_even h m
    have hcl := waveCueBytes_length h ms
    unfold cuePart at he hlt ⊢
    rw [if_neg hz] at he hlt ⊢
    rw [hcl] at hlt ⊢
    have hlen' : file.length = p + (24 + ms.length * 24 + (ms.flatMap (waveLabel h)).length) + rest.length := by
      have h1 := congrArg List.length he
      rw [List.length_drop, List.length_append, hcl] at h1
      omega
    rw [waveCueBytes_eq] at he
    have hzl := zString_le h ms
    have hcr := cues_read h h' ms (fun m hm' => ⟨(hm m hm').id, (hm m hm').pos⟩) 0
    have hcl2 := cues_length h ms 0
    generalize hC : (ms.zipIdx.flatMap fun p => waveCue h p.2 p.1) = C at *
    have hal := adtl_loop h h' ms
    generalize hE : ms.flatMap (waveLabel h) = E at *
    simp only [List.append_assoc] at he
    have hd1 := drop_step he (n := 4) rfl
    have hd2 := drop_step hd1 (fieldBytes_length _ _ _ _)
    rw [b4, show p + 4 + 4 = p + 8 by omega] at hd2
    have hd3 := drop_step hd2 (fieldBytes_length _ _ _ _)
    have hc : waveChunk h' fuel (tag "cue ") (4 + ms.length * 24) s file (p + 8) =
        .ok ({ s with markers := ms.map cueRead }, p + 8 + 4 + C.length) := by
      unfold waveChunk
      rw [if_neg (by decide), if_neg (by decide), if_neg (by decide), if_neg (by decide), if_pos rfl]
      unfold waveParseCues
      rw [Rd.bind_ok (Rd.field_ok hd2).2]
      have q : ((ms.length : Int) % 256 ^ FieldSize.s4.bytes).toNat = ms.length := by rw [p4]; omega
      rw [q, Rd.bind_ok (hcr _ _ _ hd3)]
      rfl
    have w1 := walk_chunk (h := h) (h' := h') (size := size) (sz := 4 + ms.length * 24) hp (by omega) he rfl hev (by omega) hc rfl
    have q0 : (4 + ms.length * 24) % 2 = 0 := by omega
    rw [q0] at w1
    -- the second chunk
    have hd4 := drop_step hd3 hcl2
    rw [b4, show p + 8 + 4 + ms.length * 24 = p + 8 + (4 + ms.length * 24) + 0 by omega] at hd4
    generalize hP : p + 8 + (4 + ms.length * 24) + 0 = P at *
    have hd5 := drop_step hd4 (n := 4) rfl
    have hd6 := drop_step hd5 (fieldBytes_length _ _ _ _)
    rw [b4, show P + 4 + 4 = P + 8 by omega] at hd6
    have hd7 := drop_step hd6 (n := 4) rfl
    generalize hS : WaveRead.mk (s.index + 8 + (4 + ms.length * 24) + 0) s.hasFormat s.hasData s.hasFrameCount s.t
      (ms.map cueRead) s.misc = S at w1
    have hSm : S.markers = ms.map cueRead := by rw [← hS]
    have hSi : S.index = s.index + 8 + (4 + ms.length * 24) + 0 := by rw [← hS]
    have hc2 : waveChunk h' fuel (tag "LIST") (4 + E.length) S file (P + 8) =
        .ok ({ S with markers := ms.map labelRead }, P + 8 + 4 + E.length) := by
      unfold waveChunk
      rw [if_neg (by decide), if_neg (by decide), if_neg (by decide), if_neg (by decide), if_neg (by decide),
        if_pos (Or.inl rfl)]
      unfold waveParseList
      rw [Rd.bind_ok (Rd.tag_ok hd6 rfl)]
      have q : (4 + E.length + 2 ^ 32 - 4) % 2 ^ 32 = E.length := by omega
      rw [q, Rd.bind_ok (a := P + 8 + 4) (p' := P + 8 + 4) rfl, if_pos rfl]
      have := hal (fun m hm' => ⟨(hm m hm').id, by have := hzl m hm'; omega, by have := hzl m hm'; omega⟩)
        [] file (P + 8 + 4) rest fuel (by simp) hnd hd7 hfuel
      rw [List.nil_append] at this
      rw [hSm, Rd.bind_ok this]
      rfl
    have w2 := walk_chunk (h := h) (h' := h') (size := size) (sz := 4 + E.length) (p := P) (s := S) (by omega) (by omega) hd4
      rfl (by omega) (by omega) hc2 rfl
    refine ⟨2, by omega, ?_⟩
    have w := w1.trans w2
    have q1 : S.index + 8 + (4 + E.length) + (4 + E.length) % 2 = s.index + (24 + ms.length * 24 + E.length) := by omega
    have q2 : P + 8 + (4 + E.length) + (4 + E.length) % 2 = p + (24 + ms.length * 24 + E.length) := by omega
    rw [q1, q2, ← hS] at w
    exact w

/-! ## The format -/

/-- Formats the library writes to WAVE files. -/
structure WaveFormat (f : AFmt) : Prop where
  compression : f.compression ∈ [0, 502, 503, 519, 523]
  plain : f.compression = 0 → f.byteOrder = 502 ∧ ((f.sampleFormat = 401 ∧ 8 < f.sampleWidth ∧ f.sampleWidth ≤ 32) ∨
        (f.sampleFormat = 402 ∧ 1 ≤ f.sampleWidth ∧ f.sampleWidth ≤ 8) ∨ (f.sampleFormat = 403 ∧ f.sampleWidth = 32) ∨
        (f.sampleFormat = 404 ∧ f.sampleWidth = 64))
  channels : 1 ≤ f.channels
  many : f.channels < 2 ^ 16
  blocks : f.compression = 519 ∨ f.compression = 523 → f.channels < 2 ^ 8
  rate : ∃ r : Nat, (wholeRate f).rate = r ∧ toUnsigned f.rate = r ∧ r < 2 ^ 32

/-- What is found in the format chunk. -/
structure FmtRead (f g : AFmt) (fpp bpp : Int) : Prop where
  rate : g.rate = (wholeRate f).rate
  channels : g.channels = f.channels
  compression : g.compression = f.compression
  plain : f.compression = 0 → g.sampleFormat = f.sampleFormat ∧ g.sampleWidth = (f.sampleWidth + 7) / 8 * 8 ∧ g.byteOrder = 502
  decoded : f.compression ≠ 0 → g.sampleFormat = 401 ∧ g.sampleWidth = 16
  fpp : fpp = if f.compression = 519 then 505 else if f.compression = 523 then 500 else 1
  bpp : bpp = if f.compression = 519 ∨ f.compression = 523 then 256 * f.channels else bytesPerFrame f

theorem sampleSize_plain {f : AFmt} (hf : WaveFormat f) (hz : f.compression = 0) :
    8 * sampleSizeUncompressed f false = (f.sampleWidth + 7) / 8 * 8 := by
  have := (hf.plain hz).2
  unfold sampleSizeUncompressed
  simp only [FLOAT, DOUBLE, NONE, Bool.false_eq_true, and_false, if_false]
  have e : (f.sampleWidth + 7).tdiv 8 = (f.sampleWidth + 7) / 8 := Int.tdiv_eq_ediv_of_nonneg (by omega)
  rw [e]
  split
  · omega
  · split
    · omega
    · omega

/-- What comes before the format tag is looked at. -/
theorem parse_prefix {h h' : Endian} {s : WaveRead} {file : List Byte} {q : Nat} {ft ch rate avg al : Int} {tail : List Byte}
    (hf : file.drop q = fieldBytes h .little .s2 ft ++ (fieldBytes h .little .s2 ch ++ (fieldBytes h .little .s4 rate ++
      (fieldBytes h .little .s4 avg ++ (fieldBytes h .little .s2 al ++ tail)))))
    (hft : 0 ≤ ft ∧ ft < 65536) (hch : 1 ≤ ch ∧ ch < 65536) (hr : 0 ≤ rate ∧ rate < 2 ^ 32)
    {f : AFmt} {fpp bpp : Int} {q' : Nat}
    (hsw : waveSwitch h' { rate := (rate.toNat : Rat), sampleFormat := 0, sampleWidth := 0, byteOrder := LITTLE,
                           pcm := ⟨0, 0, 0, 0⟩, channels := ch, compression := NONE } (some (al % 65536).toNat) ft.toNat file (q + 14) =
      .ok ((f, fpp, bpp), q')) :
    waveParseFormat h' s file q = .ok ({ s with hasFormat := true, t :=
      { s.t with f := (setSampleFormat f f.sampleFormat f.sampleWidth).2, fpp := fpp,
                 bpp := if f.isUncompressed then pcmBytesPerPacket f else bpp } }, q') := by
  unfold waveParseFormat
  rw [Rd.bind_ok (Rd.field_ok hf).1]
  have e1 := drop_step hf (fieldBytes_length _ _ _ _)
  rw [Rd.bind_ok (Rd.field_ok e1).2]
  have e2 := drop_step e1 (fieldBytes_length _ _ _ _)
  rw [Rd.bind_ok (Rd.field_ok e2).1]
  have e3 := drop_step e2 (fieldBytes_length _ _ _ _)
  rw [Rd.bind_ok (Rd.field_ok e3).1]
  have e4 := drop_step e3 (fieldBytes_length _ _ _ _)
  rw [Rd.bind_ok (Rd.field_ok e4).1]
  rw [p2, p4]
  have q1 : (ch % 65536).toNat = ch.toNat := by omega
  have q2 : (ft % 65536).toNat = ft.toNat := by omega
  have q3 : (rate % 2 ^ 32).toNat = rate.toNat := by omega
  have q5 : (ch.toNat : Int) = ch := by omega
  rw [q1, q2, q3, if_neg (by omega)]
  dsimp only
  rw [q5]
  have q6 : q + FieldSize.s2.bytes + FieldSize.s2.bytes + FieldSize.s4.bytes + FieldSize.s4.bytes + FieldSize.s2.bytes = q + 14 := by
    rw [b2, b4]
  rw [q6, Rd.bind_ok hsw]
  rfl

theorem fmt_parse (h h' : Endian) {f : AFmt} (hf : WaveFormat f) (s : WaveRead) {file : List Byte} {p : Nat} {rest : List Byte}
    (he : file.drop p = waveFmt h (waveTrack f) ++ rest) :
    ∃ (sz : Nat) (R : List Byte) (g : AFmt) (fpp bpp : Int) (q : Nat),
      waveFmt h (waveTrack f) ++ rest = tag "fmt " ++ (fieldBytes h .little .s4 sz ++ R) ∧
      (waveFmt h (waveTrack f)).length = 8 + sz ∧ sz % 2 = 0 ∧ FmtRead f g fpp bpp ∧
      waveParseFormat h' s file (p + 8) =
        .ok ({ s with hasFormat := true, t :=
          { s.t with f := (setSampleFormat g g.sampleFormat g.sampleWidth).2, fpp := fpp, bpp := bpp } }, q) := by
  obtain ⟨r, hr, hrate, hr'⟩ := hf.rate
  have hch := hf.channels
  have hmany := hf.many
  have hcm := hf.compression
  simp only [List.mem_cons, List.not_mem_nil, or_false] at hcm
  have htf : (waveTrack f).f = f := waveTrack_f f
  have h4 : (tag "fmt ").length = 4 := rfl
  -- the pieces
  have hsplit : ∀ (cs : Nat) (ft al bits : Int) (X : List Byte), waveFmtParams (waveTrack f) = ((cs : Int), ft, al, bits) →
      waveFmtExtra h (waveTrack f) = X →
      (waveFmt h (waveTrack f)).length = 24 + X.length ∧ ∃ R,
      waveFmt h (waveTrack f) ++ rest = tag "fmt " ++ (fieldBytes h .little .s4 (cs : Int) ++ R) ∧
      file.drop (p + 8) = fieldBytes h .little .s2 ft ++
        (fieldBytes h .little .s2 f.channels ++ (fieldBytes h .little .s4 (r : Int) ++ (fieldBytes h .little .s4 (waveAverage (waveTrack f)) ++
        (fieldBytes h .little .s2 al ++ (fieldBytes h .little .s2 bits ++ (X ++ rest)))))) ∧
      file.drop (p + 8 + 14) = fieldBytes h .little .s2 bits ++ (X ++ rest) := by
    intro cs ft al bits X hp hx
    have h0 : waveFmt h (waveTrack f) = tag "fmt " ++ (fieldBytes h .little .s4 cs ++ (fieldBytes h .little .s2 ft ++
        (fieldBytes h .little .s2 f.channels ++ (fieldBytes h .little .s4 (r : Int) ++ (fieldBytes h .little .s4 (waveAverage (waveTrack f)) ++
        (fieldBytes h .little .s2 al ++ (fieldBytes h .little .s2 bits ++ X))))))) := by
      unfold waveFmt
      rw [hp, hx, htf, hrate]
      simp only [List.append_assoc]
    refine ⟨?_, ?_⟩
    · rw [h0]
      simp only [List.length_append, fieldBytes_length, h4]
      have := b2
      have := b4
      omega
    have e0 := he
    rw [h0] at e0
    simp only [List.append_assoc] at e0
    have e1 := drop_step e0 h4
    have e2 := drop_step e1 (fieldBytes_length _ _ _ _)
    rw [b4] at e2
    refine ⟨_, by rw [← he, e0], e2, ?_⟩
    have e1 := drop_step e2 (fieldBytes_length _ _ _ _)
    have e2 := drop_step e1 (fieldBytes_length _ _ _ _)
    have e3 := drop_step e2 (fieldBytes_length _ _ _ _)
    have e4 := drop_step e3 (fieldBytes_length _ _ _ _)
    have e5 := drop_step e4 (fieldBytes_length _ _ _ _)
    rw [b2, b4] at e5
    exact e5
  have hrr : ((r : Int).toNat : Rat) = (r : Rat) := by rw [Int.toNat_natCast]
  by_cases hz : f.compression = 0
  · -- uncompressed
    have hpl := (hf.plain hz).2
    have hss := sampleSize_plain hf hz
    have hX : waveFmtExtra h (waveTrack f) = [] := by unfold waveFmtExtra; rw [htf, hz]; rfl
    have hP : waveFmtParams (waveTrack f) = (((16 : Nat) : Int), if f.sampleFormat = FLOAT ∨ f.sampleFormat = DOUBLE then 3 else 1,
        sampleSizeUncompressed f false * f.channels, (f.sampleWidth + 7) / 8 * 8) := by
      unfold waveFmtParams; rw [htf, hz, ← hss]; rfl
    obtain ⟨hL, R, hRT, hd, hd14⟩ := hsplit _ _ _ _ _ hP hX
    have hbits := (Rd.field_ok (h := h') hd14).2
    rw [p2, b2] at hbits
    obtain ⟨B, hB, hB8⟩ : ∃ B : Nat, (f.sampleWidth + 7) / 8 * 8 = B ∧ B < 65536 := ⟨((f.sampleWidth + 7) / 8 * 8).toNat, by omega, by omega⟩
    rw [hB] at hbits
    rw [show ((B : Int) % 65536).toNat = B by omega] at hbits
    have hbpf : ∀ g : AFmt, g.channels = f.channels → g.sampleWidth = B → pcmBytesPerPacket g = bytesPerFrame f := by
      intro g h1 h2
      unfold pcmBytesPerPacket bytesPerFrame
      rw [if_pos hz, h1, h2]
      have e : ((B : Int) + 7).tdiv 8 = (f.sampleWidth + 7) / 8 := by
        rw [Int.tdiv_eq_ediv_of_nonneg (by omega)]; omega
      rw [e]
      have : 0 ≤ (f.sampleWidth + 7) / 8 * f.channels := Int.mul_nonneg (by omega) (by omega)
      omega
    by_cases hfl : f.sampleFormat = FLOAT ∨ f.sampleFormat = DOUBLE
    · rw [if_pos hfl] at hd
      simp only [FLOAT, DOUBLE] at hfl
      generalize hG : waveFloat (AFmt.mk (r : Rat) 0 0 LITTLE ⟨0, 0, 0, 0⟩ f.channels NONE) B = G
      have hGp : G.rate = (wholeRate f).rate ∧ G.channels = f.channels ∧ G.compression = 0 ∧ G.byteOrder = 502 ∧
          G.sampleFormat = f.sampleFormat ∧ G.sampleWidth = B := by
        rw [← hG, hr]
        unfold waveFloat
        split
        · refine ⟨rfl, rfl, rfl, rfl, ?_, ?_⟩ <;> simp only [DOUBLE] <;> omega
        · refine ⟨rfl, rfl, rfl, rfl, ?_, ?_⟩ <;> simp only [FLOAT] <;> omega
      obtain ⟨g1, g2, g3, g4, g5, g6⟩ := hGp
      have hpp := parse_prefix (h := h) (h' := h') (s := s) hd (by decide) ⟨hch, by omega⟩ ⟨by omega, by omega⟩
        (f := G) (fpp := 1) (bpp := 0) (q' := p + 8 + 14 + 2) (by
          unfold waveSwitch
          rw [if_neg (by decide), if_neg (by decide), if_neg (by decide), if_pos (by decide), Rd.bind_ok hbits, hrr, hG]; rfl)
      refine ⟨16, R, G, 1, _, _, hRT, hL, by decide, ⟨g1, g2, by rw [g3, hz], fun _ => ⟨g5, by rw [g6, hB], g4⟩,
        fun h => absurd hz h, ?_, ?_⟩, hpp⟩
      · rw [hz]; rfl
      · have : G.isUncompressed = true := by unfold AFmt.isUncompressed; rw [g3]; rfl
        rw [this, if_pos rfl, hbpf G g2 g6, hz]; rfl
    · rw [if_neg hfl] at hd
      simp only [FLOAT, DOUBLE] at hfl
      generalize hG : AFmt.mk (r : Rat) (if B ≤ 8 then UNSIGNED else TWOSCOMP) B LITTLE ⟨0, 0, 0, 0⟩ f.channels NONE = G
      have hGp : G.rate = (wholeRate f).rate ∧ G.channels = f.channels ∧ G.compression = 0 ∧ G.byteOrder = 502 ∧
          G.sampleFormat = f.sampleFormat ∧ G.sampleWidth = B := by
        rw [← hG, hr]
        refine ⟨rfl, rfl, rfl, rfl, ?_, rfl⟩
        simp only [UNSIGNED, TWOSCOMP]
        split <;> omega
      obtain ⟨g1, g2, g3, g4, g5, g6⟩ := hGp
      have hpp := parse_prefix (h := h) (h' := h') (s := s) hd (by decide) ⟨hch, by omega⟩ ⟨by omega, by omega⟩
        (f := G) (fpp := 1) (bpp := 0) (q' := p + 8 + 14 + 2) (by
          unfold waveSwitch
          rw [if_pos (by decide), Rd.bind_ok hbits, hrr]
          have : wavePCM (AFmt.mk (r : Rat) 0 0 LITTLE ⟨0, 0, 0, 0⟩ f.channels NONE) B B = some G := by
            unfold wavePCM
            rw [if_neg (by omega), ← hG]
            by_cases hb : B ≤ 8
            · rw [if_pos hb, if_pos (by omega)]
            · rw [if_neg hb, if_neg (by omega)]
          rw [this]; rfl)
      refine ⟨16, R, G, 1, _, _, hRT, hL, by decide, ⟨g1, g2, by rw [g3, hz], fun _ => ⟨g5, by rw [g6, hB], g4⟩,
        fun h => absurd hz h, ?_, ?_⟩, hpp⟩
      · rw [hz]; rfl
      · have : G.isUncompressed = true := by unfold AFmt.isUncompressed; rw [g3]; rfl
        rw [this, if_pos rfl, hbpf G g2 g6, hz]; rfl
  -- compressed
  have hbpf : bytesPerFrame f = f.channels := by
    unfold bytesPerFrame
    rw [if_neg hz]
    omega
  by_cases hg : f.compression = 502 ∨ f.compression = 503
  · have hX : waveFmtExtra h (waveTrack f) = fieldBytes h .little .s2 0 := by
      unfold waveFmtExtra; rw [htf, if_pos hg]
    have hP : waveFmtParams (waveTrack f) = (((18 : Nat) : Int), if f.compression = 502 then 0x101 else 0x102, f.channels, 8) := by
      unfold waveFmtParams
      rw [htf]
      rcases hg with hg | hg <;> rw [hg] <;> rfl
    obtain ⟨hL, R, hRT, hd, -⟩ := hsplit _ _ _ _ _ hP hX
    rw [fieldBytes_length] at hL
    generalize hG : waveG711 h' (AFmt.mk (r : Rat) 0 0 LITTLE ⟨0, 0, 0, 0⟩ f.channels NONE) f.compression = G
    have hGu : G.isUncompressed = false := by
      rw [← hG]; unfold AFmt.isUncompressed waveG711; simp only [NONE, decide_eq_false_iff_not]; exact hz
    have hpp := parse_prefix (h := h) (h' := h') (s := s) hd (by split <;> decide) ⟨hch, by omega⟩ ⟨by omega, by omega⟩
        (f := G) (fpp := 1) (bpp := f.channels) (q' := p + 8 + 14) (by
          unfold waveSwitch
          rcases hg with hg | hg
          · rw [if_neg (by rw [hg]; decide), if_pos (by rw [hg]; decide), hrr, ← hG, hg]; rfl
          · rw [if_neg (by rw [hg]; decide), if_neg (by rw [hg]; decide), if_pos (by rw [hg]; decide), hrr, ← hG, hg]; rfl)
    rw [hGu, if_neg (by simp)] at hpp
    refine ⟨18, R, G, 1, _, _, hRT, hL, by decide, ⟨by rw [hr, ← hG]; rfl, by rw [← hG]; rfl, by rw [← hG]; rfl,
        fun h => absurd h hz, fun _ => by rw [← hG]; exact ⟨rfl, rfl⟩, ?_, ?_⟩, hpp⟩
    · rcases hg with hg | hg <;> rw [hg] <;> rfl
    · rw [if_neg (by omega), hbpf]
  have hblk : f.compression = 519 ∨ f.compression = 523 := by omega
  have hch8 := hf.blocks hblk
  generalize hG : AFmt.mk (r : Rat) TWOSCOMP 16 (native h') ⟨0, 0, 0, 0⟩ f.channels f.compression = G
  have hGu : G.isUncompressed = false := by
    rw [← hG]; unfold AFmt.isUncompressed; simp only [NONE, decide_eq_false_iff_not]; exact hz
  have hal : ((256 * f.channels) % 65536).toNat = (256 * f.channels).toNat := by omega
  have hal2 : ((256 * f.channels).toNat : Int) = 256 * f.channels := by omega
  rcases hblk with hc | hc
  · have htr : (waveTrack f).fpp = 505 ∧ (waveTrack f).bpp = 256 * f.channels := by
      unfold waveTrack
      rw [if_pos hc]
      exact ⟨rfl, rfl⟩
    have hX : waveFmtExtra h (waveTrack f) = fieldBytes h .little .s2 2 ++ fieldBytes h .little .s2 505 := by
      unfold waveFmtExtra; rw [htf, hc, htr.1]; rfl
    have hP : waveFmtParams (waveTrack f) = (((20 : Nat) : Int), 0x11, 256 * f.channels, 4) := by
      unfold waveFmtParams
      rw [htf, hc, htr.2]; rfl
    obtain ⟨hL, R, hRT, hd, hd14⟩ := hsplit _ _ _ _ _ hP hX
    rw [List.length_append, fieldBytes_length, fieldBytes_length] at hL
    rw [List.append_assoc] at hd14
    have e1 := drop_step hd14 (fieldBytes_length _ _ _ _)
    have e2 := drop_step e1 (fieldBytes_length _ _ _ _)
    have hpp := parse_prefix (h := h) (h' := h') (s := s) hd (by decide) ⟨hch, by omega⟩ ⟨by omega, by omega⟩
        (f := G) (fpp := 505) (bpp := 256 * f.channels) (q' := p + 8 + 14 + 6) (by
          unfold waveSwitch
          rw [if_neg (by decide), if_neg (by decide), if_neg (by decide), if_neg (by decide), if_neg (by decide), if_pos (by decide),
            Rd.bind_ok (Rd.field_ok hd14).1, Rd.bind_ok (Rd.field_ok e1).1, Rd.bind_ok (Rd.field_ok e2).2, hal, hrr]
          dsimp only
          rw [hal2, ← hG, hc]
          rfl)
    rw [hGu, if_neg (by simp)] at hpp
    refine ⟨20, R, G, 505, _, _, hRT, hL, by decide, ⟨by rw [hr, ← hG], by rw [← hG], by rw [← hG],
        fun h => absurd h hz, fun _ => by rw [← hG]; exact ⟨rfl, rfl⟩, ?_, ?_⟩, hpp⟩
    · rw [hc]; rfl
    · rw [if_pos (Or.inl hc)]
  · have htr : (waveTrack f).fpp = 500 ∧ (waveTrack f).bpp = 256 * f.channels := by
      unfold waveTrack
      rw [if_neg (by rw [hc]; decide), if_pos hc]
      exact ⟨rfl, rfl⟩
    have hX : waveFmtExtra h (waveTrack f) = fieldBytes h .little .s2 (2 + 2 + 7 * 4) ++ fieldBytes h .little .s2 500 ++
        fieldBytes h .little .s2 7 ++
        msadpcmCoefficients.flatMap fun c => fieldBytes h .little .s2 c.1 ++ fieldBytes h .little .s2 c.2 := by
      unfold waveFmtExtra; rw [htf, hc, htr.1]; rfl
    have hP : waveFmtParams (waveTrack f) = (((50 : Nat) : Int), 2, 256 * f.channels, 4) := by
      unfold waveFmtParams
      rw [htf, hc, htr.2]; rfl
    obtain ⟨hL, R, hRT, hd, hd14⟩ := hsplit _ _ _ _ _ hP hX
    have hcl : (msadpcmCoefficients.flatMap fun c => fieldBytes h .little .s2 c.1 ++ fieldBytes h .little .s2 c.2).length = 28 := by
      simp [msadpcmCoefficients, fieldBytes_length, FieldSize.bytes]
    rw [List.length_append, List.length_append, List.length_append, fieldBytes_length, fieldBytes_length, fieldBytes_length, hcl] at hL
    have hco := Rd.times_ok (m := waveCoefficient h') (fun c : Int × Int => fieldBytes h .little .s2 c.1 ++ fieldBytes h .little .s2 c.2)
      (fun _ => ()) (by
        intro c
        have := (Reads.field?' (h := h') (h' := h) (o := .little) (k := .s2) (x := c.1)).bind (g := fun _ => do
          let _ ← Rd.field? h' .little .s2
          return ()) ((Reads.field?' (h := h') (h' := h) (o := .little) (k := .s2) (x := c.2)).bind (Reads.pure ()))
        simpa [waveCoefficient] using this) msadpcmCoefficients
    simp only [List.append_assoc] at hd14
    have e1 := drop_step hd14 (fieldBytes_length _ _ _ _)
    have e2 := drop_step e1 (fieldBytes_length _ _ _ _)
    have e3 := drop_step e2 (fieldBytes_length _ _ _ _)
    have e4 := drop_step e3 (fieldBytes_length _ _ _ _)
    have hpp := parse_prefix (h := h) (h' := h') (s := s) hd (by decide) ⟨hch, by omega⟩ ⟨by omega, by omega⟩
        (f := G) (fpp := 500) (bpp := 256 * f.channels) (q' := p + 8 + 14 + 8 + 28) (by
          unfold waveSwitch
          rw [if_neg (by decide), if_neg (by decide), if_neg (by decide), if_neg (by decide), if_pos (by decide),
            Rd.bind_ok (Rd.field_ok hd14).1, Rd.bind_ok (Rd.field_ok e1).1, Rd.bind_ok (Rd.field_ok e2).2,
            Rd.bind_ok (Rd.field_ok e3).2]
          rw [if_neg (by decide)]
          have e : ((7 : Int) % 256 ^ FieldSize.s2.bytes).toNat = msadpcmCoefficients.length := rfl
          rw [e, Rd.bind_ok (hco _ _ _ e4), hcl, hal, hrr]
          dsimp only
          rw [hal2, ← hG, hc]
          rfl)
    rw [hGu, if_neg (by simp)] at hpp
    refine ⟨50, R, G, 500, _, _, hRT, hL, by decide, ⟨by rw [hr, ← hG], by rw [← hG], by rw [← hG],
        fun h => absurd h hz, fun _ => by rw [← hG]; exact ⟨rfl, rfl⟩, ?_, ?_⟩, hpp⟩
    · rw [hc]; rfl
    · rw [if_pos (Or.inr hc)]


theorem computeTotalFileFrames_packets (t : Trk) : t.computeTotalFileFrames.fpp = t.fpp ∧ t.computeTotalFileFrames.bpp = t.bpp := by
  unfold Trk.computeTotalFileFrames; split <;> exact ⟨rfl, rfl⟩

theorem bytesPerFrame_pos {f : AFmt} (hf : WaveFormat f) : 0 < bytesPerFrame f := by
  unfold bytesPerFrame
  have := hf.channels
  split
  · rename_i hz
    have := (hf.plain hz).2
    have : 0 < (f.sampleWidth + 7) / 8 * f.channels := Int.mul_pos (by omega) (by omega)
    omega
  · omega

theorem walk_fmt {h h' : Endian} {fuel size : Nat} {file : List Byte} {s : WaveRead} {p : Nat} {rest : List Byte} {f : AFmt}
    (hf : WaveFormat f) (hp : p = s.index + 8) (hev : s.index % 2 = 0)
    (hlt : s.index + (waveFmt h (waveTrack f)).length ≤ size) (hb : size + 9 < 2 ^ 32)
    (he : file.drop p = waveFmt h (waveTrack f) ++ rest) :
    (waveFmt h (waveTrack f)).length % 2 = 0 ∧ ∃ g fpp bpp, FmtRead f g fpp bpp ∧ Walk h' fuel size file 1 s p
      { s with hasFormat := true, index := s.index + (waveFmt h (waveTrack f)).length, t :=
          { s.t with f := (setSampleFormat g g.sampleFormat g.sampleWidth).2, fpp := fpp, bpp := bpp } }
      (p + (waveFmt h (waveTrack f)).length) := by
  obtain ⟨sz, R, g, fpp, bpp, q, h1, h2, h3, h4, h5⟩ := fmt_parse h h' hf s he
  refine ⟨by omega, g, fpp, bpp, h4, ?_⟩
  have hlen := congrArg List.length he
  rw [List.length_drop, List.length_append] at hlen
  rw [h1] at he
  have hc : waveChunk h' fuel (tag "fmt ") sz s file (p + 8) =
      .ok ({ s with hasFormat := true, t :=
          { s.t with f := (setSampleFormat g g.sampleFormat g.sampleWidth).2, fpp := fpp, bpp := bpp } }, q) := by
    unfold waveChunk
    rw [if_pos rfl, h5]
  have := walk_chunk (h := h) (h' := h') (size := size) (sz := sz) hp (by omega) he rfl hev (by omega) hc rfl
  have q1 : s.index + 8 + sz + sz % 2 = s.index + (waveFmt h (waveTrack f)).length := by omega
  have q2 : p + 8 + sz + sz % 2 = p + (waveFmt h (waveTrack f)).length := by omega
  rw [q1, q2] at this
  exact this

theorem factPart_even (h : Endian) (f : AFmt) (n : Int) : (factPart h f n).length % 2 = 0 := by
  unfold factPart
  have e1 : (tag "fact").length = 4 := rfl
  split
  · rw [List.length_append, List.length_append, fieldBytes_length, fieldBytes_length, e1, b4]
  · rfl

theorem walk_fact {h h' : Endian} {fuel size : Nat} {file : List Byte} {s : WaveRead} {p : Nat} {rest : List Byte} {f : AFmt}
    {n : Nat} (hn : hasFact f = true → n < 2 ^ 32) (hp : p = s.index + 8) (hev : s.index % 2 = 0) (hs : s.hasFrameCount = false)
    (hlt : s.index + (factPart h f n).length ≤ size) (hb : size + 9 < 2 ^ 32)
    (he : file.drop p = factPart h f n ++ rest) :
    ∃ k, k ≤ 1 ∧ Walk h' fuel size file k s p
      { s with hasFrameCount := hasFact f, index := s.index + (factPart h f n).length, t :=
          { s.t with frames := if hasFact f then n else s.t.frames } }
      (p + (factPart h f n).length) := by
  cases hF : hasFact f with
  | false =>
    refine ⟨0, by omega, ?_⟩
    have hL : (factPart h f n).length = 0 := by unfold factPart; rw [hF]; rfl
    rw [hL]
    have e : { s with hasFrameCount := false, index := s.index + 0, t := { s.t with frames := if false = true then n else s.t.frames } } = s := by
      rw [if_neg (by decide)]; cases s; simp only at hs; subst hs; rfl
    rw [e]
    exact Walk.refl h' fuel size file s p
  | true =>
    refine ⟨1, by omega, ?_⟩
    have hL : (factPart h f n).length = 12 := by
      unfold factPart
      have e1 : (tag "fact").length = 4 := rfl
      rw [hF, if_pos rfl, List.length_append, List.length_append, fieldBytes_length, fieldBytes_length, e1, b4]
    rw [hL] at hlt ⊢
    have hlen := congrArg List.length he
    rw [List.length_drop, List.length_append, hL] at hlen
    unfold factPart at he
    rw [hF, if_pos rfl] at he
    simp only [List.append_assoc] at he
    have hd1 := drop_step he (n := 4) rfl
    have hd2 := drop_step hd1 (fieldBytes_length _ _ _ _)
    rw [b4, show p + 4 + 4 = p + 8 by omega] at hd2
    have hc : waveChunk h' fuel (tag "fact") 4 s file (p + 8) =
        .ok ({ s with hasFrameCount := true, t := { s.t with frames := n } }, p + 8 + 4) := by
      unfold waveChunk
      rw [if_neg (by decide), if_neg (by decide), if_neg (by decide), if_pos rfl]
      unfold waveParseFact
      rw [Rd.bind_ok (Rd.field_ok hd2).2]
      have hn := hn hF
      have q : ((n : Int) % 256 ^ FieldSize.s4.bytes).toNat = n := by rw [p4]; omega
      rw [q]
      rfl
    have := walk_chunk (h := h) (h' := h') (size := size) (sz := 4) hp (by omega) he rfl hev (by omega) hc rfl
    rw [show s.index + 8 + 4 + 4 % 2 = s.index + 12 by omega, show p + 8 + 4 + 4 % 2 = p + 12 by omega] at this
    exact this

theorem walk_data {h h' : Endian} {fuel size : Nat} {file : List Byte} {s : WaveRead} {p : Nat} {D T : List Byte}
    (hp : p = s.index + 8) (hev : s.index % 2 = 0) (hs : s.hasFormat = true)
    (hlt : s.index < size) (hb : s.index + 16 + D.length + 1 < 2 ^ 32)
    (he : file.drop p = tag "data" ++ (fieldBytes h .little .s4 D.length ++ (D ++ T))) :
    Walk h' fuel size file 1 s p
      { s with hasData := true, index := s.index + 8 + D.length + D.length % 2, t :=
          { s.t with first := ((p + 8 : Nat) : Int), dataSize := D.length } }
      (p + 8 + D.length + D.length % 2) := by
  have hlen := congrArg List.length he
  have e1 : (tag "data").length = 4 := rfl
  rw [List.length_drop, List.length_append, List.length_append, List.length_append, e1, fieldBytes_length, b4] at hlen
  have hc : waveChunk h' fuel (tag "data") D.length s file (p + 8) =
      .ok ({ s with hasData := true, t := { s.t with first := ((p + 8 : Nat) : Int), dataSize := D.length } }, p + 8) := by
    unfold waveChunk
    rw [if_neg (by decide), if_pos rfl, if_neg (by rw [hs]; decide)]
    rfl
  exact walk_chunk (h := h) (h' := h') (size := size) (sz := D.length) hp hlt he rfl hev (by omega) hc rfl

theorem wave_walk (h h' : Endian) {f : AFmt} (hf : WaveFormat f) {misc : List Misc} {marks : List WMark} {n : Nat}
    {D T file : List Byte} (hmisc : ∀ m ∈ misc, InfoOK m) (hmark : ∀ m ∈ marks, MarkOK m) (hnd : (marks.map (·.id)).Nodup)
    (hn : hasFact f = true → n < 2 ^ 32) (hb : file.length - T.length + 1 < 2 ^ 32)
    {size : Nat} (hz1 : file.length - T.length ≤ size + D.length + 8) (hz2 : size + 8 ≤ file.length - T.length)
    (hd3 : file.drop 12 = infoPart h misc ++
      (cuePart h marks ++ (waveFmt h (waveTrack f) ++ (factPart h f n ++ (tag "data" ++ (fieldBytes h .little .s4 D.length ++ (D ++ T)))))))
    (hlen : file.length = 12 + ((infoPart h misc).length + ((cuePart h marks).length + ((waveFmt h (waveTrack f)).length +
      ((factPart h f n).length + (4 + (4 + (D.length + T.length))))))))
    {fuel : Nat} (hfuel : 8 + misc.length + 2 * marks.length ≤ fuel) (S0 : WaveRead)
    (z1 : S0.index = 4) (z2 : S0.misc = []) (z3 : S0.markers = []) (z4 : S0.hasFrameCount = false) :
    ∃ k s p, k ≤ 6 ∧ Walk h' fuel size file k S0 12 s p ∧ size ≤ s.index ∧ s.hasFormat = true ∧
      s.hasData = true ∧ s.hasFrameCount = hasFact f ∧ s.misc = misc.mapIdx infoRead ∧ s.markers = marks.map labelRead ∧
      (∃ g fpp bpp, FmtRead f g fpp bpp ∧ s.t.f = (setSampleFormat g g.sampleFormat g.sampleWidth).2 ∧ s.t.fpp = fpp ∧ s.t.bpp = bpp) ∧
      0 ≤ s.t.first ∧ s.t.dataSize = D.length ∧ file.drop s.t.first.toNat = D ++ T ∧ (hasFact f = true → s.t.frames = n) := by
  have hs : ∀ m ∈ misc, Sized m := fun m h => (hmisc m h).toSized
  have hie := infoPart_even h hs
  have hce := cuePart_even h marks
  have hfe := factPart_even h f n
  obtain ⟨k1, hk1, w1⟩ := walk_info (h := h) (h' := h') (fuel := fuel) (size := size) hmisc (by omega) (by omega)
    (by omega) (by omega) (by omega) z2 hd3
  have hd4 := drop_step hd3 rfl
  obtain ⟨k2, hk2, w2⟩ := walk_cues (h := h) (h' := h') (fuel := fuel) (size := size)
    (s := { S0 with misc := misc.mapIdx infoRead, index := S0.index + (infoPart h misc).length }) hmark hnd (by omega) (by dsimp only; omega)
    (by dsimp only; omega) (by dsimp only; omega) (by omega) z3 hd4
  have w12 := w1.trans w2
  have hd5 := drop_step hd4 rfl
  obtain ⟨hev, g, fpp, bpp, hG, w3⟩ := walk_fmt (h := h) (h' := h') (fuel := fuel) (size := size)
    (s := { S0 with misc := misc.mapIdx infoRead, markers := marks.map labelRead,
                    index := S0.index + (infoPart h misc).length + (cuePart h marks).length }) hf (by dsimp only; omega)
    (by dsimp only; omega) (by dsimp only; omega) (by omega) hd5
  have w123 := w12.trans w3
  have hd6 := drop_step hd5 rfl
  -- the number of frames
  generalize hT : Trk.mk (setSampleFormat g g.sampleFormat g.sampleWidth).2 fpp bpp S0.t.first S0.t.afterData S0.t.dataSize S0.t.frames = T0 at w123
  have hTf : T0.f = (setSampleFormat g g.sampleFormat g.sampleWidth).2 ∧ T0.fpp = fpp ∧ T0.bpp = bpp := by rw [← hT]; exact ⟨rfl, rfl, rfl⟩
  generalize hI3 : S0.index + (infoPart h misc).length + (cuePart h marks).length + (waveFmt h (waveTrack f)).length = I3 at w123
  generalize hP3 : 12 + (infoPart h misc).length + (cuePart h marks).length + (waveFmt h (waveTrack f)).length = P3 at w123 hd6
  obtain ⟨k4, hk4, w4⟩ := walk_fact (h := h) (h' := h') (fuel := fuel) (size := size) (n := n) (rest := _)
        (s := { S0 with misc := misc.mapIdx infoRead, markers := marks.map labelRead, hasFormat := true, index := I3, t := T0 })
        hn (by dsimp only; omega) (by dsimp only; omega) z4 (by dsimp only; omega) (by omega) hd6
  have w1234 := w123.trans w4
  have hd7 := drop_step hd6 rfl
  generalize hI4 : I3 + (factPart h f n).length = I4 at w1234
  generalize hP4 : P3 + (factPart h f n).length = P4 at w1234 hd7
  have w5 := walk_data (h := h) (h' := h') (fuel := fuel) (size := size) (D := D) (T := T)
    (s := { S0 with misc := misc.mapIdx infoRead, markers := marks.map labelRead, hasFormat := true, index := I4,
                    hasFrameCount := hasFact f, t := { T0 with frames := if hasFact f then n else T0.frames } })
    (p := P4) (by dsimp only; omega) (by dsimp only; omega) rfl (by dsimp only; omega) (by dsimp only; omega) hd7
  have w := w1234.trans w5
  have hd8 := drop_step hd7 (n := 4) rfl
  have hd9 := drop_step hd8 (fieldBytes_length _ _ _ _)
  rw [b4] at hd9
  have hd9' : file.drop (P4 + 8) = D ++ T := by rw [← hd9]
  refine ⟨_, _, _, by omega, w, ?_, rfl, rfl, rfl, rfl, rfl, ⟨g, fpp, bpp, hG, hTf⟩, ?_, rfl, ?_, ?_⟩
  · dsimp only; omega
  · dsimp only; omega
  · dsimp only; rw [Int.toNat_natCast]; exact hd9'
  · intro hF; dsimp only; rw [hF]; rfl

/-- What opening reports for a header that the library wrote, whatever follows the audio data. -/
structure WaveReport (f : AFmt) (misc : List Misc) (marks : List WMark) (n : Nat) (D T file : List Byte) (s : WaveRead) : Prop where
  misc : s.misc = misc.mapIdx infoRead
  markers : s.markers = marks.map labelRead
  format : ∃ g fpp bpp, FmtRead f g fpp bpp ∧ s.t.f = (setSampleFormat g g.sampleFormat g.sampleWidth).2 ∧ s.t.fpp = fpp ∧ s.t.bpp = bpp
  first : 0 ≤ s.t.first
  size : s.t.dataSize = D.length
  audio : file.drop s.t.first.toNat = D ++ T
  frames : hasFact f = true → s.t.frames = n
  count : hasFact f = false → ∃ t : Trk, t.fpp = s.t.fpp ∧ t.bpp = s.t.bpp ∧ t.dataSize = D.length ∧
    s.t.frames = t.computeTotalFileFrames.frames

theorem wave_report_len (h h' : Endian) {f : AFmt} (hf : WaveFormat f) {misc : List Misc} {marks : List WMark} {n : Nat}
    {D T file : List Byte} (hmisc : ∀ m ∈ misc, InfoOK m) (hmark : ∀ m ∈ marks, MarkOK m) (hnd : (marks.map (·.id)).Nodup)
    (hn : hasFact f = true → n < 2 ^ 32) (hb : file.length - T.length + 1 < 2 ^ 32)
    {size : Nat} (hz1 : file.length - T.length ≤ size + D.length + 8) (hz2 : size + 8 ≤ file.length - T.length)
    (hfile : file = waveHead h f (fieldBytes h .little .s4 size) misc marks n D.length ++ (D ++ T))
    {fuel : Nat} (hfuel : 8 + misc.length + 2 * marks.length ≤ fuel) :
    ∃ s p, waveRead h' fuel file 0 = .ok (s, p) ∧ WaveReport f misc marks n D T file s := by
  have hd0 : file.drop 0 = tag "RIFF" ++ (fieldBytes h .little .s4 size ++ (tag "WAVE" ++ (infoPart h misc ++
      (cuePart h marks ++ (waveFmt h (waveTrack f) ++ (factPart h f n ++ (tag "data" ++ (fieldBytes h .little .s4 D.length ++ (D ++ T))))))))) := by
    rw [List.drop_zero]
    refine hfile.trans ?_
    unfold waveHead
    simp only [List.append_assoc]
  have hlen := congrArg List.length hd0
  have e1 : (tag "data").length = 4 := rfl
  have e2 : (tag "RIFF").length = 4 := rfl
  have e3 : (tag "WAVE").length = 4 := rfl
  simp only [List.length_drop, List.length_append, e1, e2, e3, fieldBytes_length] at hlen
  have hb4 := b4
  have hd1 := drop_step hd0 e2
  have hd2 := drop_step hd1 (fieldBytes_length _ _ _ _)
  have hd3 := drop_step hd2 e3
  rw [b4] at hd2 hd3
  rw [show 0 + 4 + 4 + 4 = 12 by omega] at hd3
  rw [show 0 + 4 + 4 = 8 by omega] at hd2
  unfold waveRead
  rw [Rd.bind_ok (a := ()) (p' := 0) rfl, Rd.bind_ok (Rd.tag_ok hd0 e2), Rd.bind_ok (Rd.field_ok hd1).2]
  have q0 : ((size : Int) % 256 ^ FieldSize.s4.bytes).toNat = size := by rw [p4]; omega
  rw [q0, b4, show 0 + 4 + 4 = 8 by omega, Rd.bind_ok (Rd.tag_ok hd2 e3), show 8 + 4 = 12 by omega]
  generalize hS0 : WaveRead.mk 4 false false false
    (Trk.ofFormat ⟨0, 0, 0, 0, ⟨0, 0, 0, 0⟩, 0, 0⟩) [] [] = S0
  have z1 : S0.index = 4 := by rw [← hS0]
  have z2 : S0.misc = [] := by rw [← hS0]
  have z3 : S0.markers = [] := by rw [← hS0]
  have z4 : S0.hasFrameCount = false := by rw [← hS0]
  clear hS0
  obtain ⟨k, s, p, hk, hw, hix, hF, hD, hC, hmi, hma, ⟨g, fpp, bpp, hG, hTf⟩, h1, h2, h3, h4⟩ :=
    wave_walk h h' hf hmisc hmark hnd hn hb hz1 hz2 hd3 (by omega) hfuel S0 z1 z2 z3 z4
  obtain ⟨N, hN⟩ : ∃ N, fuel = N + 1 + k := ⟨fuel - k - 1, by omega⟩
  have hw := hw (N + 1)
  rw [← hN] at hw
  have hend : Rd.loop (waveRound h' fuel size) (N + 1) s file p = .ok (s, p) := by
    refine Rd.loop_done ?_
    unfold waveRound
    rw [if_neg (by omega)]
    rfl
  rw [hend] at hw
  rw [Rd.bind_ok hw]
  have hch := hf.channels
  have hb0 : s.t.bpp ≠ 0 := by
    rw [hTf.2.2, hG.bpp]
    have := bytesPerFrame_pos hf
    split <;> omega
  have hf0 : s.t.fpp ≠ 0 := by
    rw [hTf.2.1, hG.fpp]
    split
    · decide
    · split <;> decide
  rw [hF, hD, hC, if_neg (by simp)]
  cases hH : hasFact f with
  | true =>
    exact ⟨_, _, rfl, ⟨hmi, hma, ⟨g, fpp, bpp, hG, hTf⟩, h1, h2, h3, h4, fun h => by cases hH.symm.trans h⟩⟩
  | false =>
    rw [if_pos (by rfl), if_pos ⟨hb0, hf0⟩]
    have hr := computeTotalFileFrames_rest s.t
    have hr2 := computeTotalFileFrames_packets s.t
    refine ⟨_, _, rfl, ⟨hmi, hma, ⟨g, fpp, bpp, hG, ?_⟩, ?_, ?_, ?_, fun h => (by cases hH.symm.trans h), fun _ => ?_⟩⟩
    · dsimp only
      rw [hr.1, hr2.1, hr2.2]; exact hTf
    · dsimp only; rw [hr.2.1]; exact h1
    · dsimp only; rw [hr.2.2]; exact h2
    · dsimp only; rw [hr.2.1]; exact h3
    · exact ⟨s.t, hr2.1.symm, hr2.2.symm, h2, rfl⟩
theorem wave_report (h h' : Endian) {f : AFmt} (hf : WaveFormat f) {misc : List Misc} {marks : List WMark} {n : Nat}
    {D T file : List Byte} (hmisc : ∀ m ∈ misc, InfoOK m) (hmark : ∀ m ∈ marks, MarkOK m) (hnd : (marks.map (·.id)).Nodup)
    (hn : hasFact f = true → n < 2 ^ 32) (hb : file.length - T.length + 1 < 2 ^ 32)
    (hfile : file = waveHead h f (fieldBytes h .little .s4 ((file.length : Int) - T.length - 8)) misc marks n D.length ++ (D ++ T))
    {fuel : Nat} (hfuel : 8 + misc.length + 2 * marks.length ≤ fuel) :
    ∃ s p, waveRead h' fuel file 0 = .ok (s, p) ∧ WaveReport f misc marks n D T file s := by
  have hlen := congrArg List.length hfile
  have e1 : (tag "data").length = 4 := rfl
  have e2 : (tag "RIFF").length = 4 := rfl
  have e3 : (tag "WAVE").length = 4 := rfl
  unfold waveHead at hlen
  simp only [List.length_append, e1, e2, e3, fieldBytes_length] at hlen
  have hb4 := b4
  have e : ((file.length : Int) - T.length - 8) = ((file.length - T.length - 8 : Nat) : Int) := by omega
  rw [e] at hfile
  exact wave_report_len h h' hf hmisc hmark hnd hn hb (size := file.length - T.length - 8) (by omega) (by omega) hfile hfuel

end AF.Files
