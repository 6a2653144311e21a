import Verif.Proof.Create
/-! What each format's `completeSetup` decides. -/
namespace AF.Create
open AF AF.Setup AF.Spec.Create

/-- The sound of the completed setup. -/
def res (p : Setup × Option Setup) : Option (Option Made) := p.2.map fun c => c.tracks.head?.map fun t => soundOf t.f

/-- A setup is completed exactly when `T` holds, and then to the sound `m`. -/
def Decides (p : Setup × Option Setup) (T : Prop) (m : Made) : Prop := (T → res p = some (some m)) ∧ (¬ T → p.2 = none)

theorem Decides.refuse {c : Prop} [Decidable c] {x : Setup} {b : Setup × Option Setup} {T : Prop} {m : Made} (h1 : c → ¬ T)
    (h2 : ¬ c → Decides b T m) : Decides (if c then (x, none) else b) T m := by
  by_cases hc : c
  · rw [if_pos hc]; exact ⟨fun t => absurd t (h1 hc), fun _ => rfl⟩
  · rw [if_neg hc]; exact h2 hc

theorem Decides.never {x : Setup} {T : Prop} {m : Made} (h : ¬ T) : Decides (x, none) T m := ⟨fun t => absurd t h, fun _ => rfl⟩

theorem Decides.copy {s : Setup} {tr : TrackSetup} {f : AFmt} {u : FileFormat} {n : Nat} {b : Bool} {T : Prop} {m : Made} (ht : T)
    (hm : soundOf f = m) : Decides (setF s tr f, some (filesetupCopy (setF s tr f) u n b)) T m := by
  refine ⟨fun _ => ?_, fun h => absurd ht h⟩
  rw [copy_eq (s := setF s tr f) (tr := { tr with f := f }) rfl]
  rw [← hm]
  rfl

theorem Decides.copySelf {s : Setup} {tr : TrackSetup} (ht : s.tracks = [tr]) {u : FileFormat} {n : Nat} {b : Bool} {T : Prop} {m : Made}
    (hT : T) (hm : soundOf tr.f = m) : Decides (s, some (filesetupCopy s u n b)) T m := by
  have := Decides.copy (s := s) (tr := tr) (f := tr.f) (u := u) (n := n) (b := b) hT hm
  rwa [setF_self ht] at this

theorem all_getD {α : Type} (o : Option α) (p : α → Bool) (d : α) : o.all p = (!o.isSome || p (o.getD d)) := by
  cases o <;> rfl

/-- No metadata at all. -/
def plainMeta (r : Request) : Bool := !r.aes && r.markers.all (· = 0) && r.instruments.all (· = []) && r.misc.all (· = [])

theorem meta_eq {s : Setup} {tr : TrackSetup} {h : Endian} {r : Request} (hs : Holds h s r) (hr : OnTrack h tr r) (f : AFmt) :
    noMetadata (setF s tr f) tr = plainMeta r := by
  unfold plainMeta
  rw [hr.markers, hs.instruments, hs.misc, ← hr.aes]
  unfold noMetadata setF
  rw [Bool.eq_iff_iff]
  cases tr.markersSet <;> cases s.instrumentSet <;> cases s.miscellaneousSet <;> simp [List.length_eq_zero_iff]

theorem meta_self {s : Setup} {tr : TrackSetup} {h : Endian} {r : Request} (hs : Holds h s r) (ht : s.tracks = [tr]) (hr : OnTrack h tr r) :
    noMetadata s tr = plainMeta r := by
  rw [← meta_eq hs hr tr.f, setF_self ht]

section
variable {h : Endian} {s : Setup} {tr : TrackSetup} {r : Request}

/-- What is known about a track, without the request. -/
structure Known (h : Endian) (tr : TrackSetup) : Prop where
  fmt : tr.sampleFormatSet = false → tr.f.sampleFormat = 401 ∧ tr.f.sampleWidth = 16
  width : tr.sampleWidthSet = tr.sampleFormatSet
  comp : tr.compressionSet = false → tr.f.compression = 0
  order : tr.byteOrderSet = false → tr.f.byteOrder = hostOrder h
  channels : tr.channelCountSet = false → tr.f.channels = 2
  legal : ((tr.f.sampleFormat = 401 ∨ tr.f.sampleFormat = 402) ∧ 1 ≤ tr.f.sampleWidth ∧ tr.f.sampleWidth ≤ 32) ∨
    (tr.f.sampleFormat = 403 ∧ tr.f.sampleWidth = 32) ∨ (tr.f.sampleFormat = 404 ∧ tr.f.sampleWidth = 64)
  orders : tr.f.byteOrder = 501 ∨ tr.f.byteOrder = 502
  compLegal : tr.f.compression ∈ [(0 : Int), 502, 503, 519, 523, 530, 540]

theorem known (hr : OnTrack h tr r) : Known h tr where
  fmt := fun e => by
    have := hr.fmtSet
    rw [e] at this
    have e' : r.encoding = none := by cases x : r.encoding with
      | none => rfl
      | some _ => rw [x] at this; cases this
    rw [hr.fmt, hr.width, Request.enc, e']
    exact ⟨rfl, rfl⟩
  width := by rw [hr.fmtSet, hr.widthSet]
  comp := fun e => by
    have := hr.compSet
    rw [e] at this
    have e' : r.compression = none := by cases x : r.compression with
      | none => rfl
      | some _ => rw [x] at this; cases this
    rw [hr.comp, Request.comp, e']
    rfl
  order := fun e => by
    have := hr.orderSet
    rw [e] at this
    have e' : r.order = none := by cases x : r.order with
      | none => rfl
      | some _ => rw [x] at this; cases this
    rw [hr.order, e']
    rfl
  channels := fun e => by
    have := hr.channelsSet
    rw [e] at this
    have e' : r.channels = none := by cases x : r.channels with
      | none => rfl
      | some _ => rw [x] at this; cases this
    rw [hr.channels, e']
    rfl
  legal := by rw [hr.fmt, hr.width]; exact hr.legal
  orders := hr.orderLegal
  compLegal := by rw [hr.comp]; exact hr.compLegal

theorem enc_all (hr : OnTrack h tr r) (p : Int × Int → Bool) :
    r.encoding.all p = (!tr.sampleFormatSet || p (tr.f.sampleFormat, tr.f.sampleWidth)) := by
  rw [all_getD r.encoding p (401, 16), ← hr.fmtSet, hr.fmt, hr.width]; rfl

theorem comp_all (hr : OnTrack h tr r) (p : Int → Bool) : r.compression.all p = (!tr.compressionSet || p tr.f.compression) := by
  rw [all_getD r.compression p 0, ← hr.compSet, hr.comp]; rfl

theorem order_all (hr : OnTrack h tr r) (p : Int → Bool) : r.order.all p = (!tr.byteOrderSet || p tr.f.byteOrder) := by
  rw [all_getD r.order p (hostOrder h), ← hr.orderSet, hr.order]

theorem channels_all (hr : OnTrack h tr r) (p : Int → Bool) : r.channels.all p = (!tr.channelCountSet || p tr.f.channels) := by
  rw [all_getD r.channels p 2, ← hr.channelsSet, hr.channels]

theorem set_ok (f : AFmt) {a w : Int} (ha : a = 401 ∨ a = 402) (hw : 1 ≤ w ∧ w ≤ 32) :
    ∃ p, (setSampleFormat f a w).2 = { f with sampleFormat := a, sampleWidth := w, pcm := p } := by
  unfold setSampleFormat
  simp only [TWOSCOMP, UNSIGNED, FLOAT, DOUBLE]
  rw [if_pos (Or.symm ha), if_neg (by omega)]
  split
  · exact ⟨_, rfl⟩
  · exact ⟨_, rfl⟩

theorem set_same (f : AFmt) {a w : Int} (h : ((a = 401 ∨ a = 402) ∧ 1 ≤ w ∧ w ≤ 32) ∨ (a = 403 ∧ w = 32) ∨ (a = 404 ∧ w = 64)) :
    ∃ p, (setSampleFormat f a w).2 = { f with sampleFormat := a, sampleWidth := w, pcm := p } := by
  rcases h with ⟨h1, h2⟩ | ⟨rfl, rfl⟩ | ⟨rfl, rfl⟩
  · exact set_ok f h1 h2
  · exact ⟨_, rfl⟩
  · exact ⟨_, rfl⟩

/-- The sound of the request in terms of the track. -/
theorem made_eq (hr : OnTrack h tr r) : made h r =
    { rate := tr.f.rate
      sampleFormat := (madeEncoding r).1
      sampleWidth := (madeEncoding r).2
      order :=
        if r.format = .flac then hostOrder h
        else match (if tr.f.compression = 0 ∨ r.format = .smp then prescribed r.format else none) with
          | some o => o
          | none => tr.f.byteOrder
      channels := if r.format = .iff then 1 else tr.f.channels
      compression := if r.format = .flac then 530 else tr.f.compression } := by
  unfold made
  rw [hr.rate, hr.order, hr.channels, hr.comp]
  rfl

theorem next_decides (hs : Holds h s r) (ht : s.tracks = [tr]) (hr : OnTrack h tr r) (hf : r.format = .next) :
    Decides (completeNeXT s) (formatTakes r) (made h r) := by
  have hw : ∀ f, s.withFormat f = setF s tr f := withFormat_one ht hr.id
  have hw2 : ∀ f g, (setF s tr f).withFormat g = setF s tr g :=
    fun f g => withFormat_one (s := setF s tr f) (tr := { tr with f := f }) rfl hr.id g
  have k := known hr
  have T : formatTakes r ↔ ((tr.sampleFormatSet = true → tr.f.sampleFormat = 403 ∨ tr.f.sampleFormat = 404 ∨
        tr.f.sampleWidth ∈ [(8 : Int), 16, 24, 32]) ∧
      (tr.compressionSet = true → tr.f.compression ∈ [(0 : Int), 502, 503]) ∧
      (tr.f.compression ≠ 0 ∨ tr.f.sampleWidth ≤ 8 ∨ (tr.byteOrderSet = true → tr.f.byteOrder = 501)) ∧ plainMeta r = true) := by
    unfold formatTakes plainMeta
    simp only [hf, takesEncoding, takesCompression, takesOrder, takesChannels, takesMetadata, prescribed]
    rw [enc_all hr, comp_all hr, order_all hr, ← hr.comp, ← hr.width]
    simp [and_assoc]
    grind
  obtain ⟨f, ef, g1, g2, g3, g4, g5, g6⟩ : ∃ f, (if tr.f.isUnsigned then (setSampleFormat tr.f TWOSCOMP tr.f.sampleWidth).2 else tr.f) = f ∧
      f.sampleFormat = (if tr.f.sampleFormat = 402 then 401 else tr.f.sampleFormat) ∧ f.sampleWidth = tr.f.sampleWidth ∧
      f.rate = tr.f.rate ∧ f.channels = tr.f.channels ∧ f.byteOrder = tr.f.byteOrder ∧ f.compression = tr.f.compression := by
    refine ⟨_, rfl, ?_⟩
    by_cases e : tr.f.sampleFormat = 402
    · obtain ⟨p, hp⟩ := set_ok tr.f (a := 401) (w := tr.f.sampleWidth) (Or.inl rfl) (by have := k.legal; omega)
      rw [if_pos (by simpa [AFmt.isUnsigned] using e)]
      simp only [TWOSCOMP, hp, e, if_true]
      simp
    · rw [if_neg (by simpa [AFmt.isUnsigned] using e)]
      simp [e]
  unfold completeNeXT
  rw [theTrack_one ht hr.id]
  dsimp only
  rw [ef]
  simp only [hw, hw2, ite_setF]
  have k1 := k.fmt
  have k2 := k.comp
  have k3 := k.legal
  have k4 := k.compLegal
  simp only [T, meta_eq hs hr]
  generalize plainMeta r = M
  simp only [NONE, ULAW, ALAW, BIG, TWOSCOMP, AFmt.isSigned, AFmt.isUncompressed, AFmt.orderMatters, decide_eq_true_eq, g1, g2, g5, g6]
  refine Decides.refuse (fun c t => ?_) fun c1 => Decides.refuse (fun c t => ?_) fun c2 => Decides.refuse (fun c t => ?_) fun c3 =>
    Decides.refuse (fun c t => ?_) fun c4 => Decides.copy ?_ ?_
  · grind
  · grind
  · grind
  · grind
  · refine ⟨?_, ?_, ?_, ?_⟩ <;> grind
  · rw [made_eq hr]
    simp only [madeEncoding, hf, prescribed, ← hr.fmt, ← hr.width]
    unfold soundOf
    by_cases e : tr.f.compression = 0 <;> by_cases e2 : tr.f.sampleFormat = 402 <;>
      simp [e, e2, g1, g2, g3, g4, g5, g6, ← hr.fmt, ← hr.width]

theorem unset_format (k : Known h tr) : ∃ f, (if tr.sampleFormatSet then tr.f else (setSampleFormat tr.f TWOSCOMP tr.f.sampleWidth).2) = f ∧
      f.sampleFormat = tr.f.sampleFormat ∧ f.sampleWidth = tr.f.sampleWidth ∧
      f.rate = tr.f.rate ∧ f.channels = tr.f.channels ∧ f.byteOrder = tr.f.byteOrder ∧ f.compression = tr.f.compression := by
  refine ⟨_, rfl, ?_⟩
  by_cases e : tr.sampleFormatSet = true
  · rw [if_pos e]; exact ⟨rfl, rfl, rfl, rfl, rfl, rfl⟩
  · rw [if_neg e]
    obtain ⟨e1, e2⟩ := k.fmt (by simpa using e)
    obtain ⟨p, hp⟩ := set_ok tr.f (a := 401) (w := 16) (Or.inl rfl) (by omega)
    simp only [TWOSCOMP, e2, hp, e1]
    simp

theorem madeEnc (hr : OnTrack h tr r) : r.enc = (tr.f.sampleFormat, tr.f.sampleWidth) := by rw [hr.fmt, hr.width]

theorem avr_decides (hs : Holds h s r) (ht : s.tracks = [tr]) (hr : OnTrack h tr r) (hf : r.format = .avr) :
    Decides (completeAVR s) (formatTakes r) (made h r) := by
  have hw : ∀ f, s.withFormat f = setF s tr f := withFormat_one ht hr.id
  have hw2 : ∀ f g, (setF s tr f).withFormat g = setF s tr g :=
    fun f g => withFormat_one (s := setF s tr f) (tr := { tr with f := f }) rfl hr.id g
  have k := known hr
  have T : formatTakes r ↔ ((tr.sampleFormatSet = true → (tr.f.sampleFormat = 401 ∨ tr.f.sampleFormat = 402) ∧ (tr.f.sampleWidth = 8 ∨ tr.f.sampleWidth = 16)) ∧
      (tr.compressionSet = true → tr.f.compression = 0) ∧ (tr.byteOrderSet = true → tr.f.byteOrder = 501) ∧ plainMeta r = true) := by
    unfold formatTakes plainMeta
    simp only [hf, takesEncoding, takesCompression, takesOrder, takesChannels, takesMetadata, prescribed]
    rw [enc_all hr, comp_all hr, order_all hr]
    simp [and_assoc]
    try grind
  unfold completeAVR
  rw [theTrack_one ht hr.id]
  dsimp only
  simp only [hw, hw2, ite_setF]
  have k1 := k.fmt
  have k2 := k.comp
  have k3 := k.legal
  have k4 := k.compLegal
  have k5 := k.width
  simp only [T, meta_eq hs hr]
  generalize plainMeta r = M
  simp only [NONE, ULAW, ALAW, IMA, MSADPCM, ALAC, BIG, LITTLE, TWOSCOMP, UNSIGNED, FLOAT, DOUBLE, AFmt.isSigned, AFmt.isUnsigned, AFmt.isInteger, AFmt.isUncompressed,
    AFmt.orderMatters, decide_eq_true_eq, Bool.decide_or, Bool.not_eq_true', Bool.or_eq_true, Bool.or_eq_false_iff, decide_eq_false_iff_not]
  refine Decides.refuse (fun c t => ?_) fun c1 => Decides.refuse (fun c t => ?_) fun c2 => Decides.refuse (fun c t => ?_) fun c3 => Decides.refuse (fun c t => ?_) fun c4 => Decides.refuse (fun c t => ?_) fun c5 => Decides.copy ?_ ?_
  · grind
  · grind
  · grind
  · grind
  · grind
  · grind
  · rw [made_eq hr]
    simp only [madeEncoding, madeEnc hr, hf, prescribed]
    unfold soundOf
    by_cases e : tr.f.compression = 0 <;> simp [e] <;> grind

theorem ircam_decides (hs : Holds h s r) (ht : s.tracks = [tr]) (hr : OnTrack h tr r) (hf : r.format = .ircam) :
    Decides (completeIRCAM s) (formatTakes r) (made h r) := by
  have hw : ∀ f, s.withFormat f = setF s tr f := withFormat_one ht hr.id
  have hw2 : ∀ f g, (setF s tr f).withFormat g = setF s tr g :=
    fun f g => withFormat_one (s := setF s tr f) (tr := { tr with f := f }) rfl hr.id g
  have k := known hr
  have T : formatTakes r ↔ ((tr.sampleFormatSet = true → tr.f.sampleFormat = 403 ∨ tr.f.sampleFormat = 404 ∨ (tr.f.sampleFormat = 401 ∧ tr.f.sampleWidth ∈ [(8 : Int), 16, 24, 32])) ∧
      (tr.compressionSet = true → tr.f.compression ∈ [(0 : Int), 502, 503]) ∧ (tr.channelCountSet = true → tr.f.channels ∈ [(1 : Int), 2, 4]) ∧ plainMeta r = true) := by
    unfold formatTakes plainMeta
    simp only [hf, takesEncoding, takesCompression, takesOrder, takesChannels, takesMetadata, prescribed]
    rw [enc_all hr, comp_all hr, channels_all hr]
    simp [and_assoc]
    try grind
  unfold completeIRCAM
  rw [theTrack_one ht hr.id]
  dsimp only
  have k1 := k.fmt
  have k2 := k.comp
  have k3 := k.legal
  have k4 := k.compLegal
  have k5 := k.width
  have k6 := Rat.not_le.2 hr.ratePos
  simp only [T, meta_self hs ht hr]
  generalize plainMeta r = M
  simp only [NONE, ULAW, ALAW, IMA, MSADPCM, ALAC, BIG, LITTLE, TWOSCOMP, UNSIGNED, FLOAT, DOUBLE, AFmt.isSigned, AFmt.isUnsigned, AFmt.isInteger, AFmt.isUncompressed,
    AFmt.orderMatters, decide_eq_true_eq, Bool.decide_or, Bool.not_eq_true', Bool.or_eq_true, Bool.or_eq_false_iff, decide_eq_false_iff_not]
  refine Decides.refuse (fun c t => ?_) fun c1 => Decides.refuse (fun c t => ?_) fun c2 => Decides.refuse (fun c t => ?_) fun c3 => Decides.refuse (fun c t => ?_) fun c4 => Decides.refuse (fun c t => ?_) fun c5 => Decides.refuse (fun c t => ?_) fun c6 => Decides.copySelf ht ?_ ?_
  · grind
  · grind
  · grind
  · grind
  · grind
  · grind
  · grind
  · rw [made_eq hr]
    simp only [madeEncoding, madeEnc hr, hf, prescribed]
    unfold soundOf
    by_cases e : tr.f.compression = 0 <;> simp [e] <;> grind

theorem nist_decides (hs : Holds h s r) (ht : s.tracks = [tr]) (hr : OnTrack h tr r) (hf : r.format = .nist) :
    Decides (completeNIST s) (formatTakes r) (made h r) := by
  have hw : ∀ f, s.withFormat f = setF s tr f := withFormat_one ht hr.id
  have hw2 : ∀ f g, (setF s tr f).withFormat g = setF s tr g :=
    fun f g => withFormat_one (s := setF s tr f) (tr := { tr with f := f }) rfl hr.id g
  have k := known hr
  have T : formatTakes r ↔ ((tr.sampleFormatSet = true → tr.f.sampleFormat = 401 ∧ tr.f.sampleWidth ≤ 16) ∧
      (tr.compressionSet = true → tr.f.compression ∈ [(0 : Int), 502, 503]) ∧ plainMeta r = true) := by
    unfold formatTakes plainMeta
    simp only [hf, takesEncoding, takesCompression, takesOrder, takesChannels, takesMetadata, prescribed]
    rw [enc_all hr, comp_all hr]
    simp [and_assoc]
    try grind
  unfold completeNIST
  rw [theTrack_one ht hr.id]
  dsimp only
  have k1 := k.fmt
  have k2 := k.comp
  have k3 := k.legal
  have k4 := k.compLegal
  have k5 := k.width
  have k6 := Rat.not_le.2 hr.ratePos
  simp only [T, meta_self hs ht hr]
  generalize plainMeta r = M
  simp only [NONE, ULAW, ALAW, IMA, MSADPCM, ALAC, BIG, LITTLE, TWOSCOMP, UNSIGNED, FLOAT, DOUBLE, AFmt.isSigned, AFmt.isUnsigned, AFmt.isInteger, AFmt.isUncompressed,
    AFmt.orderMatters, decide_eq_true_eq, Bool.decide_or, Bool.not_eq_true', Bool.or_eq_true, Bool.or_eq_false_iff, decide_eq_false_iff_not]
  refine Decides.refuse (fun c t => ?_) fun c1 => Decides.refuse (fun c t => ?_) fun c2 => Decides.refuse (fun c t => ?_) fun c3 => Decides.refuse (fun c t => ?_) fun c4 => Decides.refuse (fun c t => ?_) fun c5 => Decides.refuse (fun c t => ?_) fun c6 => Decides.copySelf ht ?_ ?_
  · grind
  · grind
  · grind
  · grind
  · grind
  · grind
  · grind
  · rw [made_eq hr]
    simp only [madeEncoding, madeEnc hr, hf, prescribed]
    unfold soundOf
    by_cases e : tr.f.compression = 0 <;> simp [e] <;> grind

theorem smp_decides (hs : Holds h s r) (ht : s.tracks = [tr]) (hr : OnTrack h tr r) (hf : r.format = .smp) :
    Decides (completeSMP s) (formatTakes r) (made h r) := by
  have hw : ∀ f, s.withFormat f = setF s tr f := withFormat_one ht hr.id
  have hw2 : ∀ f g, (setF s tr f).withFormat g = setF s tr g :=
    fun f g => withFormat_one (s := setF s tr f) (tr := { tr with f := f }) rfl hr.id g
  have k := known hr
  have T : formatTakes r ↔ ((tr.sampleFormatSet = true → tr.f.sampleFormat = 401 ∧ tr.f.sampleWidth = 16) ∧
      (tr.compressionSet = true → tr.f.compression = 0) ∧ plainMeta r = true) := by
    unfold formatTakes plainMeta
    simp only [hf, takesEncoding, takesCompression, takesOrder, takesChannels, takesMetadata, prescribed]
    rw [enc_all hr, comp_all hr]
    simp [and_assoc]
    try grind
  obtain ⟨f, ef, g1, g2, g3, g4, g5, g6⟩ : ∃ f, (if tr.sampleFormatSet then tr.f else (setSampleFormat tr.f TWOSCOMP tr.f.sampleWidth).2) = f ∧
      f.sampleFormat = tr.f.sampleFormat ∧ f.sampleWidth = tr.f.sampleWidth ∧
      f.rate = tr.f.rate ∧ f.channels = tr.f.channels ∧ f.byteOrder = tr.f.byteOrder ∧ f.compression = tr.f.compression :=
    unset_format k
  unfold completeSMP
  rw [theTrack_one ht hr.id]
  dsimp only
  rw [ef]
  simp only [hw, hw2, ite_setF]
  have k1 := k.fmt
  have k2 := k.comp
  have k3 := k.legal
  have k4 := k.compLegal
  have k5 := k.width
  simp only [T, meta_eq hs hr]
  generalize plainMeta r = M
  simp only [NONE, ULAW, ALAW, IMA, MSADPCM, ALAC, BIG, LITTLE, TWOSCOMP, UNSIGNED, FLOAT, DOUBLE, AFmt.isSigned, AFmt.isUnsigned, AFmt.isInteger, AFmt.isUncompressed,
    AFmt.orderMatters, decide_eq_true_eq, Bool.decide_or, Bool.not_eq_true', Bool.or_eq_true, Bool.or_eq_false_iff, decide_eq_false_iff_not, g1, g2, g5, g6]
  refine Decides.refuse (fun c t => ?_) fun c1 => Decides.refuse (fun c t => ?_) fun c2 => Decides.refuse (fun c t => ?_) fun c3 => Decides.copy ?_ ?_
  · grind
  · grind
  · grind
  · grind
  · rw [made_eq hr]
    simp only [madeEncoding, madeEnc hr, hf, prescribed]
    unfold soundOf
    by_cases e : tr.f.compression = 0 <;> simp [e, g1, g2, g3, g4, g5, g6] <;> grind

theorem voc_decides (hs : Holds h s r) (ht : s.tracks = [tr]) (hr : OnTrack h tr r) (hf : r.format = .voc) :
    Decides (completeVOC s) (formatTakes r) (made h r) := by
  have hw : ∀ f, s.withFormat f = setF s tr f := withFormat_one ht hr.id
  have hw2 : ∀ f g, (setF s tr f).withFormat g = setF s tr g :=
    fun f g => withFormat_one (s := setF s tr f) (tr := { tr with f := f }) rfl hr.id g
  have k := known hr
  have T : formatTakes r ↔ ((tr.sampleFormatSet = true → (tr.f.sampleFormat = 401 ∧ tr.f.sampleWidth = 16) ∨ (tr.f.sampleFormat = 402 ∧ tr.f.sampleWidth = 8)) ∧
      (tr.compressionSet = true → tr.f.compression ∈ [(0 : Int), 502, 503]) ∧
      (tr.f.compression ≠ 0 ∨ tr.f.sampleWidth ≤ 8 ∨ (tr.byteOrderSet = true → tr.f.byteOrder = 502)) ∧ plainMeta r = true) := by
    unfold formatTakes plainMeta
    simp only [hf, takesEncoding, takesCompression, takesOrder, takesChannels, takesMetadata, prescribed]
    rw [enc_all hr, comp_all hr, order_all hr, ← hr.comp, ← hr.width]
    simp [and_assoc]
    try grind
  obtain ⟨f, ef, g1, g2, g3, g4, g5, g6⟩ : ∃ f, (if tr.sampleFormatSet then tr.f else (setSampleFormat tr.f TWOSCOMP tr.f.sampleWidth).2) = f ∧
      f.sampleFormat = tr.f.sampleFormat ∧ f.sampleWidth = tr.f.sampleWidth ∧
      f.rate = tr.f.rate ∧ f.channels = tr.f.channels ∧ f.byteOrder = tr.f.byteOrder ∧ f.compression = tr.f.compression :=
    unset_format k
  unfold completeVOC
  rw [theTrack_one ht hr.id]
  dsimp only
  rw [ef]
  simp only [hw, hw2, ite_setF]
  have k1 := k.fmt
  have k2 := k.comp
  have k3 := k.legal
  have k4 := k.compLegal
  have k5 := k.width
  simp only [T, meta_eq hs hr]
  generalize plainMeta r = M
  simp only [NONE, ULAW, ALAW, IMA, MSADPCM, ALAC, BIG, LITTLE, TWOSCOMP, UNSIGNED, FLOAT, DOUBLE, AFmt.isSigned, AFmt.isUnsigned, AFmt.isInteger, AFmt.isUncompressed,
    AFmt.orderMatters, decide_eq_true_eq, Bool.decide_or, Bool.not_eq_true', Bool.or_eq_true, Bool.or_eq_false_iff, decide_eq_false_iff_not, g1, g2, g5, g6]
  refine Decides.refuse (fun c t => ?_) fun c1 => Decides.refuse (fun c t => ?_) fun c2 => Decides.refuse (fun c t => ?_) fun c3 => Decides.refuse (fun c t => ?_) fun c4 => Decides.refuse (fun c t => ?_) fun c5 => Decides.copy ?_ ?_
  · grind
  · grind
  · grind
  · grind
  · grind
  · grind
  · rw [made_eq hr]
    simp only [madeEncoding, madeEnc hr, hf, prescribed]
    unfold soundOf
    by_cases e : tr.f.compression = 0 <;> simp [e, g1, g2, g3, g4, g5, g6] <;> grind

theorem caf_decides (hs : Holds h s r) (ht : s.tracks = [tr]) (hr : OnTrack h tr r) (hf : r.format = .caf) :
    Decides (completeCAF h s) (formatTakes r) (made h r) := by
  have hw : ∀ f, s.withFormat f = setF s tr f := withFormat_one ht hr.id
  have hw2 : ∀ f g, (setF s tr f).withFormat g = setF s tr g :=
    fun f g => withFormat_one (s := setF s tr f) (tr := { tr with f := f }) rfl hr.id g
  have k := known hr
  have T : formatTakes r ↔ ((tr.sampleFormatSet = true → tr.f.sampleFormat ≠ 402) ∧
      (tr.compressionSet = true → tr.f.compression ∈ [(0 : Int), 502, 503, 519, 540]) ∧ plainMeta r = true) := by
    unfold formatTakes plainMeta
    simp only [hf, takesEncoding, takesCompression, takesOrder, takesChannels, takesMetadata]
    rw [enc_all hr, comp_all hr]
    simp [and_assoc]
    try grind
  obtain ⟨f, ef, g1, g2, g3, g4, g5, g6⟩ := unset_format k
  unfold completeCAF
  rw [theTrack_one ht hr.id]
  dsimp only
  rw [ef]
  obtain ⟨f', ef', j1, j2, j3, j4, j5, j6⟩ : ∃ f', (if (!tr.byteOrderSet) = true then { f with byteOrder := native h } else f) = f' ∧
      f'.sampleFormat = tr.f.sampleFormat ∧ f'.sampleWidth = tr.f.sampleWidth ∧
      f'.rate = tr.f.rate ∧ f'.channels = tr.f.channels ∧ f'.byteOrder = tr.f.byteOrder ∧ f'.compression = tr.f.compression := by
    refine ⟨_, rfl, ?_⟩
    by_cases e : tr.byteOrderSet = true
    · rw [if_neg (by simp [e])]; exact ⟨g1, g2, g3, g4, g5, g6⟩
    · rw [if_pos (by simpa using e)]
      refine ⟨g1, g2, g3, g4, ?_, g6⟩
      show native h = _
      rw [k.order (by simpa using e), native_eq]
  rw [ef']
  simp only [hw, hw2]
  have k1 := k.fmt
  have k2 := k.comp
  have k3 := k.legal
  have k4 := k.compLegal
  have k5 := k.width
  simp only [T, meta_eq hs hr]
  generalize plainMeta r = M
  simp only [NONE, ULAW, ALAW, IMA, MSADPCM, ALAC, BIG, LITTLE, TWOSCOMP, UNSIGNED, FLOAT, DOUBLE, AFmt.isSigned, AFmt.isUnsigned, AFmt.isInteger, AFmt.isUncompressed,
    AFmt.orderMatters, decide_eq_true_eq, Bool.decide_or, Bool.not_eq_true', Bool.or_eq_true, Bool.or_eq_false_iff, decide_eq_false_iff_not, g1, g2, j1, j2, j5, j6]
  refine Decides.refuse (fun c t => ?_) fun c1 => Decides.refuse (fun c t => ?_) fun c2 => Decides.refuse (fun c t => ?_) fun c3 => Decides.refuse (fun c t => ?_) fun c4 => Decides.copy ?_ ?_
  · grind
  · grind
  · grind
  · grind
  · grind
  · rw [made_eq hr]
    simp only [madeEncoding, madeEnc hr, hf, prescribed]
    unfold soundOf
    by_cases e : tr.f.compression = 0 <;> simp [e, j1, j2, j3, j4, j5, j6]

theorem raw_decides (hs : Holds h s r) (ht : s.tracks = [tr]) (hr : OnTrack h tr r) (hf : r.format = .raw) :
    Decides (completeRaw s) (formatTakes r) (made h r) := by
  have T : formatTakes r ↔ plainMeta r = true := by
    unfold formatTakes plainMeta
    simp [hf, takesEncoding, takesCompression, takesOrder, takesChannels, takesMetadata, and_assoc]
  unfold completeRaw
  rw [theTrack_one ht hr.id]
  dsimp only
  rw [meta_self hs ht hr]
  simp only [T]
  refine Decides.refuse (fun c t => by simp [t] at c) fun c1 => ⟨fun _ => ?_, fun x => absurd (by simpa using c1) x⟩
  have : made h r = soundOf tr.f := by
    rw [made_eq hr]
    simp only [madeEncoding, madeEnc hr, hf, prescribed]
    unfold soundOf
    by_cases e : tr.f.compression = 0 <;> simp [e]
  rw [this]
  unfold res
  simp [ht]

/-- Metadata of IFF/8SVX files. -/
def iffMeta (r : Request) : Bool := !r.aes && r.markers.all (· = 0) && r.instruments.all (· = [])

theorem iff_decides (hs : Holds h s r) (ht : s.tracks = [tr]) (hr : OnTrack h tr r) (hf : r.format = .iff) :
    Decides (completeIFF s) (formatTakes r) (made h r) := by
  have hw : ∀ f, s.withFormat f = setF s tr f := withFormat_one ht hr.id
  have hw2 : ∀ f g, (setF s tr f).withFormat g = setF s tr g :=
    fun f g => withFormat_one (s := setF s tr f) (tr := { tr with f := f }) rfl hr.id g
  have k := known hr
  have T : formatTakes r ↔ ((tr.sampleFormatSet = true → tr.f.sampleFormat = 401 ∧ tr.f.sampleWidth = 8) ∧
      (tr.compressionSet = true → tr.f.compression = 0) ∧ (tr.channelCountSet = true → tr.f.channels = 1) ∧ iffMeta r = true) := by
    unfold formatTakes iffMeta
    simp only [hf, takesEncoding, takesCompression, takesOrder, takesChannels, takesMetadata]
    rw [enc_all hr, comp_all hr, channels_all hr]
    simp [and_assoc]
    try grind
  have hM : iffMeta r = true ↔ (¬ (tr.markersSet = true ∧ tr.markers.length ≠ 0) ∧ ¬ tr.aesDataSet = true ∧
      ¬ (s.instrumentSet = true ∧ s.instruments.length ≠ 0)) := by
    unfold iffMeta
    rw [hr.markers, hs.instruments, ← hr.aes]
    cases tr.markersSet <;> cases s.instrumentSet <;> cases tr.aesDataSet <;> simp [List.length_eq_zero_iff]
  obtain ⟨p, hp⟩ := set_ok { tr.f with byteOrder := BIG, channels := 1 } (a := 401) (w := 8) (Or.inl rfl) (by omega)
  unfold completeIFF
  rw [theTrack_one ht hr.id]
  dsimp only
  simp only [hw, TWOSCOMP, hp]
  have k1 := k.fmt
  have k2 := k.comp
  have k3 := k.legal
  have k4 := k.compLegal
  have k5 := k.width
  rw [hM] at T
  simp only [T]
  simp only [NONE, ULAW, ALAW, IMA, MSADPCM, ALAC, BIG, LITTLE, TWOSCOMP, UNSIGNED, FLOAT, DOUBLE, AFmt.isSigned, AFmt.isUnsigned, AFmt.isInteger, AFmt.isUncompressed,
    AFmt.orderMatters, decide_eq_true_eq, Bool.decide_or, Bool.not_eq_true', Bool.or_eq_true, Bool.or_eq_false_iff, decide_eq_false_iff_not]
  refine Decides.refuse (fun c t => ?_) fun c1 => Decides.refuse (fun c t => ?_) fun c2 => Decides.refuse (fun c t => ?_) fun c3 => Decides.refuse (fun c t => ?_) fun c4 => Decides.refuse (fun c t => ?_) fun c5 => Decides.refuse (fun c t => ?_) fun c6 => Decides.refuse (fun c t => ?_) fun c7 => Decides.copy ?_ ?_
  · grind
  · grind
  · grind
  · grind
  · grind
  · grind
  · exact t.2.2.2.2.2 c
  · refine ⟨by grind, by grind, by grind, by grind, by grind, ?_⟩
    exact c7
  · rw [made_eq hr]
    simp only [madeEncoding, hf, prescribed]
    unfold soundOf
    simp at c4
    simp [c4]

/-- Metadata of AIFF files. -/
def aiffMeta (r : Request) : Bool :=
  r.instruments.all (fun l => l.length ≤ 1 ∧ ∀ x ∈ l, x.2 = 2) && r.misc.all (fun l => ∀ x ∈ l, 201 ≤ x.2 ∧ x.2 ≤ 206)

theorem aiffMeta_eq (hs : Holds h s r) : aiffMeta r = true ↔
    (¬ (s.instrumentSet = true ∧ s.instruments.length ≠ 0 ∧ s.instruments.length ≠ 1) ∧
      ¬ (s.instrumentSet = true ∧ s.instruments.head?.any (·.loops.length != 2) = true) ∧
      ¬ (s.miscellaneousSet = true ∧ s.miscellaneous.any (fun m => !([201, 202, 203, 204, 205, 206].contains m.type)) = true)) := by
  unfold aiffMeta
  rw [hs.instruments, hs.misc, Bool.and_eq_true]
  have a : (Option.all (fun l => decide (l.length ≤ 1 ∧ ∀ x ∈ l, x.2 = 2))
      (if s.instrumentSet = true then some (s.instruments.map fun i => (i.id, i.loops.length)) else none) = true) ↔
      (¬ (s.instrumentSet = true ∧ s.instruments.length ≠ 0 ∧ s.instruments.length ≠ 1) ∧
      ¬ (s.instrumentSet = true ∧ s.instruments.head?.any (·.loops.length != 2) = true)) := by
    cases s.instrumentSet
    · simp
    · cases s.instruments with
      | nil => simp
      | cons i l => cases l <;> simp
  have b : (Option.all (fun l => decide (∀ x ∈ l, 201 ≤ x.2 ∧ x.2 ≤ 206))
      (if s.miscellaneousSet = true then some (s.miscellaneous.map fun m => (m.id, m.type)) else none) = true) ↔
      ¬ (s.miscellaneousSet = true ∧ s.miscellaneous.any (fun m => !([201, 202, 203, 204, 205, 206].contains m.type)) = true) := by
    cases s.miscellaneousSet
    · simp
    · simp only [if_true, Option.all_some, decide_eq_true_eq, true_and, List.any_eq_true, not_exists, not_and, List.mem_map, forall_exists_index, and_imp]
      constructor
      · intro hx m hm
        have := hx _ m hm rfl
        simp
        omega
      · intro hx x m hm e
        have := hx m hm
        subst e
        simp at this
        dsimp only
        omega
  rw [a, b, and_assoc]

theorem aiff_decides (hs : Holds h s r) (ht : s.tracks = [tr]) (hr : OnTrack h tr r) (hf : r.format = .aiff ∨ r.format = .aiffc) :
    Decides (completeAIFF s) (formatTakes r) (made h r) := by
  have hw : ∀ f, s.withFormat f = setF s tr f := withFormat_one ht hr.id
  have hw2 : ∀ f g, (setF s tr f).withFormat g = setF s tr g :=
    fun f g => withFormat_one (s := setF s tr f) (tr := { tr with f := f }) rfl hr.id g
  have k := known hr
  have T : formatTakes r ↔ ((tr.sampleFormatSet = true → if r.format = .aiff then tr.f.sampleFormat = 401 else tr.f.sampleFormat ≠ 402) ∧
      (tr.compressionSet = true → if r.format = .aiff then tr.f.compression = 0 else tr.f.compression ∈ [(0 : Int), 502, 503, 519]) ∧
      (tr.f.compression ≠ 0 ∨ tr.f.sampleWidth ≤ 8 ∨ (tr.byteOrderSet = true → tr.f.byteOrder = 501)) ∧ aiffMeta r = true) := by
    unfold formatTakes aiffMeta
    rcases hf with hf | hf
    all_goals
      simp only [hf, takesEncoding, takesCompression, takesOrder, takesChannels, takesMetadata, prescribed]
      rw [enc_all hr, comp_all hr, order_all hr, ← hr.comp, ← hr.width]
      simp [and_assoc]
      try grind
  obtain ⟨f, ef, g1, g2, g3, g4, g5, g6⟩ := unset_format k
  unfold completeAIFF
  rw [theTrack_one ht hr.id]
  dsimp only
  rw [ef]
  simp only [hw, hw2, ite_setF]
  have k1 := k.fmt
  have k2 := k.comp
  have k3 := k.legal
  have k4 := k.compLegal
  have k5 := k.width
  rw [aiffMeta_eq hs] at T
  have hi : ∀ f, (setF s tr f).instrumentSet = s.instrumentSet := fun _ => rfl
  have hj : ∀ f, (setF s tr f).instruments = s.instruments := fun _ => rfl
  have hk : ∀ f, (setF s tr f).miscellaneousSet = s.miscellaneousSet := fun _ => rfl
  have hl : ∀ f, (setF s tr f).miscellaneous = s.miscellaneous := fun _ => rfl
  simp only [T, hi, hj, hk, hl, hs.format]
  simp only [NONE, ULAW, ALAW, IMA, MSADPCM, ALAC, BIG, LITTLE, TWOSCOMP, UNSIGNED, FLOAT, DOUBLE, AFmt.isSigned, AFmt.isUnsigned, AFmt.isInteger, AFmt.isUncompressed,
    AFmt.orderMatters, decide_eq_true_eq, Bool.decide_or, Bool.not_eq_true', Bool.or_eq_true, Bool.or_eq_false_iff, decide_eq_false_iff_not, g1, g2, g5, g6]
  refine Decides.refuse (fun c t => ?_) fun c1 => Decides.refuse (fun c t => ?_) fun c2 => Decides.refuse (fun c t => ?_) fun c3 => Decides.refuse (fun c t => ?_) fun c4 => Decides.refuse (fun c t => ?_) fun c5 => Decides.refuse (fun c t => ?_) fun c6 => Decides.refuse (fun c t => ?_) fun c7 => Decides.refuse (fun c t => ?_) fun c8 => Decides.refuse (fun c t => ?_) fun c9 => Decides.copy ?_ ?_
  · grind
  · grind
  · grind
  · grind
  · rcases hf with hf | hf <;> simp [hf] at t c c4 <;> grind
  · grind
  · exact t.2.2.2.1 c
  · exact t.2.2.2.2.1 c
  · exact t.2.2.2.2.2 c
  · refine ⟨by grind, ?_, by grind, c7, c8, c9⟩
    rcases hf with hf | hf <;> simp [hf] at c4 ⊢ <;> grind
  · rw [made_eq hr]
    rcases hf with hf | hf
    all_goals
      simp only [madeEncoding, madeEnc hr, hf, prescribed]
      unfold soundOf
      by_cases e : tr.f.compression = 0 <;> simp [e, g1, g2, g3, g4, g5, g6]

end

end AF.Create
