import Verif.Proof.CreateFormats
/-! WAVE and FLAC; the outcome. -/
namespace AF.Create
open AF AF.Setup AF.Spec.Create

variable {h : Endian} {s : Setup} {tr : TrackSetup} {r : Request}

/-- The format a WAVE file gets (WAVE.cpp:828-940). -/
def waveFormat (tr : TrackSetup) : Option AFmt :=
  if !tr.f.isUncompressed then
    if !tr.sampleFormatSet then some (setSampleFormat tr.f TWOSCOMP 16).2
    else some (setSampleFormat tr.f tr.f.sampleFormat tr.f.sampleWidth).2
  else if tr.sampleFormatSet then
    if tr.f.sampleFormat = FLOAT then
      if tr.sampleWidthSet ∧ tr.f.sampleWidth ≠ 32 then some (setSampleFormat tr.f FLOAT 32).2 else some tr.f
    else if tr.f.sampleFormat = DOUBLE then
      if tr.sampleWidthSet ∧ tr.f.sampleWidth ≠ 64 then some (setSampleFormat tr.f DOUBLE 64).2 else some tr.f
    else if tr.f.sampleFormat = UNSIGNED then
      if tr.sampleWidthSet then
        if tr.f.sampleWidth < 1 ∨ tr.f.sampleWidth > 32 then none
        else if tr.f.sampleWidth > 8 then some (setSampleFormat tr.f TWOSCOMP tr.f.sampleWidth).2 else some tr.f
      else some (setSampleFormat tr.f UNSIGNED 8).2
    else if tr.f.sampleFormat = TWOSCOMP then
      if tr.sampleWidthSet then
        if tr.f.sampleWidth < 1 ∨ tr.f.sampleWidth > 32 then none
        else if tr.f.sampleWidth ≤ 8 then some (setSampleFormat tr.f UNSIGNED tr.f.sampleWidth).2 else some tr.f
      else some (setSampleFormat tr.f TWOSCOMP 16).2
    else some tr.f
  else if !tr.sampleWidthSet then some { tr.f with sampleWidth := 16, sampleFormat := TWOSCOMP }
  else if tr.f.sampleWidth < 1 ∨ tr.f.sampleWidth > 32 then none
  else if tr.f.sampleWidth > 8 then some { tr.f with sampleFormat := TWOSCOMP } else some { tr.f with sampleFormat := UNSIGNED }

theorem waveFormat_eq (hr : OnTrack h tr r) (hf : r.format = .wave) : ∃ f, waveFormat tr = some f ∧
    f.sampleFormat = (madeEncoding r).1 ∧ f.sampleWidth = (madeEncoding r).2 ∧
    f.rate = tr.f.rate ∧ f.channels = tr.f.channels ∧ f.byteOrder = tr.f.byteOrder ∧ f.compression = tr.f.compression := by
  have k := known hr
  have k1 := k.fmt
  have k2 := k.width
  have k3 := k.legal
  have em : madeEncoding r = if tr.f.compression = 0 ∧ (tr.f.sampleFormat = 401 ∨ tr.f.sampleFormat = 402) then
      (if tr.f.sampleWidth ≤ 8 then 402 else 401, tr.f.sampleWidth) else (tr.f.sampleFormat, tr.f.sampleWidth) := by
    unfold madeEncoding
    rw [hf]
    dsimp only
    rw [← hr.comp, ← hr.fmt, ← hr.width]
    split
    · rfl
    · rw [hr.fmt, hr.width]
  rw [em]
  unfold waveFormat
  rw [k2]
  by_cases hc : tr.f.compression = 0
  · rw [if_neg (c := (!tr.f.isUncompressed) = true) (by simp [AFmt.isUncompressed, NONE, hc])]
    by_cases hq : tr.sampleFormatSet = true
    · simp only [hq, if_true, true_and]
      simp only [TWOSCOMP, UNSIGNED, FLOAT, DOUBLE, hc, true_and]
      rcases k3 with ⟨e1 | e1, e2⟩ | ⟨e1, e2⟩ | ⟨e1, e2⟩
      · by_cases hw : tr.f.sampleWidth ≤ 8
        · obtain ⟨p, hp⟩ := set_ok tr.f (a := 402) (w := tr.f.sampleWidth) (Or.inr rfl) e2
          refine ⟨_, by simp only [e1]; rw [if_neg (by decide), if_neg (by decide), if_neg (by decide), if_pos trivial, if_neg (by omega), if_pos hw, hp], ?_⟩
          simp [e1, hw, hc]
        · refine ⟨_, by simp only [e1]; rw [if_neg (by decide), if_neg (by decide), if_neg (by decide), if_pos trivial, if_neg (by omega), if_neg hw], ?_⟩
          simp [e1, hw, hc]
      · by_cases hw : tr.f.sampleWidth ≤ 8
        · refine ⟨_, by simp only [e1]; rw [if_neg (by decide), if_neg (by decide), if_pos trivial, if_neg (by omega), if_neg (by omega)], ?_⟩
          simp [e1, hw, hc]
        · obtain ⟨p, hp⟩ := set_ok tr.f (a := 401) (w := tr.f.sampleWidth) (Or.inl rfl) e2
          refine ⟨_, by simp only [e1]; rw [if_neg (by decide), if_neg (by decide), if_pos trivial, if_neg (by omega), if_pos (by omega), hp], ?_⟩
          simp [e1, hw, hc]
      · refine ⟨_, by simp only [e1]; rw [if_pos trivial, if_neg (by omega)], ?_⟩
        simp [e1, hc]
      · refine ⟨_, by simp only [e1]; rw [if_neg (by decide), if_pos trivial, if_neg (by omega)], ?_⟩
        simp [e1, hc]
    · obtain ⟨e1, e2⟩ := k1 (by simpa using hq)
      refine ⟨_, by rw [if_neg hq, if_pos (by simpa using hq)], ?_⟩
      simp [e1, e2, hc, TWOSCOMP]
  · rw [if_pos (c := (!tr.f.isUncompressed) = true) (by simp [AFmt.isUncompressed, NONE, hc]), if_neg (c := _ ∧ _) (by simp [hc])]
    by_cases hq : tr.sampleFormatSet = true
    · obtain ⟨p, hp⟩ := set_same tr.f k3
      refine ⟨_, by rw [if_neg (by simp [hq]), hp], ?_⟩
      simp
    · obtain ⟨e1, e2⟩ := k1 (by simpa using hq)
      obtain ⟨p, hp⟩ := set_ok tr.f (a := 401) (w := 16) (Or.inl rfl) (by omega)
      refine ⟨_, by rw [if_pos (by simpa using hq), TWOSCOMP, hp], ?_⟩
      simp [e1, e2]

/-- Metadata of WAVE files. -/
def waveMeta (r : Request) : Bool :=
  !r.aes && r.instruments.all (fun l => l.length ≤ 1) &&
    r.misc.all (fun l => ∀ x ∈ l, x.2 ∈ [(201 : Int), 202, 203, 210, 211, 212])

theorem waveMeta_eq (hs : Holds h s r) (hr : OnTrack h tr r) : waveMeta r = true ↔
    (¬ tr.aesDataSet = true ∧ ¬ (s.instrumentSet = true ∧ s.instruments.length > 1) ∧
      ¬ (s.miscellaneousSet = true ∧ s.miscellaneous.any (fun m => !([201, 202, 203, 211, 212, 210].contains m.type)) = true)) := by
  unfold waveMeta
  rw [hs.instruments, hs.misc, hr.aes, Bool.and_eq_true, Bool.and_eq_true]
  have a : (Option.all (fun l => decide (l.length ≤ 1))
      (if s.instrumentSet = true then some (s.instruments.map fun i => (i.id, i.loops.length)) else none) = true) ↔
      ¬ (s.instrumentSet = true ∧ s.instruments.length > 1) := by
    cases s.instrumentSet <;> simp
  have b : (Option.all (fun l => decide (∀ x ∈ l, x.2 ∈ [(201 : Int), 202, 203, 210, 211, 212]))
      (if s.miscellaneousSet = true then some (s.miscellaneous.map fun m => (m.id, m.type)) else none) = true) ↔
      ¬ (s.miscellaneousSet = true ∧ s.miscellaneous.any (fun m => !([201, 202, 203, 211, 212, 210].contains m.type)) = true) := by
    cases s.miscellaneousSet
    · simp
    · simp only [if_true, Option.all_some, decide_eq_true_eq, true_and, List.any_eq_true, not_exists, not_and, List.mem_map, forall_exists_index, and_imp]
      constructor
      · intro hx m hm
        have := hx _ m hm rfl
        simp at this ⊢
        omega
      · intro hx x m hm e
        have := hx m hm
        subst e
        simp at this ⊢
        omega
  rw [a, b, and_assoc]
  simp

theorem wave_decides (hs : Holds h s r) (ht : s.tracks = [tr]) (hr : OnTrack h tr r) (hf : r.format = .wave) :
    Decides (completeWAVE s) (formatTakes r) (made h r) := by
  have hw : ∀ f, s.withFormat f = setF s tr f := withFormat_one ht hr.id
  have hw2 : ∀ f g, (setF s tr f).withFormat g = setF s tr g :=
    fun f g => withFormat_one (s := setF s tr f) (tr := { tr with f := f }) rfl hr.id g
  have k := known hr
  have T : formatTakes r ↔ ((tr.compressionSet = true → tr.f.compression ∈ [(0 : Int), 502, 503, 519, 523]) ∧
      (tr.f.compression ≠ 0 ∨ tr.f.sampleWidth ≤ 8 ∨ (tr.byteOrderSet = true → tr.f.byteOrder = 502)) ∧ waveMeta r = true) := by
    unfold formatTakes waveMeta
    simp only [hf, takesEncoding, takesCompression, takesOrder, takesChannels, takesMetadata, prescribed]
    rw [comp_all hr, order_all hr, ← hr.comp, ← hr.width]
    simp [and_assoc]
    try grind
  obtain ⟨f, ef, g1, g2, g3, g4, g5, g6⟩ := waveFormat_eq hr hf
  unfold waveFormat at ef
  have g2' : f.sampleWidth = tr.f.sampleWidth := by
    rw [g2, madeEncoding, hf]
    dsimp only
    rw [hr.width]
    split <;> rfl
  unfold completeWAVE
  rw [theTrack_one ht hr.id]
  dsimp only
  rw [ef]
  dsimp only
  simp only [hw, hw2, ite_setF]
  rw [waveMeta_eq hs hr] at T
  have hi : ∀ f, (setF s tr f).instrumentSet = s.instrumentSet := fun _ => rfl
  have hj : ∀ f, (setF s tr f).instruments = s.instruments := fun _ => rfl
  have hk : ∀ f, (setF s tr f).miscellaneousSet = s.miscellaneousSet := fun _ => rfl
  have hl : ∀ f, (setF s tr f).miscellaneous = s.miscellaneous := fun _ => rfl
  have k2 := k.comp
  have k4 := k.compLegal
  simp only [T, hi, hj, hk, hl]
  simp only [NONE, ULAW, ALAW, IMA, MSADPCM, ALAC, BIG, LITTLE, AFmt.isUncompressed,
    AFmt.orderMatters, decide_eq_true_eq, Bool.decide_or, Bool.not_eq_true', Bool.or_eq_true, Bool.or_eq_false_iff, decide_eq_false_iff_not, g2', g5, g6]
  refine Decides.refuse (fun c t => ?_) fun c1 => Decides.refuse (fun c t => ?_) fun c2 => Decides.refuse (fun c t => ?_) fun c3 => Decides.refuse (fun c t => ?_) fun c4 => Decides.refuse (fun c t => ?_) fun c5 => Decides.copy ?_ ?_
  · grind
  · grind
  · exact t.2.2.1 c
  · exact t.2.2.2.1 c
  · exact t.2.2.2.2 c
  · exact ⟨by grind, by grind, c3, c4, c5⟩
  · rw [made_eq hr]
    rw [← g1, ← g2]
    simp only [hf, prescribed]
    unfold soundOf
    by_cases e : tr.f.compression = 0 <;> simp [e, g2', g3, g4, g5, g6]

theorem flac_decides (hs : Holds h s r) (ht : s.tracks = [tr]) (hr : OnTrack h tr r) (hf : r.format = .flac) :
    Decides (FLAC.completeFLAC h s) (formatTakes r) (made h r) := by
  have hw : ∀ f, s.withFormat f = setF s tr f := withFormat_one ht hr.id
  have k := known hr
  have T : formatTakes r ↔ ((tr.sampleFormatSet = true → tr.f.sampleFormat = 401 ∧ (tr.f.sampleWidth = 16 ∨ tr.f.sampleWidth = 24)) ∧
      (tr.compressionSet = true → tr.f.compression = 530) ∧ plainMeta r = true) := by
    unfold formatTakes plainMeta
    simp only [hf, takesEncoding, takesCompression, takesOrder, takesChannels, takesMetadata, prescribed]
    rw [enc_all hr, comp_all hr]
    simp [and_assoc]
    try grind
  unfold FLAC.completeFLAC
  rw [theTrack_one ht hr.id]
  dsimp only
  have k1 := k.fmt
  have k2 := k.comp
  have k3 := k.legal
  have k5 := k.width
  have hfmt : ∀ f : AFmt, f.compression = tr.f.compression → True := fun _ _ => trivial
  simp only [hw, T, meta_eq hs hr]
  generalize plainMeta r = M
  refine Decides.refuse (fun c t => ?_) fun c1 => Decides.refuse (fun c t => ?_) fun c2 => ?_
  · simp only [TWOSCOMP] at c; grind
  · grind
  simp only [TWOSCOMP] at c1 ⊢
  have e1 : tr.f.sampleFormat = 401 := by grind
  have e2 : tr.f.sampleWidth = 16 ∨ tr.f.sampleWidth = 24 := by grind
  obtain ⟨p, hp⟩ := set_ok tr.f (a := 401) (w := tr.f.sampleWidth) (Or.inl rfl) (by omega)
  simp only [hp]
  refine Decides.refuse (fun c t => ?_) fun c3 => Decides.refuse (fun c t => ?_) fun c4 => Decides.copy ?_ ?_
  · grind
  · grind
  · grind
  · rw [made_eq hr]
    simp only [madeEncoding, madeEnc hr, hf, prescribed]
    unfold soundOf
    simp [native_eq, e1]

theorem complete_decides (hs : Holds h s r) (ht : s.tracks = [tr]) (hr : OnTrack h tr r) (flac : Bool) :
    Decides (complete flac h s) ((r.format = .flac → flac = true) ∧ formatTakes r) (made h r) := by
  have hi := hs.implemented
  have e := hs.format
  unfold complete
  by_cases hF : r.format = .flac
  · rw [if_pos (e.trans hF)]
    cases flac
    · exact Decides.never (fun x => by cases x.1 hF)
    · have := flac_decides hs ht hr hF
      exact ⟨fun t => this.1 t.2, fun t => this.2 (fun x => t ⟨fun _ => rfl, x⟩)⟩
  · rw [if_neg (by rw [e]; exact hF)]
    have key : Decides (Setup.complete h s) (formatTakes r) (made h r) := by
      unfold Setup.complete
      rw [e] at hi ⊢
      cases hx : r.format
      case raw => exact raw_decides hs ht hr hx
      case aiffc => exact aiff_decides hs ht hr (Or.inr hx)
      case aiff => exact aiff_decides hs ht hr (Or.inl hx)
      case next => exact next_decides hs ht hr hx
      case wave => exact wave_decides hs ht hr hx
      case ircam => exact ircam_decides hs ht hr hx
      case avr => exact avr_decides hs ht hr hx
      case iff => exact iff_decides hs ht hr hx
      case smp => exact smp_decides hs ht hr hx
      case voc => exact voc_decides hs ht hr hx
      case nist => exact nist_decides hs ht hr hx
      case caf => exact caf_decides hs ht hr hx
      case flac => exact absurd hx hF
      all_goals (rw [hx] at hi; cases hi)
    exact ⟨fun t => key.1 t.2, fun t => key.2 (fun x => t ⟨fun y => absurd y hF, x⟩)⟩

/-- ALAC changes the byte order. -/
def fixOrder (h : Endian) (f : AFmt) : AFmt := if f.compression = 540 then { f with byteOrder := hostOrder h } else f

/-- The codec's check. -/
theorem codecCheck_eq {f : AFmt} (flac : Bool) (hc : f.compression ∈ [(0 : Int), 502, 503, 519, 523, 530, 540]) :
    codecCheck flac h f = if codecTakes flac h (soundOf f) then
      some (fixOrder h f) else none := by
  simp only [List.mem_cons, List.not_mem_nil, or_false] at hc
  unfold codecCheck Files.codecCheck FLAC.codecOk codecTakes soundOf fixOrder
  simp only [NONE, ULAW, ALAW, IMA, MSADPCM, ALAC, TWOSCOMP, native_eq]
  rcases hc with e | e | e | e | e | e | e
  all_goals
    rw [e]
    simp
    try grind
  · by_cases h1 : f.byteOrder = hostOrder h
    · have : f = { f with byteOrder := hostOrder h } := by rw [← h1]
      grind
    · grind

theorem create_eq (hs : Holds h s r) (flac : Bool) : outcomeOf (create flac h s) = outcome flac h r := by
  obtain ⟨tr, ht, hr⟩ := hs.track
  have hd := complete_decides hs ht hr flac
  unfold outcome
  by_cases hT : (r.format = .flac → flac = true) ∧ formatTakes r
  · have hm := hd.1 hT
    unfold res at hm
    cases hc : (complete flac h s).2 with
    | none => rw [hc] at hm; cases hm
    | some c =>
      rw [hc] at hm
      have hraw : s.fileFormat = .raw ↔ r.format = .raw := by rw [hs.format]
      unfold create
      rw [hc]
      dsimp only
      simp only [Option.map_some, Option.some.injEq] at hm
      cases hc' : c.tracks.head? with
      | none => rw [hc'] at hm; cases hm
      | some t =>
        rw [hc'] at hm
        simp only [Option.map_some, Option.some.injEq] at hm
        dsimp only
        have e1 : t.f.compression = (made h r).compression := by rw [← hm]; rfl
        have e2 : (made h r).compression ∈ [(0 : Int), 502, 503, 519, 523, 530, 540] := by
          have := hr.compLegal
          unfold made
          dsimp only
          split
          · decide
          · exact this
        rw [codecCheck_eq flac (by rw [e1]; exact e2), hm]
        by_cases hk : codecTakes flac h (made h r) = true
        · rw [if_pos hk, if_pos ⟨hT.1, hT.2, hk⟩]
          have e3 : (fixOrder h t.f).compression = t.f.compression := by
            unfold fixOrder; split <;> rfl
          have e4 : soundOf (fixOrder h t.f) =
              if r.comp = 540 then { made h r with order := hostOrder h } else made h r := by
            have : t.f.compression = 540 ↔ r.comp = 540 := by
              rw [e1]
              unfold made
              dsimp only
              split
              · rename_i hF
                have hq : r.compression.all (· = 530) = true := by
                  have := hT.2.2.1
                  rw [hF] at this
                  exact this
                unfold Request.comp
                cases hx : r.compression with
                | none => simp
                | some v => rw [hx] at hq; simp at hq; simp [hq]
              · rfl
            unfold fixOrder
            by_cases hx : r.comp = 540
            · rw [if_pos (this.2 hx), if_pos hx, ← hm]; rfl
            · rw [if_neg (fun y => hx (this.1 y)), if_neg hx, ← hm]
          dsimp only
          have e5 : hasParams s.fileFormat (fixOrder h t.f) = false ↔
              (r.format = .raw ∧ r.comp ∈ [(519 : Int), 523, 540]) := by
            unfold hasParams
            rw [e3, ← hraw]
            constructor
            · intro y
              simp at y
              refine ⟨y.1, ?_⟩
              have : r.comp = t.f.compression := by
                rw [e1]; show r.comp = if r.format = .flac then 530 else r.comp; rw [if_neg (by rw [hraw.1 y.1]; decide)]
              rw [this]
              have := y.2
              simp only [IMA, MSADPCM, ALAC] at this
              simp only [List.mem_cons, List.not_mem_nil, or_false]
              omega
            · intro y
              have : r.comp = t.f.compression := by
                rw [e1]; show r.comp = if r.format = .flac then 530 else r.comp; rw [if_neg (by rw [hraw.1 y.1]; decide)]
              rw [this] at y
              have := y.2
              simp only [List.mem_cons, List.not_mem_nil, or_false] at this
              simp [y.1, IMA, MSADPCM, ALAC]
              omega
          by_cases hp : hasParams s.fileFormat (fixOrder h t.f) = true
          · rw [if_pos hp, if_neg (fun x => by rw [e5.2 x] at hp; cases hp), ← e4]
            rfl
          · rw [if_neg hp, if_pos (e5.1 (by simpa using hp))]
            rfl
        · rw [if_neg hk, if_neg (fun x => hk x.2.2)]
          rfl
  · have hm := hd.2 hT
    unfold create
    rw [hm, if_neg (fun x => hT ⟨x.1, x.2.1⟩)]
    rfl

end AF.Create
