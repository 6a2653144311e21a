import Verif.Props.Query
/-!
# C72, continued: compression types, defaults, metadata
-/
namespace AF.Query
open AF AF.Spec.Create AF.Spec.Query AF.Create
open AF.Setup (newSetup FileFormat)

/-- C72, negation: NIST files can be compressed, but no compression type is listed for them. -/
theorem C72_negation_nist (flac : Bool) (h : Endian) :
    (∃ m, outcomeOf (create flac h (Setup.run (newSetup h) [.fileFormat 13, .compression 1001 502])) = .opened m ∧ m.compression = 502) ∧
    ¬ FormatCompression flac 13 502 := by
  refine ⟨?_, ?_⟩
  · rw [C73_create]; cases flac <;> cases h <;> exact ⟨_, rfl, rfl⟩
  · rw [formatCompression_iff (f := .nist) rfl]; decide

/-- C72, negation: with FLAC, raw files can be compressed as FLAC, which is not listed for them. -/
theorem C72_negation_raw (h : Endian) :
    (∃ m, outcomeOf (create true h (Setup.run (newSetup h) [.fileFormat 0, .compression 1001 530])) = .opened m ∧ m.compression = 530) ∧
    ¬ FormatCompression true 0 530 := by
  refine ⟨?_, ?_⟩
  · rw [C73_create]; cases h <;> exact ⟨_, rfl, rfl⟩
  · rw [formatCompression_iff (f := .raw) rfl]; decide

theorem compressionIs (flac : Bool) (c : Int) :
    queryLong flac 502 613 c 0 = .ok 1 ↔ c ∈ [(0 : Int), 502, 503, 519, 523, 540] ∨ (c = 530 ∧ flac = true) := by
  by_cases hc : c ∈ [(0 : Int), 502, 503, 519, 523, 530, 540]
  · simp only [List.mem_cons, List.not_mem_nil, or_false] at hc
    rcases hc with rfl | rfl | rfl | rfl | rfl | rfl | rfl <;> cases flac <;> decide
  · have e : compression? flac c = none := by
      unfold compression?
      rw [List.find?_eq_none]
      intro x hx he
      have : x.id ∈ [(0 : Int), 502, 503, 519, 523, 530, 540] := by
        have : ∀ x ∈ compressions flac, x.id ∈ [(0 : Int), 502, 503, 519, 523, 530, 540] := by cases flac <;> decide
        exact this x hx
      rw [beq_iff_eq.mp he] at this
      exact hc this
    have : queryLong flac 502 613 c 0 = .ok 0 := by simp [queryLong, query, queryCompression, e]
    rw [this]
    simp only [List.mem_cons, List.not_mem_nil, or_false, not_or] at hc ⊢
    constructor
    · intro h; cases h
    · intro h; omega

/-- C72: a compression type is listed if it is implemented, and that is so if a file can be made with it. -/
theorem C72_compression_implemented (flac : Bool) (h : Endian) (c : Int) :
    (CompressionListed flac c ↔ queryLong flac 502 613 c 0 = .ok 1) ∧
    (queryLong flac 502 613 c 0 = .ok 1 ↔
      ∃ ops m, outcomeOf (create flac h (Setup.run (newSetup h) ops)) = .opened m ∧ m.compression = c) := by
  refine ⟨?_, ?_⟩
  · rw [compressionIs]
    unfold CompressionListed Enumerated
    cases flac
    · constructor
      · rintro ⟨n, buf, h1, h2, h3⟩
        cases h1; cases h2
        exact Or.inl h3
      · rintro (h | ⟨-, h⟩)
        · exact ⟨_, _, rfl, rfl, h⟩
        · cases h
    · constructor
      · rintro ⟨n, buf, h1, h2, h3⟩
        cases h1; cases h2
        have h3 : c ∈ [(0 : Int), 502, 503, 519, 523, 530, 540] := h3
        simp only [List.mem_cons, List.not_mem_nil, or_false] at h3 ⊢
        grind
      · intro h
        refine ⟨_, _, rfl, rfl, ?_⟩
        show c ∈ [(0 : Int), 502, 503, 519, 523, 530, 540]
        simp only [List.mem_cons, List.not_mem_nil, or_false] at h ⊢
        grind
  · constructor
    · intro hc
      have hc' := (compressionIs flac c).mp hc
      simp only [List.mem_cons, List.not_mem_nil, or_false] at hc'
      rcases hc' with (rfl | rfl | rfl | rfl | rfl | rfl) | ⟨rfl, rfl⟩
      · refine ⟨[.fileFormat 3], ?_⟩; rw [C73_create]; cases flac <;> cases h <;> exact ⟨_, rfl, rfl⟩
      · exact ⟨_, C72_compression_listed flac h 3 502 (by cases flac <;> rfl) ((formatCompression_iff (f := .next) rfl).mpr (by decide)) hc⟩
      · exact ⟨_, C72_compression_listed flac h 3 503 (by cases flac <;> rfl) ((formatCompression_iff (f := .next) rfl).mpr (by decide)) hc⟩
      · exact ⟨_, C72_compression_listed flac h 4 519 (by cases flac <;> rfl) ((formatCompression_iff (f := .wave) rfl).mpr (by decide)) hc⟩
      · exact ⟨_, C72_compression_listed flac h 4 523 (by cases flac <;> rfl) ((formatCompression_iff (f := .wave) rfl).mpr (by decide)) hc⟩
      · exact ⟨_, C72_compression_listed flac h 15 540 (by cases flac <;> rfl) ((formatCompression_iff (f := .caf) rfl).mpr (by decide)) hc⟩
      · exact ⟨_, C72_compression_listed true h 16 530 rfl ((formatCompression_iff (f := .flac) rfl).mpr (by decide)) hc⟩
    · rintro ⟨ops, m, ho, rfl⟩
      obtain ⟨-, -, -, -, hm, hk⟩ := C73_usable flac h ops m ho
      rw [compressionIs]
      simp only [List.mem_cons, List.not_mem_nil, or_false] at hm ⊢
      rcases hm with e | e | e | e | e | e | e
      all_goals first
        | (left; omega)
        | (right; refine ⟨e, ?_⟩; unfold codecTakes at hk; rw [e] at hk; cases flac <;> first | rfl | (simp at hk))

/-- C72: whatever else is asked for, a file for which no sample format was asked for has the default sample format and width of its
format. -/
theorem C72_defaults (flac : Bool) (h : Endian) (ops : List Setup.Op) (m : Made) (i : Int)
    (ho : outcomeOf (create flac h (Setup.run (newSetup h) ops)) = .opened m) (hi : formatOf i = some (Request.after h ops).format)
    (he : (Request.after h ops).encoding = none) :
    queryLong flac 501 623 604 i = .ok m.sampleFormat ∧ queryLong flac 501 622 604 i = .ok m.sampleWidth := by
  rw [C73_create] at ho
  generalize Request.after h ops = r at *
  unfold outcome at ho
  split at ho
  · have hm : m.sampleFormat = (madeEncoding r).1 ∧ m.sampleWidth = (madeEncoding r).2 := by
      split at ho
      · cases ho
      · split at ho <;> cases ho <;> exact ⟨rfl, rfl⟩
    rw [hm.1, hm.2]
    have hcc := format_cases hi
    simp only [List.mem_cons, List.not_mem_nil, or_false, Prod.mk.injEq] at hcc
    clear ho hi hm
    unfold madeEncoding Request.enc
    rw [he]
    rcases hcc with ⟨rfl, e⟩ | ⟨rfl, e⟩ | ⟨rfl, e⟩ | ⟨rfl, e⟩ | ⟨rfl, e⟩ | ⟨rfl, e⟩ | ⟨rfl, e⟩ | ⟨rfl, e⟩ | ⟨rfl, e⟩ |
      ⟨rfl, e⟩ | ⟨rfl, e⟩ | ⟨rfl, e⟩ | ⟨rfl, e⟩ <;> rw [e] <;> cases flac <;> first
        | exact ⟨rfl, rfl⟩
        | (dsimp only [Option.getD]; split <;> exact ⟨rfl, rfl⟩)
  · cases ho

/-- C72: the samples of a compressed file are in the native sample format of the compression type, and, except for FLAC and ALAC, of its
native width. -/
theorem C72_native (flac : Bool) (h : Endian) (ops : List Setup.Op) (m : Made)
    (ho : outcomeOf (create flac h (Setup.run (newSetup h) ops)) = .opened m) (hc : m.compression ≠ 0) :
    queryLong flac 502 609 m.compression 0 = .ok m.sampleFormat ∧
    (m.compression ≠ 530 → m.compression ≠ 540 → queryLong flac 502 610 m.compression 0 = .ok m.sampleWidth) := by
  obtain ⟨-, -, -, -, hm, hk⟩ := C73_usable flac h ops m ho
  simp only [List.mem_cons, List.not_mem_nil, or_false] at hm
  unfold codecTakes at hk
  rcases hm with e | e | e | e | e | e | e
  all_goals first
    | exact absurd e hc
    | (rw [e] at hk ⊢; simp at hk; refine ⟨?_, ?_⟩
       · have hs : m.sampleFormat = 401 := by grind
         rw [hs]; cases flac <;> rfl
       · intro h1 h2
         first
         | exact absurd rfl h1
         | exact absurd rfl h2
         | have hs : m.sampleWidth = 16 := by grind
           rw [hs]; cases flac <;> rfl)

/-! ## Metadata -/

/-- C72: whatever the setup, the number of instruments asked for is at most the number the library gives for the format, the same goes
for their loops, and no markers, instruments or loops are taken for a format for which they are said not to be supported. The number
99999 (`AF_NUM_UNLIMITED`) is no bound. -/
theorem C72_metadata (flac : Bool) (h : Endian) (ops : List Setup.Op) (m : Made) (i : Int)
    (ho : outcomeOf (create flac h (Setup.run (newSetup h) ops)) = .opened m) (hi : formatOf i = some (Request.after h ops).format) :
    ∃ insts loops marks : Int,
      queryLong flac 505 612 i 0 = .ok insts ∧ queryLong flac 507 612 i 0 = .ok loops ∧ queryLong flac 506 612 i 0 = .ok marks ∧
      queryLong flac 505 613 i 0 = .ok (if insts = 0 then 0 else 1) ∧ queryLong flac 507 613 i 0 = .ok (if loops = 0 then 0 else 1) ∧
      queryLong flac 506 613 i 0 = .ok (if marks = 0 then 0 else 1) ∧
      (∀ l, (Request.after h ops).instruments = some l →
        (l.length : Int) ≤ insts ∧ ∀ x ∈ l, loops = 99999 ∨ (x.2 : Int) ≤ loops) ∧
      (∀ n, (Request.after h ops).markers = some n → marks = 0 → n = 0) := by
  rw [C73_create] at ho
  generalize Request.after h ops = r at *
  unfold outcome at ho
  split at ho
  · rename_i hk
    obtain ⟨-, ⟨-, -, -, -, hmeta⟩, -⟩ := hk
    have hcc := format_cases hi
    simp only [List.mem_cons, List.not_mem_nil, or_false, Prod.mk.injEq] at hcc
    clear ho hi
    unfold takesMetadata at hmeta
    rcases hcc with ⟨rfl, e⟩ | ⟨rfl, e⟩ | ⟨rfl, e⟩ | ⟨rfl, e⟩ | ⟨rfl, e⟩ | ⟨rfl, e⟩ | ⟨rfl, e⟩ | ⟨rfl, e⟩ | ⟨rfl, e⟩ |
      ⟨rfl, e⟩ | ⟨rfl, e⟩ | ⟨rfl, e⟩ | ⟨rfl, e⟩ <;>
    (rw [e] at hmeta
     refine ⟨_, _, _, by cases flac <;> rfl, by cases flac <;> rfl, by cases flac <;> rfl, by cases flac <;> rfl,
       by cases flac <;> rfl, by cases flac <;> rfl, ?_, ?_⟩
     · intro l hl
       rw [hl] at hmeta
       simp [Option.all] at hmeta
       grind
     · intro n hn hz
       first
         | (exfalso; revert hz; decide)
         | (rw [hn] at hmeta; simp [Option.all] at hmeta; grind))
  · cases ho

/-- C72, negation: the number of markers is no bound: an AIFF file with more markers than that is made. -/
theorem C72_negation_markers (flac : Bool) (h : Endian) :
    queryLong flac 506 612 2 0 = .ok 65535 ∧
    ∃ m, outcomeOf (create flac h (Setup.run (newSetup h) [.fileFormat 2, .markIDs 1001 (List.replicate 65536 1)])) = .opened m := by
  refine ⟨by cases flac <;> rfl, ?_⟩
  rw [C73_create]
  have e : Request.after h [.fileFormat 2, .markIDs 1001 (List.replicate 65536 1)] =
      { Request.initial h with format := .aiff, markers := some 65536 } := by
    unfold Request.after
    simp only [List.foldl_cons, List.foldl_nil, Request.step, List.length_replicate, if_true]
    rfl
  rw [e]
  cases flac <;> cases h <;> exact ⟨_, rfl⟩

theorem paramListed_iff {flac : Bool} {i p : Int} {f : FileFormat} (h : formatOf i = some f) :
    ParamListed flac i p ↔ p ∈ f.family.ids := by
  have hc := format_cases h
  clear h
  simp only [List.mem_cons, List.not_mem_nil, or_false, Prod.mk.injEq] at hc
  unfold ParamListed Enumerated
  rcases hc with ⟨rfl, rfl⟩ | ⟨rfl, rfl⟩ | ⟨rfl, rfl⟩ | ⟨rfl, rfl⟩ | ⟨rfl, rfl⟩ | ⟨rfl, rfl⟩ | ⟨rfl, rfl⟩ | ⟨rfl, rfl⟩ | ⟨rfl, rfl⟩ |
    ⟨rfl, rfl⟩ | ⟨rfl, rfl⟩ | ⟨rfl, rfl⟩ | ⟨rfl, rfl⟩ <;> constructor
  all_goals first
    | (rintro ⟨n, buf, h1, h2, h3⟩; cases h1; cases h2; exact h3)
    | (intro h; exact ⟨_, _, rfl, rfl, h⟩)
    | (rintro ⟨n, buf, h1, h2, h3⟩; cases h2)
    | (intro h; cases h)

theorem updFirst_self {α : Type} (p : α → Bool) (g : α → α) (l : List α) (hg : ∀ x ∈ l, p x = true → g x = x) :
    Meta.updFirst p g l = l := by
  induction l with
  | nil => rfl
  | cons a l ih =>
    unfold Meta.updFirst
    split
    · rename_i hp; rw [hg a List.mem_cons_self hp]
    · rw [ih (fun x hx => hg x (List.mem_cons_of_mem _ hx))]

/-- What reading and writing a parameter does on a handle whose instruments all have the defaults. -/
theorem param_fresh (hd : Meta.Handle) (hv : ∀ x ∈ hd.instruments, x.values = Setup.paramDefaults hd.family)
    (inst p : Int) (hinst : inst ∈ hd.instruments.map (·.id)) :
    (∀ j v, Meta.indexFromId hd.family p = some j → (Setup.paramDefaults hd.family)[j]? = some v → Meta.getInstParamLong hd inst p = v) ∧
    (Meta.indexFromId hd.family p = none →
      Meta.getInstParamLong hd inst p = 0 ∧ ∀ v, Meta.setInstParamLong hd inst p v = hd) := by
  obtain ⟨x0, hx0, hxi⟩ := List.mem_map.mp hinst
  obtain ⟨x, hx⟩ : ∃ x, hd.getInstrument inst = some x := by
    refine Option.isSome_iff_exists.mp ?_
    unfold Meta.Handle.getInstrument
    rw [List.find?_isSome]
    exact ⟨x0, hx0, by simp [hxi]⟩
  have hxm : x ∈ hd.instruments := List.mem_of_find?_eq_some hx
  refine ⟨?_, ?_⟩
  · intro j v hj hjv
    unfold Meta.getInstParamLong Meta.getInstParams
    rw [hx]
    simp [Meta.pvTake, Meta.getOne, hj, hv x hxm, hjv]
  · intro hn
    refine ⟨?_, ?_⟩
    · unfold Meta.getInstParamLong Meta.getInstParams
      rw [hx]
      simp [Meta.pvTake, Meta.getOne, hn]
    · intro v
      unfold Meta.setInstParamLong Meta.setInstParams
      split
      · rfl
      · rw [hx]
        dsimp only
        rw [updFirst_self]
        intro y hy _
        simp [Meta.pvTake, Meta.setOne, hn]

/-- C72: the instrument parameters listed for a format are those of the files: right after a file was opened for writing, every parameter
of every instrument has the default value the query gives, as a number, and what is not listed reads as 0 and cannot be set. -/
theorem C72_params (flac : Bool) (h : Endian) (ops : List Setup.Op) (s' : Setup.Setup) (o : Setup.Opened) (i : Int)
    (ho : Setup.openWrite h (Setup.run (newSetup h) ops) = (s', some o)) (hi : formatOf i = some (Request.after h ops).format)
    (inst p : Int) (hinst : inst ∈ o.handle.instruments.map (·.id)) :
    (ParamListed flac i p → queryLong flac 500 603 i p = .ok 1 ∧
      ∃ d, queryLong flac 500 604 i p = .ok d ∧ (Meta.getInstParamLong o.handle inst p).toInt = d) ∧
    (¬ ParamListed flac i p → queryPointer flac 500 600 i p = .ok none ∧ queryLong flac 500 604 i p = .ok (-1) ∧
      Meta.getInstParamLong o.handle inst p = 0 ∧ ∀ v, Meta.setInstParamLong o.handle inst p v = o.handle) := by
  have hh := run_holds h ops
  obtain ⟨tr, f, -, -, -, hhd, -, -⟩ := Setup.openWrite_some (Setup.foldl_inv (Setup.newSetup_inv h)) ho
  have hfam : o.handle.family = (Request.after h ops).format.family := by
    rw [hhd, ← hh.format]
    show (Setup.completed _ tr f).fileFormat.family = _
    unfold Setup.completed
    dsimp only
    split
    · rename_i e; rw [e]; rfl
    · rfl
  have hv : ∀ x ∈ o.handle.instruments, x.values = Setup.paramDefaults o.handle.family := by
    rw [hhd]
    intro x hx
    obtain ⟨y, -, rfl⟩ := List.mem_map.mp hx
    rfl
  obtain ⟨h1, h2⟩ := param_fresh o.handle hv inst p hinst
  rw [paramListed_iff hi]
  rw [hfam] at h1 h2
  clear hv hfam hhd hh ho
  have hcc := format_cases hi
  clear hi
  generalize (Request.after h ops).format = ff at *
  simp only [List.mem_cons, List.not_mem_nil, or_false, Prod.mk.injEq] at hcc
  refine ⟨?_, ?_⟩
  · intro hp
    rcases hcc with ⟨rfl, rfl⟩ | ⟨rfl, rfl⟩ | ⟨rfl, rfl⟩ | ⟨rfl, rfl⟩ | ⟨rfl, rfl⟩ | ⟨rfl, rfl⟩ | ⟨rfl, rfl⟩ | ⟨rfl, rfl⟩ | ⟨rfl, rfl⟩ |
      ⟨rfl, rfl⟩ | ⟨rfl, rfl⟩ | ⟨rfl, rfl⟩ | ⟨rfl, rfl⟩
    all_goals first
      | (cases hp; done)
      | (simp only [FileFormat.family, Setup.FileFormat.family, Meta.Family.ids, List.mem_cons, List.not_mem_nil, or_false] at hp
         rcases hp with rfl | rfl | rfl | rfl | rfl | rfl | rfl | rfl | rfl <;>
           exact ⟨by cases flac <;> rfl, _, by cases flac <;> rfl, by rw [h1 _ _ rfl rfl]; rfl⟩)
      | (simp only [FileFormat.family, Setup.FileFormat.family, Meta.Family.ids, List.mem_cons, List.not_mem_nil, or_false] at hp
         rcases hp with rfl | rfl | rfl | rfl | rfl | rfl | rfl <;>
           exact ⟨by cases flac <;> rfl, _, by cases flac <;> rfl, by rw [h1 _ _ rfl rfl]; rfl⟩)
  · intro hp
    have hidx : Meta.indexFromId ff.family p = none := by
      unfold Meta.indexFromId
      rw [if_pos]
      rw [List.findIdx_eq_length]
      intro x hx
      rw [beq_eq_false_iff_ne]
      intro e
      exact hp (e ▸ hx)
    obtain ⟨h3, h4⟩ := h2 hidx
    have hq : ∀ u, unit? i = some u → param? u p = none := by
      intro u hu
      unfold param?
      rw [List.find?_eq_none]
      intro x hx e
      rw [beq_iff_eq] at e
      apply hp
      rw [← e]
      rcases hcc with ⟨rfl, rfl⟩ | ⟨rfl, rfl⟩ | ⟨rfl, rfl⟩ | ⟨rfl, rfl⟩ | ⟨rfl, rfl⟩ | ⟨rfl, rfl⟩ | ⟨rfl, rfl⟩ | ⟨rfl, rfl⟩ | ⟨rfl, rfl⟩ |
        ⟨rfl, rfl⟩ | ⟨rfl, rfl⟩ | ⟨rfl, rfl⟩ | ⟨rfl, rfl⟩ <;> cases hu <;> first
          | (cases hx; done)
          | (have := List.mem_map_of_mem (f := Param.id) hx; exact this)
    have hw : ∀ k : Unit → Answer, (∀ u, unit? i = some u → k u = .nothing) → withUnit i k = .nothing := by
      intro k hk
      unfold withUnit
      split
      · rfl
      · rename_i u hu; exact hk u hu
    have e1 : queryInstrumentParameter 600 i p = .nothing := by
      unfold queryInstrumentParameter
      simp only [show ¬ ((600 : Int) = 613) by decide, show ¬ ((600 : Int) = 605) by decide, show ¬ ((600 : Int) = 606) by decide,
        show ¬ ((600 : Int) = 603) by decide, if_false, if_true]
      exact hw _ (fun u hu => by rw [hq u hu])
    have e2 : queryInstrumentParameter 604 i p = .nothing := by
      unfold queryInstrumentParameter
      simp only [show ¬ ((604 : Int) = 613) by decide, show ¬ ((604 : Int) = 605) by decide, show ¬ ((604 : Int) = 606) by decide,
        show ¬ ((604 : Int) = 603) by decide, show ¬ ((604 : Int) = 600) by decide, if_false, if_true]
      exact hw _ (fun u hu => by rw [hq u hu])
    refine ⟨?_, ?_, h3, h4⟩
    · simp [queryPointer, query, e1]
    · simp [queryLong, query, e2]

/-- C72, negation: CAF files get an instrument although instruments are said not to be supported; IRCAM files get markers. -/
theorem C72_negation_default_metadata (flac : Bool) (h : Endian) :
    (queryLong flac 505 613 15 0 = .ok 0 ∧
      ((Setup.openWrite h (Setup.run (newSetup h) [.fileFormat 15])).2.map fun o => o.handle.instruments.map (·.id)) = some [2001]) ∧
    (queryLong flac 506 613 5 0 = .ok 0 ∧
      ((Setup.openWrite h (Setup.run (newSetup h) [.fileFormat 5])).2.map fun o =>
        o.handle.tracks.map fun t => t.markers.map (·.id)) = some [[1, 2, 3, 4]]) := by
  refine ⟨⟨by cases flac <;> rfl, ?_⟩, ⟨by cases flac <;> rfl, ?_⟩⟩ <;> cases h <;> decide +kernel

/-- Concrete cases for the theorems above: WAVE lists four compression types, MS ADPCM among them, and 7 parameters. -/
example : FormatCompression false 4 523 ∧ ¬ FormatCompression false 4 540 ∧ ParamListed false 4 307 ∧ ¬ ParamListed false 4 308 := by
  refine ⟨(formatCompression_iff (f := .wave) rfl).mpr (by decide), fun h => ?_, (paramListed_iff (f := .wave) rfl).mpr (by decide),
    fun h => ?_⟩
  · exact absurd ((formatCompression_iff (f := .wave) rfl).mp h) (by decide)
  · exact absurd ((paramListed_iff (f := .wave) rfl).mp h) (by decide)

/-- A WAVE file with an instrument of three loops and markers meets the hypotheses of `C72_metadata`, `C72_defaults` and, compressed,
`C72_native` and `C72_compression_complete`. -/
def queryDemo : List Setup.Op :=
  [.fileFormat 4, .compression 1001 503, .instIDs [7], .loopIDs 7 [1, 2, 3], .markIDs 1001 [1, 2, 3]]

example : ∃ m, outcomeOf (create false .little (Setup.run (newSetup .little) queryDemo)) = .opened m ∧ m.compression = 503 ∧
    (Request.after .little queryDemo).encoding = none ∧ (Request.after .little queryDemo).instruments = some [(7, 3)] ∧
    formatOf 4 = some (Request.after .little queryDemo).format := by
  rw [C73_create]
  exact ⟨_, rfl, rfl, rfl, by decide, rfl⟩

example : (Setup.openWrite .little (Setup.run (newSetup .little) queryDemo)).2.isSome := by decide +kernel

end AF.Query
