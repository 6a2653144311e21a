import Verif.Spec.Query
import Verif.Props.Create
import Verif.Props.Setup
/-!
# C72: what the library says it can do, and what it does
-/
namespace AF.Query
open AF AF.Spec.Create AF.Spec.Query AF.Create
open AF.Setup (newSetup FileFormat)

/-- The format numbers with an entry, as cases. -/
theorem unit?_cases (i : Int) (h : 0 ≤ i ∧ i < 17) :
    i = 0 ∨ i = 1 ∨ i = 2 ∨ i = 3 ∨ i = 4 ∨ i = 5 ∨ i = 6 ∨ i = 7 ∨ i = 8 ∨ i = 9 ∨ i = 10 ∨ i = 11 ∨ i = 12 ∨ i = 13 ∨ i = 14 ∨
      i = 15 ∨ i = 16 := by omega

theorem unit?_some (i : Int) : (unit? i).isSome ↔ 0 ≤ i ∧ i < 17 := by
  unfold unit?
  split
  · constructor
    · intro h; cases h
    · intro h; omega
  · rw [Option.isSome_iff_ne_none, ne_eq, List.getElem?_eq_none_iff]
    show ¬ 17 ≤ i.toNat ↔ _
    omega

theorem unit?_none (i : Int) (h : ¬ (0 ≤ i ∧ i < 17)) : unit? i = none := by
  rw [← Option.not_isSome_iff_eq_none, unit?_some]; exact h

/-- C72: every query about anything has a defined answer, except whether or how many markers are supported by a file format that does
not exist: then the library reads outside its tables. -/
theorem C72_defined (flac : Bool) (type arg1 arg2 arg3 : Int) :
    (∃ a, query flac type arg1 arg2 arg3 = .ok a) ↔
      ¬ (type = 506 ∧ (arg1 = 612 ∨ arg1 = 613) ∧ ¬ (0 ≤ arg2 ∧ arg2 < 17)) := by
  by_cases ht : type = 506
  · subst ht
    unfold query
    simp only [show ¬ ((506 : Int) = 505) by decide, show ¬ ((506 : Int) = 500) by decide, show ¬ ((506 : Int) = 507) by decide,
      show ¬ ((506 : Int) = 501) by decide, show ¬ ((506 : Int) = 502) by decide, if_false, if_true, true_and]
    unfold queryMarker
    by_cases hu : 0 ≤ arg2 ∧ arg2 < 17
    · obtain ⟨u, hu'⟩ := Option.isSome_iff_exists.mp ((unit?_some arg2).mpr hu)
      rw [hu']
      constructor
      · intro _ h; exact h.2 hu
      · intro _
        dsimp only
        split
        · exact ⟨_, rfl⟩
        · split <;> exact ⟨_, rfl⟩
    · rw [unit?_none arg2 hu]
      dsimp only
      constructor
      · rintro ⟨a, ha⟩ ⟨h1, h2⟩
        rcases h1 with h1 | h1 <;> subst h1 <;> simp at ha
      · intro h
        rw [if_neg (fun e => h ⟨Or.inr e, hu⟩), if_neg (fun e => h ⟨Or.inl e, hu⟩)]
        exact ⟨_, rfl⟩
  · constructor
    · intro _ h; exact ht h.1
    · intro _
      unfold query
      rw [if_neg ht]
      split
      · exact ⟨_, rfl⟩
      · split
        · exact ⟨_, rfl⟩
        · split
          · exact ⟨_, rfl⟩
          · split
            · exact ⟨_, rfl⟩
            · split <;> exact ⟨_, rfl⟩

/-- C72, negation: asking whether markers are supported by a file format that does not exist. -/
theorem C72_negation_marker (flac : Bool) : query flac 506 613 17 0 = .error .bufferOverflow := by cases flac <;> rfl

theorem withUnit_long {i : Int} {k : Unit → Answer} {n : Int} (h : withUnit i k = .long n) :
    ∃ u ∈ units, k u = .long n := by
  unfold withUnit at h
  split at h
  · cases h
  · rename_i u hu
    unfold unit? at hu
    split at hu
    · cases hu
    · exact ⟨u, List.mem_of_getElem? hu, h⟩

theorem unit_signs : ∀ u ∈ units, 0 ≤ u.sampleFormat ∧ 0 ≤ u.sampleWidth ∧ 0 ≤ u.markers ∧ 0 ≤ u.instruments ∧ 0 ≤ u.loops ∧
    ∀ p ∈ u.params, 0 ≤ p.type ∧ 0 ≤ p.default := by
  intro u hu
  simp only [units, List.mem_cons, List.not_mem_nil, or_false, absent] at hu
  rcases hu with h | h | h | h | h | h | h | h | h | h | h | h | h | h | h | h | h <;> subst h <;>
    refine ⟨by decide, by decide, by decide, by decide, by decide, ?_⟩ <;>
    intro p hp <;> simp only [List.not_mem_nil, aiffParams, waveParams, List.mem_cons, or_false] at hp <;>
    grind

theorem fileFormat_numbers {arg1 arg2 arg3 n : Int} (h : queryFileFormat arg1 arg2 arg3 = .long n) : 0 ≤ n := by
  have hs := unit_signs
  unfold queryFileFormat at h
  generalize implementedFrom 0 units = L at h
  generalize units.length = N at h
  by_cases c : arg1 = 605
  · rw [if_pos c] at h; cases h; omega
  rw [if_neg c] at h; clear c
  by_cases c : arg1 = 606
  · rw [if_pos c] at h
    by_cases c : L.length = 0
    · rw [if_pos c] at h; cases h
    · rw [if_neg c] at h; cases h
  rw [if_neg c] at h; clear c
  by_cases c : arg1 = 602
  · rw [if_pos c] at h; obtain ⟨u, hu, e⟩ := withUnit_long h; cases e
  rw [if_neg c] at h; clear c
  by_cases c : arg1 = 600
  · rw [if_pos c] at h; obtain ⟨u, hu, e⟩ := withUnit_long h; cases e
  rw [if_neg c] at h; clear c
  by_cases c : arg1 = 601
  · rw [if_pos c] at h; obtain ⟨u, hu, e⟩ := withUnit_long h; cases e
  rw [if_neg c] at h; clear c
  by_cases c : arg1 = 613
  · rw [if_pos c] at h
    cases hu : unit? arg2 with
    | none => rw [hu] at h; cases h; decide
    | some u =>
      rw [hu] at h
      cases h
      cases u.implemented <;> decide
  rw [if_neg c] at h; clear c
  by_cases c : arg1 = 623
  · rw [if_pos c] at h
    obtain ⟨u, hu, e⟩ := withUnit_long h
    by_cases c : arg2 = 604
    · rw [if_pos c] at e; cases e; exact (hs u hu).1
    · rw [if_neg c] at e; cases e
  rw [if_neg c] at h; clear c
  by_cases c : arg1 = 622
  · rw [if_pos c] at h
    obtain ⟨u, hu, e⟩ := withUnit_long h
    by_cases c : arg2 = 604
    · rw [if_pos c] at e; cases e; exact (hs u hu).2.1
    · rw [if_neg c] at e; cases e
  rw [if_neg c] at h; clear c
  by_cases c : arg1 = 624
  · rw [if_pos c] at h
    obtain ⟨u, hu, e⟩ := withUnit_long h
    by_cases c : arg2 = 650
    · rw [if_pos c] at e; cases e; omega
    · rw [if_neg c] at e
      by_cases c : arg2 = 651
      · rw [if_pos c] at e
        by_cases c : u.compressions.length = 0
        · rw [if_pos c] at e; cases e
        · rw [if_neg c] at e; cases e
      · rw [if_neg c] at e; cases e
  rw [if_neg c] at h
  cases h

/-- C72: the numbers a query gives are never negative, so that afQueryLong's −1 always means that there is no number. -/
theorem C72_numbers (flac : Bool) (type arg1 arg2 arg3 n : Int) (h : query flac type arg1 arg2 arg3 = .ok (.long n)) : 0 ≤ n := by
  have hs := unit_signs
  have flag : ∀ b : Prop, ∀ _ : Decidable b, 0 ≤ (if b then (1 : Int) else 0) := by intro b _; split <;> decide
  unfold query at h
  split at h
  · unfold queryInstrument at h
    split at h
    · obtain ⟨u, hu, e⟩ := withUnit_long (Except.ok.inj h)
      cases e; exact flag _ _
    · split at h
      · obtain ⟨u, hu, e⟩ := withUnit_long (Except.ok.inj h)
        cases e; exact (hs u hu).2.2.2.1
      · cases h
  · split at h
    · have h := Except.ok.inj h
      unfold queryInstrumentParameter at h
      split at h
      · obtain ⟨u, hu, e⟩ := withUnit_long h
        cases e; exact flag _ _
      · split at h
        · obtain ⟨u, hu, e⟩ := withUnit_long h
          cases e; omega
        · split at h
          · obtain ⟨u, hu, e⟩ := withUnit_long h
            split at e <;> cases e
          · split at h
            · obtain ⟨u, hu, e⟩ := withUnit_long h
              split at e
              · cases e
              · rename_i p hp; cases e; exact ((hs u hu).2.2.2.2.2 p (List.mem_of_find?_eq_some hp)).1
            · split at h
              · obtain ⟨u, hu, e⟩ := withUnit_long h
                split at e <;> cases e
              · split at h
                · obtain ⟨u, hu, e⟩ := withUnit_long h
                  split at e
                  · cases e
                  · rename_i p hp; cases e; exact ((hs u hu).2.2.2.2.2 p (List.mem_of_find?_eq_some hp)).2
                · cases h
    · split at h
      · obtain ⟨u, hu, e⟩ := withUnit_long (Except.ok.inj h)
        split at e
        · cases e; exact flag _ _
        · split at e
          · cases e; exact (hs u hu).2.2.2.2.1
          · cases e
      · split at h
        · have h := Except.ok.inj h
          exact fileFormat_numbers h
        · split at h
          · have h := Except.ok.inj h
            unfold queryCompression at h
            dsimp only at h
            repeat' split at h
            all_goals first | (cases h; done) | skip
            all_goals first | (cases h; omega) | skip
            all_goals first | (cases h; exact flag _ _) | skip
            all_goals
              rename_i c hc
              have : ∀ c ∈ compressions flac, 0 ≤ c.sampleFormat ∧ 0 ≤ c.sampleWidth := by cases flac <;> decide
              have := this c (List.mem_of_find?_eq_some hc)
              cases h
              first | exact this.1 | exact this.2
          · split at h
            · unfold queryMarker at h
              have um : ∀ u, unit? arg2 = some u → u ∈ units := by
                intro u hu
                unfold unit? at hu
                split at hu
                · cases hu
                · exact List.mem_of_getElem? hu
              repeat' split at h
              all_goals first | (cases h; done) | skip
              all_goals first | (cases h; decide) | skip
              rename_i u hu; cases h; exact (hs u (um u hu)).2.2.1
            · cases h

/-- C72: what afQueryLong's −1 means. -/
theorem C72_minus_one (flac : Bool) (type arg1 arg2 arg3 : Int) (a : Answer) (h : query flac type arg1 arg2 arg3 = .ok a) :
    queryLong flac type arg1 arg2 arg3 = .ok (-1) ↔ ∀ n, a ≠ .long n := by
  unfold queryLong
  rw [h]
  cases a with
  | long n =>
    have := C72_numbers flac type arg1 arg2 arg3 n h
    constructor
    · intro e; have e : Except.ok n = Except.ok (-1) := e; cases e; omega
    · intro e; exact absurd rfl (e n)
  | nothing => simp
  | ints b => simp
  | text s => simp

/-! ## Lists -/

/-- C72: the four lists a program can ask for can be read entry by entry, whatever the format; a format that does not exist has no list. -/
theorem C72_lists (flac : Bool) :
    Readable (queryLong flac 501 605 0 0) (queryPointer flac 501 606 0 0) ∧
    Readable (queryLong flac 502 605 0 0) (queryPointer flac 502 606 0 0) ∧
    (∀ i, 0 ≤ i → i < 17 → Readable (queryLong flac 501 624 650 i) (queryPointer flac 501 624 651 i) ∧
      Readable (queryLong flac 500 605 i 0) (queryPointer flac 500 606 i 0)) ∧
    (∀ i, ¬ (0 ≤ i ∧ i < 17) → queryLong flac 501 624 650 i = .ok (-1) ∧ queryPointer flac 501 624 651 i = .ok none ∧
      queryLong flac 500 605 i 0 = .ok (-1) ∧ queryPointer flac 500 606 i 0 = .ok none) := by
  refine ⟨⟨13, by cases flac <;> rfl, by decide, Or.inr ⟨_, by cases flac <;> rfl, by decide, by decide⟩⟩,
    ⟨if flac then 7 else 6, by cases flac <;> rfl, by cases flac <;> decide,
      Or.inr ⟨if flac then [0, 502, 503, 519, 523, 530, 540] else [0, 502, 503, 519, 523, 540, 0], by cases flac <;> rfl,
        by cases flac <;> decide, by cases flac <;> decide⟩⟩, ?_, ?_⟩
  · intro i h0 h1
    rcases unit?_cases i ⟨h0, h1⟩ with h | h | h | h | h | h | h | h | h | h | h | h | h | h | h | h | h <;> subst h <;>
      constructor <;>
      first
      | exact ⟨_, rfl, by decide, Or.inl ⟨rfl, rfl⟩⟩
      | exact ⟨_, rfl, by decide, Or.inr ⟨_, rfl, by decide, by decide⟩⟩
  · intro i hi
    have e := unit?_none i hi
    simp [queryLong, queryPointer, query, queryFileFormat, queryInstrumentParameter, withUnit, e]

/-- C72: the list of file formats holds exactly those the library says are implemented, and these are those a setup can be made for. -/
theorem C72_formats (flac : Bool) (i : Int) :
    (FormatListed flac i ↔ queryLong flac 501 613 i 0 = .ok 1) ∧ (FormatListed flac i ↔ (formatOf i).isSome) ∧
    (queryLong flac 501 613 i 0 = .ok 0 ∨ queryLong flac 501 613 i 0 = .ok 1) := by
  have hl : FormatListed flac i ↔ i ∈ [(0 : Int), 1, 2, 3, 4, 5, 9, 10, 11, 12, 13, 15, 16] := by
    unfold FormatListed Enumerated
    constructor
    · rintro ⟨n, buf, h1, h2, h3⟩
      have e1 : queryLong flac 501 605 0 0 = .ok 13 := by cases flac <;> rfl
      have e2 : queryPointer flac 501 606 0 0 = .ok (some (.ints [0, 1, 2, 3, 4, 5, 9, 10, 11, 12, 13, 15, 16, 0, 0, 0, 0])) := by
        cases flac <;> rfl
      rw [e1] at h1
      rw [e2] at h2
      cases h1
      cases h2
      exact h3
    · intro h
      exact ⟨13, [0, 1, 2, 3, 4, 5, 9, 10, 11, 12, 13, 15, 16, 0, 0, 0, 0], by cases flac <;> rfl, by cases flac <;> rfl, h⟩
  rw [hl]
  by_cases hi : 0 ≤ i ∧ i < 17
  · rcases unit?_cases i hi with h | h | h | h | h | h | h | h | h | h | h | h | h | h | h | h | h <;> subst h <;>
      cases flac <;> refine ⟨?_, ?_, ?_⟩ <;> decide
  · have e : queryLong flac 501 613 i 0 = .ok 0 := by
      simp [queryLong, query, queryFileFormat, unit?_none i hi]
    have f : formatOf i = none := by
      unfold formatOf
      rw [if_neg (by omega), if_neg (by omega), if_neg (by omega), if_neg (by omega), if_neg (by omega), if_neg (by omega),
        if_neg (by omega), if_neg (by omega), if_neg (by omega), if_neg (by omega), if_neg (by omega), if_neg (by omega),
        if_neg (by omega)]
    rw [e, f]
    refine ⟨?_, ?_, Or.inl rfl⟩
    · simp; omega
    · simp; omega

/-! ## What is said and what is done -/

theorem format_cases {i : Int} {f : FileFormat} (h : formatOf i = some f) :
    (i, f) ∈ [((0 : Int), FileFormat.raw), (1, .aiffc), (2, .aiff), (3, .next), (4, .wave), (5, .ircam), (9, .avr), (10, .iff),
      (11, .smp), (12, .voc), (13, .nist), (15, .caf), (16, .flac)] := by
  have hi : i ∈ [(0 : Int), 1, 2, 3, 4, 5, 9, 10, 11, 12, 13, 15, 16] := by
    refine Decidable.byContradiction fun hn => ?_
    simp only [List.mem_cons, List.not_mem_nil, or_false, not_or] at hn
    obtain ⟨h0, h1, h2, h3, h4, h5, h9, h10, h11, h12, h13, h15, h16⟩ := hn
    unfold formatOf at h
    rw [if_neg h0, if_neg h1, if_neg h2, if_neg h3, if_neg h4, if_neg h5, if_neg h9, if_neg h10, if_neg h11, if_neg h12, if_neg h13,
      if_neg h15, if_neg h16] at h
    cases h
  simp only [List.mem_cons, List.not_mem_nil, or_false] at hi
  rcases hi with e | e | e | e | e | e | e | e | e | e | e | e | e <;> subst e <;> cases h <;> decide

/-- The compression types of a format, as cases. -/
theorem formatCompression_iff {flac : Bool} {i c : Int} {f : FileFormat} (h : formatOf i = some f) :
    FormatCompression flac i c ↔ c ∈ (match f with
      | .aiffc => [(502 : Int), 503, 519]
      | .raw | .next | .ircam | .voc => [502, 503]
      | .wave => [502, 503, 519, 523]
      | .caf => [502, 503, 519, 540]
      | .flac => [530]
      | _ => []) := by
  have hc := format_cases h
  clear h
  simp only [List.mem_cons, List.not_mem_nil, or_false, Prod.mk.injEq] at hc
  unfold FormatCompression Enumerated
  rcases hc with ⟨rfl, rfl⟩ | ⟨rfl, rfl⟩ | ⟨rfl, rfl⟩ | ⟨rfl, rfl⟩ | ⟨rfl, rfl⟩ | ⟨rfl, rfl⟩ | ⟨rfl, rfl⟩ | ⟨rfl, rfl⟩ | ⟨rfl, rfl⟩ |
    ⟨rfl, rfl⟩ | ⟨rfl, rfl⟩ | ⟨rfl, rfl⟩ | ⟨rfl, rfl⟩ <;> constructor
  all_goals first
    | (rintro ⟨n, buf, h1, h2, h3⟩; cases h1; cases h2; exact h3)
    | (intro h; exact ⟨_, _, rfl, rfl, h⟩)
    | (rintro ⟨n, buf, h1, h2, h3⟩; cases h2)
    | (intro h; cases h)

/-- C72: a file of every format that is said to be implemented can be made, with a setup that asks for nothing else, and its samples are
of the default format and width the query gives. FLAC is said to be implemented even if the library was built without it. -/
theorem C72_implemented (flac : Bool) (h : Endian) (i : Int) (hi : queryLong flac 501 613 i 0 = .ok 1) (hf : i = 16 → flac = true) :
    ∃ m, outcomeOf (create flac h (Setup.run (newSetup h) [.fileFormat i])) = .opened m ∧
      queryLong flac 501 623 604 i = .ok m.sampleFormat ∧ queryLong flac 501 622 604 i = .ok m.sampleWidth := by
  obtain ⟨f, hff⟩ := Option.isSome_iff_exists.mp ((C72_formats flac i).2.1.mp ((C72_formats flac i).1.mpr hi))
  rw [C73_create]
  have hc := format_cases hff
  clear hff hi
  simp only [List.mem_cons, List.not_mem_nil, or_false, Prod.mk.injEq] at hc
  rcases hc with ⟨rfl, rfl⟩ | ⟨rfl, rfl⟩ | ⟨rfl, rfl⟩ | ⟨rfl, rfl⟩ | ⟨rfl, rfl⟩ | ⟨rfl, rfl⟩ | ⟨rfl, rfl⟩ | ⟨rfl, rfl⟩ | ⟨rfl, rfl⟩ |
    ⟨rfl, rfl⟩ | ⟨rfl, rfl⟩ | ⟨rfl, rfl⟩ | ⟨rfl, rfl⟩
  all_goals first
    | (cases flac <;> cases h <;> exact ⟨_, rfl, rfl, rfl⟩)
    | (cases hf rfl; cases h <;> exact ⟨_, rfl, rfl, rfl⟩)

/-- C72, negation: without FLAC, FLAC files are said to be implemented and none can be made. -/
theorem C72_negation_flac (h : Endian) (ops : List Setup.Op) (hf : (Request.after h ops).format = .flac) :
    queryLong false 501 613 16 0 = .ok 1 ∧ outcomeOf (create false h (Setup.run (newSetup h) ops)) = .refused := by
  refine ⟨rfl, ?_⟩
  rw [C73_create]
  unfold outcome
  rw [if_neg]
  rintro ⟨h1, -⟩
  cases h1 hf

/-- C72: a file of a format can be made with every compression type that is listed for it and implemented. -/
theorem C72_compression_listed (flac : Bool) (h : Endian) (i c : Int) (hi : queryLong flac 501 613 i 0 = .ok 1)
    (hl : FormatCompression flac i c) (hc : queryLong flac 502 613 c 0 = .ok 1) :
    ∃ m, outcomeOf (create flac h (Setup.run (newSetup h) [.fileFormat i, .compression 1001 c])) = .opened m ∧ m.compression = c := by
  obtain ⟨f, hff⟩ := Option.isSome_iff_exists.mp ((C72_formats flac i).2.1.mp ((C72_formats flac i).1.mpr hi))
  rw [C73_create]
  rw [formatCompression_iff hff] at hl
  have hcc := format_cases hff
  clear hff hi
  simp only [List.mem_cons, List.not_mem_nil, or_false, Prod.mk.injEq] at hcc
  rcases hcc with ⟨rfl, rfl⟩ | ⟨rfl, rfl⟩ | ⟨rfl, rfl⟩ | ⟨rfl, rfl⟩ | ⟨rfl, rfl⟩ | ⟨rfl, rfl⟩ | ⟨rfl, rfl⟩ | ⟨rfl, rfl⟩ | ⟨rfl, rfl⟩ |
    ⟨rfl, rfl⟩ | ⟨rfl, rfl⟩ | ⟨rfl, rfl⟩ | ⟨rfl, rfl⟩
  all_goals
    simp only [List.mem_cons, List.not_mem_nil, or_false] at hl
  all_goals first
    | (rcases hl with rfl | rfl | rfl | rfl <;> cases flac <;> cases h <;> exact ⟨_, rfl, rfl⟩)
    | (rcases hl with rfl | rfl | rfl <;> cases flac <;> cases h <;> exact ⟨_, rfl, rfl⟩)
    | (rcases hl with rfl | rfl <;> cases flac <;> cases h <;> exact ⟨_, rfl, rfl⟩)
    | (subst hl; cases flac <;> first | (cases hc; done) | (cases h <;> exact ⟨_, rfl, rfl⟩))

/-- C72: whatever the setup, a file that is compressed is compressed in a way that is listed for its format, except for raw and NIST
files. -/
theorem C72_compression_complete (flac : Bool) (h : Endian) (ops : List Setup.Op) (m : Made) (i : Int)
    (ho : outcomeOf (create flac h (Setup.run (newSetup h) ops)) = .opened m) (hi : formatOf i = some (Request.after h ops).format)
    (hr : i ≠ 0) (hn : i ≠ 13) (hc : m.compression ≠ 0) : FormatCompression flac i m.compression := by
  rw [C73_create] at ho
  rw [formatCompression_iff hi]
  generalize Request.after h ops = r at *
  unfold outcome at ho
  split at ho
  · rename_i hk
    obtain ⟨-, ⟨-, hcomp, -⟩, -⟩ := hk
    have hm : m.compression = if r.format = .flac then 530 else r.comp := by
      split at ho
      · cases ho
      · split at ho <;> cases ho <;> rfl
    have hcc := format_cases hi
    simp only [List.mem_cons, List.not_mem_nil, or_false, Prod.mk.injEq] at hcc
    rw [hm] at hc ⊢
    clear ho hi hm
    unfold Request.comp at hc ⊢
    rcases hcc with ⟨rfl, e⟩ | ⟨rfl, e⟩ | ⟨rfl, e⟩ | ⟨rfl, e⟩ | ⟨rfl, e⟩ | ⟨rfl, e⟩ | ⟨rfl, e⟩ | ⟨rfl, e⟩ | ⟨rfl, e⟩ |
      ⟨rfl, e⟩ | ⟨rfl, e⟩ | ⟨rfl, e⟩ | ⟨rfl, e⟩ <;>
    rw [e] at hcomp hc ⊢ <;> (cases hrc : r.compression <;> rw [hrc] at hcomp hc <;> simp [takesCompression] at hcomp hc ⊢) <;> grind
  · cases ho

end AF.Query
