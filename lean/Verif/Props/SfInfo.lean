import Verif.Model.SfInfo
import Verif.Spec.SfInfo
import Verif.Props.Files.Formats
/-!
# C83: sfinfo
-/
namespace AF.SfInfo
open AF AF.Setup AF.Files AF.Spec.SfInfo

/-! ## The names of formats -/

theorem described (flac : Bool) (u : FileFormat) :
    asText (Query.queryPointer flac 501 601 (SfConvert.formatNumber u) 0) = some (names u).1 ∧
    asText (Query.queryPointer flac 501 602 (SfConvert.formatNumber u) 0) = some (names u).2 := by
  cases u <;> exact ⟨rfl, rfl⟩

/-! ## How samples are stored -/

/-- All kinds there are. -/
def kinds : List Kind :=
  (List.range 32).flatMap (fun w => [.int false false (w + 1), .int true false (w + 1), .int false true (w + 1), .int true true (w + 1)]) ++
  [.flt false false, .flt false true, .flt true false, .flt true true, .codec 0, .codec 1, .codec 2, .codec 3, .codec 4]

def code (s : String) : Nat := s.toList.foldl (fun a c => a * 256 + c.toNat) 0

theorem codes_differ : (kinds.map fun k => code (kindText k)).Nodup := by decide +kernel

theorem inj_of_nodup {α β : Type} (f : α → β) : ∀ l : List α, (l.map f).Nodup → ∀ x ∈ l, ∀ y ∈ l, f x = f y → x = y
  | [], _, _, hx, _, _, _ => absurd hx (List.not_mem_nil)
  | a :: l, h, x, hx, y, hy, e => by
    rw [List.map_cons, List.nodup_cons] at h
    rcases List.mem_cons.mp hx with h1 | h1 <;> rcases List.mem_cons.mp hy with h2 | h2
    · rw [h1, h2]
    · rw [h1] at e
      exact absurd (e ▸ List.mem_map_of_mem h2) h.1
    · rw [h2] at e
      exact absurd (e ▸ List.mem_map_of_mem h1) h.1
    · exact inj_of_nodup f l h.2 x h1 y h2 e

theorem order_text (f : AFmt) : orderText f = order (decide (f.byteOrder = BIG)) := by
  unfold orderText order
  by_cases h : f.byteOrder = BIG
  · rw [if_pos h, decide_eq_true h]; rfl
  · rw [if_neg h, decide_eq_false h]; rfl

theorem int_kind (u b : Bool) {w : Nat} (h1 : 1 ≤ w) (h2 : w ≤ 32) : Kind.int u b w ∈ kinds := by
  refine List.mem_append_left _ (List.mem_flatMap.mpr ⟨w - 1, List.mem_range.mpr (by omega), ?_⟩)
  rw [show w - 1 + 1 = w by omega]
  cases u <;> cases b <;> simp

theorem flt_kind (u b : Bool) : Kind.flt u b ∈ kinds := by cases u <;> cases b <;> decide +kernel

theorem codec_kind {i : Nat} (h : i < 5) : Kind.codec i ∈ kinds := by
  have : i = 0 ∨ i = 1 ∨ i = 2 ∨ i = 3 ∨ i = 4 := by omega
  rcases this with rfl | rfl | rfl | rfl | rfl <;> decide +kernel

theorem codec_text (flac : Bool) {c : Int} (h : c = ULAW ∨ c = ALAW ∨ c = IMA ∨ c = MSADPCM ∨ c = ALAC) :
    asText (Query.queryPointer flac 502 600 c 0) = some (codecs.getD (if c = ULAW then 0 else if c = ALAW then 1 else if c = IMA then 2
    else if c = MSADPCM then 3 else 4) "") := by
  rcases h with rfl | rfl | rfl | rfl | rfl <;> cases flac <;> decide +kernel

/-- The place of a codec in `codecs`. -/
def codecIndex (c : Int) : Nat := if c = ULAW then 0 else if c = ALAW then 1 else if c = IMA then 2 else if c = MSADPCM then 3 else 4

theorem coded_cases {h : Endian} {f : AFmt} (hc : Spec.Formats.Coded h f) :
    f.compression = NONE ∨ (f.compression ≠ NONE ∧ (f.compression = ULAW ∨ f.compression = ALAW ∨ f.compression = IMA ∨ f.compression = MSADPCM ∨ f.compression = ALAC)) := by
  cases hc with
  | pcm c => exact .inl c
  | sixteen c =>
    refine .inr ⟨?_, ?_⟩
    · intro hn; rw [hn] at c; revert c; decide
    · rcases c with c | c | c | c
      · exact .inl c
      · exact .inr (.inl c)
      · exact .inr (.inr (.inl c))
      · exact .inr (.inr (.inr (.inl c)))
  | alac c => exact .inr ⟨by rw [c]; decide, .inr (.inr (.inr (.inr c)))⟩

theorem data_kind (flac : Bool) {h : Endian} {f : AFmt} (hc : Spec.Formats.Coded h f) (hl : Spec.Setup.LegalWidth f.sampleFormat f.sampleWidth) :
    dataText flac f = kindText (kindOf f) ∧ kindOf f ∈ kinds := by
  unfold dataText kindOf
  rcases coded_cases hc with c | ⟨c, c'⟩
  · rw [if_pos c, if_pos c, order_text]
    rcases hl with ⟨s | s, w1, w2⟩ | ⟨s, w⟩ | ⟨s, w⟩
    · have hw : f.sampleWidth = (f.sampleWidth.toNat : Int) := by omega
      rw [if_pos s, if_pos s]
      refine ⟨?_, int_kind _ _ (by omega) (by omega)⟩
      show _ = toString ((f.sampleWidth.toNat : Nat) : Int) ++ _ ++ order _ ++ _
      rw [← hw]
    · have hw : f.sampleWidth = (f.sampleWidth.toNat : Int) := by omega
      have s1 : f.sampleFormat ≠ TWOSCOMP := by rw [s]; decide
      rw [if_neg s1, if_neg s1, if_pos s, if_pos s]
      refine ⟨?_, int_kind _ _ (by omega) (by omega)⟩
      show _ = toString ((f.sampleWidth.toNat : Nat) : Int) ++ _ ++ order _ ++ _
      rw [← hw]
    · have s1 : f.sampleFormat ≠ TWOSCOMP := by rw [s]; decide
      have s2 : f.sampleFormat ≠ UNSIGNED := by rw [s]; decide
      have s3 : f.sampleFormat ≠ DOUBLE := by rw [s]; decide
      rw [if_neg s1, if_neg s1, if_neg s2, if_neg s2, if_pos s, decide_eq_false s3]
      exact ⟨rfl, flt_kind _ _⟩
    · have s1 : f.sampleFormat ≠ TWOSCOMP := by rw [s]; decide
      have s2 : f.sampleFormat ≠ UNSIGNED := by rw [s]; decide
      have s3 : f.sampleFormat ≠ FLOAT := by rw [s]; decide
      rw [if_neg s1, if_neg s1, if_neg s2, if_neg s2, if_neg s3, if_pos s, decide_eq_true s]
      exact ⟨rfl, flt_kind _ _⟩
  · rw [if_neg c, if_neg c, codec_text flac c']
    refine ⟨rfl, codec_kind ?_⟩
    repeat' split
    all_goals decide

/-! ## One file -/

/-- C83: if a file opens, the long report gives the name, the names of its format, and the numbers that the track has: bytes, offset,
channels, frames, rate; and frames divided by rate as the duration. -/
theorem C83_report (e : Env) (name file : List Byte) (u : FileFormat) (t : Trk) (q p : Nat) (c : Option (List Byte)) (hf : e.files name = some file)
    (hi : identify file 0 = .ok (some u, q)) (ho : openRead e.F32 e.F64 e.rnd e.h e.fuel file 0 = .ok (t, p))
    (hc : copyrightBlock (e.chunks file) = .ok c) :
    ∃ r, fullInfo e name = .report (.full r) ∧ r.name = name ∧ (r.description, r.label) = names u ∧ r.data = kindText (kindOf t.f) ∧
      r.bytes = t.dataSize ∧ r.offset = t.first ∧ r.channels = t.f.channels ∧ (r.plural = true ↔ 1 < t.f.channels) ∧ r.frames = t.frames ∧
      r.rate = t.f.rate ∧ (t.f.rate ≠ 0 → ∃ d, r.duration = some d ∧ d * t.f.rate = t.frames) ∧ r.copyright = c.map fun b => printed b e.memory := by
  obtain ⟨h1, h2⟩ := described e.flac u
  obtain ⟨hw, hcod, -⟩ := C62_opened e.F32 e.F64 e.rnd e.h e.fuel file 0 p t ho
  have hk := (data_kind e.flac hcod hw).1
  unfold fullInfo
  rw [hf]
  dsimp only
  rw [hi, ho]
  dsimp only
  rw [h1, h2]
  dsimp only
  rw [hc]
  refine ⟨_, rfl, rfl, rfl, hk, rfl, rfl, rfl, ?_, rfl, rfl, fun hr => ?_, rfl⟩
  · simp
  · refine ⟨(t.frames : Rat) / t.f.rate, ?_, ?_⟩
    · unfold duration
      rw [if_neg hr]
    · exact Rat.div_mul_cancel hr

/-- C83: files with the same data format in their reports store their samples in the same way, if they open at all. -/
theorem C83_told_apart (F32 F32' : Files.Float32) (F64 F64' : Files.Float64) (rnd rnd' : Rat → Convert.Dbl) (h h' : Endian) (fuel fuel' : Nat) (flac : Bool)
    (file file' : List Byte) (p p' q q' : Nat) (t t' : Trk) (ho : openRead F32 F64 rnd h fuel file p = .ok (t, q))
    (ho' : openRead F32' F64' rnd' h' fuel' file' p' = .ok (t', q')) (hd : dataText flac t.f = dataText flac t'.f) : SameStorage t.f t'.f := by
  obtain ⟨hl, hc, -⟩ := C62_opened F32 F64 rnd h fuel file p q t ho
  obtain ⟨hl', hc', -⟩ := C62_opened F32' F64' rnd' h' fuel' file' p' q' t' ho'
  obtain ⟨e1, m1⟩ := data_kind flac hc hl
  obtain ⟨e2, m2⟩ := data_kind flac hc' hl'
  have e : kindOf t.f = kindOf t'.f :=
    inj_of_nodup (fun k => code (kindText k)) kinds codes_differ _ m1 _ m2 (congrArg code (e1 ▸ e2 ▸ hd))
  generalize t.f = f at *
  generalize t'.f = g at *
  unfold kindOf at e
  rcases coded_cases hc with c | ⟨c, c'⟩ <;> rcases coded_cases hc' with d | ⟨d, d'⟩
  · rw [if_pos c, if_pos d] at e
    refine ⟨c.trans d.symm, fun _ => ?_⟩
    unfold Spec.Setup.LegalWidth at hl hl'
    rcases hl with ⟨s | s, w1, w2⟩ | ⟨s, w⟩ | ⟨s, w⟩ <;> rcases hl' with ⟨s' | s', w1', w2'⟩ | ⟨s', w'⟩ | ⟨s', w'⟩ <;>
      simp [s, s', TWOSCOMP, UNSIGNED, DOUBLE] at e <;> refine ⟨s.trans s'.symm, by omega, ?_⟩
    · exact e.1
    · exact e.1
    · exact e
    · exact e
  · rw [if_pos c, if_neg d] at e
    repeat' split at e
    all_goals cases e
  · rw [if_neg c, if_pos d] at e
    repeat' split at e
    all_goals cases e
  · rw [if_neg c, if_neg d] at e
    refine ⟨?_, fun hn => absurd hn c⟩
    rcases c' with c' | c' | c' | c' | c' <;> rcases d' with d' | d' | d' | d' | d' <;> rw [c', d'] at e ⊢ <;> revert e <;> decide

/-- C83: the same for the short report: label, channels, width, rate. -/
theorem C83_short (e : Env) (name file : List Byte) (u : FileFormat) (t : Trk) (q p : Nat) (hf : e.files name = some file)
    (hi : identify file 0 = .ok (some u, q)) (ho : openRead e.F32 e.F64 e.rnd e.h e.fuel file 0 = .ok (t, p)) :
    ∃ r, shortInfo e name = .report (.short r) ∧ r.name = name ∧ r.label = (names u).2 ∧ r.channels = t.f.channels ∧ r.width = t.f.sampleWidth ∧
      r.rate = t.f.rate ∧ (t.f.rate ≠ 0 → ∃ d, r.duration = some d ∧ d * t.f.rate = t.frames) ∧ r.compression = (if t.f.compression = NONE then "--" else codecs.getD (codecIndex t.f.compression) "") := by
  obtain ⟨-, h2⟩ := described e.flac u
  unfold shortInfo
  rw [hf]
  dsimp only
  rw [hi, ho]
  dsimp only
  rw [h2]
  refine ⟨_, rfl, rfl, rfl, rfl, rfl, rfl, fun hr => ?_, ?_⟩
  · refine ⟨(t.frames : Rat) / t.f.rate, ?_, ?_⟩
    · unfold duration
      rw [if_neg hr]
    · exact Rat.div_mul_cancel hr
  · dsimp only
    obtain ⟨-, hc, -⟩ := C62_opened e.F32 e.F64 e.rnd e.h e.fuel file 0 p t ho
    rcases coded_cases hc with c | ⟨c, c'⟩
    · rw [if_pos c, if_pos c]
    · rw [if_neg c, if_neg c, codec_text e.flac c']
      rfl

/-! ## All files -/

theorem full_not_left (e : Env) (name : List Byte) : fullInfo e name ≠ .left := by
  unfold fullInfo
  split
  · exact Seen.noConfusion
  · split
    · next u _ t _ _ _ =>
      obtain ⟨h1, h2⟩ := described e.flac u
      rw [h1, h2]
      dsimp only
      split <;> exact Seen.noConfusion
    all_goals exact Seen.noConfusion

theorem short_not_left (e : Env) (name : List Byte) : shortInfo e name ≠ .left := by
  unfold shortInfo
  split
  · exact Seen.noConfusion
  · split
    · next u _ t _ _ _ =>
      rw [(described e.flac u).2]
      exact Seen.noConfusion
    all_goals exact Seen.noConfusion

/-- The report about a file. -/
def reportOf (e : Env) (brief : Bool) (name : List Byte) : Option Item :=
  match if brief then shortInfo e name else fullInfo e name with
  | .report i => some i
  | _ => none

theorem answers_none {α β : Type} {ask : α → Option β} {x : α} {l : List α} (h : ask x = none) : answers ask (x :: l) = answers ask l := by
  unfold answers
  rw [List.filterMap_cons, h]

theorem layout_none {α β : Type} {ask : α → Option β} {b : β} {x : α} {l : List α} (h : ask x = none) : layout ask b (x :: l) = layout ask b l := by
  unfold layout answers
  cases l with
  | nil => simp [h]
  | cons y l => simp [List.dropLast, h, List.getLast?_cons_cons]

theorem layout_some {α β : Type} {ask : α → Option β} {b i : β} {x y : α} {l : List α} (h : ask x = some i) :
    [i, b] ++ layout ask b (y :: l) = layout ask b (x :: y :: l) := by
  unfold layout answers
  simp [List.dropLast, h, List.getLast?_cons_cons]

theorem loop_exit (e : Env) (brief : Bool) : ∀ (names : List (List Byte)) (s : Int) (out : List Item) (l : Nat),
    loop (if brief then shortInfo e else fullInfo e) brief names = .exit s out l →
      s = 0 ∧ l = 0 ∧ out = if brief then answers (reportOf e brief) names else layout (reportOf e brief) .blank names
  | [], s, out, l, h => by
    unfold loop at h
    cases h
    exact ⟨rfl, rfl, by cases brief <;> rfl⟩
  | name :: rest, s, out, l, h => by
    unfold loop at h
    have ho : (if brief then shortInfo e else fullInfo e) name = if brief then shortInfo e name else fullInfo e name := by cases brief <;> rfl
    have hr : ∀ i, (if brief then shortInfo e name else fullInfo e name) = .report i → reportOf e brief name = some i := by
      intro i hi; unfold reportOf; rw [hi]
    have hn : (∀ i, (if brief then shortInfo e name else fullInfo e name) ≠ .report i) → reportOf e brief name = none := by
      intro hi; unfold reportOf; split
      · next i h => exact absurd h (hi i)
      · rfl
    have hl : (if brief then shortInfo e name else fullInfo e name) ≠ .left := by
      cases brief
      · exact full_not_left e name
      · exact short_not_left e name
    rw [ho] at h
    cases hq : (if brief then shortInfo e name else fullInfo e name) with
    | left => exact absurd hq hl
    | undefined => rw [hq] at h; cases h
    | outside => rw [hq] at h; cases h
    | refused =>
      rw [hq] at h
      obtain ⟨h1, h2, h3⟩ := loop_exit e brief rest s out l h
      refine ⟨h1, h2, ?_⟩
      rw [h3, layout_none (hn (fun i hi => by rw [hq] at hi; cases hi)), answers_none (hn (fun i hi => by rw [hq] at hi; cases hi))]
    | report i =>
      rw [hq] at h
      dsimp only at h
      cases hx : loop (if brief then shortInfo e else fullInfo e) brief rest with
      | undefined => rw [hx] at h; cases h
      | outside => rw [hx] at h; cases h
      | exit s' o' l' =>
        rw [hx] at h
        obtain ⟨h1, h2, h3⟩ := loop_exit e brief rest s' o' l' hx
        unfold Outcome.after at h
        dsimp only at h
        injection h with e1 e2 e3
        have hi := hr i hq
        refine ⟨by omega, by omega, ?_⟩
        rw [← e2, h3]
        cases brief
        · cases rest with
          | nil => unfold layout answers; simp [hi]
          | cons m rest => rw [if_pos (by simp)]; simp only [Bool.false_eq_true, if_false]; rw [layout_some hi]
        · rw [if_neg (by simp)]
          simp only [if_true]
          unfold answers
          rw [List.filterMap_cons, hi]
          rfl

/-- C83: however the program ends, its status is 0, every handle it opened is closed, and the reports it has printed are those about the
files that open, in the order of the command line; with a blank line behind each long one unless its file is the last. -/
theorem C83_files (e : Env) (args : List (List Byte)) (brief : Bool) (names : List (List Byte)) (s : Int) (out : List Item) (l : Nat)
    (ha : args ≠ []) (hs : scan args false [] = .files brief names) (hm : main e args = .exit s out l) :
    s = 0 ∧ l = 0 ∧ out = if brief then answers (reportOf e brief) names else layout (reportOf e brief) .blank names := by
  unfold main at hm
  rw [if_neg ha, hs] at hm
  exact loop_exit e brief names s out l hm

/-- C83: the program ends in the normal way if each of its files is refused or reported. -/
theorem C83_ends (e : Env) (args : List (List Byte)) (brief : Bool) (names : List (List Byte)) (ha : args ≠ []) (hs : scan args false [] = .files brief names)
    (hn : ∀ n ∈ names, (if brief then shortInfo e n else fullInfo e n) = .refused ∨ ∃ i, (if brief then shortInfo e n else fullInfo e n) = .report i) :
    ∃ out, main e args = .exit 0 out 0 := by
  have key : ∀ names : List (List Byte), (∀ n ∈ names, (if brief then shortInfo e n else fullInfo e n) = .refused ∨
      ∃ i, (if brief then shortInfo e n else fullInfo e n) = .report i) → ∃ out, loop (if brief then shortInfo e else fullInfo e) brief names = .exit 0 out 0 := by
    intro names
    induction names with
    | nil => exact fun _ => ⟨[], rfl⟩
    | cons n rest ih =>
      intro hn
      obtain ⟨o, ho⟩ := ih fun m hm => hn m (List.mem_cons_of_mem _ hm)
      have hq := hn n (List.mem_cons_self)
      have e1 : (if brief then shortInfo e else fullInfo e) n = if brief then shortInfo e n else fullInfo e n := by cases brief <;> rfl
      unfold loop
      rw [e1, ho]
      rcases hq with hq | ⟨i, hq⟩
      · rw [hq]; exact ⟨o, rfl⟩
      · rw [hq]; exact ⟨_, rfl⟩
  obtain ⟨out, h⟩ := key names hn
  refine ⟨out, ?_⟩
  unfold main
  rw [if_neg ha, hs]
  exact h

/-- C83: the status does not tell that a file could not be opened: without any files, the program prints nothing and succeeds. -/
theorem C83_status_refuted (e : Env) (he : ∀ n, e.files n = none) : main e [tag "song.wav"] = .exit 0 [] 0 := by
  unfold main
  rw [if_neg (by decide), show scan [tag "song.wav"] false [] = .files false [tag "song.wav"] by decide +kernel]
  dsimp only
  unfold loop
  have : (if false = true then shortInfo e else fullInfo e) (tag "song.wav") = .refused := by
    show fullInfo e _ = _
    unfold fullInfo
    rw [he]
  rw [this]
  rfl

/-! ## Options -/

/-- A word that is not an option. -/
def Plain (a : List Byte) : Prop := ∀ b c, a ≠ 0x2d :: b :: c

theorem scan_plain (a : List Byte) (h : Plain a) (rest : List (List Byte)) (brief : Bool) (names : List (List Byte)) :
    scan (a :: rest) brief names = scan rest brief (names ++ [a]) := by
  have hw : word a brief = none := by
    unfold word
    split
    · exact absurd rfl (h _ _)
    · rfl
  rw [scan, if_neg (h _ _), hw]

theorem scan_short (o : List Byte) (ho : o ≠ [0x2d, 0x2d]) (hw : word o false = some (.go true)) (rest : List (List Byte)) (names : List (List Byte)) :
    scan (o :: rest) false names = scan rest true names := by
  rw [scan, if_neg ho, hw]

theorem scan_plains : ∀ (l rest : List (List Byte)) (brief : Bool) (names : List (List Byte)), (∀ a ∈ l, Plain a) →
    scan (l ++ rest) brief names = scan rest brief (names ++ l)
  | [], rest, brief, names, _ => by rw [List.append_nil]; rfl
  | a :: l, rest, brief, names, h => by
    rw [List.cons_append, scan_plain a (h a List.mem_cons_self), scan_plains l rest brief _ fun b hb => h b (List.mem_cons_of_mem _ hb),
      List.append_assoc]
    rfl

/-- C83: an option counts wherever it stands: `-s` before, between or behind the files makes all the reports short; words that do not
begin with `-`, and `-` alone, are files, and so are all words behind `--`. -/
theorem C83_options (xs ys : List (List Byte)) (hx : ∀ a ∈ xs, Plain a) (hy : ∀ a ∈ ys, Plain a) :
    scan (xs ++ ys) false [] = .files false (xs ++ ys) ∧ scan (xs ++ tag "-s" :: ys) false [] = .files true (xs ++ ys) ∧
    scan (xs ++ tag "--short" :: ys) false [] = .files true (xs ++ ys) ∧ ∀ zs, scan (xs ++ tag "--" :: zs) false [] = .files false (xs ++ zs) := by
  have nil : ∀ b names, scan [] b names = .files b names := fun b names => by rw [scan]
  have e0 : ∀ l b names, (∀ a ∈ l, Plain a) → scan l b names = .files b (names ++ l) := fun l b names h => by
    have := scan_plains l [] b names h
    rw [List.append_nil] at this
    rw [this, nil]
  refine ⟨?_, ?_, ?_, fun zs => ?_⟩
  · rw [e0 _ _ _ fun a ha => (List.mem_append.mp ha).elim (hx a) (hy a)]
    rfl
  · rw [scan_plains xs _ _ _ hx, scan_short _ (by decide +kernel) (by decide +kernel), e0 _ _ _ hy]
    rfl
  · rw [scan_plains xs _ _ _ hx, scan_short _ (by decide +kernel) (by decide +kernel), e0 _ _ _ hy]
    rfl

  · rw [scan_plains xs _ _ _ hx, scan, if_pos (by decide +kernel)]
    rfl

/-! ## The copyright -/

theorem taken (block memory : List Byte) : (block ++ memory).takeWhile (fun b => decide (b ≠ 0)) = upToZero (block ++ memory) := by
  generalize block ++ memory = l
  induction l with
  | nil => rfl
  | cons b l ih =>
    unfold upToZero
    by_cases h : b = 0
    · rw [if_pos h, List.takeWhile_cons, if_neg (by simp [h])]
    · rw [if_neg h, List.takeWhile_cons, if_pos (decide_eq_true h), ih]

theorem upTo_append : ∀ a b : List Byte, (0 ∈ a → upToZero (a ++ b) = upToZero a) ∧ (0 ∉ a → upToZero (a ++ b) = a ++ upToZero b)
  | [], b => ⟨fun h => absurd h List.not_mem_nil, fun _ => rfl⟩
  | x :: a, b => by
    obtain ⟨h1, h2⟩ := upTo_append a b
    rw [List.cons_append, upToZero, upToZero]
    refine ⟨fun h => ?_, fun h => ?_⟩
    · by_cases hx : x = 0
      · rw [if_pos hx, if_pos hx]
      · rw [if_neg hx, if_neg hx, h1 ((List.mem_cons.mp h).resolve_left fun e => hx e.symm)]
    · rw [if_neg (fun e : x = 0 => h (List.mem_cons.mpr (.inl e.symm))), h2 fun e => h (List.mem_cons_of_mem _ e), List.cons_append]

theorem find_id (l : List Meta.Misc) (hn : (l.map (·.id)).Nodup) (x : Meta.Misc) (hx : x ∈ l) : l.find? (·.id == x.id) = some x := by
  induction l with
  | nil => exact absurd hx List.not_mem_nil
  | cons y l ih =>
    rw [List.map_cons, List.nodup_cons] at hn
    rcases List.mem_cons.mp hx with h | h
    · rw [h, List.find?_cons_of_pos (by simp)]
    · have : y.id ≠ x.id := fun e => hn.1 (e ▸ List.mem_map_of_mem h)
      rw [List.find?_cons_of_neg (by simpa using this), ih hn.2 h]

/-- The first copyright chunk of a file is the block of memory whose text is printed. -/
theorem block_of (m : Meta.Handle) (hn : (m.misc.map (·.id)).Nodup) (hr : m.access = .read) (pre post : List Meta.Misc) (x : Meta.Misc) (text : List Byte)
    (hm : m.misc = pre ++ x :: post) (hp : ∀ y ∈ pre, y.type ≠ 201) (ht : x.type = 201) (hb : x.buffer = some text) (hs : x.size = text.length)
    (h0 : x.position = 0) (hl : text ≠ []) : copyrightBlock m = .ok (some text) := by
  have hid : ∀ y ∈ m.misc, m.getMisc y.id = some y := fun y hy => find_id m.misc hn y hy
  have hxm : x ∈ m.misc := by rw [hm]; exact List.mem_append_right _ List.mem_cons_self
  have hty : ∀ y ∈ m.misc, Meta.getMiscType m y.id = y.type := fun y hy => by unfold Meta.getMiscType; rw [hid y hy]
  have hf : (m.misc.map (·.id)).find? (fun id => Meta.getMiscType m id == 201) = some x.id := by
    rw [List.find?_map]
    have : m.misc.find? ((fun id => Meta.getMiscType m id == 201) ∘ fun y => y.id) = some x := by
      rw [hm, List.find?_append, List.find?_eq_none.mpr, Option.none_or, List.find?_cons_of_pos]
      · show (Meta.getMiscType m x.id == 201) = true
        rw [hty x hxm, ht]; rfl
      · intro y hy
        show ¬ (Meta.getMiscType m y.id == 201) = true
        rw [hty y (by rw [hm]; exact List.mem_append_left _ hy)]
        simpa using hp y hy
    rw [this]; rfl
  have hsz : Meta.getMiscSize m x.id = text.length := by unfold Meta.getMiscSize; rw [hid x hxm]; exact hs
  have hpos : 0 < text.length := List.length_pos_iff.mpr hl
  unfold copyrightBlock
  rw [hf]
  dsimp only
  rw [hsz, if_neg (by omega)]
  unfold Meta.readMisc
  rw [if_neg (by rw [hr]; simp), hid x hxm]
  dsimp only
  rw [if_neg (by omega), h0, hs, hb]
  have e1 : min (text.length : Int) ((text.length : Int) - 0) = text.length := by omega
  rw [e1, if_neg (by simp)]
  simp [Except.map]

/-- C83: the copyright that is printed is the text of the file's first copyright chunk, up to its first zero byte, if it has one. -/
theorem C83_copyright (m : Meta.Handle) (hn : (m.misc.map (·.id)).Nodup) (hr : m.access = .read) (pre post : List Meta.Misc) (x : Meta.Misc)
    (text memory : List Byte) (hm : m.misc = pre ++ x :: post) (hp : ∀ y ∈ pre, y.type ≠ 201) (ht : x.type = 201) (hb : x.buffer = some text)
    (hs : x.size = text.length) (h0 : x.position = 0) (hz : 0 ∈ text) :
    ∃ b, copyrightBlock m = .ok (some b) ∧ printed b memory = upToZero text := by
  refine ⟨text, block_of m hn hr pre post x text hm hp ht hb hs h0 (List.ne_nil_of_mem hz), ?_⟩
  unfold printed
  rw [taken, (upTo_append text memory).1 hz]

/-- C83: a text without a zero byte (which is how texts are stored in AIFF and 8SVX files) is printed together with whatever follows
it in memory: the block that holds it is read beyond its end. -/
theorem C83_copyright_refuted (m : Meta.Handle) (hn : (m.misc.map (·.id)).Nodup) (hr : m.access = .read) (pre post : List Meta.Misc) (x : Meta.Misc)
    (text memory : List Byte) (hm : m.misc = pre ++ x :: post) (hp : ∀ y ∈ pre, y.type ≠ 201) (ht : x.type = 201) (hb : x.buffer = some text)
    (hs : x.size = text.length) (h0 : x.position = 0) (hl : text ≠ []) (hz : 0 ∉ text) :
    ∃ b, copyrightBlock m = .ok (some b) ∧ printed b memory = text ++ upToZero memory := by
  refine ⟨text, block_of m hn hr pre post x text hm hp ht hb hs h0 hl, ?_⟩
  unfold printed
  rw [taken, (upTo_append text memory).2 hz]

/-! ## Examples -/

/-- A file with a comment and a copyright. -/
def twoTexts (text : List Byte) : Meta.Handle :=
  ⟨.read, .other, [], [], [⟨1, 202, 2, some [72, 105], 0⟩, ⟨2, 201, text.length, some text, 0⟩]⟩

/-- The copyright `me`, and `secret` behind it in memory. -/
example : ∃ b, copyrightBlock (twoTexts (tag "me")) = .ok (some b) ∧ printed b (tag "secret" ++ [0]) = tag "mesecret" := by
  obtain ⟨b, h1, h2⟩ := C83_copyright_refuted (twoTexts (tag "me")) (by decide) rfl [⟨1, 202, 2, some [72, 105], 0⟩] [] _ (tag "me") (tag "secret" ++ [0]) rfl
    (by decide) rfl rfl rfl rfl (by decide +kernel) (by decide +kernel)
  exact ⟨b, h1, h2.trans (by decide +kernel)⟩

example : ∃ b, copyrightBlock (twoTexts (tag "me" ++ [0])) = .ok (some b) ∧ printed b (tag "secret" ++ [0]) = tag "me" := by
  obtain ⟨b, h1, h2⟩ := C83_copyright (twoTexts (tag "me" ++ [0])) (by decide) rfl [⟨1, 202, 2, some [72, 105], 0⟩] [] _ (tag "me" ++ [0]) (tag "secret" ++ [0]) rfl
    (by decide) rfl rfl rfl rfl (by decide +kernel)
  exact ⟨b, h1, h2.trans (by decide +kernel)⟩

/-- The report about the NeXT file `twoChannels`, and one about a file that is not there; `-s` between the names. -/
example (e : Env) (hf : e.files = fun n => if n = tag "a" then some twoChannels else none) :
    ∃ r, main e [tag "a", tag "-s", tag "b"] = .exit 0 [.short r] 0 ∧ r.channels = 2 ∧ r.width = 16 := by
  have hid : identify twoChannels 0 = .ok (some .next, 0) := by decide +kernel
  have hrd : ∃ t p, nextRead e.h twoChannels 0 = .ok (t, p) ∧ t.f.channels = 2 ∧ t.f.sampleWidth = 16 ∧ t.f.compression = NONE := by
    cases e.h
    · exact ⟨_, _, rfl, by decide +kernel⟩
    · exact ⟨_, _, rfl, by decide +kernel⟩
  obtain ⟨t, p, h1, h2, h3, h4⟩ := hrd
  have ho : openRead e.F32 e.F64 e.rnd e.h e.fuel twoChannels 0 = .ok (t, p) := by
    unfold openRead
    rw [Rd.bind_ok hid]
    dsimp only [readInit]
    rw [Rd.bind_ok h1]
    have : codecCheck e.h t.f = some t.f := by unfold codecCheck; rw [if_pos h4]
    rw [this]
    rfl
  obtain ⟨r, g1, -, -, g2, g3, -⟩ := C83_short e (tag "a") twoChannels .next t 0 p (by rw [hf]; exact if_pos rfl) hid ho
  have gb : shortInfo e (tag "b") = .refused := by
    have : e.files (tag "b") = none := by rw [hf]; exact if_neg (by decide +kernel)
    unfold shortInfo
    rw [this]
  refine ⟨r, ?_, g2.trans h2, g3.trans h3⟩
  unfold main
  rw [if_neg (by decide), show scan [tag "a", tag "-s", tag "b"] false [] = .files true [tag "a", tag "b"] by decide +kernel]
  show loop (shortInfo e) true [tag "a", tag "b"] = _
  unfold loop
  rw [g1]
  unfold loop
  rw [gb]
  rfl

end AF.SfInfo
