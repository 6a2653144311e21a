import Verif.Proof.SfConvert
import Verif.Props.Create
import Verif.Proof.Meant
import Verif.Proof.CutShort
import Verif.Proof.Files.NIST
/-!
# C76: `sfconvert`
-/
namespace AF.SfConvert
open AF AF.Setup AF.Files AF.Convert AF.Virtual AF.Program AF.Spec AF.Spec.Setup AF.Spec.Formats AF.Spec.Files AF.Spec.Program AF.Spec.SfConvert

/-! ## The command line -/

theorem scanInt_digits {n : Nat} (hn : n < 2 ^ 31) : scanInt (digits n) = .int n [] := by
  unfold scanInt
  obtain ⟨b, s, hb, hd⟩ := digits_head n
  obtain ⟨q1, q2, q3, -⟩ := isDigit_not_space hd
  have h0 : (digits n).dropWhile isSpace = digits n := by
    rw [hb, List.dropWhile_cons_of_neg (by simp [q1])]
  rw [h0]
  have hm : takeSign (digits n) = (false, digits n) := by
    rw [hb]
    show (if b = 45 then _ else if b = 43 then _ else _) = _
    rw [if_neg q2, if_neg q3]
  have h1 : (digits n).takeWhile isDigit = digits n := by
    have := List.takeWhile_append_of_pos (l₂ := []) (digits_digit n)
    simpa using this
  have h2 : (digits n).dropWhile isDigit = [] := by
    have := List.dropWhile_append_of_pos (l₂ := []) (digits_digit n)
    simpa using this
  dsimp only
  rw [hm]
  simp only [h1, h2, digits_ne, if_false, digitsValue_digits, Bool.false_eq_true]
  rw [if_neg (by omega)]

theorem atoi_digits {n : Nat} (hn : n < 2 ^ 31) : atoi (digits n) = some (n : Int) := by
  unfold atoi
  rw [scanInt_digits hn]

/-- The options that say a wish. -/
def Says (p : Options) (w : Wish) : Prop :=
  p.fileFormat = w.format.getD (-1) ∧ (p.sampleFormat, p.sampleWidth) = w.encoding.getD (-1, -1) ∧
  p.channels = w.channels.getD (-1) ∧ p.compression = w.compression ∧
  (∀ n, w.format = some n → n ∈ formats.map (·.2)) ∧ (∀ e, w.encoding = some e → LegalWidth e.1 e.2) ∧
  (∀ n, w.channels = some n → 1 ≤ n) ∧ w.compression ∈ compressions.map (·.2)

theorem parse_says (k : Keyword) (hk : k.Valid) (ks : List (List Byte)) (p : Options) (w : Wish) (hp : Says p w) :
    ∃ p', parse (k.words ++ ks) p = parse ks p' ∧ Says p' (w.step k) := by
  obtain ⟨h1, h2, h3, h4, h5, h6, h7, h8⟩ := hp
  cases k with
  | format n =>
    have key : formatNamed (tag n) = formats.lookup n ∧ ∃ x, formats.lookup n = some x ∧ x ∈ formats.map (·.2) := by
      have hk : n ∈ formats.map (·.1) := hk
      simp only [formats, List.map_cons, List.map_nil, List.mem_cons, List.not_mem_nil, or_false] at hk
      rcases hk with rfl | rfl | rfl | rfl | rfl | rfl | rfl | rfl | rfl | rfl <;>
        exact ⟨by decide, _, rfl, by decide⟩
    obtain ⟨k1, x, k2, k3⟩ := key
    refine ⟨{ p with fileFormat := x }, ?_, ?_⟩
    · show parse (tag "format" :: tag n :: ks) p = _
      rw [parse, if_pos rfl, k1, k2]
    · refine ⟨?_, h2, h3, h4, ?_, h6, h7, h8⟩
      · show x = (formats.lookup n).getD (-1)
        rw [k2]; rfl
      · intro m hm
        have hm : formats.lookup n = some m := hm
        rw [k2] at hm
        cases hm
        exact k3
  | channels n =>
    obtain ⟨k1, k2⟩ : 1 ≤ n ∧ n < 2 ^ 31 := hk
    refine ⟨{ p with channels := n }, ?_, h1, h2, rfl, h4, h5, h6, ?_, h8⟩
    · show parse (tag "channels" :: digits n :: ks) p = _
      rw [parse, if_neg (by decide), if_pos rfl, atoi_digits k2]
      dsimp only
      rw [if_neg (by omega)]
    · intro m hm
      have hm : some (n : Int) = some m := hm
      cases hm
      omega
  | float m =>
    refine ⟨{ p with sampleFormat := FLOAT, sampleWidth := 32 }, ?_, h1, rfl, h3, h4, h5, ?_, h7, h8⟩
    · show parse (tag "float" :: m :: ks) p = _
      rw [parse, if_neg (by decide), if_neg (by decide), if_pos rfl]
    · intro e he
      have he : some (FLOAT, (32 : Int)) = some e := he
      cases he
      exact .inr (.inl ⟨rfl, rfl⟩)
  | integer b u =>
    obtain ⟨k1, k2⟩ : 1 ≤ b ∧ b ≤ 32 := hk
    refine ⟨{ p with sampleFormat := if u then UNSIGNED else TWOSCOMP, sampleWidth := b }, ?_, h1, rfl, h3, h4, h5, ?_, h7, h8⟩
    · show parse (tag "integer" :: digits b :: (if u then tag "unsigned" else tag "2scomp") :: ks) p = _
      rw [parse, if_neg (by decide), if_neg (by decide), if_neg (by decide), if_pos rfl]
      dsimp only
      rw [atoi_digits (by omega)]
      dsimp only
      rw [if_neg (by omega)]
      cases u
      · rw [if_pos (show (if false = true then tag "unsigned" else tag "2scomp") = tag "2scomp" from rfl)]; rfl
      · rw [if_neg (show ¬ (if true = true then tag "unsigned" else tag "2scomp") = tag "2scomp" by decide),
          if_pos (show (if true = true then tag "unsigned" else tag "2scomp") = tag "unsigned" from rfl)]; rfl
    · intro e he
      have he : some ((if u then UNSIGNED else TWOSCOMP), (b : Int)) = some e := he
      cases he
      refine .inl ⟨?_, ?_⟩
      · cases u
        · exact .inl rfl
        · exact .inr rfl
      · show (1 : Int) ≤ b ∧ (b : Int) ≤ 32
        omega
  | compression n =>
    have key : compressionNamed (tag n) = compressions.lookup n ∧ ∃ x, compressions.lookup n = some x ∧ x ∈ compressions.map (·.2) := by
      have hk : n ∈ compressions.map (·.1) := hk
      simp only [compressions, List.map_cons, List.map_nil, List.mem_cons, List.not_mem_nil, or_false] at hk
      rcases hk with rfl | rfl | rfl | rfl | rfl | rfl | rfl <;>
        exact ⟨by decide, _, rfl, by decide⟩
    obtain ⟨k1, x, k2, k3⟩ := key
    refine ⟨{ p with compression := x }, ?_, h1, h2, h3, ?_, h5, h6, h7, ?_⟩
    · show parse (tag "compression" :: tag n :: ks) p = _
      rw [parse, if_neg (by decide), if_neg (by decide), if_neg (by decide), if_neg (by decide), if_pos rfl, k1, k2]
    · show x = (compressions.lookup n).getD 0
      rw [k2]; rfl
    · show (compressions.lookup n).getD 0 ∈ _
      rw [k2]; exact k3
  | word m =>
    have hk : m ∉ ["format", "channels", "float", "integer", "compression"].map tag := hk
    simp only [List.map_cons, List.map_nil, List.mem_cons, List.not_mem_nil, or_false, not_or] at hk
    obtain ⟨a1, a2, a3, a4, a5⟩ := hk
    refine ⟨p, ?_, h1, h2, h3, h4, h5, h6, h7, h8⟩
    show parse (m :: ks) p = _
    rw [parse.eq_def]
    dsimp only
    rw [if_neg a1, if_neg a2, if_neg a3, if_neg a4, if_neg a5]

theorem parse_keywords (ks : List Keyword) (hk : ∀ k ∈ ks, k.Valid) : ∀ (p : Options) (w : Wish), Says p w →
    ∃ p', parse (ks.flatMap Keyword.words) p = .options p' ∧ Says p' (ks.foldl Wish.step w) := by
  induction ks with
  | nil => intro p w hp; exact ⟨p, rfl, hp⟩
  | cons k ks ih =>
    intro p w hp
    obtain ⟨p1, e1, q1⟩ := parse_says k (hk k List.mem_cons_self) (ks.flatMap Keyword.words) p w hp
    obtain ⟨p2, e2, q2⟩ := ih (fun x hx => hk x (List.mem_cons_of_mem _ hx)) p1 _ q1
    exact ⟨p2, by rw [List.flatMap_cons, e1, e2], q2⟩

/-- What stops the program before it touches any file: a keyword without its value, a number of channels below 1, an integer width
outside 1 to 32, an integer kind that is neither `2scomp` nor `unsigned`, an unknown format or codec. -/
inductive Mistake : List (List Byte) → Prop
  | noValue (k : String) (hk : k ∈ ["format", "channels", "float", "integer", "compression"]) : Mistake [tag k]
  | noKind (b : List Byte) : Mistake [tag "integer", b]
  | channels (b : List Byte) (n : Int) (rest : List (List Byte)) (hb : atoi b = some n) (hn : n ≤ 0) : Mistake (tag "channels" :: b :: rest)
  | width (b c : List Byte) (n : Int) (rest : List (List Byte)) (hb : atoi b = some n) (hn : n ≤ 0 ∨ 33 ≤ n) : Mistake (tag "integer" :: b :: c :: rest)
  | kind (b c : List Byte) (n : Int) (rest : List (List Byte)) (hb : atoi b = some n) (hc : c ≠ tag "2scomp" ∧ c ≠ tag "unsigned") :
      Mistake (tag "integer" :: b :: c :: rest)
  | format (b : List Byte) (rest : List (List Byte)) (hb : ∀ x ∈ formats, b ≠ tag x.1) : Mistake (tag "format" :: b :: rest)
  | codec (b : List Byte) (rest : List (List Byte))
      (hb : ∀ x ∈ ["none", "ulaw", "alaw", "ima", "msadpcm", "flac", "alac"], b ≠ tag x) : Mistake (tag "compression" :: b :: rest)

theorem parse_keywords_then (ks : List Keyword) (hk : ∀ k ∈ ks, k.Valid) (tail : List (List Byte)) : ∀ (p : Options) (w : Wish), Says p w →
    ∃ p', parse (ks.flatMap Keyword.words ++ tail) p = parse tail p' := by
  induction ks with
  | nil => intro p w hp; exact ⟨p, rfl⟩
  | cons k ks ih =>
    intro p w hp
    obtain ⟨p1, e1, q1⟩ := parse_says k (hk k List.mem_cons_self) (ks.flatMap Keyword.words ++ tail) p w hp
    obtain ⟨p2, e2⟩ := ih (fun x hx => hk x (List.mem_cons_of_mem _ hx)) p1 _ q1
    exact ⟨p2, by rw [List.flatMap_cons, List.append_assoc, e1, e2]⟩

theorem parse_mistake {l : List (List Byte)} (hl : Mistake l) (p : Options) : parse l p = .usage ∨ parse l p = .unknown := by
  cases hl with
  | noValue k hk =>
    simp only [List.mem_cons, List.not_mem_nil, or_false] at hk
    left
    rcases hk with rfl | rfl | rfl | rfl | rfl
    · rw [parse, if_pos rfl]
    · rw [parse, if_neg (by decide), if_pos rfl]
    · rw [parse, if_neg (by decide), if_neg (by decide), if_pos rfl]
    · rw [parse, if_neg (by decide), if_neg (by decide), if_neg (by decide), if_pos rfl]
    · rw [parse, if_neg (by decide), if_neg (by decide), if_neg (by decide), if_neg (by decide), if_pos rfl]
  | noKind b =>
    left
    rw [parse, if_neg (by decide), if_neg (by decide), if_neg (by decide), if_pos rfl]
  | channels b n rest hb hn =>
    left
    rw [parse, if_neg (by decide), if_pos rfl]
    rw [hb]
    dsimp only
    rw [if_pos (by omega)]
  | width b c n rest hb hn =>
    left
    rw [parse, if_neg (by decide), if_neg (by decide), if_neg (by decide), if_pos rfl]
    dsimp only
    rw [hb]
    dsimp only
    rw [if_pos (by omega)]
  | kind b c n rest hb hc =>
    left
    rw [parse, if_neg (by decide), if_neg (by decide), if_neg (by decide), if_pos rfl]
    dsimp only
    rw [hb]
    dsimp only
    split
    · rfl
    · rw [if_neg hc.1, if_neg hc.2]
  | format b rest hb =>
    right
    rw [parse, if_pos rfl]
    have : formatNamed b = none := by
      unfold formatNamed
      have h := fun x hx => hb x hx
      simp only [formats, List.mem_cons, List.not_mem_nil, or_false, forall_eq_or_imp, forall_eq] at h
      obtain ⟨h1, h2, h3, h4, h5, h6, h7, h8, h9, h10⟩ := h
      rw [if_neg h1, if_neg h2, if_neg h3, if_neg h4, if_neg h5, if_neg h6, if_neg h7, if_neg h8, if_neg h9, if_neg h10]
    rw [this]
  | codec b rest hb =>
    right
    rw [parse, if_neg (by decide), if_neg (by decide), if_neg (by decide), if_neg (by decide), if_pos rfl]
    have : compressionNamed b = none := by
      unfold compressionNamed
      simp only [List.mem_cons, List.not_mem_nil, or_false, forall_eq_or_imp, forall_eq] at hb
      obtain ⟨h1, h2, h3, h4, h5, h6, h7⟩ := hb
      rw [if_neg h1, if_neg h2, if_neg h3, if_neg h4, if_neg h5, if_neg h6, if_neg h7]
    rw [this]

/-- C76: a mistake in the command line, behind any keywords that are as they should be, stops the program, and no file is changed: the
output is not even made. -/
theorem C76_mistakes (h : Endian) (ks : List Keyword) (hk : ∀ k ∈ ks, k.Valid) (tail : List (List Byte)) (ht : Mistake tail)
    (F32 : Files.Float32) (F64 : Files.Float64) (rnd : Rat → Dbl) (fm : Module → List Byte → List Byte) (fuel : Nat) (input output : List Byte) (w : World) :
    main F32 F64 rnd h fm fuel (input :: output :: (ks.flatMap Keyword.words ++ tail)) w = .exit false w := by
  obtain ⟨p, e⟩ := parse_keywords_then ks hk tail Options.initial ⟨none, none, none, NONE⟩
    ⟨rfl, rfl, rfl, rfl, (fun n e => by cases e), (fun n e => by cases e), (fun n e => by cases e), by decide⟩
  unfold main
  dsimp only
  rw [e]
  rcases parse_mistake ht p with h | h <;> rw [h]

example : Mistake [tag "channels", tag "0"] := .channels _ 0 [] (by decide +kernel) (by decide)
example : Mistake [tag "integer", tag "33", tag "2scomp"] := .width _ _ 33 [] (by decide +kernel) (by decide)

/-- C76: whatever keywords the command line has, in whatever order and however often, the output is asked to be what they say (the last
keyword of each kind counts), and like the input in everything they do not say. -/
theorem C76_keywords (h : Endian) (ks : List Keyword) (hk : ∀ k ∈ ks, k.Valid) (u : FileFormat) (hu : u ∉ [.mpeg1, .sd1, .sd2, .sf2]) (f : AFmt)
    (hl : LegalWidth f.sampleFormat f.sampleWidth) :
    ∃ p, parse (ks.flatMap Keyword.words) Options.initial = .options p ∧
      Create.Request.after h (setupCalls p u f) = (Wish.of ks).request h u f ∧
      ∀ (F32 : Files.Float32) (F64 : Files.Float64) (rnd : Rat → Dbl) (fm : Module → List Byte → List Byte) (fuel : Nat) (input output : List Byte)
        (w : World), main F32 F64 rnd h fm fuel (input :: output :: ks.flatMap Keyword.words) w = convert F32 F64 rnd h fm fuel p input output w := by
  obtain ⟨p, e, h1, h2, h3, h4, h5, h6, h7, h8⟩ := parse_keywords ks hk Options.initial ⟨none, none, none, NONE⟩
    ⟨rfl, rfl, rfl, rfl, (fun n e => by cases e), (fun n e => by cases e), (fun n e => by cases e), by decide⟩
  refine ⟨p, e, ?_, fun F32 F64 rnd fm fuel input output w => ?_⟩
  rotate_left
  · unfold main
    dsimp only
    rw [e]
  change p.fileFormat = (Wish.of ks).format.getD (-1) at h1
  change _ = (Wish.of ks).encoding.getD (-1, -1) at h2
  change p.channels = (Wish.of ks).channels.getD (-1) at h3
  change p.compression = (Wish.of ks).compression at h4
  change ∀ n, (Wish.of ks).format = _ → _ at h5
  change ∀ n, (Wish.of ks).encoding = _ → _ at h6
  change ∀ n, (Wish.of ks).channels = _ → _ at h7
  change (Wish.of ks).compression ∈ _ at h8
  generalize Wish.of ks = w at *
  obtain ⟨wf, we, wc, wz⟩ := w
  dsimp only at h1 h2 h3 h4 h5 h6 h7 h8
  have eF : (if p.fileFormat = -1 then formatNumber u else p.fileFormat) = (wf.getD (formatNumber u)) := by
    cases wf with
    | none => rw [h1]; rfl
    | some n =>
      rw [h1]
      have := h5 n rfl
      show (if n = -1 then _ else n) = n
      rw [if_neg]
      intro e
      subst e
      exact absurd this (by decide)
  have eE : (if p.sampleFormat = -1 ∨ p.sampleWidth = -1 then (f.sampleFormat, f.sampleWidth) else (p.sampleFormat, p.sampleWidth)) =
      we.getD (f.sampleFormat, f.sampleWidth) := by
    cases we with
    | none =>
      obtain ⟨a, b⟩ := Prod.mk.inj h2
      rw [if_pos (.inl a)]; rfl
    | some x =>
      have a := h6 x rfl
      have h2 : (p.sampleFormat, p.sampleWidth) = x := h2
      rw [← h2] at a
      unfold LegalWidth at a
      simp only [TWOSCOMP, UNSIGNED, FLOAT, DOUBLE] at a
      rw [if_neg (by omega), h2]; rfl
  have eC : (if p.channels = -1 then f.channels else p.channels) = wc.getD f.channels := by
    cases wc with
    | none => rw [h3]; rfl
    | some n =>
      have := h7 n rfl
      rw [h3]
      show (if n = -1 then _ else n) = n
      rw [if_neg (by omega)]
  unfold setupCalls
  dsimp only
  rw [eF, eE, eC, h4]
  unfold Create.Request.after Wish.request
  simp only [List.foldl_cons, List.foldl_nil]
  have eFF : (Create.formatOf (wf.getD (formatNumber u))).getD (Create.Request.initial h).format = (wf.bind Create.formatOf).getD u := by
    cases wf with
    | none =>
      revert hu
      cases u <;> intro hu <;> first | rfl | (exact absurd (by decide) hu)
    | some n =>
      have := h5 n rfl
      simp only [formats, List.map_cons, List.map_nil, List.mem_cons, List.not_mem_nil, or_false] at this
      rcases this with rfl | rfl | rfl | rfl | rfl | rfl | rfl | rfl | rfl | rfl <;> rfl
  have eEE : Create.askEncoding none (we.getD (f.sampleFormat, f.sampleWidth)).1 (we.getD (f.sampleFormat, f.sampleWidth)).2 =
      we.getD (f.sampleFormat, f.sampleWidth) := by
    have hx : LegalWidth (we.getD (f.sampleFormat, f.sampleWidth)).1 (we.getD (f.sampleFormat, f.sampleWidth)).2 := by
      cases we with
      | none => exact hl
      | some x => exact h6 x rfl
    generalize we.getD (f.sampleFormat, f.sampleWidth) = x at hx
    obtain ⟨a, b⟩ := x
    unfold LegalWidth at hx
    unfold Create.askEncoding
    simp only [TWOSCOMP, UNSIGNED, FLOAT, DOUBLE] at hx
    dsimp only at hx ⊢
    rcases hx with ⟨h1, h2, h3⟩ | ⟨rfl, rfl⟩ | ⟨rfl, rfl⟩
    · rw [if_pos (by omega), if_pos (by omega)]
    · rfl
    · rfl
  have eZ : wz ∈ [(0 : Int), 502, 503, 519, 523, 530, 540] := h8
  generalize wc.getD f.channels = n
  have s1 : (Create.Request.initial h).step (.fileFormat (wf.getD (formatNumber u))) =
      { Create.Request.initial h with format := (wf.bind Create.formatOf).getD u } := by
    rw [← eFF]; rfl
  rw [s1]
  generalize (wf.bind Create.formatOf).getD u = F
  have s2 : ∀ r : Create.Request, r.step (.compression 1001 wz) = { r with compression := some wz } := fun r => if_pos ⟨rfl, eZ⟩
  have s3 : ∀ (r : Create.Request) (a b : Int), r.step (.sampleFormat 1001 a b) = { r with encoding := some (Create.askEncoding r.encoding a b) } :=
    fun r a b => rfl
  have s4 : ∀ (r : Create.Request), r.step (.channels 1001 n) = { r with channels := if 1 ≤ n then some n else r.channels } := by
    intro r
    by_cases hn : 1 ≤ n
    · rw [if_pos hn]; exact if_pos ⟨rfl, hn⟩
    · rw [if_neg hn]; exact if_neg (fun x => hn x.2)
  have s5 : ∀ (r : Create.Request), r.step (.rate 1001 f.rate) = { r with rate := if 0 < f.rate then some f.rate else r.rate } := by
    intro r
    by_cases hn : 0 < f.rate
    · rw [if_pos hn]; exact if_pos ⟨rfl, hn⟩
    · rw [if_neg hn]; exact if_neg (fun x => hn x.2)
  rw [s2, s3, s4, s5]
  dsimp only
  rw [show (Create.Request.initial h).encoding = none from rfl, eEE]
  rfl

/-! ## Copying -/

/-- C76: `copyaudiodata` reports success only if all frames that the input is said to have were read, each lot was handed to the output
as it was read, and the output accepted every lot in full; whatever the two handles do (fail, deliver less, accept less). -/
theorem C76_success {ρ σ γ : Type} (read : Int → ρ → Except Abort ((Int × List (Option γ)) × ρ)) (write : Int → List (Option γ) → σ → Int × σ)
    (hread : ∀ n r k fs r', read n r = .ok ((k, fs), r') → k ≤ n) (hwrite : ∀ n fs s, (write n fs s).1 ≤ n)
    (total : Int) (r : ρ) (s s' : σ) (hok : copyLoop read write total 0 r s = .ok (true, s')) :
    ∃ ns r', Transfers read write r s ns r' s' ∧ ns.sum = max 0 total ∧ ∀ n ∈ ns, 1 ≤ n ∧ n ≤ 65536 := by
  have key : ∀ (m : Nat) (done : Int) (r : ρ) (s : σ), (total - done).toNat = m → copyLoop read write total done r s = .ok (true, s') →
      ∃ ns r', Transfers read write r s ns r' s' ∧ ns.sum = max 0 (total - done) ∧ ∀ n ∈ ns, 1 ≤ n ∧ n ≤ 65536 := by
    intro m
    induction m using Nat.strongRecOn with
    | ind m ih =>
      intro done r s hm hok
      rw [copyLoop] at hok
      split at hok
      · rename_i hlt
        dsimp only at hok
        obtain ⟨W, hW⟩ : ∃ W, W = if total - done > 65536 then 65536 else total - done := ⟨_, rfl⟩
        rw [← hW] at hok
        have hW1 : 1 ≤ W ∧ W ≤ 65536 ∧ W ≤ total - done := by split at hW <;> omega
        clear hW
        cases hr : read W r with
        | error e => rw [hr] at hok; cases hok
        | ok x =>
          obtain ⟨⟨n, fs⟩, r1⟩ := x
          rw [hr] at hok
          dsimp only at hok
          by_cases h2 : n < W
          · rw [dif_pos h2] at hok; cases hok
          · rw [dif_neg h2] at hok
            by_cases h3 : (write n fs s).1 < n
            · rw [dif_pos h3] at hok; cases hok
            · rw [dif_neg h3] at hok
              have h4 := hread _ _ _ _ _ hr
              have h5 := hwrite n fs s
              have hk : (write n fs s).1 = n := by omega
              obtain rfl : n = W := by omega
              obtain ⟨ns, r', a, b, c⟩ := ih (total - (done + (write n fs s).1)).toNat (by omega) _ _ _ rfl hok
              refine ⟨n :: ns, r', .cons hr hk a, ?_, ?_⟩
              · rw [List.sum_cons, b]; omega
              · intro x hx
                rcases List.mem_cons.1 hx with rfl | hx
                · omega
                · exact c x hx
      · cases hok
        exact ⟨[], r, .nil r _, by rw [List.sum_nil]; omega, by simp⟩
  obtain ⟨ns, r', a, b, c⟩ := key _ 0 r s rfl hok
  exact ⟨ns, r', a, by rw [b, Int.sub_zero], c⟩

/-! ## Whole conversions -/

theorem opened_codec {h : Endian} {f : AFmt} (hc : Coded h f) (hp : f.compression = NONE ∨ f.compression = ULAW ∨ f.compression = ALAW) :
    f.compression ≠ NONE → f.sampleFormat = TWOSCOMP ∧ f.sampleWidth = 16 := by
  intro hz
  cases hc with
  | pcm c _ => exact absurd c hz
  | sixteen _ s w _ => exact ⟨s, w⟩
  | alac c _ _ _ => rw [c] at hp; simp only [NONE, ULAW, ALAW, ALAC] at hp; omega

/-- The virtual format in which the frames are handed over is the one in which they were read. -/
theorem write_own {h : Endian} {v f : AFmt} (hv : v.compression = NONE) (hb : v.byteOrder = native h)
    (hl : LegalWidth f.sampleFormat f.sampleWidth) (hm : f.pcm = defaultMapping f.sampleFormat f.sampleWidth) :
    virtualFormat (writeVirtual v f) = own h f := by
  obtain ⟨m, h1, h2⟩ := set_legal { v with channels := f.channels } hl
  unfold own writeVirtual setVirtualSampleFormat setVirtualChannels
  dsimp only
  rw [h2, h1, ← hm]
  dsimp only
  unfold virtualFormat readVirtual chainFormat
  dsimp only
  rw [hv, hb]

theorem mapM_some {α β : Type} (f : α → β) : ∀ l : List α, (l.map fun a => some (f a)).mapM (m := Option) id = some (l.map f) := by
  intro l
  induction l with
  | nil => rfl
  | cons a l ih => rw [List.map_cons, List.mapM_cons, ih]; rfl

theorem mapM_blocks {α β : Type} (f : α → β) : ∀ l : List (List α),
    (l.map fun c => c.map fun a => some (f a)).mapM (m := Option) (fun b => b.mapM id) = some (l.map fun c => c.map f) := by
  intro l
  induction l with
  | nil => rfl
  | cons a l ih => rw [List.map_cons, List.mapM_cons, mapM_some, ih]; rfl

theorem flatMap_congr' {α β : Type} {l : List α} {f g : α → List β} (hfg : ∀ a ∈ l, f a = g a) : l.flatMap f = l.flatMap g := by
  induction l with
  | nil => rfl
  | cons a l ih => rw [List.flatMap_cons, List.flatMap_cons, hfg a List.mem_cons_self, ih fun b hb => hfg b (List.mem_cons_of_mem _ hb)]

/-- The calls that hand over the sound of a file. -/
def handOver (file : List Byte) (t : Trk) : List Program.Call := (chunks (sound file t)).map .write

theorem handOver_written (file : List Byte) (t : Trk) : written (handOver file t) = sound file t := by
  unfold handOver written
  rw [List.flatMap_map]
  show List.flatMap (fun c => c) (chunks (sound file t)) = _
  rw [show (fun c : List (List Int) => c) = id from rfl, List.flatMap_id, chunks_flatten _ _ rfl]

theorem buffer_frame {h : Endian} {f : AFmt} (hl : LegalWidth f.sampleFormat f.sampleWidth) :
    frameSizeUncompressed (readVirtual h f) true = bufferFrame f := by
  unfold frameSizeUncompressed sampleSizeUncompressed bufferFrame readVirtual LegalWidth at *
  dsimp only
  simp only [TWOSCOMP, UNSIGNED, FLOAT, DOUBLE, NONE] at *
  congr 1
  rcases hl with ⟨h1, h2, h3⟩ | ⟨h1, h2⟩ | ⟨h1, h2⟩
  · rw [if_neg (by omega), if_neg (by omega), Int.tdiv_eq_ediv_of_nonneg (by omega)]
    by_cases e : (f.sampleWidth + 7) / 8 = 3
    · rw [if_pos ⟨trivial, e, trivial⟩, if_pos e]
    · rw [if_neg (fun x => e x.2.1), if_neg e]
  · rw [if_pos h1, h2]; rfl
  · rw [if_neg (by omega), if_pos h1, h2]; rfl

variable (F32 : Files.Float32) (F64 : Files.Float64) (rnd : Rat → Dbl) (h : Endian) (fm : Module → List Byte → List Byte)

theorem convert_handOver (fuel : Nat) (p : Options) (input output : List Byte) (w : World) {file : List Byte} {u : FileFormat} {t : Trk} {q q' : Nat}
    (hin : w input = some file) (hid : identify file 0 = .ok (some u, q)) (hrd : openRead F32 F64 rnd h fuel file 0 = .ok (t, q'))
    (hne : input ≠ output) (hc : Complete file t) (hbuf : bufferFrame t.f < 2 ^ 15) {s' : Setup} {o : Opened} {f : AFmt}
    (ho : openWrite h (Setup.run (newSetup h) (setupCalls p u t.f)) = (s', some o)) (hf : o.f = [f])
    (hcodec : f.compression = NONE ∨ f.compression = ULAW ∨ f.compression = ALAW) (hck : codecCheck h f = some f) :
    ∀ b, outBytes F32 F64 h output o f (events h fm (own h t.f) f (handOver file t)) (Setup.run (newSetup h) (setupCalls p u t.f)).fileFormat = .ok b →
        convert F32 F64 rnd h fm fuel p input output w = .exit true (w.set output (some b)) := by
  intro b hb
  obtain ⟨hl, hcd, -, -, -, hm⟩ := C62_opened F32 F64 rnd h fuel file 0 q' t hrd
  obtain ⟨hp, -, hheard⟩ := plays_own h fm hl hm (opened_codec hcd hc.codec) hc
  have hu := own_usable h hl hm hc.channels (opened_codec hcd hc.codec)
  have hcopy := copy_plays hp hu
  have hvs : ∃ v, o.v = [v] ∧ v.compression = NONE ∧ v.byteOrder = native h := by
    have hi : Inv (Setup.run (newSetup h) (setupCalls p u t.f)) := foldl_inv (newSetup_inv h)
    obtain ⟨tr, g, ht, hid, hs, -, hf', hcm⟩ := openWrite_some hi ho
    unfold openWrite at ho
    rw [hcm] at ho
    obtain ⟨-, ho⟩ := Prod.mk.inj ho
    have ho := Option.some.inj ho
    subst ho
    unfold completed
    dsimp only
    exact ⟨_, rfl, rfl, rfl⟩
  obtain ⟨v, hv, hv1, hv2⟩ := hvs
  have hplain : ∀ g : AFmt, (g.compression = NONE ∨ g.compression = ULAW ∨ g.compression = ALAW) → (!plainCodec g) = false := by
    intro g hg
    unfold plainCodec
    rcases hg with hg | hg | hg <;> rw [hg] <;> rfl
  unfold convert
  rw [hin]
  dsimp only
  rw [hid, hrd]
  dsimp only
  rw [hplain t.f hc.codec, if_neg (by decide), ho]
  dsimp only
  rw [hf, hv]
  dsimp only
  rw [hck]
  dsimp only
  rw [hplain f hcodec, decide_eq_false hne, Bool.false_or, if_neg (by decide), if_neg (by rw [buffer_frame hl]; omega), dif_pos hp.size]
  change (match copy (trackReader h fm file t hp.size) (own h t.f) with | .error _ => _ | .ok (false, _) => _ | .ok (true, blocks) => _) = _
  rw [hcopy]
  dsimp only
  rw [mapM_blocks]
  dsimp only
  rw [write_own hv1 hv2 hl hm]
  have he : ((chunks (sound file t)).map fun c => c.map (delivered t.f (own h t.f) (own h t.f))).map (blockEvent h fm (own h t.f) f) =
      events h fm (own h t.f) f (handOver file t) := by
    unfold events mevents handOver
    rw [List.map_map, List.map_map, List.filterMap_map]
    change _ = List.filterMap (some ∘ fun c : List (List Int) => Ev.data (c.flatMap (frameBytes h fm (own h t.f) f)) c.length) _
    rw [List.filterMap_eq_map]
    apply List.map_congr_left
    intro c hcm
    show blockEvent h fm (own h t.f) f (c.map _) = _
    unfold blockEvent
    rw [List.length_map, List.flatMap_map]
    congr 1
    refine flatMap_congr' fun fr hfr => ?_
    have hmem : fr ∈ sound file t := by
      rw [← chunks_flatten _ (sound file t) rfl]
      exact List.mem_flatten.2 ⟨c, hcm, hfr⟩
    unfold delivered frameBytes
    rw [hheard fr hmem]
    rfl
  rw [he, hb]
  dsimp only
  congr 1
  unfold World.set
  funext n
  by_cases hn : n = output
  · rw [if_pos hn, if_pos hn]
  · rw [if_neg hn, if_neg hn, if_neg hn]

/-- C76: for any input that opens and has all its frames (uncompressed or G.711), whatever is asked for, if the library makes such an
output, the conversion succeeds, and the output is the file that results from writing the input's frames, all of them and in their order,
in lots of at most 65536, in the virtual format of the input's samples. No other file changes. -/
theorem C76_converts (fuel : Nat) (p : Options) (input output : List Byte) (w : World) {file : List Byte} {u : FileFormat} {t : Trk} {q q' : Nat}
    (hin : w input = some file) (hid : identify file 0 = .ok (some u, q)) (hrd : openRead F32 F64 rnd h fuel file 0 = .ok (t, q'))
    (hne : input ≠ output) (hc : Complete file t) (hbuf : bufferFrame t.f < 2 ^ 15) {s' : Setup} {o : Opened} {f : AFmt}
    (ho : openWrite h (Setup.run (newSetup h) (setupCalls p u t.f)) = (s', some o)) (hf : o.f = [f])
    (hcodec : f.compression = NONE ∨ f.compression = ULAW ∨ f.compression = ALAW) (hck : codecCheck h f = some f) :
    ∃ calls : List Program.Call, written calls = sound file t ∧ (∀ c ∈ calls, ∃ fs, c = .write fs ∧ fs.length ≤ 65536) ∧
      ∀ b, outBytes F32 F64 h output o f (events h fm (own h t.f) f calls) (Setup.run (newSetup h) (setupCalls p u t.f)).fileFormat = .ok b →
        convert F32 F64 rnd h fm fuel p input output w = .exit true (w.set output (some b)) := by
  refine ⟨handOver file t, handOver_written file t, ?_, convert_handOver F32 F64 rnd h fm fuel p input output w hin hid hrd hne hc hbuf ho hf hcodec hck⟩
  · intro c hc
    obtain ⟨fs, hfs, rfl⟩ := List.mem_map.1 hc
    refine ⟨fs, rfl, ?_⟩
    have : ∀ (n : Nat) (l : List (List Int)), l.length = n → ∀ fs ∈ chunks l, fs.length ≤ 65536 := by
      intro n
      induction n using Nat.strongRecOn with
      | ind n ih =>
        intro l hl fs hfs
        by_cases h0 : l.length = 0
        · rw [chunks_nil h0] at hfs; cases hfs
        · rw [chunks_cons h0] at hfs
          rcases List.mem_cons.1 hfs with rfl | hfs
          · rw [List.length_take]; omega
          · exact ih _ (by rw [List.length_drop]; omega) _ rfl fs hfs
    exact this _ _ rfl fs hfs

/-! ## Conversions and what the output plays -/

/-- A conversion: the input, what is asked for, and the output that the library makes for it. -/
structure Job (fuel : Nat) (p : Options) (input output : List Byte) (w : World) (file : List Byte) (u : FileFormat) (t : Trk) (s' : Setup) (o : Opened)
    (f : AFmt) : Prop where
  there : w input = some file
  distinct : input ≠ output
  kind : ∃ q, identify file 0 = .ok (some u, q)
  opens : ∃ q, openRead F32 F64 rnd h fuel file 0 = .ok (t, q)
  complete : Complete file t
  buffer : bufferFrame t.f < 2 ^ 15
  made : openWrite h (Setup.run (newSetup h) (setupCalls p u t.f)) = (s', some o)
  format : o.f = [f]
  codec : f.compression = NONE ∨ f.compression = ULAW ∨ f.compression = ALAW
  accepted : codecCheck h f = some f
  storable : Storable t.f f

variable {F32 F64 rnd h}
variable {fuel : Nat} {p : Options} {input output : List Byte} {w : World} {file : List Byte} {u : FileFormat} {t : Trk} {s' : Setup}
  {o : Opened} {f : AFmt}

theorem Job.converts (j : Job F32 F64 rnd h fuel p input output w file u t s' o f) {b : List Byte}
    (hb : outBytes F32 F64 h output o f (events h fm (own h t.f) f (handOver file t)) (Setup.run (newSetup h) (setupCalls p u t.f)).fileFormat = .ok b) :
    convert F32 F64 rnd h fm fuel p input output w = .exit true (w.set output (some b)) := by
  obtain ⟨q, hq⟩ := j.kind
  obtain ⟨q', hq'⟩ := j.opens
  exact convert_handOver F32 F64 rnd h fm fuel p input output w j.there hq hq' j.distinct j.complete j.buffer j.made j.format j.codec j.accepted b hb

theorem setupCalls_plain (p : Options) (u : FileFormat) (f : AFmt) : ∀ op ∈ setupCalls p u f, ∀ t m, op ≠ .pcmMapping t m := by
  intro op hop
  unfold setupCalls at hop
  dsimp only at hop
  simp only [List.mem_cons, List.not_mem_nil, or_false] at hop
  rcases hop with rfl | rfl | rfl | rfl | rfl <;> exact fun _ _ e => by cases e

theorem Job.recorded (j : Job F32 F64 rnd h fuel p input output w file u t s' o f) : Recorded h f (own h t.f) (handOver file t) := by
  obtain ⟨q', hq'⟩ := j.opens
  obtain ⟨hl, hcd, -, -, -, hm⟩ := C62_opened F32 F64 rnd h fuel file 0 q' t hq'
  have h16 := opened_codec hcd j.complete.codec
  obtain ⟨-, hfits, -⟩ := plays_own h (fun _ b => b) hl hm h16 j.complete
  have hu := own_usable h hl hm j.complete.channels h16
  refine ⟨j.codec, j.accepted, opened_meant (setupCalls_plain _ _ _) j.made j.format, ⟨hu.uncompressed, ?_, hu.order, ?_⟩, ?_⟩
  · rw [hu.channels, j.storable.channels]
  · rcases hu.kind with ⟨a, b⟩ | ⟨a, b, c⟩
    · refine .inl ⟨a, ?_⟩
      rcases j.storable.kind with ⟨-, d⟩ | ⟨d, -⟩
      · exact d
      · simp only [TWOSCOMP, UNSIGNED, FLOAT, DOUBLE] at b d; omega
    · refine .inr ⟨a, ?_⟩
      rcases j.storable.kind with ⟨d, -⟩ | ⟨-, d, e⟩
      · simp only [TWOSCOMP, UNSIGNED, FLOAT, DOUBLE] at c d; omega
      · exact ⟨e, by rw [d]; exact c⟩
  · rw [handOver_written]
    intro fr hfr
    obtain ⟨a, b⟩ := hfits fr hfr
    exact ⟨by rw [j.storable.channels]; exact a, b⟩

/-- The sample rate of the output: the input's, or 44100 if that is not positive. -/
theorem Job.rate (j : Job F32 F64 rnd h fuel p input output w file u t s' o f) : f.rate = if 0 < t.f.rate then t.f.rate else 44100 := by
  have hi : Inv (Setup.run (newSetup h) (setupCalls p u t.f)) := foldl_inv (newSetup_inv h)
  obtain ⟨tr, f', ht, hid, hs, -, hf', hc⟩ := openWrite_some hi j.made
  have hf := j.format
  rw [hf'] at hf
  obtain rfl : f' = f := by simpa using hf
  have hsame := complete_pred (closed_same tr.f) h hi (by
    intro x hx
    rw [ht, List.mem_singleton] at hx
    subst hx
    exact ⟨rfl, rfl⟩)
  rw [hc, hs] at hsame
  have hs2 : SameRC tr.f f' := hsame { tr with f := f' } (by simp [setF])
  obtain ⟨tr', ht', hr⟩ := (Create.run_holds h (setupCalls p u t.f)).track
  obtain rfl : tr' = tr := by rw [ht] at ht'; exact (List.cons.inj ht').1.symm
  rw [hs2.1, hr.rate]
  unfold setupCalls Create.Request.after
  dsimp only
  simp only [List.foldl_cons, List.foldl_nil]
  have s5 : ∀ (r : Create.Request), (r.step (.rate 1001 t.f.rate)).rate = if 0 < t.f.rate then some t.f.rate else r.rate := by
    intro r
    by_cases hn : 0 < t.f.rate
    · rw [if_pos hn]; exact congrArg Create.Request.rate (if_pos ⟨rfl, hn⟩)
    · rw [if_neg hn]; exact congrArg Create.Request.rate (if_neg (fun x => hn x.2))
  have s4 : ∀ (r : Create.Request) (n : Int), (r.step (.channels 1001 n)).rate = r.rate := by
    intro r n
    show (if _ then _ else _ : Create.Request).rate = _
    split <;> rfl
  have s3 : ∀ (r : Create.Request) (a b : Int), (r.step (.sampleFormat 1001 a b)).rate = r.rate := fun r a b => rfl
  have s2 : ∀ (r : Create.Request) (n : Int), (r.step (.compression 1001 n)).rate = r.rate := by
    intro r n
    show (if _ then _ else _ : Create.Request).rate = _
    split <;> rfl
  rw [s5]
  by_cases hn : 0 < t.f.rate
  · rw [if_pos hn, if_pos hn]; rfl
  · rw [if_neg hn, if_neg hn, s4, s3, s2]; rfl

theorem Job.plays (j : Job F32 F64 rnd h fuel p input output w file u t s' o f) {h' : Endian} {fuel' : Nat} {b : List Byte} {R : Rat}
    (hb : outBytes F32 F64 h output o f (events h fm (own h t.f) f (handOver file t)) (Setup.run (newSetup h) (setupCalls p u t.f)).fileFormat = .ok b)
    (hp : ∃ t' q, openRead F32 F64 rnd h' fuel' b 0 = .ok (t', q) ∧ t'.f.rate = R ∧ PlaysBack h' fm f (own h t.f) (written (handOver file t)) b t') :
    ∃ b, convert F32 F64 rnd h fm fuel p input output w = .exit true (w.set output (some b)) ∧
      ∃ t' q, openRead F32 F64 rnd h' fuel' b 0 = .ok (t', q) ∧ t'.f.rate = R ∧ PlaysBack h' fm f (own h t.f) (sound file t) b t' := by
  rw [handOver_written] at hp
  exact ⟨b, j.converts fm hb, hp⟩

/-- C76, NeXT: the output opens and plays the sound of the input, as far as the samples of the output's format can. -/
theorem C76_next (j : Job F32 F64 rnd h fuel p input output w file u t s' o f)
    (hfmt : (Setup.run (newSetup h) (setupCalls p u t.f)).fileFormat = .next) (hr : f.rate < 2 ^ 32) (hch : f.channels < 2 ^ 31)
    (hne : sound file t ≠ []) (hsz : (sound file t).length * bytesPerFrame f < 2 ^ 32 - 1) (h' : Endian) (fuel' : Nat) :
    ∃ b, convert F32 F64 rnd h fm fuel p input output w = .exit true (w.set output (some b)) ∧
      ∃ t' q, openRead F32 F64 rnd h' fuel' b 0 = .ok (t', q) ∧ t'.f.rate = (f.rate.floor : Rat) ∧ PlaysBack h' fm f (own h t.f) (sound file t) b t' := by
  rw [← handOver_written] at hne hsz
  exact j.plays fm (by rw [hfmt]; rfl)
    (C67_next F32 F64 rnd h h' fm _ s' o f (own h t.f) (handOver file t) hfmt j.made j.format hr hch j.recorded hne hsz fuel')

/-- C76, AVR. -/
theorem C76_avr (j : Job F32 F64 rnd h fuel p input output w file u t s' o f)
    (hfmt : (Setup.run (newSetup h) (setupCalls p u t.f)).fileFormat = .avr) (hr : f.rate < 2 ^ 24) (hch : f.channels ≤ 2)
    (hsz : (sound file t).length < 2 ^ 32) (h' : Endian) (fuel' : Nat) :
    ∃ b, convert F32 F64 rnd h fm fuel p input output w = .exit true (w.set output (some b)) ∧
      ∃ t' q, openRead F32 F64 rnd h' fuel' b 0 = .ok (t', q) ∧ t'.f.rate = (f.rate.floor : Rat) ∧ PlaysBack h' fm f (own h t.f) (sound file t) b t' := by
  rw [← handOver_written] at hsz
  exact j.plays fm (by rw [hfmt]; rfl)
    (C67_avr F32 F64 rnd h h' fm output _ s' o f (own h t.f) (handOver file t) hfmt j.made j.format hr hch j.recorded hsz fuel')

/-- C76, SampleVision. -/
theorem C76_samplevision (j : Job F32 F64 rnd h fuel p input output w file u t s' o f)
    (hfmt : (Setup.run (newSetup h) (setupCalls p u t.f)).fileFormat = .smp) (hr : f.rate < 2 ^ 32) (hch : f.channels = 1)
    (hsz : (sound file t).length < 2 ^ 31) (h' : Endian) (fuel' : Nat) :
    ∃ b, convert F32 F64 rnd h fm fuel p input output w = .exit true (w.set output (some b)) ∧
      ∃ t' q, openRead F32 F64 rnd h' fuel' b 0 = .ok (t', q) ∧ t'.f.rate = (f.rate.floor : Rat) ∧ PlaysBack h' fm f (own h t.f) (sound file t) b t' := by
  rw [← handOver_written] at hsz
  exact j.plays fm (by rw [hfmt]; rfl)
    (C67_samplevision F32 F64 rnd h h' fm _ s' o f (own h t.f) (handOver file t) hfmt j.made j.format hr hch j.recorded hsz fuel')

/-- C76, VOC. -/
theorem C76_voc (j : Job F32 F64 rnd h fuel p input output w file u t s' o f)
    (hfmt : (Setup.run (newSetup h) (setupCalls p u t.f)).fileFormat = .voc) (hr : f.rate < 2 ^ 32) (hch : f.channels < 256)
    (hsz : (sound file t).length * bytesPerFrame f + 12 < 2 ^ 24) (h' : Endian) (fuel' : Nat) (hfuel : 2 ≤ fuel') :
    ∃ b, convert F32 F64 rnd h fm fuel p input output w = .exit true (w.set output (some b)) ∧
      ∃ t' q, openRead F32 F64 rnd h' fuel' b 0 = .ok (t', q) ∧ t'.f.rate = (f.rate.floor : Rat) ∧ PlaysBack h' fm f (own h t.f) (sound file t) b t' := by
  rw [← handOver_written] at hsz
  exact j.plays fm (by rw [hfmt]; rfl)
    (C67_voc F32 F64 rnd h h' fm _ s' o f (own h t.f) (handOver file t) hfmt j.made j.format hr hch j.recorded hsz fuel' hfuel)

/-- C76, NIST. -/
theorem C76_nist (j : Job F32 F64 rnd h fuel p input output w file u t s' o f)
    (hfmt : (Setup.run (newSetup h) (setupCalls p u t.f)).fileFormat = .nist) (hch : f.channels < 2 ^ 31) (hr : f.rate < 2 ^ 31) (hr1 : 1 ≤ f.rate)
    (hw : 9 ≤ f.sampleWidth) (hsz : (sound file t).length < 2 ^ 31) (h' : Endian) (fuel' : Nat) :
    ∃ b, convert F32 F64 rnd h fm fuel p input output w = .exit true (w.set output (some b)) ∧
      ∃ t' q, openRead F32 F64 rnd h' fuel' b 0 = .ok (t', q) ∧ t'.f.rate = (f.rate.floor : Rat) ∧ PlaysBack h' fm f (own h t.f) (sound file t) b t' := by
  rw [← handOver_written] at hsz
  obtain ⟨s, t', q, h1, h2, h3⟩ :=
    C67_nist F32 F64 rnd h h' fm _ s' o f (own h t.f) (handOver file t) hfmt j.made j.format hch hr hr1 hw j.recorded hsz fuel'
  exact j.plays fm (b := session nistUpdate s _) (by rw [hfmt]; dsimp only [outBytes]; rw [h1]) ⟨t', q, h2, h3⟩

/-- C76, CAF. -/
theorem C76_caf (j : Job F32 F64 rnd h fuel p input output w file u t s' o f)
    (hfmt : (Setup.run (newSetup h) (setupCalls p u t.f)).fileFormat = .caf) (hr : F64.dec (F64.enc f.rate) = f.rate) (hch : f.channels < 2 ^ 31)
    (hsz : (sound file t).length * bytesPerFrame f < 2 ^ 63 - 68) (h' : Endian) (fuel' : Nat) (hfuel : 3 ≤ fuel') :
    ∃ b, convert F32 F64 rnd h fm fuel p input output w = .exit true (w.set output (some b)) ∧
      ∃ t' q, openRead F32 F64 rnd h' fuel' b 0 = .ok (t', q) ∧ t'.f.rate = f.rate ∧ PlaysBack h' fm f (own h t.f) (sound file t) b t' := by
  rw [← handOver_written] at hsz
  exact j.plays fm (by rw [hfmt]; rfl)
    (C67_caf F32 F64 rnd h h' fm _ s' o f (own h t.f) (handOver file t) hfmt j.made j.format hr hch j.recorded hsz fuel' hfuel)

/-- C76, IRCAM. -/
theorem C76_ircam (j : Job F32 F64 rnd h fuel p input output w file u t s' o f)
    (hfmt : (Setup.run (newSetup h) (setupCalls p u t.f)).fileFormat = .ircam) (hord : f.byteOrder = native h)
    (hsz : (sound file t).length * bytesPerFrame f < 2 ^ 63) (h' : Endian) (fuel' : Nat) :
    ∃ b, convert F32 F64 rnd h fm fuel p input output w = .exit true (w.set output (some b)) ∧
      ∃ t' q, openRead F32 F64 rnd h' fuel' b 0 = .ok (t', q) ∧ t'.f.rate = F32.dec (F32.enc f.rate) ∧ PlaysBack h' fm f (own h t.f) (sound file t) b t' := by
  rw [← handOver_written] at hsz
  obtain ⟨s, t', q, h1, h2, h3⟩ :=
    C67_ircam F32 F64 rnd h h' fm _ s' o f (own h t.f) (handOver file t) hfmt j.made j.format hord j.recorded hsz fuel'
  exact j.plays fm (b := session ircamUpdate s _) (by rw [hfmt]; dsimp only [outBytes]; rw [h1]) ⟨t', q, h2, h3⟩

/-- The calls are all writes. -/
theorem mevents_handOver (h : Endian) (fm : Module → List Byte → List Byte) (v : Fmt) (f : AFmt) (file : List Byte) (t : Trk) :
    (events h fm v f (handOver file t)).map .ev = mevents h fm v f (handOver file t) := by
  unfold events handOver mevents
  generalize chunks (sound file t) = l
  induction l with
  | nil => rfl
  | cons a l ih =>
    rw [List.map_cons, List.map_cons, List.filterMap_cons]
    dsimp only [Call.event]
    rw [List.map_cons, ih]

/-- C76, WAVE. -/
theorem C76_wave (j : Job F32 F64 rnd h fuel p input output w file u t s' o f)
    (hfmt : (Setup.run (newSetup h) (setupCalls p u t.f)).fileFormat = .wave) {b : List Byte} {x : WaveObj}
    (hb : waveSession h o f (mevents h fm (own h t.f) f (handOver file t)) = .ok (b, x))
    (hfit : WaveFits o f (mevents h fm (own h t.f) f (handOver file t)) b x) (h' : Endian) (fuel' : Nat)
    (hfuel : 8 + x.handle.misc.length + 2 * (marksOf x.handle o.names).length ≤ fuel') :
    ∃ b, convert F32 F64 rnd h fm fuel p input output w = .exit true (w.set output (some b)) ∧
      ∃ t' q, openRead F32 F64 rnd h' fuel' b 0 = .ok (t', q) ∧ t'.f.rate = (f.rate.floor : Rat) ∧ PlaysBack h' fm f (own h t.f) (sound file t) b t' := by
  exact j.plays fm (b := b) (by rw [hfmt]; dsimp only [outBytes]; rw [mevents_handOver, hb])
    (C67_wave F32 F64 rnd h h' fm _ o f (own h t.f) (handOver file t) b x ⟨hfmt, ⟨s', j.made⟩, j.format, hb⟩ hfit j.recorded fuel' hfuel)

/-- C76, AIFF and AIFF-C. -/
theorem C76_aiff (hrnd : ExactOnDoubles rnd) (aifc : Bool) (j : Job F32 F64 rnd h fuel p input output w file u t s' o f)
    (hfmt : (Setup.run (newSetup h) (setupCalls p u t.f)).fileFormat = if aifc then .aiffc else .aiff) {b : List Byte} {x : AiffObj}
    (hb : aiffSession h aifc o f (mevents h fm (own h t.f) f (handOver file t)) = .ok (b, x))
    (hfit : AiffFits o f (mevents h fm (own h t.f) f (handOver file t)) b x) (h' : Endian) (fuel' : Nat)
    (hfuel : 7 + x.handle.misc.length ≤ fuel') :
    ∃ b, convert F32 F64 rnd h fm fuel p input output w = .exit true (w.set output (some b)) ∧
      ∃ t' q, openRead F32 F64 rnd h' fuel' b 0 = .ok (t', q) ∧ t'.f.rate = f.rate ∧ PlaysBack h' fm f (own h t.f) (sound file t) b t' := by
  refine j.plays fm (b := b) ?_
    (C67_aiff F32 F64 rnd h h' fm hrnd aifc _ o f (own h t.f) (handOver file t) b x ⟨hfmt, ⟨s', j.made⟩, j.format, hb⟩ hfit j.recorded fuel' hfuel)
  rw [hfmt]
  cases aifc <;> dsimp only [outBytes, if_true, Bool.false_eq_true, if_false]
  · show (match aiffSession h false o f _ with | .ok (b, _) => _ | .error _ => _) = _
    rw [mevents_handOver, hb]
  · show (match aiffSession h true o f _ with | .ok (b, _) => _ | .error _ => _) = _
    rw [mevents_handOver, hb]

/-- C76, IFF/8SVX. -/
theorem C76_iff (j : Job F32 F64 rnd h fuel p input output w file u t s' o f)
    (hfmt : (Setup.run (newSetup h) (setupCalls p u t.f)).fileFormat = .iff) {b : List Byte} {x : IffObj}
    (hb : iffSession h o f (mevents h fm (own h t.f) f (handOver file t)) = .ok (b, x)) (hlong : b.length < 2 ^ 32)
    (hcount : (sound file t).length < 2 ^ 32) (hmisc : ∀ m ∈ o.handle.misc, 0 ≤ m.size ∧ m.size < 2 ^ 31) (h' : Endian) (fuel' : Nat)
    (hfuel : 3 + x.handle.misc.length ≤ fuel') :
    ∃ b, convert F32 F64 rnd h fm fuel p input output w = .exit true (w.set output (some b)) ∧
      ∃ t' q, openRead F32 F64 rnd h' fuel' b 0 = .ok (t', q) ∧ t'.f.rate = ((f.rate.floor % 65536 : Int) : Rat) ∧ PlaysBack h' fm f (own h t.f) (sound file t) b t' := by
  rw [← handOver_written] at hcount
  exact j.plays fm (b := b) (by rw [hfmt]; dsimp only [outBytes]; rw [mevents_handOver, hb])
    (C67_iff F32 F64 rnd h h' fm _ o f (own h t.f) (handOver file t) b x ⟨hfmt, ⟨s', j.made⟩, j.format, hb⟩ hlong hcount hmisc j.recorded fuel' hfuel)

/-- C76: if the output has samples of the same kind and width, without a codec or with the input's, nothing is lost: whatever a program
calls, in whatever formats it wants the samples, it gets the same answers from the output as from the input. -/
theorem C76_lossless (j : Job F32 F64 rnd h fuel p input output w file u t s' o f) (hsf : f.sampleFormat = t.f.sampleFormat)
    (hby : (f.sampleWidth + 7) / 8 = (t.f.sampleWidth + 7) / 8) (hc : f.compression = NONE ∨ f.compression = t.f.compression)
    {b : List Byte} {t' : Trk} (hp : PlaysBack h fm f (own h t.f) (sound file t) b t') :
    ∃ hi : PlaysBack h fm t.f (own h t.f) (sound file t) file t, ∀ (v : Fmt) (calls : List (Spec.Call Fmt)), Usable h t.f v →
      (∀ c ∈ calls, CallOk h t.f (sound file t).length c) →
      Reading.observe (trackReader h fm b t' hp.size) v calls = Reading.observe (trackReader h fm file t hi.size) v calls := by
  obtain ⟨q', hq'⟩ := j.opens
  obtain ⟨hl, hcd, -, -, -, hm⟩ := C62_opened F32 F64 rnd h fuel file 0 q' t hq'
  have h16 := opened_codec hcd j.complete.codec
  obtain ⟨hi, hfits, hheard⟩ := plays_own h fm hl hm h16 j.complete
  refine ⟨hi, fun v calls hv hcalls => ?_⟩
  have hu : ∀ v, Usable h t.f v → Usable h f v := by
    intro v hv
    refine ⟨hv.uncompressed, by rw [hv.channels, j.storable.channels], hv.order, ?_⟩
    rcases hv.kind with ⟨a, b⟩ | ⟨a, b, c⟩
    · exact .inl ⟨a, by rw [hsf]; exact b⟩
    · refine .inr ⟨a, ?_, by rw [hsf]; exact c⟩
      rcases hc with hc | hc
      · exact hc
      · rw [hc]; exact b
  rw [hp.sound v calls (hu v hv) fun c hc => ⟨(hcalls c hc).1, fun w e => hu w ((hcalls c hc).2 w e)⟩, hi.sound v calls hv hcalls]
  congr 2
  have := answers_map (sound file t) id (delivered f (own h t.f)) (delivered t.f (own h t.f)) (Usable h t.f) ?_ calls ⟨0, v⟩ hv
    fun c hc w e => (hcalls c hc).2 w e
  · rw [List.map_id] at this
    exact this
  · intro v fr hv hfr
    show delivered f (own h t.f) v fr = _
    unfold delivered
    congr 1
    apply List.map_congr_left
    intro x hx
    have hx1 : heard t.f (own h t.f) (own h t.f) x = x := by
      have := hheard fr hfr
      have key : ∀ (l : List Int) (g : Int → Int), l.map g = l → ∀ x ∈ l, g x = x := by
        intro l g
        induction l with
        | nil => intro _ x hx; cases hx
        | cons a l ih =>
          intro e x hx
          rw [List.map_cons] at e
          obtain ⟨e1, e2⟩ := List.cons.inj e
          rcases List.mem_cons.1 hx with rfl | hx
          · exact e1
          · exact ih e2 x hx
      exact key fr _ this x hx
    unfold heard at hx1 ⊢
    by_cases hfl : (own h t.f).sampleFormat = .float ∨ (own h t.f).sampleFormat = .double
    · rw [if_pos hfl, if_pos hfl]
    · rw [if_neg hfl] at hx1 ⊢
      rw [if_neg hfl]
      dsimp only at hx1 ⊢
      have hB : bytesOf (own h t.f) = ((t.f.sampleWidth + 7) / 8).toNat := by
        rw [own_bytes]
        rcases hl with hl | hl | hl <;> omega
      have hU : ((own h t.f).sampleFormat == .unsigned) = decide (t.f.sampleFormat = UNSIGNED) := by
        rcases hl with ⟨e | e, -⟩ | ⟨e, -⟩ | ⟨e, -⟩ <;> rw [own_sf h e, e] <;> rfl
      rw [hB, hU, convertSample_self, convertSample_self] at hx1
      rw [hB, hU, hsf, hby, convertSample_self, hx1]
      congr 1
      rcases hc with hc | hc
      · unfold coded
        rw [if_neg (by rw [hc]; decide), if_neg (by rw [hc]; decide)]
      · have : coded f x = coded t.f x := by unfold coded; rw [hc]
        rw [this, hx1]

/-! ## When it does not work -/

/-- C76: an input that is not there, is not recognised or does not open: failure, and no file changes. -/
theorem C76_no_input (F32 : Files.Float32) (F64 : Files.Float64) (rnd : Rat → Dbl) (h : Endian) (fm : Module → List Byte → List Byte) (fuel : Nat)
    (p : Options) (input output : List Byte) (w : World)
    (hin : w input = none ∨ ∃ file, w input = some file ∧ openRead F32 F64 rnd h fuel file 0 = .error .fail) :
    convert F32 F64 rnd h fm fuel p input output w = .exit false w := by
  unfold convert
  rcases hin with hin | ⟨file, hin, hf⟩
  · rw [hin]
  · rw [hin]
    dsimp only
    rw [hf]
    have hid : ∀ e, identify file 0 = .error e → e = .fail := by
      intro e he
      unfold openRead at hf
      rw [Rd.bind_error he] at hf
      cases hf
      rfl
    cases hi : identify file 0 with
    | error e => rw [hid e hi]
    | ok x => obtain ⟨_ | _, _⟩ := x <;> rfl

/-- C76, negation: an output that the library will not make is refused, but whatever was in that file before is gone. -/
theorem C76_negation_emptied (F32 : Files.Float32) (F64 : Files.Float64) (rnd : Rat → Dbl) (h : Endian) (fm : Module → List Byte → List Byte) (fuel : Nat)
    (p : Options) (input output : List Byte) (w : World) {file : List Byte} {u : FileFormat} {t : Trk} {q q' : Nat}
    (hin : w input = some file) (hid : identify file 0 = .ok (some u, q)) (hrd : openRead F32 F64 rnd h fuel file 0 = .ok (t, q'))
    (hc : t.f.compression = NONE ∨ t.f.compression = ULAW ∨ t.f.compression = ALAW)
    (ho : (openWrite h (Setup.run (newSetup h) (setupCalls p u t.f))).2 = none) :
    ∃ w', convert F32 F64 rnd h fm fuel p input output w = .exit false w' ∧ w' output = some [] := by
  refine ⟨w.set output (some []), ?_, by unfold World.set; rw [if_pos rfl]⟩
  unfold convert
  rw [hin]
  dsimp only
  rw [hid, hrd]
  dsimp only
  have hplain : (!plainCodec t.f) = false := by
    unfold plainCodec
    rcases hc with hg | hg | hg <;> rw [hg] <;> rfl
  rw [hplain, if_neg (by decide), ho]

/-- C76, negation: `byteorder`, which the usage message offers, is not a keyword. -/
theorem C76_negation_byteorder (o : Options) : parse [tag "byteorder", tag "big"] o = .options o := rfl

/-! ## Inputs that do not have the frames they are said to have -/

/-- What the program does once input and output are open. -/
theorem convert_open {F32 : Files.Float32} {F64 : Files.Float64} {rnd : Rat → Dbl} {h : Endian} (fm : Module → List Byte → List Byte) {fuel : Nat}
    {p : Options} {input output : List Byte} {w : World} {file : List Byte} {u : FileFormat} {t : Trk} {q q' : Nat}
    (hin : w input = some file) (hid : identify file 0 = .ok (some u, q)) (hrd : openRead F32 F64 rnd h fuel file 0 = .ok (t, q'))
    (hne : input ≠ output) (hc : t.f.compression = NONE ∨ t.f.compression = ULAW ∨ t.f.compression = ALAW) (hch : 1 ≤ t.f.channels)
    (hbuf : bufferFrame t.f < 2 ^ 15) {s' : Setup} {o : Opened} {f : AFmt}
    (ho : openWrite h (Setup.run (newSetup h) (setupCalls p u t.f)) = (s', some o)) (hf : o.f = [f])
    (hcodec : f.compression = NONE ∨ f.compression = ULAW ∨ f.compression = ALAW) (hck : codecCheck h f = some f) :
    ∃ (v : AFmt) (hb : 0 < packetSize t.f), (packetSize t.f : Int) = bytesPerFrame t.f ∧ o.v = [v] ∧
      convert F32 F64 rnd h fm fuel p input output w =
        match copy (trackReader h fm file t hb) (virtualFormat (readVirtual h t.f)) with
        | .error _ => .undefined
        | .ok (false, _) => .exit false ((w.set output (some [])).set output none)
        | .ok (true, blocks) =>
          match blocks.mapM (fun b => b.mapM id) with
          | none => .undefined
          | some bs =>
            match outBytes F32 F64 h output o f (bs.map (blockEvent h fm (virtualFormat (writeVirtual v t.f)) f))
                (Setup.run (newSetup h) (setupCalls p u t.f)).fileFormat with
            | .ok b => .exit true ((w.set output (some [])).set output (some b))
            | .error _ => .undefined := by
  obtain ⟨hl, -, -, -, -, -⟩ := C62_opened F32 F64 rnd h fuel file 0 q' t hrd
  have hvs : ∃ v, o.v = [v] := by
    have hi : Inv (Setup.run (newSetup h) (setupCalls p u t.f)) := foldl_inv (newSetup_inv h)
    obtain ⟨tr, g, ht, hid, hs, -, hf', hcm⟩ := openWrite_some hi ho
    unfold openWrite at ho
    rw [hcm] at ho
    obtain ⟨-, ho⟩ := Prod.mk.inj ho
    have ho := Option.some.inj ho
    subst ho
    exact ⟨_, rfl⟩
  obtain ⟨v, hv⟩ := hvs
  have hplain : ∀ g : AFmt, (g.compression = NONE ∨ g.compression = ULAW ∨ g.compression = ALAW) → (!plainCodec g) = false := by
    intro g hg
    unfold plainCodec
    rcases hg with hg | hg | hg <;> rw [hg] <;> rfl
  have hB := width_bytes hl
  have hps : packetSize t.f = bytesPerFrame t.f := by
    unfold packetSize bytesPerFrame
    rw [chain_bytes hl]
    split
    · rw [Int.toNat_mul (by omega) (by omega)]
    · rfl
  have hpos : 0 < packetSize t.f := by
    unfold packetSize
    rw [chain_bytes hl]
    split
    · exact Nat.mul_pos (by omega) (by omega)
    · omega
  refine ⟨v, hpos, by rw [hps], hv, ?_⟩
  unfold convert
  rw [hin]
  dsimp only
  rw [hid, hrd]
  dsimp only
  rw [hplain t.f hc, if_neg (by decide), ho]
  dsimp only
  rw [hf, hv]
  dsimp only
  rw [hck]
  dsimp only
  rw [hplain f hcodec, decide_eq_false hne, Bool.false_or, if_neg (by decide), if_neg (by rw [buffer_frame hl]; omega), dif_pos hpos]
  rfl

/-- C76: if the input ends before the last of the frames it is said to have, the conversion fails and leaves no output (and no other file
changes): a damaged input never becomes a shorter but flawless output. -/
theorem C76_incomplete {F32 : Files.Float32} {F64 : Files.Float64} {rnd : Rat → Dbl} {h : Endian} (fm : Module → List Byte → List Byte) {fuel : Nat}
    {p : Options} {input output : List Byte} {w : World} {file : List Byte} {u : FileFormat} {t : Trk} {q q' : Nat}
    (hin : w input = some file) (hid : identify file 0 = .ok (some u, q)) (hrd : openRead F32 F64 rnd h fuel file 0 = .ok (t, q'))
    (hne : input ≠ output) (hc : t.f.compression = NONE ∨ t.f.compression = ULAW ∨ t.f.compression = ALAW) (hch : 1 ≤ t.f.channels)
    (hfr : 0 < t.frames) (hshort : file.length < t.first + t.frames * bytesPerFrame t.f)
    (hbuf : bufferFrame t.f < 2 ^ 15) {s' : Setup} {o : Opened} {f : AFmt}
    (ho : openWrite h (Setup.run (newSetup h) (setupCalls p u t.f)) = (s', some o)) (hf : o.f = [f])
    (hcodec : f.compression = NONE ∨ f.compression = ULAW ∨ f.compression = ALAW) (hck : codecCheck h f = some f) :
    convert F32 F64 rnd h fm fuel p input output w = .exit false (w.set output none) := by
  obtain ⟨v, hb, hsize, -, he⟩ := convert_open fm hin hid hrd hne hc hch hbuf ho hf hcodec hck
  rw [he]
  obtain ⟨b, out, hcopy, hgood⟩ := copy_got (c := trackReader h fm file t hb) (by unfold trackReader; dsimp only; split <;> decide) rfl rfl rfl
    (fun _ => rfl) (virtualFormat (readVirtual h t.f)) hfr
  rw [hcopy]
  cases b with
  | true =>
    exfalso
    have := (hgood rfl).2
    change t.first + (packetSize t.f : Int) * t.frames ≤ file.length at this
    rw [hsize, Int.mul_comm] at this
    omega
  | false =>
    dsimp only
    congr 1
    unfold World.set
    funext n
    by_cases hn : n = output
    · rw [if_pos hn, if_pos hn]
    · rw [if_neg hn, if_neg hn, if_neg hn]

/-- C76, negation: an input whose frame count is negative converts "successfully" to an output without sound. -/
theorem C76_negation_negative {F32 : Files.Float32} {F64 : Files.Float64} {rnd : Rat → Dbl} {h : Endian} (fm : Module → List Byte → List Byte) {fuel : Nat}
    {p : Options} {input output : List Byte} {w : World} {file : List Byte} {u : FileFormat} {t : Trk} {q q' : Nat}
    (hin : w input = some file) (hid : identify file 0 = .ok (some u, q)) (hrd : openRead F32 F64 rnd h fuel file 0 = .ok (t, q'))
    (hne : input ≠ output) (hc : t.f.compression = NONE ∨ t.f.compression = ULAW ∨ t.f.compression = ALAW) (hch : 1 ≤ t.f.channels)
    (hfr : t.frames < 0) (hbuf : bufferFrame t.f < 2 ^ 15) {s' : Setup} {o : Opened} {f : AFmt}
    (ho : openWrite h (Setup.run (newSetup h) (setupCalls p u t.f)) = (s', some o)) (hf : o.f = [f])
    (hcodec : f.compression = NONE ∨ f.compression = ULAW ∨ f.compression = ALAW) (hck : codecCheck h f = some f) {b : List Byte}
    (hout : outBytes F32 F64 h output o f [] (Setup.run (newSetup h) (setupCalls p u t.f)).fileFormat = .ok b) :
    convert F32 F64 rnd h fm fuel p input output w = .exit true (w.set output (some b)) := by
  obtain ⟨v, hb, hsize, -, he⟩ := convert_open fm hin hid hrd hne hc hch hbuf ho hf hcodec hck
  rw [he]
  have hcopy : copy (trackReader h fm file t hb) (virtualFormat (readVirtual h t.f)) = .ok (true, []) := by
    have hset : (Reading.setup (trackReader h fm file t hb) (Reading.init (trackReader h fm file t hb) (virtualFormat (readVirtual h t.f)))).totalv = t.frames := by
      unfold Reading.setup
      split <;> rfl
    unfold copy
    change copyLoop _ _ (Reading.setup _ (Reading.init (trackReader h fm file t hb) (virtualFormat (readVirtual h t.f)))).totalv 0 _ [] = _
    rw [hset, copyLoop, dif_neg (by omega)]
  rw [hcopy]
  change (match outBytes F32 F64 h output o f [] _ with | .ok b => _ | .error _ => _) = _
  rw [hout]
  dsimp only
  congr 1
  unfold World.set
  funext n
  by_cases hn : n = output
  · rw [if_pos hn, if_pos hn]
  · rw [if_neg hn, if_neg hn, if_neg hn]

/-! ## Examples -/

/-- Two frames of two 16-bit samples. -/
def sfNext : List Byte :=
  tag ".snd" ++ [0, 0, 0, 24, 0, 0, 0, 8, 0, 0, 0, 3, 0, 0, 0x1f, 0x40, 0, 0, 0, 2] ++ [0, 1, 0xff, 0xfe, 0x12, 0x34, 0x80, 0]

def sfTrk : Trk :=
  { f := ⟨8000, TWOSCOMP, 16, BIG, ⟨32768, 0, -32768, 32767⟩, 2, NONE⟩, fpp := 1, bpp := 4, first := 24, afterData := 0, dataSize := 8, frames := 2 }

theorem sfTrk_opens (F32 : Files.Float32) (F64 : Files.Float64) (rnd : Rat → Dbl) (h : Endian) (fuel : Nat) :
    ∃ q, openRead F32 F64 rnd h fuel sfNext 0 = .ok (sfTrk, q) := by
  have hid : identify sfNext 0 = .ok (some .next, 0) := by decide +kernel
  have hrd : nextRead h sfNext 0 = .ok (sfTrk, 24) := by cases h <;> decide +kernel
  refine ⟨24, ?_⟩
  unfold openRead
  rw [Rd.bind_ok hid]
  dsimp only [readInit]
  rw [Rd.bind_ok hrd]
  have : codecCheck h sfTrk.f = some sfTrk.f := rfl
  rw [this]
  rfl

example : sound sfNext sfTrk = [[1, -2], [4660, -32768]] := by decide +kernel

/-- `sfconvert in out format next integer 8 2scomp`. -/
def sfOptions : Options := ⟨3, TWOSCOMP, 8, -1, NONE⟩

example : parse [tag "format", tag "next", tag "integer", tag "8", tag "2scomp"] Options.initial = .options sfOptions := by decide +kernel

/-- What the library makes of it. -/
def sfMade (h : Endian) : Setup × Option Opened := openWrite h (Setup.run (newSetup h) (setupCalls sfOptions .next sfTrk.f))

theorem sfMade_format (h : Endian) : ∃ o, sfMade h = ((sfMade h).1, some o) ∧ o.f = [⟨8000, TWOSCOMP, 8, BIG, ⟨128, 0, -128, 127⟩, 2, NONE⟩] := by
  have hm : (sfMade h).2.map (·.f) = some [⟨8000, TWOSCOMP, 8, BIG, ⟨128, 0, -128, 127⟩, 2, NONE⟩] := by cases h <;> decide +kernel
  revert hm
  generalize sfMade h = x
  obtain ⟨a, _ | o⟩ := x
  · intro hm; cases hm
  · intro hm
    exact ⟨o, rfl, Option.some.inj hm⟩

/-- There are jobs. -/
theorem sfJob (F32 : Files.Float32) (F64 : Files.Float64) (rnd : Rat → Dbl) (h : Endian) (fuel : Nat) (input output : List Byte) (w : World)
    (hw : w input = some sfNext) (hne : input ≠ output) :
    ∃ o, Job F32 F64 rnd h fuel sfOptions input output w sfNext .next sfTrk (sfMade h).1 o ⟨8000, TWOSCOMP, 8, BIG, ⟨128, 0, -128, 127⟩, 2, NONE⟩ := by
  obtain ⟨o, hm, hf⟩ := sfMade_format h
  refine ⟨o, hw, hne, ⟨0, by decide +kernel⟩, sfTrk_opens F32 F64 rnd h fuel, ?_, by decide, hm, hf, .inl rfl, ?_, ?_⟩
  · constructor <;> decide +kernel
  · cases h <;> rfl
  · constructor <;> decide


/-- The conversion of the example plays as it should. -/
theorem sfJob_plays (F32 : Files.Float32) (F64 : Files.Float64) (rnd : Rat → Dbl) (h h' : Endian) (fm : Module → List Byte → List Byte)
    (fuel fuel' : Nat) (input output : List Byte) (w : World) (hw : w input = some sfNext) (hne : input ≠ output) :
    ∃ b, convert F32 F64 rnd h fm fuel sfOptions input output w = .exit true (w.set output (some b)) ∧
      ∃ t' q, openRead F32 F64 rnd h' fuel' b 0 = .ok (t', q) ∧ t'.f.rate = 8000 ∧
        PlaysBack h' fm ⟨8000, TWOSCOMP, 8, BIG, ⟨128, 0, -128, 127⟩, 2, NONE⟩ (own h sfTrk.f) (sound sfNext sfTrk) b t' := by
  obtain ⟨o, j⟩ := sfJob F32 F64 rnd h fuel input output w hw hne
  have hfmt : (Setup.run (newSetup h) (setupCalls sfOptions .next sfTrk.f)).fileFormat = .next := by cases h <;> rfl
  exact C76_next fm j hfmt (by decide) (by decide) (by decide +kernel) (by decide +kernel) h' fuel'

/-- An AVR file of four 16-bit frames of which one is missing. -/
def sfCut : List Byte :=
  tag "2BIT" ++ List.replicate 8 0 ++ [0, 0, 0, 16, 0xff, 0xff] ++ List.replicate 4 0 ++ [0, 0, 0x1f, 0x40, 0, 0, 0, 4] ++ List.replicate 98 0 ++
    [0, 1, 0, 2, 0, 3]

def sfCutTrk : Trk :=
  { f := ⟨8000, TWOSCOMP, 16, BIG, ⟨32768, 0, -32768, 32767⟩, 1, NONE⟩, fpp := 1, bpp := 2, first := 128, afterData := 0, dataSize := 8, frames := 4 }

theorem sfCut_opens (F32 : Files.Float32) (F64 : Files.Float64) (rnd : Rat → Dbl) (h : Endian) (fuel : Nat) :
    ∃ q, openRead F32 F64 rnd h fuel sfCut 0 = .ok (sfCutTrk, q) := by
  have hid : identify sfCut 0 = .ok (some .avr, 0) := by decide +kernel
  have hrd : avrRead h sfCut 0 = .ok (sfCutTrk, 128) := by cases h <;> decide +kernel
  refine ⟨128, ?_⟩
  unfold openRead
  rw [Rd.bind_ok hid]
  dsimp only [readInit]
  rw [Rd.bind_ok hrd]
  have : codecCheck h sfCutTrk.f = some sfCutTrk.f := rfl
  rw [this]
  rfl

/-- `C76_incomplete` is not vacuous. -/
theorem sfCut_fails (F32 : Files.Float32) (F64 : Files.Float64) (rnd : Rat → Dbl) (h : Endian) (fm : Module → List Byte → List Byte)
    (fuel : Nat) (input output : List Byte) (w : World) (hw : w input = some sfCut) (hne : input ≠ output) :
    convert F32 F64 rnd h fm fuel sfOptions input output w = .exit false (w.set output none) := by
  have hm : (openWrite h (Setup.run (newSetup h) (setupCalls sfOptions .avr sfCutTrk.f))).2.map (·.f) =
      some [⟨8000, TWOSCOMP, 8, BIG, ⟨128, 0, -128, 127⟩, 1, NONE⟩] := by cases h <;> decide +kernel
  obtain ⟨q, hq⟩ := sfCut_opens F32 F64 rnd h fuel
  cases ho : openWrite h (Setup.run (newSetup h) (setupCalls sfOptions .avr sfCutTrk.f)) with
  | mk a b =>
    rw [ho] at hm
    cases b with
    | none => cases hm
    | some o =>
      exact C76_incomplete fm hw (q := 0) (by decide +kernel) hq hne (.inl rfl) (by decide) (by decide) (by decide +kernel) (by decide) ho
        (Option.some.inj hm) (.inl rfl) (by cases h <;> rfl)

/-- A NIST file that says it has −5 frames. -/
def sfNistText : List Byte := nistMagic ++ tag "channel_count -i 1\nsample_n_bytes -i 2\nsample_byte_format -s2 10\nsample_rate -i 8000\nsample_count -i -5\nend_head\n"

def sfNist : List Byte := sfNistText ++ List.replicate (1024 - sfNistText.length) 32

def sfNistTrk : Trk :=
  { f := ⟨8000, TWOSCOMP, 16, BIG, ⟨32768, 0, -32768, 32767⟩, 1, NONE⟩, fpp := 1, bpp := 2, first := 1024, afterData := 0, dataSize := 0
    frames := -5 }

theorem sfNist_opens (F32 : Files.Float32) (F64 : Files.Float64) (rnd : Rat → Dbl) (h : Endian) (fuel : Nat) :
    ∃ q, openRead F32 F64 rnd h fuel sfNist 0 = .ok (sfNistTrk, q) := by
  have hid : identify sfNist 0 = .ok (some .nist, 0) := by decide +kernel
  have hrd : nistRead h sfNist 0 = .ok (sfNistTrk, 1024) := by cases h <;> decide +kernel
  refine ⟨1024, ?_⟩
  unfold openRead
  rw [Rd.bind_ok hid]
  dsimp only [readInit]
  rw [Rd.bind_ok hrd]
  have : codecCheck h sfNistTrk.f = some sfNistTrk.f := rfl
  rw [this]
  rfl

/-- `C76_negation_negative` is not vacuous. -/
theorem sfNist_converts (F32 : Files.Float32) (F64 : Files.Float64) (rnd : Rat → Dbl) (h : Endian) (fm : Module → List Byte → List Byte)
    (fuel : Nat) (input output : List Byte) (w : World) (hw : w input = some sfNist) (hne : input ≠ output) :
    ∃ b, convert F32 F64 rnd h fm fuel sfOptions input output w = .exit true (w.set output (some b)) := by
  have hm : (openWrite h (Setup.run (newSetup h) (setupCalls sfOptions .nist sfNistTrk.f))).2.map (·.f) =
      some [⟨8000, TWOSCOMP, 8, BIG, ⟨128, 0, -128, 127⟩, 1, NONE⟩] := by cases h <;> decide +kernel
  have hfmt : (Setup.run (newSetup h) (setupCalls sfOptions .nist sfNistTrk.f)).fileFormat = .next := by cases h <;> rfl
  obtain ⟨q, hq⟩ := sfNist_opens F32 F64 rnd h fuel
  cases ho : openWrite h (Setup.run (newSetup h) (setupCalls sfOptions .nist sfNistTrk.f)) with
  | mk a b =>
    rw [ho] at hm
    cases b with
    | none => cases hm
    | some o =>
      refine ⟨_, C76_negation_negative fm hw (q := 0) (by decide +kernel) hq hne (.inl rfl) (by decide) (by decide) (by decide) ho
        (Option.some.inj hm) (.inl rfl) (by cases h <;> rfl) (by rw [hfmt]; rfl)⟩

end AF.SfConvert
