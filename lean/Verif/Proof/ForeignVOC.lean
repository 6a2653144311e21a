import Verif.Proof.ForeignSimple
/-!
# Reading Creative Voice files of other programs
-/
namespace AF.Foreign
open AF AF.Setup AF.Files AF.Spec.Files AF.Spec.Formats AF.Spec.Setup AF.Spec.Foreign

theorem block_head {t n : Nat} (ht : t < 256) : [BitVec.ofNat 8 t] ++ le 3 n = num .little 4 (t + 256 * n) := by
  show BitVec.ofNat 8 t :: leBytes 3 n = BitVec.ofInt 8 ((t + 256 * n : Nat) : Int) :: leBytes 3 (((t + 256 * n : Nat) : Int) / 256)
  congr 1
  · apply BitVec.eq_of_toNat_eq
    rw [BitVec.toNat_ofNat, BitVec.toNat_ofInt]
    omega
  · congr 1
    omega

theorem block_length (b : Block) : b.bytes.length = 4 + b.body.length := by
  unfold Block.bytes
  simp only [List.length_append, le_length, List.length_cons, List.length_nil]

/-- The header of a block. -/
theorem voc_block {h : Endian} {file rest : List Byte} {p : Nat} {b : Block} (he : file.drop p = b.bytes ++ rest)
    (ht : b.type < 256) (hs : b.body.length < 2 ^ 24) :
    p < file.length ∧ Rd.field? h .little .s4 file p = .ok (some (b.type + 256 * b.body.length), p + 4) ∧
    file.drop (p + 4) = b.body ++ rest := by
  unfold Block.bytes at he
  rw [block_head ht, List.append_assoc] at he
  have hl := congrArg List.length he
  rw [List.length_drop, List.length_append, num_length] at hl
  refine ⟨by omega, (field_num (k := .s4) he (show _ < 2 ^ 32 by omega)).1, drop_step he (num_length _ _ _)⟩

theorem voc_other {h : Endian} {file rest : List Byte} {s : VocState} {b : Block}
    (he : file.drop s.position = b.bytes ++ rest) (hb : b.Other) :
    vocRound h s file s.position = .ok (.inl { s with position := s.position + b.bytes.length }, s.position + b.bytes.length) := by
  obtain ⟨h1, h2, -⟩ := voc_block (h := h) he hb.type.1 hb.size
  unfold vocRound
  rw [Rd.bind_ok (a := file.length) (p' := s.position) rfl, if_pos h1, Rd.bind_ok h2]
  have ht := hb.type
  simp only [List.mem_cons, List.not_mem_nil, or_false, not_or] at ht
  have q1 : (b.type + 256 * b.body.length) % 256 = b.type := by omega
  have q2 : (b.type + 256 * b.body.length) / 256 = b.body.length := by omega
  simp only [q1, q2]
  rw [if_neg ht.2.2.1, if_neg ht.2.2.2.1, if_neg ht.2.2.2.2, block_length]
  rfl

/-- Blocks that say nothing about the sound. -/
theorem voc_others {h : Endian} {file : List Byte} (bs : List Block) : ∀ {rest : List Byte} {s : VocState},
    file.drop s.position = bs.flatMap Block.bytes ++ rest → (∀ b ∈ bs, b.Other) → ∀ n,
    Rd.loop (vocRound h) (n + bs.length) s file s.position =
      Rd.loop (vocRound h) n { s with position := s.position + (bs.flatMap Block.bytes).length } file
        (s.position + (bs.flatMap Block.bytes).length) ∧ file.drop (s.position + (bs.flatMap Block.bytes).length) = rest := by
  induction bs with
  | nil => intro rest s he _ n; exact ⟨rfl, he⟩
  | cons b bs ih =>
    intro rest s he hb n
    rw [List.flatMap_cons, List.append_assoc] at he
    have h1 := voc_other (h := h) he (hb b List.mem_cons_self)
    have h2 := drop_step he rfl
    have h3 := ih (s := { s with position := s.position + b.bytes.length }) h2 (fun c hc => hb c (List.mem_cons_of_mem _ hc)) n
    dsimp only at h3
    rw [List.flatMap_cons, List.length_append, List.length_cons, show n + (bs.length + 1) = n + bs.length + 1 by omega, Rd.loop_step h1, h3.1,
      ← Nat.add_assoc]
    exact ⟨rfl, h3.2⟩

/-- A sound block of type 1. -/
theorem voc_old {h : Endian} {file rest sound : List Byte} {s : VocState} {divisor : Nat} (hd : divisor < 256)
    (hsz : sound.length + 12 < 2 ^ 24)
    (he : file.drop s.position = (Block.mk 1 (le 1 divisor ++ le 1 0 ++ sound)).bytes ++ rest) (ht : s.track = none)
    (hr : rest.length = 1) (rate channels : Nat) (hc : channels = 1 ∨ channels = 2)
    (hext : s.ext = some ((channels : Int), (rate : Rat)) ∨ s.ext = none ∧ channels = 1 ∧ rate = 1000000 / (256 - divisor)) :
    ∃ T, vocRound h s file s.position = .ok (.inl { s with position := s.position + 6 + sound.length, track := some T },
        s.position + 6 + sound.length) ∧
      SameSound (described rate channels LITTLE (unsigned 8)) sound (sound.length / channels) file T := by
  have hbl : (le 1 divisor ++ le 1 0 ++ sound).length = 2 + sound.length := by
    simp only [List.length_append, le_length]
  obtain ⟨h1, h2, h3⟩ := voc_block (h := h) he (show 1 < 256 by decide) (by show (le 1 divisor ++ le 1 0 ++ sound).length < _; rw [hbl]; omega)
  dsimp only at h2 h3
  rw [hbl] at h2
  have hlen := congrArg List.length h3
  rw [List.length_drop, List.length_append, hbl] at hlen
  have e1 : file.drop (s.position + 4) = num .little 1 divisor ++ (num .little 1 0 ++ (sound ++ rest)) := by
    rw [h3]; simp only [List.append_assoc, le_num]
  have e2 := drop_step e1 (num_length _ _ _)
  have e3 := drop_step e2 (num_length _ _ _)
  unfold vocRound
  rw [Rd.bind_ok (a := file.length) (p' := s.position) rfl, if_pos h1, Rd.bind_ok h2]
  have q1 : (1 + 256 * (2 + sound.length)) % 256 = 1 := by omega
  have q2 : (1 + 256 * (2 + sound.length)) / 256 = 2 + sound.length := by omega
  simp only [q1, q2]
  rw [if_pos trivial, if_neg (by rw [ht]; simp), Rd.bind_ok (field_num (k := .s1) e1 hd).1,
    Rd.bind_ok (field_num (k := .s1) e2 (show 0 < 256 by decide)).2, if_neg (by decide)]
  have hq : s.position + (4 + (2 + sound.length)) = s.position + 6 + sound.length := by omega
  rw [hq]
  refine ⟨Trk.computeTotalFileFrames
    { f := (setSampleFormat ⟨(rate : Rat), 0, 0, LITTLE, ⟨0, 0, 0, 0⟩, (channels : Int), NONE⟩ UNSIGNED 8).2, fpp := 1
      bpp := pcmBytesPerPacket (setSampleFormat ⟨(rate : Rat), 0, 0, LITTLE, ⟨0, 0, 0, 0⟩, (channels : Int), NONE⟩ UNSIGNED 8).2
      first := ((s.position + 6 : Nat) : Int), afterData := 0
      dataSize := (file.length : Int) - 1 - ((s.position + 6 : Nat) : Int), frames := 0 }, ?_, ?_⟩
  · rcases hext with he | ⟨he, hc1, hr1⟩
    · rw [he]; rfl
    · rw [he, hc1, hr1]; rfl
  generalize hg : AFmt.mk (rate : Rat) 402 8 LITTLE ⟨0, 0, 0, 0⟩ (channels : Int) NONE = g
  have good : Kind.Good (unsigned 8) := good_unsigned (by decide)
  have hF : Found h (described rate channels LITTLE (unsigned 8)) g := by
    rw [← hg]; exact ⟨rfl, rfl, rfl, rfl, rfl, fun _ _ => rfl⟩
  have := found_counted' (h := h) (k := unsigned 8) (rate := (rate : Rat)) (channels := channels) (order := LITTLE) (g := g)
    (f := (setSampleFormat g g.sampleFormat g.sampleWidth).2) (file := file) (sound := sound) (first := s.position + 6) (ad := 0) (fr := 0)
    (size := (file.length : Int) - 1 - ((s.position + 6 : Nat) : Int)) (bpp := (channels : Int)) good hF rfl (by omega) (by omega) (by omega) (by omega)
    (by show (channels : Int) = (((8 + 7) / 8 * channels : Nat) : Int); omega)
    (by have e3' : file.drop (s.position + 6) = sound ++ rest := e3
        rw [e3', List.take_left])
  have hb : (unsigned 8).bytes * channels = channels := by show (8 + 7) / 8 * channels = channels; omega
  rw [hb] at this
  have hset : ∀ g' : AFmt, (setSampleFormat g' UNSIGNED 8).2.channels = g'.channels ∧ (setSampleFormat g' UNSIGNED 8).2.sampleWidth = 8 := by
    intro g'
    obtain ⟨m, -, hm⟩ := set_legal g' (a := 402) (b := 8) (.inl ⟨.inr rfl, by decide, by decide⟩)
    show (setSampleFormat g' 402 8).2.channels = _ ∧ (setSampleFormat g' 402 8).2.sampleWidth = _
    rw [hm]; exact ⟨rfl, rfl⟩
  have hbp : pcmBytesPerPacket (setSampleFormat ⟨(rate : Rat), 0, 0, LITTLE, ⟨0, 0, 0, 0⟩, (channels : Int), NONE⟩ UNSIGNED 8).2 = (channels : Int) := by
    unfold pcmBytesPerPacket
    rw [(hset _).1, (hset _).2]
    show (15 : Int).tdiv 8 * (channels : Int) = _
    have : (15 : Int).tdiv 8 = 1 := by decide
    rw [this]; omega
  rw [hbp]
  have hff : (setSampleFormat g g.sampleFormat g.sampleWidth).2 =
      (setSampleFormat ⟨(rate : Rat), 0, 0, LITTLE, ⟨0, 0, 0, 0⟩, (channels : Int), NONE⟩ UNSIGNED 8).2 := by
    obtain ⟨m, e, hm⟩ := set_legal g (a := 402) (b := 8) (.inl ⟨.inr rfl, by decide, by decide⟩)
    obtain ⟨m', e', hm'⟩ := set_legal ⟨(rate : Rat), 0, 0, LITTLE, ⟨0, 0, 0, 0⟩, (channels : Int), NONE⟩ (a := 402) (b := 8)
      (.inl ⟨.inr rfl, by decide, by decide⟩)
    have g1 : g.sampleFormat = 402 := by rw [← hg]
    have g2 : g.sampleWidth = 8 := by rw [← hg]
    rw [g1, g2, hm]
    show _ = (setSampleFormat _ 402 8).2
    rw [hm', e, e', ← hg]
  rw [hff] at this
  exact this

/-- The format of a block of type 9. -/
theorem voc_kind {h : Endian} {e : Nat} {k : Kind} (hk : (VocSound.new 0 0 0 e 0).kind = some k) (rate : Rat) (c : Nat) :
    Kind.Good k ∧ ∃ g, vocSample h rate (c : Int) e = some (setSampleFormat g g.sampleFormat g.sampleWidth).2 ∧
      Found h (described rate c LITTLE k) g := by
  unfold VocSound.kind at hk
  dsimp only at hk
  split at hk
  all_goals first | (cases hk; done) | skip
  all_goals injection hk with hk; subst hk
  · refine ⟨good_unsigned (by decide), ⟨rate, 402, 8, LITTLE, ⟨0, 0, 0, 0⟩, c, NONE⟩, ?_, ⟨rfl, rfl, rfl, rfl, rfl, fun _ _ => rfl⟩⟩
    simp [vocSample, UNSIGNED, TWOSCOMP, setSampleFormat, sampleSizeUncompressed]
  · refine ⟨good_signed (by decide), ⟨rate, 401, 16, LITTLE, ⟨0, 0, 0, 0⟩, c, NONE⟩, ?_, ⟨rfl, rfl, rfl, rfl, rfl, fun _ _ => rfl⟩⟩
    simp [vocSample, UNSIGNED, TWOSCOMP, setSampleFormat, sampleSizeUncompressed]
  · refine ⟨good_aLaw, ⟨rate, 401, 16, native h, ⟨0, 0, 0, 0⟩, c, ALAW⟩, ?_, ⟨rfl, rfl, rfl, rfl, rfl, fun h => by cases h⟩⟩
    simp [vocSample, UNSIGNED, TWOSCOMP, setSampleFormat, sampleSizeUncompressed]
  · refine ⟨good_muLaw, ⟨rate, 401, 16, native h, ⟨0, 0, 0, 0⟩, c, ULAW⟩, ?_, ⟨rfl, rfl, rfl, rfl, rfl, fun h => by cases h⟩⟩
    simp [vocSample, UNSIGNED, TWOSCOMP, setSampleFormat, sampleSizeUncompressed]

/-- A sound block of type 9. -/
theorem voc_new {h : Endian} {file rest sound : List Byte} {s : VocState} {rate bits channels format reserved : Nat} {k : Kind}
    (hsz : sound.length + 12 < 2 ^ 24) (hr : rate < 2 ^ 32) (hc : 1 ≤ channels ∧ channels < 256) (hf : format < 2 ^ 16)
    (he : file.drop s.position =
      (Block.mk 9 (le 4 rate ++ le 1 bits ++ le 1 channels ++ le 2 format ++ le 4 reserved ++ sound)).bytes ++ rest) (ht : s.track = none)
    (hk : (VocSound.new 0 0 0 format 0).kind = some k) :
    ∃ T, vocRound h s file s.position = .ok (.inl { s with position := s.position + 16 + sound.length, track := some T },
        s.position + 16 + sound.length) ∧
      SameSound (described rate channels LITTLE k) sound (sound.length / (k.bytes * channels)) file T := by
  have hbl : (le 4 rate ++ le 1 bits ++ le 1 channels ++ le 2 format ++ le 4 reserved ++ sound).length = 12 + sound.length := by
    simp only [List.length_append, le_length]
  obtain ⟨h1, h2, h3⟩ := voc_block (h := h) he (show 9 < 256 by decide) (by dsimp only; rw [hbl]; omega)
  dsimp only at h2 h3
  rw [hbl] at h2
  have e1 : file.drop (s.position + 4) = num .little 4 rate ++ (num .little 1 bits ++ (num .little 1 channels ++ (num .little 2 format ++
      (num .little 4 reserved ++ (sound ++ rest))))) := by
    rw [h3]; simp only [List.append_assoc, le_num]
  have e2 := drop_step e1 (num_length _ _ _)
  have e3 := drop_step e2 (num_length _ _ _)
  have e4 := drop_step e3 (num_length _ _ _)
  have e5 := drop_step e4 (num_length _ _ _)
  have e6 := drop_step e5 (num_length _ _ _)
  obtain ⟨y1, hy1, -⟩ := field_any (h := h) (k := .s1) e2
  obtain ⟨y2, hy2, -⟩ := field_any (h := h) (k := .s4) e5
  obtain ⟨good, g, hg, hF⟩ := voc_kind (h := h) hk (rate : Rat) channels
  unfold vocRound
  rw [Rd.bind_ok (a := file.length) (p' := s.position) rfl, if_pos h1, Rd.bind_ok h2]
  have q1 : (9 + 256 * (12 + sound.length)) % 256 = 9 := by omega
  have q2 : (9 + 256 * (12 + sound.length)) / 256 = 12 + sound.length := by omega
  simp only [q1, q2]
  rw [if_neg (by decide), if_neg (by decide), if_pos trivial, if_neg (by rw [ht]; simp),
    Rd.bind_ok (field_num (k := .s4) e1 (show _ < 2 ^ 32 from hr)).2, Rd.bind_ok hy1,
    Rd.bind_ok (field_num (k := .s1) e3 (show _ < 256 from hc.2)).2, Rd.bind_ok (field_num (k := .s2) e4 (show _ < 65536 from hf)).2,
    Rd.bind_ok hy2, if_neg (by omega), Rd.bind_ok (a := s.position + 16) (p' := s.position + 16) rfl, hg]
  dsimp only
  rw [Rd.bind_ok (a := ()) (p' := s.position + (4 + (12 + sound.length))) rfl]
  have hq : s.position + (4 + (12 + sound.length)) = s.position + 16 + sound.length := by omega
  rw [hq]
  refine ⟨_, rfl, ?_⟩
  obtain ⟨m, -, hm⟩ := set_self (f := g) (by rw [hF.sampleFormat, hF.width]; exact good.1)
  refine found_counted' good hF rfl hc.1 (by omega) (by omega) ?_ ?_ ?_
  · rw [wrapU_id (by omega) (by omega)]; omega
  · rw [← found_bpp hF, hm]; rfl
  · have e6' : file.drop (s.position + 16) = sound ++ rest := e6
    rw [e6', List.take_left]

/-- What comes after the sound: other blocks and the terminator. -/
theorem voc_end {h : Endian} {file : List Byte} {s : VocState} {bs : List Block}
    (he : file.drop s.position = bs.flatMap Block.bytes ++ [0]) (hb : ∀ b ∈ bs, b.Other) (n : Nat) :
    ∃ p, Rd.loop (vocRound h) (n + 1 + bs.length) s file s.position = .ok (s.track, p) := by
  obtain ⟨h1, h2⟩ := voc_others (h := h) bs he hb (n + 1)
  rw [h1]
  generalize hq : s.position + (bs.flatMap Block.bytes).length = q at *
  refine ⟨q + 1, Rd.loop_done ?_⟩
  have hl := congrArg List.length h2
  rw [List.length_drop, List.length_cons, List.length_nil] at hl
  unfold vocRound
  rw [Rd.bind_ok (a := file.length) (p' := q) rfl]
  dsimp only
  rw [if_pos (by omega)]
  have hfld : Rd.field? h .little .s4 file q = .ok (none, q + 1) := by
    unfold Rd.field?
    rw [h2]
    rfl
  rw [Rd.bind_ok hfld]
  rfl

theorem other_length {bs : List Block} : bs.length ≤ (bs.flatMap Block.bytes).length := by
  induction bs with
  | nil => exact Nat.le_refl _
  | cons b bs ih =>
    rw [List.flatMap_cons, List.length_append, List.length_cons, block_length]
    omega

/-- What the sound part does. -/
theorem voc_sound {h : Endian} {file rest sound : List Byte} {s : VocState} {x : VocSound} {k : Kind} (ok : x.Ok sound) (hk : x.kind = some k)
    (he : file.drop s.position = x.bytes sound ++ rest) (h1 : s.track = none) (h2 : s.ext = none)
    (hr : rest.length = 1 ∨ ∃ a b c d e, x = .new a b c d e) :
    ∃ j T ext, j ≤ (x.bytes sound).length ∧ (∀ n, Rd.loop (vocRound h) (n + j) s file s.position =
        Rd.loop (vocRound h) n ⟨s.position + (x.bytes sound).length, ext, some T⟩ file (s.position + (x.bytes sound).length)) ∧
      SameSound (described x.rate x.channels LITTLE k) sound (sound.length / (k.bytes * x.channels)) file T := by
  have hf := ok.fields
  have hz := ok.size
  cases x with
  | old divisor =>
    dsimp only at hf
    have hr' : rest.length = 1 := hr.resolve_right (by rintro ⟨a, b, c, d, e, h⟩; cases h)
    obtain ⟨T, e1, e2⟩ := voc_old (h := h) hf hz he h1 hr' (1000000 / (256 - divisor)) 1 (.inl rfl) (.inr ⟨h2, rfl, rfl⟩)
    injection hk with hk; subst hk
    have hl : ((VocSound.old divisor).bytes sound).length = 6 + sound.length := by
      unfold VocSound.bytes; dsimp only; rw [block_length]; dsimp only; simp only [List.length_append, le_length]; omega
    refine ⟨1, T, s.ext, by omega, fun n => ?_, ?_⟩
    · rw [Rd.loop_step e1, hl, Nat.add_assoc]
    · exact e2
  | extended precise pack stereo between divisor =>
    dsimp only at hf
    have hr' : rest.length = 1 := hr.resolve_right (by rintro ⟨a, b, c, d, e, h⟩; cases h)
    unfold VocSound.bytes at he ⊢
    dsimp only at he ⊢
    generalize hB1 : Block.mk 8 (le 2 precise ++ le 1 pack ++ le 1 (if stereo then 1 else 0)) = B1 at *
    have hb1 : B1.body.length = 4 := by rw [← hB1]; simp only [List.length_append, le_length]
    have hb0 : B1.type = 8 := by rw [← hB1]
    rw [List.append_assoc, List.append_assoc] at he
    obtain ⟨a1, a2, a3⟩ := voc_block (h := h) he (by rw [hb0]; decide) (by rw [hb1]; decide)
    have hl1 : B1.bytes.length = 8 := by rw [block_length, hb1]
    have he2 := drop_step he rfl
    rw [hl1] at he2
    have c1 : file.drop (s.position + 4) = num .little 2 precise ++ (num .little 1 pack ++ (num .little 1 (if stereo then 1 else 0) ++
        (between.flatMap Block.bytes ++ ((Block.mk 1 (le 1 divisor ++ le 1 0 ++ sound)).bytes ++ rest)))) := by
      rw [a3, ← hB1]; simp only [List.append_assoc, le_num]
    have c2 := drop_step c1 (num_length _ _ _)
    have c3 := drop_step c2 (num_length _ _ _)
    obtain ⟨y1, hy1, -⟩ := field_any (h := h) (k := .s1) c2
    have hround : vocRound h s file s.position = .ok (.inl ⟨s.position + 8, some (((if stereo then 2 else 1 : Nat) : Int),
        (((VocSound.extended precise pack stereo between divisor).rate : Nat) : Rat)), none⟩, s.position + 8) := by
      unfold vocRound
      rw [Rd.bind_ok (a := file.length) (p' := s.position) rfl, if_pos a1, Rd.bind_ok a2]
      have q1 : (B1.type + 256 * B1.body.length) % 256 = 8 := by rw [hb0, hb1]
      have q2 : (B1.type + 256 * B1.body.length) / 256 = 4 := by rw [hb0, hb1]
      simp only [q1, q2]
      rw [if_neg (by decide), if_pos trivial, if_neg (by rw [h1]; simp), Rd.bind_ok (field_num (k := .s2) c1 (show _ < 65536 from hf.1)).2,
        Rd.bind_ok hy1, Rd.bind_ok (field_num (k := .s1) c3 (show _ < 256 by split <;> decide)).2,
        Rd.bind_ok (a := ()) (p' := s.position + (4 + 4)) rfl, h1]
      unfold VocSound.rate
      cases stereo <;> rfl
    generalize hrate : (VocSound.extended precise pack stereo between divisor).rate = R at *
    generalize hS1 : VocState.mk (s.position + 8) (some (((if stereo then 2 else 1 : Nat) : Int), (R : Rat))) none = S1 at hround
    have p1 : S1.position = s.position + 8 := by rw [← hS1]
    rw [← p1] at he2
    have hw := fun n => voc_others (h := h) between he2 hf.2.2 n
    generalize hS2 : VocState.mk (S1.position + (between.flatMap Block.bytes).length) S1.ext S1.track = S2
    have p2 : S2.position = S1.position + (between.flatMap Block.bytes).length := by rw [← hS2]
    have he3 := (hw 0).2
    rw [← p2] at he3
    obtain ⟨T, e1, e2⟩ := voc_old (h := h) (s := S2) hf.2.1 hz he3 (by rw [← hS2, ← hS1]) hr' R (if stereo then 2 else 1) (by split <;> simp)
      (.inl (by rw [← hS2, ← hS1]))
    injection hk with hk; subst hk
    have hol := other_length (bs := between)
    have hl2 : (Block.mk 1 (le 1 divisor ++ le 1 0 ++ sound)).bytes.length = 6 + sound.length := by
      rw [block_length]; dsimp only; simp only [List.length_append, le_length]; omega
    have hlen : (B1.bytes ++ between.flatMap Block.bytes ++ (Block.mk 1 (le 1 divisor ++ le 1 0 ++ sound)).bytes).length =
        14 + (between.flatMap Block.bytes).length + sound.length := by
      rw [List.length_append, List.length_append, hl1, hl2]; omega
    rw [hlen]
    refine ⟨1 + between.length + 1, T, S2.ext, by omega, fun n => ?_, ?_⟩
    · rw [show n + (1 + between.length + 1) = n + 1 + between.length + 1 by omega, Rd.loop_step hround, ← p1, (hw (n + 1)).1, ← p2]
      have : VocState.mk S2.position S1.ext S1.track = S2 := by rw [← hS2]
      rw [this, Rd.loop_step e1]
      have : S2.position + 6 + sound.length = s.position + (14 + (between.flatMap Block.bytes).length + sound.length) := by omega
      rw [this]
    · have hb : (unsigned 8).bytes = 1 := rfl
      rw [hb, Nat.one_mul]
      exact e2
  | new rate bits channels format reserved =>
    dsimp only at hf
    obtain ⟨T, e1, e2⟩ := voc_new (h := h) hz hf.1 ⟨hf.2.1, hf.2.2.1⟩ hf.2.2.2 he h1 hk
    have hl : ((VocSound.new rate bits channels format reserved).bytes sound).length = 16 + sound.length := by
      unfold VocSound.bytes; dsimp only; rw [block_length]; dsimp only; simp only [List.length_append, le_length]; omega
    refine ⟨1, T, s.ext, by omega, fun n => ?_, e2⟩
    rw [Rd.loop_step e1, hl, Nat.add_assoc]

theorem voc_found (h : Endian) (x : Voc) (ok : x.Ok) {k : Kind} (hk : x.soundBlock.kind = some k)
    (ha : x.after = [] ∨ ∃ a b c d e, x.soundBlock = .new a b c d e) {fuel : Nat} (hfuel : x.file.length < fuel) :
    ∃ t p, vocRead h fuel x.file 0 = .ok (t, p) ∧ SameSound (described x.soundBlock.rate x.soundBlock.channels LITTLE k) x.sound
      (x.sound.length / (k.bytes * x.soundBlock.channels)) x.file t := by
  have hv := ok.version
  have e0 : x.file.drop 0 = (text "Creative Voice File" ++ [0x1a]) ++ (x.version ++ (x.before.flatMap Block.bytes ++ (x.soundBlock.bytes x.sound ++
      (x.after.flatMap Block.bytes ++ [0])))) := by
    rw [List.drop_zero]
    unfold Voc.file
    simp only [List.append_assoc]
  have hml : (text "Creative Voice File" ++ [0x1a]).length = 20 := rfl
  have hlen := congrArg List.length e0
  rw [List.drop_zero] at hlen
  simp only [List.length_append, List.length_cons, List.length_nil, hv] at hlen
  have htl : (text "Creative Voice File").length = 19 := rfl
  have e1 := drop_step e0 hml
  have e2 := drop_step e1 hv
  have hfield : ∀ p, p + 2 ≤ x.file.length → ∃ y, Rd.field? h .little .s2 x.file p = .ok (y, p + 2) := by
    intro p hp
    unfold Rd.field?
    rw [readField_eq, if_pos (by show 2 ≤ _; rw [List.length_drop]; omega)]
    exact ⟨_, rfl⟩
  obtain ⟨y1, hy1⟩ := hfield 20 (by omega)
  obtain ⟨y2, hy2⟩ := hfield 22 (by omega)
  obtain ⟨y3, hy3⟩ := hfield 24 (by omega)
  unfold vocRead
  rw [Rd.bind_ok (a := ()) (p' := 20) rfl, Rd.bind_ok hy1, Rd.bind_ok hy2, Rd.bind_ok hy3, Rd.bind_ok (a := 26) (p' := 26) rfl]
  have e2' : x.file.drop 26 = x.before.flatMap Block.bytes ++ (x.soundBlock.bytes x.sound ++ (x.after.flatMap Block.bytes ++ [0])) := e2
  have w1 := fun n => voc_others (h := h) (s := ⟨26, none, none⟩) x.before e2' ok.before n
  have e3 := (w1 0).2
  dsimp only at w1 e3
  obtain ⟨j, T, ext, hj, w2, same⟩ := voc_sound (h := h) (s := ⟨26 + (x.before.flatMap Block.bytes).length, none, none⟩) ok.soundOk hk e3 rfl rfl
    (by rcases ha with ha | ha
        · rw [ha]; exact .inl rfl
        · exact .inr ha)
  have e4 := drop_step e3 rfl
  dsimp only at w2
  have o1 := other_length (bs := x.before)
  have o2 := other_length (bs := x.after)
  obtain ⟨N, hN⟩ : ∃ N, fuel = (N + 1 + x.after.length) + j + x.before.length := ⟨fuel - 1 - x.after.length - j - x.before.length, by omega⟩
  obtain ⟨p, hp⟩ := voc_end (h := h) (s := ⟨26 + (x.before.flatMap Block.bytes).length + (x.soundBlock.bytes x.sound).length, ext, some T⟩) e4
    ok.after N
  have hall : Rd.loop (vocRound h) fuel ⟨26, none, none⟩ x.file 26 = .ok (some T, p) := by
    rw [hN, (w1 _).1, w2]
    exact hp
  rw [Rd.bind_ok hall]
  exact ⟨T, p, rfl, same⟩

end AF.Foreign
