import Verif.Proof.Foreign
/-!
# Reading NeXT, AVR and IRCAM files of other programs
-/
namespace AF.Foreign
open AF AF.Setup AF.Files AF.Spec.Files AF.Spec.Formats AF.Spec.Setup AF.Spec.Foreign

theorem good_signed {w : Nat} (h : 1 ≤ w ∧ w ≤ 32) : Kind.Good (signed w) := by
  refine ⟨.inl ⟨.inl rfl, ?_⟩, .inl rfl⟩
  show (1 : Int) ≤ (w : Int) ∧ (w : Int) ≤ 32
  omega
theorem good_unsigned {w : Nat} (h : 1 ≤ w ∧ w ≤ 32) : Kind.Good (unsigned w) := by
  refine ⟨.inl ⟨.inr rfl, ?_⟩, .inl rfl⟩
  show (1 : Int) ≤ (w : Int) ∧ (w : Int) ≤ 32
  omega
theorem good_float : Kind.Good float := ⟨.inr (.inl ⟨rfl, rfl⟩), .inl rfl⟩
theorem good_double : Kind.Good double := ⟨.inr (.inr ⟨rfl, rfl⟩), .inl rfl⟩
theorem good_muLaw : Kind.Good muLaw := ⟨.inl ⟨.inl rfl, by decide, by decide⟩, .inr ⟨rfl, rfl, .inl rfl⟩⟩
theorem good_aLaw : Kind.Good aLaw := ⟨.inl ⟨.inl rfl, by decide, by decide⟩, .inr ⟨rfl, rfl, .inr rfl⟩⟩

/-! ## NeXT -/

theorem next_kind {h : Endian} {e : Nat} {k : Kind} (hk : nextKind e = some k) (rate : Rat) (c : Nat) :
    Kind.Good k ∧ ∃ g, nextFormat h ⟨rate, 0, 0, BIG, ⟨0, 0, 0, 0⟩, (c : Int), NONE⟩ e = some g ∧ Found h (described rate c BIG k) g := by
  unfold nextKind at hk
  split at hk
  all_goals first | (cases hk; done) | skip
  all_goals injection hk with hk; subst hk
  · exact ⟨good_muLaw, _, rfl, ⟨rfl, rfl, rfl, rfl, rfl, fun h => by cases h⟩⟩
  · exact ⟨good_signed (by decide), _, rfl, ⟨rfl, rfl, rfl, rfl, rfl, fun _ _ => rfl⟩⟩
  · exact ⟨good_signed (by decide), _, rfl, ⟨rfl, rfl, rfl, rfl, rfl, fun _ _ => rfl⟩⟩
  · exact ⟨good_signed (by decide), _, rfl, ⟨rfl, rfl, rfl, rfl, rfl, fun _ _ => rfl⟩⟩
  · exact ⟨good_signed (by decide), _, rfl, ⟨rfl, rfl, rfl, rfl, rfl, fun _ _ => rfl⟩⟩
  · exact ⟨good_float, _, rfl, ⟨rfl, rfl, rfl, rfl, rfl, fun _ _ => rfl⟩⟩
  · exact ⟨good_double, _, rfl, ⟨rfl, rfl, rfl, rfl, rfl, fun _ _ => rfl⟩⟩
  · exact ⟨good_aLaw, _, rfl, ⟨rfl, rfl, rfl, rfl, rfl, fun h => by cases h⟩⟩

theorem next_read (h : Endian) (x : Next) (ok : x.Ok) {k : Kind} (hk : nextKind x.encoding = some k) :
    ∃ t p, nextRead h x.file 0 = .ok (t, p) ∧
      SameSound (described x.rate x.channels BIG k) x.sound (x.sound.length / (k.bytes * x.channels)) x.file t := by
  have hlen : x.file.length = 24 + x.comment.length + x.sound.length + x.rest.length := by
    unfold Next.file
    simp only [List.length_append, be_length]
    have : (text ".snd").length = 4 := rfl
    omega
  have e0 : x.file.drop 0 = text ".snd" ++ (num .big 4 (24 + x.comment.length) ++ (num .big 4 x.size ++ (num .big 4 x.encoding ++
      (num .big 4 x.rate ++ (num .big 4 x.channels ++ (x.comment ++ (x.sound ++ x.rest))))))) := by
    rw [List.drop_zero]
    unfold Next.file
    simp only [List.append_assoc, be_num]
  have hl := ok.length
  have e1 := drop_step e0 (n := 4) rfl
  have e2 := drop_step e1 (num_length _ _ _)
  have e3 := drop_step e2 (num_length _ _ _)
  have e4 := drop_step e3 (num_length _ _ _)
  have e5 := drop_step e4 (num_length _ _ _)
  have e6 := drop_step e5 (num_length _ _ _)
  have e7 := drop_step e6 rfl
  have hc := ok.channels
  obtain ⟨good, g, hg, hF⟩ := next_kind (h := h) hk (x.rate : Rat) x.channels
  unfold nextRead
  rw [Rd.bind_ok (a := ()) (p' := 0) rfl, Rd.bind_ok (Rd.read_ok (n := 4) e0 rfl), Rd.bind_ok (field_num (k := .s4) e1 (show _ < 2 ^ 32 by omega)).2,
    Rd.bind_ok (field_num (k := .s4) e2 (show _ < 2 ^ 32 from ok.size.1)).2, Rd.bind_ok (field_num (k := .s4) e3 (show _ < 2 ^ 32 from ok.encoding)).2,
    Rd.bind_ok (field_num (k := .s4) e4 (show _ < 2 ^ 32 from ok.rate)).2, Rd.bind_ok (field_num (k := .s4) e5 (show _ < 2 ^ 32 by omega)).2,
    if_neg (by omega), Rd.bind_ok (a := x.file.length) (p' := 24) rfl]
  dsimp only
  rw [wrapS_id (by omega) (by omega), hg]
  refine ⟨_, _, rfl, ?_⟩
  refine found_counted good hF hc.1 (by omega) (by omega) ?_ ?_
  · have hs := ok.size
    split
    · rename_i hcase
      rw [wrapU_id (by omega) (by omega)]
      have : x.rest.length = 0 ∨ x.size = x.sound.length := by
        rcases hs.2 with h | ⟨h, -⟩
        · exact .inr h
        · rw [h]; exact .inl rfl
      omega
    · rename_i hcase
      rcases hs.2 with h | ⟨h, h'⟩
      · rw [h]
      · rw [h] at hlen
        simp only [List.length_nil] at hlen
        omega
  · have q : 0 + 4 + 4 + 4 + 4 + 4 + 4 + x.comment.length = 24 + x.comment.length := by omega
    rw [q] at e7
    rw [e7, List.take_left]

/-! ## AVR -/

theorem avr_found (h : Endian) (x : Avr) (ok : x.Ok) :
    ∃ t p, avrRead h x.file 0 = .ok (t, p) ∧ SameSound (described x.rate x.channels BIG x.kind) x.sound x.frames x.file t := by
  have e0 : x.file.drop 0 = text "2BIT" ++ (x.name ++ (num .big 2 (if x.stereo then 0xffff else 0) ++
      (num .big 2 (if x.sixteen then 16 else 8) ++ (num .big 2 (if x.isSigned then 0xffff else 0) ++ (num .big 2 x.looped ++
      (num .big 2 x.midi ++ (num .big 4 (x.rateHigh * 2 ^ 24 + x.rate) ++ (num .big 4 x.frames ++ (num .big 4 x.loopStart ++
      (num .big 4 x.loopEnd ++ (x.user.take 26 ++ (x.user.drop 26 ++ (x.sound ++ x.rest))))))))))))) := by
    rw [List.drop_zero]
    unfold Avr.file
    simp only [List.append_assoc, be_num]
    rw [← List.append_assoc (x.user.take 26), List.take_append_drop]
  have hr := ok.rate
  have hu := ok.user
  have e1 := drop_step e0 (n := 4) rfl
  have e2 := drop_step e1 ok.name
  have e3 := drop_step e2 (num_length _ _ _)
  have e4 := drop_step e3 (num_length _ _ _)
  have e5 := drop_step e4 (num_length _ _ _)
  have e6 := drop_step e5 (num_length _ _ _)
  have e7 := drop_step e6 (num_length _ _ _)
  have e8 := drop_step e7 (num_length _ _ _)
  have e9 := drop_step e8 (num_length _ _ _)
  have e10 := drop_step e9 (num_length _ _ _)
  have e11 := drop_step e10 (num_length _ _ _)
  have e12 := drop_step e11 (n := 26) (by rw [List.length_take]; omega)
  have e13 := drop_step e12 (n := 64) (by rw [List.length_drop]; omega)
  obtain ⟨y1, hy1, -⟩ := field_any (h := h) (k := .s2) e5
  obtain ⟨y2, hy2, -⟩ := field_any (h := h) (k := .s2) e6
  obtain ⟨y3, hy3, -⟩ := field_any (h := h) (k := .s4) e9
  obtain ⟨y4, hy4, -⟩ := field_any (h := h) (k := .s4) e10
  unfold avrRead
  rw [Rd.bind_ok (a := ()) (p' := 0) rfl, Rd.bind_ok (Rd.read_ok (n := 4) e0 rfl), if_neg (by simp only [ne_eq]; exact fun hn => hn rfl),
    Rd.bind_ok (Rd.read_ok e1 ok.name), Rd.bind_ok (field_num (k := .s2) e2 (show _ < 65536 by split <;> omega)).2,
    Rd.bind_ok (field_num (k := .s2) e3 (show _ < 65536 by split <;> omega)).2,
    Rd.bind_ok (field_num (k := .s2) e4 (show _ < 65536 by split <;> omega)).2, Rd.bind_ok hy1, Rd.bind_ok hy2,
    Rd.bind_ok (field_num (k := .s4) e7 (show _ < 2 ^ 32 by omega)).2,
    Rd.bind_ok (field_num (k := .s4) e8 (show _ < 2 ^ 32 from ok.frames.1)).2, Rd.bind_ok hy3, Rd.bind_ok hy4,
    Rd.bind_ok (Rd.read_ok e11 (by rw [List.length_take]; omega)), Rd.bind_ok (Rd.read_ok e12 (by rw [List.length_drop]; omega))]
  have q1 : ¬ ((if x.isSigned then 0xffff else 0) ≠ 0 ∧ (if x.isSigned then 0xffff else 0) ≠ 0xffff) := by split <;> omega
  have q2 : ¬ ((if x.sixteen then 16 else 8) ≠ 8 ∧ (if x.sixteen then 16 else 8) ≠ 16) := by split <;> omega
  have q3 : ¬ ((if x.stereo then 0xffff else 0) ≠ 0 ∧ (if x.stereo then 0xffff else 0) ≠ 0xffff) := by split <;> omega
  rw [if_neg q1, if_neg q2, if_neg q3]
  dsimp only
  have q4 : (x.rateHigh * 2 ^ 24 + x.rate) % 2 ^ 24 = x.rate := by omega
  rw [q4]
  have e13' : x.file.drop 128 = x.sound ++ x.rest := e13
  generalize hg : AFmt.mk (x.rate : Rat) (if (if x.isSigned then 0xffff else 0) = 0 then UNSIGNED else TWOSCOMP)
    ((if x.sixteen then 16 else 8 : Nat) : Int) BIG ⟨0, 0, 0, 0⟩ (if (if x.stereo then 0xffff else 0) = 0 then 1 else 2) NONE = g
  have good : Kind.Good x.kind := by
    unfold Avr.kind
    cases x.isSigned <;> cases x.sixteen <;> first | exact good_signed (by decide) | exact good_unsigned (by decide)
  have hF : Found h (described x.rate x.channels BIG x.kind) g := by
    rw [← hg]
    unfold described Avr.kind Avr.channels
    cases x.isSigned <;> cases x.sixteen <;> cases x.stereo <;> exact ⟨rfl, rfl, rfl, rfl, rfl, fun _ _ => rfl⟩
  rw [Rd.bind_ok (a := 128) (p' := 128) rfl]
  have a1 : (if (if x.isSigned then 0xffff else 0) = 0 then UNSIGNED else TWOSCOMP) = g.sampleFormat := by rw [← hg]
  have a2 : ((if x.sixteen then 16 else 8 : Nat) : Int) = g.sampleWidth := by rw [← hg]
  rw [a1, a2]
  refine ⟨_, _, rfl, ?_⟩
  refine found_same good hF rfl (show (0 : Int) ≤ 128 by decide) ?_ ?_ rfl
  · dsimp only
    rw [ok.frames.2]
    obtain ⟨m, -, hm⟩ := set_self (f := g) (by rw [hF.sampleFormat, hF.width]; exact good.1)
    rw [hm, ← hg]
    unfold frameSizeUncompressed sampleSizeUncompressed Avr.kind Avr.channels Kind.bytes
    cases x.isSigned <;> cases x.sixteen <;> cases x.stereo <;> simp [signed, unsigned, FLOAT, DOUBLE, UNSIGNED, TWOSCOMP, NONE] <;> omega
  · show (x.file.drop 128).take _ = _
    rw [e13', List.take_left]

/-! ## IRCAM -/

theorem ircam_kind {h : Endian} {e : Nat} {k : Kind} (hk : ircamKind e = some k) (rate : Rat) (c : Nat) (o : Int) :
    Kind.Good k ∧ ∃ g, ircamFormat h ⟨rate, 0, 0, o, ⟨0, 0, 0, 0⟩, (c : Int), NONE⟩ e = some g ∧ Found h (described rate c o k) g := by
  unfold ircamKind at hk
  by_cases h1 : e = 1
  · subst h1; injection hk with hk; subst hk
    exact ⟨good_signed (by decide), _, rfl, ⟨rfl, rfl, rfl, rfl, rfl, fun _ h => absurd (show (8 : Int) < 8 from h) (by decide)⟩⟩
  rw [if_neg h1] at hk
  by_cases h1 : e = 2
  · subst h1; injection hk with hk; subst hk
    exact ⟨good_signed (by decide), _, rfl, ⟨rfl, rfl, rfl, rfl, rfl, fun _ _ => rfl⟩⟩
  rw [if_neg h1] at hk
  by_cases h1 : e = 3
  · subst h1; injection hk with hk; subst hk
    exact ⟨good_signed (by decide), _, rfl, ⟨rfl, rfl, rfl, rfl, rfl, fun _ _ => rfl⟩⟩
  rw [if_neg h1] at hk
  by_cases h1 : e = 0x40004
  · subst h1; injection hk with hk; subst hk
    exact ⟨good_signed (by decide), _, rfl, ⟨rfl, rfl, rfl, rfl, rfl, fun _ _ => rfl⟩⟩
  rw [if_neg h1] at hk
  by_cases h1 : e = 4
  · subst h1; injection hk with hk; subst hk
    exact ⟨good_float, _, rfl, ⟨rfl, rfl, rfl, rfl, rfl, fun _ _ => rfl⟩⟩
  rw [if_neg h1] at hk
  by_cases h1 : e = 8
  · subst h1; injection hk with hk; subst hk
    exact ⟨good_double, _, rfl, ⟨rfl, rfl, rfl, rfl, rfl, fun _ _ => rfl⟩⟩
  rw [if_neg h1] at hk
  by_cases h1 : e = 0x10001
  · subst h1; injection hk with hk; subst hk
    exact ⟨good_aLaw, _, rfl, ⟨rfl, rfl, rfl, rfl, rfl, fun h => by cases h⟩⟩
  rw [if_neg h1] at hk
  by_cases h1 : e = 0x20001
  · subst h1; injection hk with hk; subst hk
    exact ⟨good_muLaw, _, rfl, ⟨rfl, rfl, rfl, rfl, rfl, fun h => by cases h⟩⟩
  rw [if_neg h1] at hk
  cases hk

/-- The byte order of a file. -/
def orderOf (x : Ircam) : Endian := if x.big then .big else .little

theorem ircam_found (F : Files.Float32) (h : Endian) (x : Ircam) (ok : x.Ok) {k : Kind} (hk : ircamKind x.packing = some k) :
    ∃ t p, ircamRead F h x.file 0 = .ok (t, p) ∧
      SameSound (described (F.dec (BitVec.ofNat 32 x.rate)) x.channels (if x.big then BIG else LITTLE) k) x.sound
        (x.sound.length / (k.bytes * x.channels)) x.file t := by
  generalize hM : (if x.swapped then [0, BitVec.ofNat 8 x.machine.number, 0xa3, 0x64] else
    [0x64, 0xa3, BitVec.ofNat 8 x.machine.number, 0] : List Byte) = M
  have hMl : M.length = 4 := by rw [← hM]; split <;> rfl
  have hfind : ∃ m, ircamMagics.find? (·.1 == M) = some (m, orderOf x) := by
    rw [← hM]
    unfold orderOf Ircam.big
    cases x.swapped <;> cases x.machine <;> exact ⟨_, rfl⟩
  have hn : ∀ j, (if x.big then be 4 j else le 4 j) = num (orderOf x) 4 j := by
    intro j
    unfold orderOf
    cases x.big <;> rfl
  have e0 : x.file.drop 0 = M ++ (num (orderOf x) 4 x.rate ++ (num (orderOf x) 4 x.channels ++ (num (orderOf x) 4 x.packing ++
      (x.comment ++ x.sound)))) := by
    rw [List.drop_zero]
    unfold Ircam.file
    dsimp only
    rw [hn, hn, hn, hM]
    simp only [List.append_assoc]
  have hlen := congrArg List.length e0
  simp only [List.length_append, hMl, num_length, List.drop_zero, ok.comment] at hlen
  have hl := ok.length
  have e1 := drop_step e0 hMl
  have e2 := drop_step e1 (num_length _ _ _)
  have e3 := drop_step e2 (num_length _ _ _)
  have e4 := drop_step e3 (num_length _ _ _)
  have e5 := drop_step e4 ok.comment
  have hc := ok.channels
  obtain ⟨m, hm⟩ := hfind
  have ho : native (orderOf x) = if x.big then BIG else LITTLE := by
    unfold orderOf
    cases x.big <;> rfl
  obtain ⟨good, g, hg, hF⟩ := ircam_kind (h := h) hk (F.dec (BitVec.ofNat 32 x.rate)) x.channels (native (orderOf x))
  unfold ircamRead
  rw [Rd.bind_ok (a := ()) (p' := 0) rfl, Rd.bind_ok (Rd.read_ok e0 hMl), hm]
  dsimp only
  rw [Rd.bind_ok (field_num (k := .s4) e1 (show _ < 2 ^ 32 from ok.rate)).2, Rd.bind_ok (field_num (k := .s4) e2 (show _ < 2 ^ 32 by omega)).2,
    Rd.bind_ok (field_num (k := .s4) e3 (show _ < 2 ^ 32 from ok.packing)).2, if_neg (by omega), hg]
  dsimp only
  rw [Rd.bind_ok (a := x.file.length) (p' := 16) rfl, ← ho]
  refine ⟨_, _, rfl, ?_⟩
  refine found_counted (first := 1024) good hF (by omega) (by omega) (by omega) (by omega) ?_
  have e5' : x.file.drop 1024 = x.sound := e5
  rw [e5', List.take_length]

end AF.Foreign
