import Verif.Proof.ForeignForm
/-!
# Reading AIFF and AIFF-C files of other programs
-/
namespace AF.Foreign
open AF AF.Setup AF.Files AF.Convert AF.Spec AF.Spec.Files AF.Spec.Formats AF.Spec.Setup AF.Spec.Foreign

/-- A field for which there is room. -/
theorem field_room (h o : Endian) (k : FieldSize) {file : List Byte} {p : Nat} (hp : p + k.bytes ≤ file.length) :
    ∃ y, Rd.field? h o k file p = .ok (some y, p + k.bytes) ∧ Rd.field h o k file p = .ok (y, p + k.bytes) := by
  have : ∃ x r, readField h o k (file.drop p) = some (x, r) := by
    rw [readField_eq, if_pos (by rw [List.length_drop]; omega)]
    exact ⟨_, _, rfl⟩
  obtain ⟨x, r, e⟩ := this
  have e1 : Rd.field? h o k file p = .ok (some x.toNat, p + k.bytes) := by
    unfold Rd.field?
    rw [e]
  refine ⟨x.toNat, e1, ?_⟩
  unfold Rd.field
  rw [Rd.bind_ok e1]
  rfl

theorem uInit_num {h o : Endian} {k : FieldSize} {file : List Byte} {p x : Nat} {rest : List Byte}
    (hf : file.drop p = num o k.bytes x ++ rest) : ∃ y, Rd.uInit h o k file p = .ok (y, p + k.bytes) ∧ (x < 256 ^ k.bytes → y = x) := by
  rw [num_field h o k x] at hf
  refine ⟨_, uInit_ok (h := h) hf, fun hx => ?_⟩
  have e2 : ((256 : Int) ^ k.bytes) = ((256 ^ k.bytes : Nat) : Int) := by rw [Int.natCast_pow]; rfl
  rw [e2, ← Int.natCast_emod, Int.toNat_natCast, Nat.mod_eq_of_lt hx]

/-! ## Chunks that do not matter -/

theorem mark_any (h : Endian) {m : AMark} (ok : m.Ok) {file rest : List Byte} {p : Nat} (he : file.drop p = m.bytes ++ rest) :
    ∃ r, aiffReadMark h file p = .ok (r, p + m.bytes.length) := by
  have hpl := ok.pad
  have hl : m.bytes.length = 7 + m.name.length + m.pad.length := by
    unfold AMark.bytes
    simp only [List.length_append, be_length]
  unfold AMark.bytes at he
  simp only [List.append_assoc, be_num] at he
  have e1 := drop_step he (num_length _ _ _)
  have e2 := drop_step e1 (num_length _ _ _)
  have e3 := drop_step e2 (num_length _ _ _)
  obtain ⟨y1, f1, -⟩ := uInit_num (h := h) (k := .s2) he
  obtain ⟨y2, f2, -⟩ := uInit_num (h := h) (k := .s4) e1
  obtain ⟨y3, f3, v3⟩ := uInit_num (h := h) (k := .s1) e2
  have v3 := v3 (show _ < 256 from ok.name)
  subst v3
  unfold aiffReadMark
  have f2' : Rd.uInit h .big .s4 file (p + FieldSize.s2.bytes) = .ok (y2, p + 2 + 4) := f2
  have f3' : Rd.uInit h .big .s1 file (p + 2 + 4) = .ok (m.name.length, p + 2 + 4 + 1) := f3
  rw [Rd.bind_ok f1, Rd.bind_ok f2', Rd.bind_ok f3', Rd.bind_ok (Rd.read_ok e3 rfl), if_neg (by omega),
    Rd.bind_ok (m := Rd.skip _) (a := ()) (p' := p + 2 + 4 + 1 + m.name.length + (if m.name.length % 2 = 0 then 1 else 0)) rfl]
  have : p + 2 + 4 + 1 + m.name.length + (if m.name.length % 2 = 0 then 1 else 0) = p + m.bytes.length := by
    rw [hl]
    split <;> omega
  rw [this]
  exact ⟨_, rfl⟩

theorem marks_any (h : Endian) (ms : List AMark) : ∀ {file rest : List Byte} {p : Nat}, (∀ m ∈ ms, m.Ok) → file.drop p = ms.flatMap AMark.bytes ++ rest →
    ∃ rs q, Rd.times (aiffReadMark h) ms.length file p = .ok (rs, q) := by
  induction ms with
  | nil => intro file rest p _ _; exact ⟨_, _, rfl⟩
  | cons m ms ih =>
    intro file rest p hok he
    rw [List.flatMap_cons, List.append_assoc] at he
    obtain ⟨r, hr⟩ := mark_any h (hok m List.mem_cons_self) he
    obtain ⟨rs, q, hrs⟩ := ih (fun x hx => hok x (List.mem_cons_of_mem _ hx)) (drop_step he rfl)
    refine ⟨r :: rs, q, ?_⟩
    show (do let a ← aiffReadMark h; let as ← Rd.times (aiffReadMark h) ms.length; return a :: as) file p = _
    rw [Rd.bind_ok hr, Rd.bind_ok hrs]
    rfl

theorem inst_any (h : Endian) (s : AiffRead) {file : List Byte} {p : Nat} (hp : p + 20 ≤ file.length) :
    ∃ i q, aiffParseINST h s file p = .ok ({ s with inst := some i }, q) := by
  obtain ⟨y1, -, f1⟩ := field_room h .big .s1 (file := file) (p := p) (by have : FieldSize.s1.bytes = 1 := rfl; omega)
  obtain ⟨y2, -, f2⟩ := field_room h .big .s1 (file := file) (p := p + 1) (by have : FieldSize.s1.bytes = 1 := rfl; omega)
  obtain ⟨y3, -, f3⟩ := field_room h .big .s1 (file := file) (p := p + 1 + 1) (by have : FieldSize.s1.bytes = 1 := rfl; omega)
  obtain ⟨y4, -, f4⟩ := field_room h .big .s1 (file := file) (p := p + 1 + 1 + 1) (by have : FieldSize.s1.bytes = 1 := rfl; omega)
  obtain ⟨y5, -, f5⟩ := field_room h .big .s1 (file := file) (p := p + 1 + 1 + 1 + 1) (by have : FieldSize.s1.bytes = 1 := rfl; omega)
  obtain ⟨y6, -, f6⟩ := field_room h .big .s1 (file := file) (p := p + 1 + 1 + 1 + 1 + 1) (by have : FieldSize.s1.bytes = 1 := rfl; omega)
  obtain ⟨y7, -, f7⟩ := field_room h .big .s2 (file := file) (p := p + 1 + 1 + 1 + 1 + 1 + 1) (by have : FieldSize.s2.bytes = 2 := rfl; omega)
  obtain ⟨y8, -, f8⟩ := field_room h .big .s2 (file := file) (p := p + 1 + 1 + 1 + 1 + 1 + 1 + 2) (by have : FieldSize.s2.bytes = 2 := rfl; omega)
  obtain ⟨y9, -, f9⟩ := field_room h .big .s2 (file := file) (p := p + 1 + 1 + 1 + 1 + 1 + 1 + 2 + 2) (by have : FieldSize.s2.bytes = 2 := rfl; omega)
  obtain ⟨ya, -, fa⟩ := field_room h .big .s2 (file := file) (p := p + 1 + 1 + 1 + 1 + 1 + 1 + 2 + 2 + 2) (by have : FieldSize.s2.bytes = 2 := rfl; omega)
  obtain ⟨yb, -, fb⟩ := field_room h .big .s2 (file := file) (p := p + 1 + 1 + 1 + 1 + 1 + 1 + 2 + 2 + 2 + 2) (by have : FieldSize.s2.bytes = 2 := rfl; omega)
  obtain ⟨yc, -, fc⟩ := field_room h .big .s2 (file := file) (p := p + 1 + 1 + 1 + 1 + 1 + 1 + 2 + 2 + 2 + 2 + 2) (by have : FieldSize.s2.bytes = 2 := rfl; omega)
  obtain ⟨yd, -, fd⟩ := field_room h .big .s2 (file := file) (p := p + 1 + 1 + 1 + 1 + 1 + 1 + 2 + 2 + 2 + 2 + 2 + 2) (by have : FieldSize.s2.bytes = 2 := rfl; omega)
  unfold aiffParseINST
  rw [Rd.bind_ok f1, Rd.bind_ok (p' := p + 1 + 1) f2, Rd.bind_ok (p' := p + 1 + 1 + 1) f3, Rd.bind_ok (p' := p + 1 + 1 + 1 + 1) f4,
    Rd.bind_ok (p' := p + 1 + 1 + 1 + 1 + 1) f5, Rd.bind_ok (p' := p + 1 + 1 + 1 + 1 + 1 + 1) f6,
    Rd.bind_ok (p' := p + 1 + 1 + 1 + 1 + 1 + 1 + 2) f7, Rd.bind_ok (p' := p + 1 + 1 + 1 + 1 + 1 + 1 + 2 + 2) f8,
    Rd.bind_ok (p' := p + 1 + 1 + 1 + 1 + 1 + 1 + 2 + 2 + 2) f9, Rd.bind_ok (p' := p + 1 + 1 + 1 + 1 + 1 + 1 + 2 + 2 + 2 + 2) fa,
    Rd.bind_ok (p' := p + 1 + 1 + 1 + 1 + 1 + 1 + 2 + 2 + 2 + 2 + 2) fb, Rd.bind_ok (p' := p + 1 + 1 + 1 + 1 + 1 + 1 + 2 + 2 + 2 + 2 + 2 + 2) fc,
    Rd.bind_ok fd]
  exact ⟨_, _, rfl⟩

theorem misc_any (type : Int) (size : Nat) (ms : List Meta.Misc) (file : List Byte) (p : Nat) :
    ∃ r q, formParseMisc type size ms file p = .ok (r, q) := by
  unfold formParseMisc
  split
  · exact ⟨_, _, rfl⟩
  · exact ⟨_, _, rfl⟩

/-- What counts of the state. -/
def AState (a b : Bool) (t : Trk) (s : AiffRead) : Prop := s.hasCOMM = a ∧ s.hasSSND = b ∧ s.t = t

theorem aiff_other {rnd : Rat → Dbl} {h : Endian} {aifc : Bool} {c : Chunk} (oc : AiffOther c) {file rest : List Byte} {q : Nat} {s : AiffRead}
    {a b : Bool} {t : Trk} (hs : AState a b t s) (he : file.drop q = c.body ++ (c.pad ++ rest)) :
    ∃ s' q', aiffChunk rnd h aifc c.id c.body.length s file q = .ok (s', q') ∧ AState a b t s' := by
  have hlen : q + c.body.length ≤ file.length ∨ c.body.length = 0 := by
    have := congrArg List.length he
    rw [List.length_drop, List.length_append] at this
    omega
  unfold aiffChunk
  rw [if_neg (show c.id ≠ tag "COMM" from oc.id.1)]
  by_cases h1 : c.id = tag "FVER"
  · rw [if_pos h1]
    have : ∃ y q', Rd.field? h .big .s4 file q = .ok (y, q') := by
      unfold Rd.field?
      split <;> exact ⟨_, _, rfl⟩
    obtain ⟨y, q', e⟩ := this
    rw [Rd.bind_ok e]
    exact ⟨_, _, rfl, hs⟩
  rw [if_neg h1]
  by_cases h1 : c.id = tag "INST"
  · rw [if_pos h1]
    have := oc.inst h1
    obtain ⟨i, q', e⟩ := inst_any h s (file := file) (p := q) (by omega)
    rw [e]
    exact ⟨_, _, rfl, hs⟩
  rw [if_neg h1]
  by_cases h1 : c.id = tag "MARK"
  · rw [if_pos h1]
    obtain ⟨ms, more, hb, hn, hok⟩ := oc.mark h1
    rw [hb] at he
    simp only [List.append_assoc, be_num] at he
    obtain ⟨rs, q', e⟩ := marks_any h ms hok (drop_step he (num_length _ _ _))
    unfold aiffParseMARK
    rw [Rd.bind_ok (field_num (k := .s2) he hn).2]
    rw [Rd.bind_ok (m := Rd.times (aiffReadMark h) ms.length) (p' := q') (p := q + FieldSize.s2.bytes) e]
    exact ⟨_, _, rfl, hs⟩
  rw [if_neg h1]
  by_cases h1 : c.id = tag "AESD"
  · rw [if_pos h1]
    exact ⟨_, _, rfl, hs⟩
  rw [if_neg h1]
  cases hm : aiffMiscType c.id with
  | some type =>
    dsimp only
    obtain ⟨r, q', e⟩ := misc_any type c.body.length s.misc file q
    rw [Rd.bind_ok e]
    exact ⟨_, _, rfl, hs⟩
  | none =>
    dsimp only
    rw [if_neg (show c.id ≠ tag "SSND" from oc.id.2)]
    exact ⟨_, _, rfl, hs⟩

/-! ## The rate -/

theorem rate_store (e m : Nat) (hm : m < 2 ^ 64) : be 2 e ++ be 8 m = Extended.store e (m / 2 ^ 32) (m % 2 ^ 32) := by
  have hb : ∀ (a : Nat), BitVec.ofInt 8 (a : Int) = BitVec.ofNat 8 a := fun a => BitVec.ofInt_natCast 8 a
  have hd : ∀ (a : Nat), (a : Int) / 256 = ((a / 256 : Nat) : Int) := fun a => (Int.natCast_ediv a 256).symm
  have hx : ∀ a b : Nat, a % 256 = b % 256 → BitVec.ofNat 8 a = BitVec.ofNat 8 b := fun a b h => BitVec.eq_of_toNat_eq (by simpa using h)
  unfold be Extended.store
  simp only [leBytes, List.reverse_cons, List.reverse_nil, List.nil_append, List.cons_append, hd, hb, Nat.shiftRight_eq_div_pow]
  have hs : sar (e : Int) 8 = ((e / 256 : Nat) : Int) := by
    unfold sar
    omega
  rw [hs, hb]
  simp only [List.cons.injEq, and_true, true_and]
  refine ⟨?_, ?_, ?_, ?_, ?_, ?_, ?_, ?_⟩ <;> apply hx <;> omega

theorem rate_decode {rnd : Rat → Dbl} (hrnd : ExactOnDoubles rnd) {e m : Nat} (h1 : 15372 ≤ e) (h2 : e ≤ 17385) (hm : m < 2 ^ 64)
    (hd : IsDouble ((m : Rat) * (2 : Rat) ^ ((e : Int) - 16446))) :
    Extended.decode rnd (Extended.byteAt (be 2 e ++ be 8 m)) = .fin ((m : Rat) * (2 : Rat) ^ ((e : Int) - 16446)) := by
  have h := Extended.decode_store rnd e false (m / 2 ^ 32) (m % 2 ^ 32) (by omega) (by omega) (by omega) (by omega)
  rw [rate_store e m hm]
  have e0 : (if false = true then (0x8000 : Int) else 0) + (e : Int) = e := by simp
  rw [e0] at h
  rw [h]
  dsimp only
  rw [if_neg (show ¬ (false = true) by decide), if_neg (by omega), if_neg (by omega)]
  have i1 : IsDouble (((m / 2 ^ 32 : Nat) : Rat) * Extended.p ((e : Int) - 16414)) :=
    ⟨((m / 2 ^ 32 : Nat) : Int), (e : Int) - 16414, by omega, by omega, by omega, by rw [Rat.intCast_natCast]; rfl⟩
  have i2 : IsDouble (((m % 2 ^ 32 : Nat) : Rat) * Extended.p ((e : Int) - 16446)) :=
    ⟨((m % 2 ^ 32 : Nat) : Int), (e : Int) - 16446, by omega, by omega, by omega, by rw [Rat.intCast_natCast]; rfl⟩
  rw [hrnd _ i1, hrnd _ i2]
  have hsum : ((m / 2 ^ 32 : Nat) : Rat) * Extended.p ((e : Int) - 16414) + ((m % 2 ^ 32 : Nat) : Rat) * Extended.p ((e : Int) - 16446) =
      (m : Rat) * (2 : Rat) ^ ((e : Int) - 16446) := by
    have e1 : (e : Int) - 16414 = ((32 : Nat) : Int) + ((e : Int) - 16446) := by omega
    rw [e1, Extended.p_add, Extended.p_nat, ← Rat.mul_assoc, ← Rat.add_mul, ← Rat.natCast_mul, ← Rat.natCast_add]
    have : m / 2 ^ 32 * 2 ^ 32 + m % 2 ^ 32 = m := by omega
    rw [this]
    rfl
  show rnd _ = _
  rw [hsum, hrnd _ hd]

/-! ## The common chunk -/

theorem aiff_kind {h : Endian} {id : List Byte} {bits : Nat} {k : Kind} {order : Int} (hk : aiffKind id bits = some (k, order)) (rate : Rat)
    (c n : Nat) :
    Kind.Good k ∧ ∃ g bpp, aiffFormat h ⟨rate, TWOSCOMP, bits, BIG, ⟨0, 0, 0, 0⟩, c, NONE⟩ n id = some (g, (1 : Int), bpp, (n : Int)) ∧ Found h (described rate c order k) g := by
  unfold aiffKind at hk
  simp only [decide_eq_true_eq, Bool.or_eq_true] at hk
  unfold aiffFormat
  by_cases h1 : id = text "NONE" ∨ id = text "twos"
  · rw [if_pos h1] at hk
    rw [if_pos (show id = tag "NONE" ∨ id = tag "twos" from h1)]
    by_cases h2 : 1 ≤ bits ∧ bits ≤ 32
    · rw [if_pos h2] at hk; injection hk with hk; injection hk with hk ho; subst hk; subst ho
      exact ⟨good_signed h2, _, _, rfl, ⟨rfl, rfl, rfl, rfl, rfl, fun _ _ => rfl⟩⟩
    · rw [if_neg h2] at hk; cases hk
  rw [if_neg h1] at hk
  rw [if_neg (show ¬ (id = tag "NONE" ∨ id = tag "twos") from h1)]
  by_cases h1 : id = text "sowt"
  · rw [if_pos h1] at hk
    subst h1
    by_cases h2 : 1 ≤ bits ∧ bits ≤ 32
    · rw [if_pos h2] at hk; injection hk with hk; injection hk with hk ho; subst hk; subst ho
      exact ⟨good_signed h2, _, _, rfl, ⟨rfl, rfl, rfl, rfl, rfl, fun _ _ => rfl⟩⟩
    · rw [if_neg h2] at hk; cases hk
  rw [if_neg h1] at hk
  by_cases h1 : id = text "in24"
  · rw [if_pos h1] at hk; subst h1; injection hk with hk; injection hk with hk ho; subst hk; subst ho
    exact ⟨good_signed (by decide), _, _, rfl, ⟨rfl, rfl, rfl, rfl, rfl, fun _ _ => rfl⟩⟩
  rw [if_neg h1] at hk
  by_cases h1 : id = text "in32"
  · rw [if_pos h1] at hk; subst h1; injection hk with hk; injection hk with hk ho; subst hk; subst ho
    exact ⟨good_signed (by decide), _, _, rfl, ⟨rfl, rfl, rfl, rfl, rfl, fun _ _ => rfl⟩⟩
  rw [if_neg h1] at hk
  by_cases h1 : id = text "fl32" ∨ id = text "FL32"
  · rw [if_pos h1] at hk; injection hk with hk; injection hk with hk ho; subst hk; subst ho
    rcases h1 with h1 | h1 <;> subst h1 <;> exact ⟨good_float, _, _, rfl, ⟨rfl, rfl, rfl, rfl, rfl, fun _ _ => rfl⟩⟩
  rw [if_neg h1] at hk
  by_cases h1 : id = text "fl64" ∨ id = text "FL64"
  · rw [if_pos h1] at hk; injection hk with hk; injection hk with hk ho; subst hk; subst ho
    rcases h1 with h1 | h1 <;> subst h1 <;> exact ⟨good_double, _, _, rfl, ⟨rfl, rfl, rfl, rfl, rfl, fun _ _ => rfl⟩⟩
  rw [if_neg h1] at hk
  by_cases h1 : id = text "ulaw" ∨ id = text "ULAW"
  · rw [if_pos h1] at hk; injection hk with hk; injection hk with hk ho; subst hk; subst ho
    rcases h1 with h1 | h1 <;> subst h1 <;> exact ⟨good_muLaw, _, _, rfl, ⟨rfl, rfl, rfl, rfl, rfl, fun h => by cases h⟩⟩
  rw [if_neg h1] at hk
  by_cases h1 : id = text "alaw" ∨ id = text "ALAW"
  · rw [if_pos h1] at hk; injection hk with hk; injection hk with hk ho; subst hk; subst ho
    rcases h1 with h1 | h1 <;> subst h1 <;> exact ⟨good_aLaw, _, _, rfl, ⟨rfl, rfl, rfl, rfl, rfl, fun h => by cases h⟩⟩
  rw [if_neg h1] at hk
  cases hk

/-- What the common chunk says about a track. -/
structure Commed (h : Endian) (x : Aiff) (k : Kind) (order : Int) (t : Trk) : Prop where
  f : ∃ g, Found h (described x.rate x.channels order k) g ∧ t.f = (setSampleFormat g g.sampleFormat g.sampleWidth).2
  frames : t.frames = x.frames

theorem compression_read (x : Aiff) (ok : x.Ok) {file rest : List Byte} {p : Nat}
    (he : file.drop p = (if x.aifc then x.compression ++ be 1 x.name.length ++ x.name else []) ++ rest) :
    ∃ q, aiffReadCompression x.aifc file p = .ok (if x.aifc then x.compression else text "NONE", q) := by
  unfold aiffReadCompression
  cases hb : x.aifc
  · exact ⟨_, rfl⟩
  · rw [hb] at he
    simp only [if_pos, List.append_assoc, be_num] at he
    have e1 := drop_step he ok.compression
    have e2 := drop_step e1 (num_length _ _ _)
    rw [if_pos rfl, if_pos rfl, Rd.bind_ok (Rd.tag_ok he ok.compression), Rd.bind_ok (Rd.read_ok e1 (num_length _ _ _))]
    exact ⟨_, rfl⟩

theorem aiff_comm {rnd : Rat → Dbl} (hrnd : ExactOnDoubles rnd) {h : Endian} {x : Aiff} (ok : x.Ok) {k : Kind} {order : Int} (hk : x.kind = some (k, order))
    {file rest : List Byte} {q : Nat} (s : AiffRead) (he : file.drop q = x.comm.body ++ (x.comm.pad ++ rest)) :
    ∃ t q', aiffParseCOMM rnd h x.aifc s file q = .ok ({ s with hasCOMM := true, t := t }, q') ∧ Commed h x k order t ∧
      t.dataSize = s.t.dataSize ∧ t.first = s.t.first := by
  have he' : file.drop q = num .big 2 x.channels ++ (num .big 4 x.frames ++ (num .big 2 x.bits ++ ((be 2 x.exponent ++ be 8 x.mantissa) ++
      ((if x.aifc then x.compression ++ be 1 x.name.length ++ x.name else []) ++ (x.more ++ (x.comm.pad ++ rest)))))) := by
    rw [he]
    unfold Aiff.comm
    dsimp only
    simp only [List.append_assoc, be_num]
  have hc := ok.channels
  have hr := ok.rate
  have e1 := drop_step he' (num_length _ _ _)
  have e2 := drop_step e1 (num_length _ _ _)
  have e3 := drop_step e2 (num_length _ _ _)
  have l10 : (be 2 x.exponent ++ be 8 x.mantissa).length = 10 := by rw [List.length_append, be_length, be_length]
  have e4 := drop_step e3 l10
  obtain ⟨q', hq'⟩ := compression_read x ok e4
  unfold aiffParseCOMM
  rw [Rd.bind_ok (field_num (k := .s2) he' hc.2).2, if_neg (by omega), Rd.bind_ok (field_num (k := .s4) e1 ok.frames).2,
    Rd.bind_ok (field_num (k := .s2) e2 ok.bits).2, Rd.bind_ok (Rd.read_ok e3 l10), if_neg (by omega),
    rate_decode hrnd hr.1 hr.2.1 hr.2.2.1 hr.2.2.2]
  dsimp only [dblValue]
  rw [Rd.bind_ok hq']
  obtain ⟨good, g, bpp, hg, hF⟩ := aiff_kind (h := h) hk x.rate x.channels x.frames
  have hg' : aiffFormat h { rate := (x.mantissa : Rat) * (2 : Rat) ^ ((x.exponent : Int) - 16446), sampleFormat := TWOSCOMP
                            sampleWidth := x.bits, byteOrder := BIG, pcm := ⟨0, 0, 0, 0⟩, channels := x.channels, compression := NONE }
      x.frames (if x.aifc then x.compression else text "NONE") = some (g, 1, bpp, (x.frames : Int)) := hg
  rw [hg']
  dsimp only
  obtain ⟨m, -, hm⟩ := set_self (f := g) (by rw [hF.sampleFormat, hF.width]; exact good.1)
  rw [hm]
  exact ⟨_, _, rfl, ⟨⟨g, hF, by rw [hm]⟩, rfl⟩, rfl, rfl⟩

theorem aiff_ssnd {h : Endian} {x : Aiff} {file rest : List Byte} {q : Nat} (s : AiffRead)
    (hb : x.gap.length < 2 ^ 32) (he : file.drop q = x.ssnd.body ++ (x.ssnd.pad ++ rest)) :
    ∃ q', aiffParseSSND h x.ssnd.body.length s file q =
      .ok ({ s with hasSSND := true, t := { s.t with dataSize := x.sound.length, first := ((q + 8 + x.gap.length : Nat) : Int) } }, q') ∧
      (file.drop (q + 8 + x.gap.length)).take x.sound.length = x.sound := by
  have he' : file.drop q = num .big 4 x.gap.length ++ (num .big 4 x.blockSize ++ (x.gap ++ (x.sound ++ (x.ssnd.pad ++ rest)))) := by
    rw [he]
    unfold Aiff.ssnd
    dsimp only
    simp only [List.append_assoc, be_num]
  have hl : x.ssnd.body.length = 8 + x.gap.length + x.sound.length := by
    unfold Aiff.ssnd
    simp only [List.length_append, be_length]
  have e1 := drop_step he' (num_length _ _ _)
  have e2 := drop_step e1 (num_length _ _ _)
  have e3 := drop_step e2 rfl
  obtain ⟨y, hy, -⟩ := field_any (h := h) (k := .s4) e1
  have hy' : Rd.field? h .big .s4 file (q + FieldSize.s4.bytes) = .ok (some y, q + 8) := hy
  refine ⟨q + 8, ?_, ?_⟩
  · unfold aiffParseSSND
    rw [Rd.bind_ok (field_num (k := .s4) he' hb).2, Rd.bind_ok hy', Rd.bind_ok (m := Rd.tell) (a := q + 8) (p' := q + 8) rfl]
    have a1 : (x.ssnd.body.length : Int) - 8 - (x.gap.length : Int) = (x.sound.length : Int) := by omega
    have a2 : ((q + 8 : Nat) : Int) + (x.gap.length : Int) = ((q + 8 + x.gap.length : Nat) : Int) := by omega
    rw [a1, a2]
    rfl
  · have e3' : file.drop (q + 8 + x.gap.length) = x.sound ++ (x.ssnd.pad ++ rest) := e3
    rw [e3', List.take_left]

end AF.Foreign
