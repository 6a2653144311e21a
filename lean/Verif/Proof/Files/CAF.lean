import Verif.Model.Files.CAF
import Verif.Proof.Files.Simple
import Verif.Proof.Files.WAVERead
/-!
# CAF files
-/
namespace AF.Files
open AF AF.Setup AF.Spec.Files

theorem p8 : (256 : Int) ^ FieldSize.s8.bytes = 2 ^ 64 := rfl
theorem b8 : FieldSize.s8.bytes = 8 := rfl

/-! ## Writing -/

theorem writeField_eq_fieldBytes (h o : Endian) (x : BitVec 64) : writeField h o .s8 x = fieldBytes h o .s8 (x.toNat : Int) := by
  unfold fieldBytes
  exact congrArg (writeField h o .s8) (BitVec.eq_of_toNat_eq (by
    have := x.isLt
    show x.toNat = (BitVec.ofInt 64 (x.toNat : Int)).toNat
    rw [BitVec.toNat_ofInt]
    omega))

theorem cafFields_tag (t : Trk) : (cafFields t).1.length = 4 := by
  unfold cafFields
  dsimp only
  split
  · rfl
  split
  · rfl
  split
  · rfl
  split
  · rfl
  · rfl

theorem cafDesc_length (F : Float64) (h : Endian) (t : Trk) : (cafDesc F h t).length = 44 := by
  have := cafFields_tag t
  unfold cafDesc
  generalize cafFields t = z at this ⊢
  obtain ⟨id, flags, bpp, fpp, bits⟩ := z
  dsimp only at this ⊢
  rw [writeField_eq_fieldBytes]
  simp only [List.length_append, fieldBytes_length, this]
  rfl

theorem cafDataHead_length (h : Endian) (n : Int) : (cafDataHead h n).length = 16 := by
  unfold cafDataHead
  simp only [List.length_append, fieldBytes_length]
  rfl

/-- Everything before the audio data or the cookie. -/
def cafHead (F : Float64) (h : Endian) (t : Trk) : List Byte := tag "caff" ++ ([0, 1, 0, 0] ++ cafDesc F h t)

theorem cafHead_length (F : Float64) (h : Endian) (t : Trk) : (cafHead F h t).length = 52 := by
  unfold cafHead
  rw [List.length_append, List.length_append, cafDesc_length]
  rfl

/-- The track with the codec's parameters. -/
def cafTrk (f : AFmt) : Trk := (cafParams f (Trk.ofFormat f)).1

theorem Disk.write_append (d : Disk) (A B : List Byte) (h : d.pos = d.bytes.length) : (d.write A).write B = d.write (A ++ B) := by
  have e1 := Disk.write_end (bs := A) h
  have e2 := Disk.write_end (bs := A ++ B) h
  have e3 := Disk.write_end (bs := B) (d := d.write A) (by rw [Disk.write_pos, e1, h, List.length_append])
  have : ∀ x y : Disk, x.bytes = y.bytes → x.pos = y.pos → x = y := by
    rintro ⟨_, _⟩ ⟨_, _⟩ rfl rfl; rfl
  apply this
  · rw [e3, e1, e2, List.append_assoc]
  · rw [Disk.write_pos, Disk.write_pos, Disk.write_pos, List.length_append, Nat.add_assoc]

theorem caf_start (F : Float64) (h : Endian) (t : Trk) :
    (((⟨[], 0⟩ : Disk).write (tag "caff")).write [0, 1, 0, 0]).write (cafDesc F h t) = ⟨cafHead F h t, 52⟩ := by
  rw [Disk.write_append _ _ _ rfl, Disk.write_append _ _ _ rfl]
  try rw [List.append_assoc]
  have e := Disk.write_end (bs := cafHead F h t) (d := ⟨[], 0⟩) rfl
  rw [cafHead_length] at e
  exact e

/-- The file when there is no codec data. -/
theorem caf_file (F : Float64) (h : Endian) {f : AFmt} (hf : f.compression ≠ ALAC) (evs : List Ev) :
    session (cafUpdate h) (cafInit F h f) evs =
      cafHead F h (cafTrk f) ++ cafDataHead h ((dataOf evs).length + 4 : Nat) ++ dataOf evs := by
  have hobj : (cafParams f (Trk.ofFormat f)).2 = ⟨none, none, none, none⟩ := by
    unfold cafParams
    split
    · rfl
    · rfl
  have hini : cafInit F h f = (⟨cafHead F h (cafTrk f) ++ cafDataHead h (-1), 68⟩,
      { cafTrk f with first := 68 }, ⟨none, none, some 52, none⟩) := by
    unfold cafInit
    have : cafParams f (Trk.ofFormat f) = (cafTrk f, ⟨none, none, none, none⟩) := Prod.ext rfl hobj
    rw [this]
    dsimp only
    rw [caf_start]
    unfold cafWriteCookie cafWriteData
    dsimp only
    have e := Disk.write_end (bs := cafDataHead h (-1)) (d := ⟨cafHead F h (cafTrk f), 52⟩) (by simp only [cafHead_length])
    rw [cafDataHead_length] at e
    rw [e]
    rfl
  rw [hini]
  have hup : ∀ (d : Disk) (t : Trk) (L : Int) (D : List Byte), d.bytes = cafHead F h (cafTrk f) ++ cafDataHead h L ++ D →
      (cafUpdate h t ⟨none, none, some 52, none⟩ d).1.bytes = cafHead F h (cafTrk f) ++ cafDataHead h (t.dataSize + 4) ++ D ∧
      (cafUpdate h t ⟨none, none, some 52, none⟩ d).2 = ⟨none, none, some 52, none⟩ := by
    intro d t L D hd
    have := Disk.patch (d := d) (A := cafHead F h (cafTrk f)) (B := cafDataHead h L) (C := D)
      (B' := cafDataHead h (t.dataSize + 4)) hd (by rw [cafDataHead_length, cafDataHead_length])
    rw [cafHead_length] at this
    exact ⟨this, rfl⟩
  obtain ⟨d, t, x, ⟨h1, h2, hx, L, hd⟩, he⟩ := session_induct (cafUpdate h)
    (fun d t x D _ => t.first = 68 ∧ t.dataSize = D.length ∧ x = ⟨none, none, some 52, none⟩ ∧
      ∃ L, d.bytes = cafHead F h (cafTrk f) ++ cafDataHead h L ++ D)
    (⟨cafHead F h (cafTrk f) ++ cafDataHead h (-1), 68⟩, { cafTrk f with first := 68 }, ⟨none, none, some 52, none⟩) evs
    (by
      refine ⟨rfl, ?_, rfl, -1, by simp⟩
      show (cafTrk f).dataSize = _
      unfold cafTrk cafParams
      split
      · rfl
      · rfl)
    (by
      rintro d t x D n bs k - ⟨h1, h2, hx, L, hd⟩
      refine ⟨h1, by dsimp only; rw [h2]; simp, hx, L, ?_⟩
      rw [Disk.write_end]
      · rw [Disk.seek_bytes, hd, List.append_assoc]
      · rw [Disk.seek_pos, Disk.seek_bytes, hd, h1, h2]
        simp only [List.length_append, cafHead_length, cafDataHead_length]
        omega)
    (by
      rintro d t x D n ⟨h1, h2, hx, L, hd⟩
      subst hx
      have := hup d { t with afterData := d.pos } L D hd
      exact ⟨h1, h2, this.2, _, this.1⟩)
  subst hx
  rw [he, (hup d _ L _ hd).1, h2]
  rfl

/-! ## Reading -/

section
variable {F : Float64} {h h' : Endian} {file : List Byte} {p : Nat}

theorem s64_ok {x : Int} (hx : -2 ^ 63 ≤ x ∧ x < 2 ^ 63) {rest : List Byte} (he : file.drop p = fieldBytes h .big .s8 x ++ rest) :
    Rd.s64 h' file p = .ok (x, p + 8) := by
  unfold Rd.s64
  rw [Rd.bind_ok (Rd.field_ok he).1]
  dsimp only
  rw [p8, Rd.pure_run]
  refine congrArg Except.ok (Prod.ext ?_ rfl)
  dsimp only
  unfold wrapS
  have : (((x % 2 ^ 64).toNat : Nat) : Int) = x % ((2 ^ 64 : Nat) : Int) := by
    rw [Int.toNat_of_nonneg (Int.emod_nonneg _ (by decide))]
    rfl
  rw [this, Int.emod_bmod]
  exact Int.bmod_eq_of_le (by omega) (by omega)

theorem u32_ok {x : Int} (hx : 0 ≤ x ∧ x < 2 ^ 32) {rest : List Byte} (he : file.drop p = fieldBytes h .big .s4 x ++ rest) :
    Rd.u32 h' file p = .ok (x.toNat, p + 4) := by
  unfold Rd.u32
  rw [Rd.bind_ok (Rd.field_ok he).1]
  dsimp only
  rw [p4, Int.emod_eq_of_lt hx.1 hx.2]
  rfl

theorem u32_any {x : Int} {rest : List Byte} (he : file.drop p = fieldBytes h .big .s4 x ++ rest) :
    Rd.u32 h' file p = .ok ((x % 256 ^ FieldSize.s4.bytes).toNat, p + 4) := by
  unfold Rd.u32
  rw [Rd.bind_ok (Rd.field_ok he).1]
  rfl

theorem tag4_ok {id : List Byte} (hi : id.length = 4) {rest : List Byte} (he : file.drop p = id ++ rest) :
    Rd.tag4 file p = .ok (id, p + 4) := by
  unfold Rd.tag4
  rw [Rd.bind_ok (Rd.read_ok he hi), if_neg (by omega)]
  rfl

/-- One chunk of known length. -/
theorem caf_chunk {type : List Byte} (ht : type.length = 4) {len : Nat} {rest : List Byte} {s x : CafRead} {q : Nat}
    (he : file.drop p = type ++ (fieldBytes h .big .s8 (len : Int) ++ rest)) (hlt : p < file.length)
    (hx : cafChunk F h' type len s file (p + 12) = .ok (x, q)) (hn : p + 12 + len < 2 ^ 63) :
    cafRound F h' file.length ((p : Int), s) file p = .ok (.inl (((p + 12 + len : Nat) : Int), x), p + 12 + len) := by
  unfold cafRound
  dsimp only
  rw [if_pos (by omega), Rd.bind_ok (tag4_ok ht he)]
  have e1 := drop_step he ht
  rw [Rd.bind_ok (s64_ok (by omega) e1)]
  rw [if_neg (show ¬ (type = tag "data" ∧ (len : Int) = -1) by omega)]
  rw [Rd.bind_ok hx, if_neg (by omega), if_neg (by omega)]
  rw [show ((p : Int) + 12 + (len : Int)) = ((p + 12 + len : Nat) : Int) by omega, Int.toNat_natCast]
  rfl

/-- The end of the walk. -/
theorem caf_end {s : CafRead} {n : Nat} (hn : 0 < n) :
    Rd.loop (cafRound F h' file.length) n ((file.length : Int), s) file p = .ok (s, p) := by
  obtain ⟨n, rfl⟩ := Nat.exists_eq_succ_of_ne_zero (by omega : n ≠ 0)
  refine Rd.loop_done (p' := p) ?_
  unfold cafRound
  dsimp only
  rw [if_neg (by omega)]
  rfl

/-- The description chunk. -/
theorem cafDesc_chunk {t : Trk} {s s' : CafRead} {rest : List Byte} (he : file.drop p = cafDesc F h t ++ rest)
    (hlt : p + 44 < 2 ^ 63) (hch : 1 ≤ t.f.channels ∧ t.f.channels < 2 ^ 31)
    (hflags : 0 ≤ (cafFields t).2.1 ∧ (cafFields t).2.1 < 2 ^ 32)
    (hfpp : 0 ≤ (cafFields t).2.2.2.1 ∧ (cafFields t).2.2.2.1 < 2 ^ 32) (hbits : 0 ≤ (cafFields t).2.2.2.2 ∧ (cafFields t).2.2.2.2 < 2 ^ 31)
    (hs : cafFormat h' (cafFields t).1 (cafFields t).2.1.toNat (cafFields t).2.2.2.1.toNat (cafFields t).2.2.2.2.toNat
      { rate := F.dec (F.enc t.f.rate), sampleFormat := 0, sampleWidth := (cafFields t).2.2.2.2, byteOrder := 0
        pcm := ⟨0, 0, 0, 0⟩, channels := t.f.channels, compression := 0 } s = some s') :
    cafRound F h' file.length ((p : Int), s) file p = .ok (.inl (((p + 44 : Nat) : Int), s'), p + 44) := by
  have hid := cafFields_tag t
  have hl : p < file.length := by
    have := congrArg List.length he
    simp only [List.length_drop, List.length_append, cafDesc_length] at this
    omega
  unfold cafDesc at he
  generalize cafFields t = z at *
  obtain ⟨id, flags, bpp, fpp, bits⟩ := z
  dsimp only at hid hflags hfpp hbits hs he
  rw [writeField_eq_fieldBytes] at he
  simp only [List.append_assoc] at he
  refine caf_chunk (type := tag "desc") rfl (len := 32) (q := p + 44) he hl ?_ (by omega)
  have e1 := drop_step he (n := 4) rfl
  have e2 := fb _ _ _ _ e1
  have e3 := fb _ _ _ _ e2
  have e4 := drop_step e3 hid
  have e5 := fb _ _ _ _ e4
  have e6 := fb _ _ _ _ e5
  have e7 := fb _ _ _ _ e6
  have e8 := fb _ _ _ _ e7
  rw [b8] at e2 e3 e4 e5 e6 e7 e8
  rw [b4] at e5 e6 e7 e8
  show cafParseDesc F h' s file (p + 12) = _
  unfold cafParseDesc
  rw [Rd.bind_ok (Rd.field_ok e2).1]
  dsimp only
  rw [b8, Rd.bind_ok (tag4_ok hid e3), Rd.bind_ok (u32_ok hflags e4), Rd.bind_ok (u32_any e5), Rd.bind_ok (u32_ok hfpp e6),
    Rd.bind_ok (u32_ok (by omega) e7), Rd.bind_ok (u32_ok (by omega) e8), if_neg (by omega)]
  have hr : BitVec.ofNat 64 (((F.enc t.f.rate).toNat : Int) % 256 ^ FieldSize.s8.bytes).toNat = F.enc t.f.rate := by
    rw [p8, Int.emod_eq_of_lt (by omega) (by have := (F.enc t.f.rate).isLt; omega), Int.toNat_natCast, BitVec.ofNat_toNat]
    rfl
  rw [hr, show wrapS 32 ((bits.toNat : Nat) : Int) = bits by rw [wrapS_id (by omega) (by omega)]; omega,
    show wrapS 32 ((t.f.channels.toNat : Nat) : Int) = t.f.channels by rw [wrapS_id (by omega) (by omega)]; omega, hs]
  rfl

/-- The data chunk, after the description. -/
theorem cafData_chunk {n : Nat} {s : CafRead} {rest : List Byte} (he : file.drop p = cafDataHead h ((n + 4 : Nat) : Int) ++ rest)
    (hlt : p + 16 + n < 2 ^ 63) (hs : s.hasDesc = true) :
    cafRound F h' file.length ((p : Int), s) file p = .ok (.inl (((p + 16 + n : Nat) : Int),
      { s with t := Trk.computeTotalFileFrames { s.t with dataSize := n, first := ((p + 16 : Nat) : Int) } }), p + 16 + n) := by
  have hl : p < file.length := by
    have := congrArg List.length he
    simp only [List.length_drop, List.length_append, cafDataHead_length] at this
    omega
  unfold cafDataHead at he
  simp only [List.append_assoc] at he
  have w := caf_chunk (F := F) (h' := h') (type := tag "data") rfl (len := n + 4) (q := p + 16) (s := s)
    (x := { s with t := Trk.computeTotalFileFrames { s.t with dataSize := n, first := ((p + 16 : Nat) : Int) } }) he hl ?_ (by omega)
  · rw [show p + 12 + (n + 4) = p + 16 + n by omega] at w
    exact w
  have e1 := drop_step he (n := 4) rfl
  have e2 := fb _ _ _ _ e1
  rw [b8] at e2
  show cafParseData h' _ s file (p + 12) = _
  unfold cafParseData
  rw [Rd.bind_ok (u32_ok (by omega) e2), Rd.bind_ok (a := p + 16) (p' := p + 16) rfl, hs]
  have : ((n + 4 : Nat) : Int) - 4 = n := by omega
  rw [this]
  rfl
end

theorem set_some {f : AFmt} {a w : Int} (hs : a = 401 ∧ 1 ≤ w ∧ w ≤ 32 ∨ a = 403 ∧ w = 32 ∨ a = 404 ∧ w = 64) :
    ∃ g, setSampleFormat f a w = (true, g) ∧ g.rate = f.rate ∧ g.channels = f.channels ∧ g.compression = f.compression ∧
      g.sampleFormat = a ∧ g.sampleWidth = w ∧ g.byteOrder = f.byteOrder := by
  unfold setSampleFormat
  simp only [UNSIGNED, TWOSCOMP, FLOAT, DOUBLE]
  rcases hs with ⟨rfl, h1, h2⟩ | ⟨rfl, rfl⟩ | ⟨rfl, rfl⟩
  · rw [if_pos (by omega), if_neg (by omega), if_pos rfl]
    exact ⟨_, rfl, rfl, rfl, rfl, rfl, rfl, rfl⟩
  · rw [if_neg (by omega), if_pos rfl]
    exact ⟨_, rfl, rfl, rfl, rfl, rfl, rfl, rfl⟩
  · rw [if_neg (by omega), if_neg (by omega), if_pos rfl]
    exact ⟨_, rfl, rfl, rfl, rfl, rfl, rfl, rfl⟩

set_option maxHeartbeats 1000000 in
/-- What the description of an uncompressed track says. -/
theorem cafFormat_pcm (h' : Endian) {f : AFmt} (hl : Legal f) (h1 : f.sampleFormat ≠ 402) (h0 : f.compression = 0) (t : Trk) (ht : t.f = f)
    (R : Rat) :
    (0 ≤ (cafFields t).2.1 ∧ (cafFields t).2.1 < 2 ^ 32) ∧ (cafFields t).2.2.2.1 = 1 ∧
    (cafFields t).2.2.2.2 = f.sampleWidth ∧
    ∃ g : AFmt, (∀ s : CafRead, cafFormat h' (cafFields t).1 (cafFields t).2.1.toNat (cafFields t).2.2.2.1.toNat (cafFields t).2.2.2.2.toNat
      { rate := R, sampleFormat := 0, sampleWidth := (cafFields t).2.2.2.2, byteOrder := 0
        pcm := ⟨0, 0, 0, 0⟩, channels := f.channels, compression := 0 } s =
          some { s with hasDesc := true, t := { s.t with f := g, fpp := 1, bpp := pcmBytesPerPacket f } }) ∧
      g.rate = R ∧ g.channels = f.channels ∧ g.compression = f.compression ∧ g.sampleFormat = f.sampleFormat ∧
      g.sampleWidth = f.sampleWidth ∧ g.byteOrder = f.byteOrder := by
  have hs := hl.sample
  have ho := hl.order
  have hf : cafFields t = (tag "lpcm", (if f.byteOrder = LITTLE then 2 else 0) + (if f.sampleFormat = FLOAT ∨ f.sampleFormat = DOUBLE then 1 else 0),
      frameSizeUncompressed f false, 1, f.sampleWidth) := by
    unfold cafFields
    rw [ht]
    dsimp only
    rw [h0, if_neg (by decide), if_neg (by decide), if_neg (by decide), if_neg (by decide)]
  rw [hf]
  dsimp only
  generalize hflags : (if f.byteOrder = LITTLE then (2 : Int) else 0) + (if f.sampleFormat = FLOAT ∨ f.sampleFormat = DOUBLE then 1 else 0) = flags
  simp only [FLOAT, DOUBLE, LITTLE] at hflags
  have hfl : 0 ≤ flags ∧ flags < 4 ∧ (flags.toNat % 2 = 1 ↔ f.sampleFormat = 403 ∨ f.sampleFormat = 404) ∧
      (flags.toNat / 2 % 2 = 1 ↔ f.byteOrder = 502) := by
    clear hf hs
    subst hflags
    split <;> split <;> omega
  obtain ⟨q0, q1, q2, q3⟩ := hfl
  refine ⟨by omega, rfl, rfl, ?_⟩
  have e1 : (if flags.toNat % 2 = 1 then (if f.sampleWidth.toNat = 32 then FLOAT else DOUBLE) else TWOSCOMP) = f.sampleFormat := by
    simp only [FLOAT, DOUBLE, TWOSCOMP]
    by_cases c : flags.toNat % 2 = 1
    · rw [if_pos c]
      split <;> omega
    · rw [if_neg c]
      omega
  have e2 : (if flags.toNat / 2 % 2 = 1 then LITTLE else BIG) = f.byteOrder := by
    simp only [LITTLE, BIG]
    split <;> omega
  obtain ⟨g, hg, g1, g2, g3, g4, g5, g6⟩ := set_some (f := { rate := R, sampleFormat := f.sampleFormat, sampleWidth := f.sampleWidth, byteOrder := f.byteOrder, pcm := ⟨0, 0, 0, 0⟩, channels := f.channels, compression := NONE }) (a := f.sampleFormat) (w := f.sampleWidth) (by omega)
  dsimp only at g1 g2 g3 g4 g5 g6
  refine ⟨g, fun s => ?_, g1, g2, by rw [g3, h0], g4, g5, g6⟩
  unfold cafFormat
  dsimp only
  rw [if_pos rfl, if_neg (by simp only [q2]; omega), e1, e2, hg]
  dsimp only
  have : pcmBytesPerPacket g = pcmBytesPerPacket f := by simp only [pcmBytesPerPacket, g5, g2]
  simp only [this]

/-- What the description of a G.711 track says. -/
theorem cafFormat_g711 (h' : Endian) {f : AFmt} (h0 : f.compression = 502 ∨ f.compression = 503) (t : Trk) (ht : t.f = f)
    (R : Rat) :
    (cafFields t).2.1 = 0 ∧ (cafFields t).2.2.2.1 = 1 ∧ (cafFields t).2.2.2.2 = 8 ∧
    ∃ g : AFmt, (∀ s : CafRead, cafFormat h' (cafFields t).1 (cafFields t).2.1.toNat (cafFields t).2.2.2.1.toNat (cafFields t).2.2.2.2.toNat
      { rate := R, sampleFormat := 0, sampleWidth := (cafFields t).2.2.2.2, byteOrder := 0
        pcm := ⟨0, 0, 0, 0⟩, channels := f.channels, compression := 0 } s =
          some { s with hasDesc := true, t := { s.t with f := g, fpp := 1, bpp := f.channels } }) ∧
      g.rate = R ∧ g.channels = f.channels ∧ g.compression = f.compression ∧ g.sampleFormat = 401 ∧ g.sampleWidth = 16 := by
  unfold cafFields
  rw [ht]
  dsimp only
  rcases h0 with h0 | h0
  · rw [h0, if_pos rfl]
    refine ⟨rfl, rfl, rfl, _, fun _ => rfl, rfl, rfl, rfl, rfl, rfl⟩
  · rw [h0, if_neg (by decide), if_pos rfl]
    refine ⟨rfl, rfl, rfl, _, fun _ => rfl, rfl, rfl, rfl, rfl, rfl⟩

/-- What the description of an IMA track says. -/
theorem cafFormat_ima (h' : Endian) {f : AFmt} (h0 : f.compression = 519) (t : Trk) (ht : t.f = f) (hp : t.fpp = 64)
    (R : Rat) :
    (cafFields t).2.1 = 0 ∧ (cafFields t).2.2.2.1 = 64 ∧ (cafFields t).2.2.2.2 = 16 ∧
    ∃ g : AFmt, (∀ s : CafRead, cafFormat h' (cafFields t).1 (cafFields t).2.1.toNat (cafFields t).2.2.2.1.toNat (cafFields t).2.2.2.2.toNat
      { rate := R, sampleFormat := 0, sampleWidth := (cafFields t).2.2.2.2, byteOrder := 0
        pcm := ⟨0, 0, 0, 0⟩, channels := f.channels, compression := 0 } s =
          some { s with hasDesc := true, params := .ima, t := { s.t with f := g, fpp := 64, bpp := 34 * f.channels } }) ∧
      g.rate = R ∧ g.channels = f.channels ∧ g.compression = f.compression ∧ g.sampleFormat = 401 ∧ g.sampleWidth = 16 := by
  unfold cafFields
  rw [ht]
  dsimp only
  rw [h0, if_neg (by decide), if_neg (by decide), if_pos rfl]
  refine ⟨rfl, hp, rfl, _, fun _ => rfl, rfl, rfl, rfl, rfl, rfl⟩

theorem cafTrk_f (f : AFmt) : (cafTrk f).f = f := by
  unfold cafTrk cafParams
  split
  · rfl
  · split <;> rfl

/-- A file of a header, a description and data. -/
theorem caf_read {F : Float64} {h h' : Endian} {t : Trk} {D : List Byte} (hch : 1 ≤ t.f.channels ∧ t.f.channels < 2 ^ 31)
    (hsz : D.length + 68 < 2 ^ 63)
    (hflags : 0 ≤ (cafFields t).2.1 ∧ (cafFields t).2.1 < 2 ^ 32)
    (hfpp : 0 ≤ (cafFields t).2.2.2.1 ∧ (cafFields t).2.2.2.1 < 2 ^ 32) (hbits : 0 ≤ (cafFields t).2.2.2.2 ∧ (cafFields t).2.2.2.2 < 2 ^ 31)
    {g : AFmt} {fpp bpp : Int} {ps : CafParams}
    (hs : ∀ s : CafRead, s.params = .none → cafFormat h' (cafFields t).1 (cafFields t).2.1.toNat (cafFields t).2.2.2.1.toNat (cafFields t).2.2.2.2.toNat
      { rate := F.dec (F.enc t.f.rate), sampleFormat := 0, sampleWidth := (cafFields t).2.2.2.2, byteOrder := 0
        pcm := ⟨0, 0, 0, 0⟩, channels := t.f.channels, compression := 0 } s =
          some { s with hasDesc := true, params := ps, t := { s.t with f := g, fpp := fpp, bpp := bpp } })
    {fuel : Nat} (hfuel : 3 ≤ fuel) :
    ∃ p, cafRead F h' fuel (cafHead F h t ++ cafDataHead h ((D.length + 4 : Nat) : Int) ++ D) 0 =
      .ok (⟨true, Trk.computeTotalFileFrames ⟨g, fpp, bpp, 68, 0, D.length, 0⟩, ps, none⟩, p) := by
  obtain ⟨fuel, rfl⟩ : ∃ k, fuel = k + 3 := ⟨fuel - 3, by omega⟩
  generalize hfile : cafHead F h t ++ cafDataHead h ((D.length + 4 : Nat) : Int) ++ D = file
  have hlen : file.length = 52 + 16 + D.length := by
    rw [← hfile]; simp only [List.length_append, cafHead_length, cafDataHead_length]
  have d8 : file.drop 8 = cafDesc F h t ++ (cafDataHead h ((D.length + 4 : Nat) : Int) ++ D) := by
    have : file.drop 0 = tag "caff" ++ ([0, 1, 0, 0] ++ (cafDesc F h t ++ (cafDataHead h ((D.length + 4 : Nat) : Int) ++ D))) := by
      rw [← hfile]; simp only [cafHead, List.append_assoc, List.drop_zero]
    exact drop_step (n := 4) (p := 4) (drop_step (p := 0) (n := 4) this rfl) rfl
  have d52 := drop_step d8 (cafDesc_length F h t)
  unfold cafRead
  rw [Rd.bind_ok (a := ()) (p' := 8) rfl, Rd.bind_ok (a := file.length) (p' := 8) rfl]
  have w1 := cafDesc_chunk (h' := h') (p := 8) d8 (by omega) hch hflags hfpp hbits
    (hs ⟨false, Trk.ofFormat ⟨0, 0, 0, 0, ⟨0, 0, 0, 0⟩, 0, 0⟩, .none, none⟩ rfl)
  have w2 := cafData_chunk (F := F) (h' := h') (p := 52) (s := { (⟨false, Trk.ofFormat ⟨0, 0, 0, 0, ⟨0, 0, 0, 0⟩, 0, 0⟩, .none, none⟩ : CafRead) with
    hasDesc := true, params := ps, t := { Trk.ofFormat ⟨0, 0, 0, 0, ⟨0, 0, 0, 0⟩, 0, 0⟩ with f := g, fpp := fpp, bpp := bpp } }) d52 (by omega) rfl
  refine ⟨52 + 16 + D.length, ?_⟩
  have w3 := caf_end (F := F) (h' := h') (file := file) (p := 52 + 16 + D.length) (n := fuel + 1)
    (s := ⟨true, Trk.computeTotalFileFrames ⟨g, fpp, bpp, 68, 0, D.length, 0⟩, ps, none⟩) (by omega)
  have w : Rd.loop (cafRound F h' file.length) (fuel + 3) (8, ⟨false, Trk.ofFormat ⟨0, 0, 0, 0, ⟨0, 0, 0, 0⟩, 0, 0⟩, .none, none⟩) file 8 =
      .ok (⟨true, Trk.computeTotalFileFrames ⟨g, fpp, bpp, 68, 0, D.length, 0⟩, ps, none⟩, 52 + 16 + D.length) := by
    show Rd.loop _ (fuel + 2 + 1) (((8 : Nat) : Int), _) file 8 = _
    rw [Rd.loop_step w1]
    show Rd.loop _ (fuel + 1 + 1) (((52 : Nat) : Int), _) file 52 = _
    rw [Rd.loop_step w2, ← w3, hlen]
    rfl
  rw [Rd.bind_ok w]
  rfl

end AF.Files
