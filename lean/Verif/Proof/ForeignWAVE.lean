import Verif.Proof.ForeignSimple
/-!
# Reading WAVE files of other programs
-/
namespace AF.Foreign
open AF AF.Setup AF.Files AF.Spec.Files AF.Spec.Formats AF.Spec.Setup AF.Spec.Foreign

theorem riff_length {c : Chunk} (h : c.Ok) : c.riff.length = 8 + c.body.length + c.body.length % 2 := by
  unfold Chunk.riff
  simp only [List.length_append, le_length, h.id, h.pad]

/-- One chunk of any kind. -/
theorem walk_riff {h : Endian} {fuel size : Nat} {file rest : List Byte} {s s' : WaveRead} {p q : Nat} {c : Chunk}
    (ok : c.Ok) (hp : p = s.index + 8) (hev : s.index % 2 = 0) (hlt : s.index + c.riff.length ≤ size) (hb : size + 9 < 2 ^ 32)
    (he : file.drop p = c.riff ++ rest) (hc : waveChunk h fuel c.id c.body.length s file (p + 8) = .ok (s', q)) (hi : s'.index = s.index) :
    Walk h fuel size file 1 s p { s' with index := s.index + c.riff.length } (p + c.riff.length) ∧
      file.drop (p + c.riff.length) = rest ∧ (s.index + c.riff.length) % 2 = 0 := by
  have hl := riff_length ok
  refine ⟨?_, drop_step he rfl, by omega⟩
  have he' : file.drop p = c.id ++ (fieldBytes .little .little .s4 c.body.length ++ (c.body ++ c.pad ++ rest)) := by
    rw [he]
    unfold Chunk.riff
    rw [le_num, show num .little 4 c.body.length = num .little FieldSize.s4.bytes c.body.length from rfl, num_field .little]
    simp only [List.append_assoc]
  have := walk_chunk (h := .little) (h' := h) (size := size) (sz := c.body.length) hp (by omega) he' ok.id hev (by omega) hc hi
  rw [show s.index + 8 + c.body.length + c.body.length % 2 = s.index + c.riff.length by omega,
    show p + 8 + c.body.length + c.body.length % 2 = p + c.riff.length by omega] at this
  exact this

/-- The body of a chunk. -/
theorem riff_body {file rest : List Byte} {p : Nat} {c : Chunk} (ok : c.Ok) (he : file.drop p = c.riff ++ rest) :
    file.drop (p + 8) = c.body ++ (c.pad ++ rest) := by
  unfold Chunk.riff at he
  rw [List.append_assoc, List.append_assoc, List.append_assoc] at he
  have h1 := drop_step (drop_step he ok.id) (le_length _ _)
  rw [Nat.add_assoc] at h1
  exact h1

/-- Chunks that the reader does not know. -/
theorem unknown_chunk {h : Endian} {fuel sz : Nat} {id : List Byte} {s : WaveRead} {file : List Byte} {q : Nat} (hid : id ∉ waveKnown) :
    waveChunk h fuel id sz s file q = .ok (s, q) := by
  unfold waveKnown at hid
  simp only [List.map_cons, List.map_nil, List.mem_cons, List.not_mem_nil, or_false, not_or] at hid
  have ht : ∀ s, text s = tag s := fun _ => rfl
  simp only [ht] at hid
  obtain ⟨h1, h2, h3, h4, h5, h6, h7, h8, h9⟩ := hid
  unfold waveChunk
  rw [if_neg h1, if_neg h2, if_neg h3, if_neg h5, if_neg h6,
    if_neg (fun e => e.elim h7 h8), if_neg h4, if_neg h9]
  rfl

theorem walk_unknown {h : Endian} {fuel size : Nat} {file : List Byte} (cs : List Chunk) : ∀ {rest : List Byte} {s : WaveRead} {p : Nat},
    (∀ c ∈ cs, c.Ok ∧ c.id ∉ waveKnown) → p = s.index + 8 → s.index % 2 = 0 →
    s.index + (cs.flatMap Chunk.riff).length ≤ size → size + 9 < 2 ^ 32 → file.drop p = cs.flatMap Chunk.riff ++ rest →
    Walk h fuel size file cs.length s p { s with index := s.index + (cs.flatMap Chunk.riff).length } (p + (cs.flatMap Chunk.riff).length) ∧
      file.drop (p + (cs.flatMap Chunk.riff).length) = rest ∧ (s.index + (cs.flatMap Chunk.riff).length) % 2 = 0 := by
  induction cs with
  | nil => intro rest s p _ hp hev _ _ he; exact ⟨Walk.refl _ _ _ _ _ _, he, hev⟩
  | cons c cs ih =>
    intro rest s p hok hp hev hlt hb he
    rw [List.flatMap_cons, List.length_append] at *
    rw [List.append_assoc] at he
    obtain ⟨w1, d1, v1⟩ := walk_riff (h := h) (fuel := fuel) (size := size) (s := s) (s' := s) (hok c List.mem_cons_self).1 hp hev (by omega) hb he
      (unknown_chunk (hok c List.mem_cons_self).2) rfl
    obtain ⟨w2, d2, v2⟩ := ih (s := { s with index := s.index + c.riff.length }) (fun x hx => hok x (List.mem_cons_of_mem _ hx))
      (by dsimp only; omega) v1 (by dsimp only; omega) hb d1
    dsimp only at w2 v2
    have w := w1.trans w2
    rw [List.length_cons, Nat.add_comm cs.length 1]
    rw [Nat.add_assoc] at d2 v2
    rw [Nat.add_assoc, Nat.add_assoc] at w
    exact ⟨w, d2, v2⟩

/-! ## The format chunk -/

theorem plain_kind {h : Endian} {tag bits al c rate : Nat} {k : Kind} (hk : waveKind tag bits = some k) {file rest : List Byte} {q : Nat}
    (hb : bits < 2 ^ 16) (he : file.drop q = num .little 2 bits ++ rest) :
    Kind.Good k ∧ ∃ g bpp q', waveSwitch h ⟨(rate : Rat), 0, 0, LITTLE, ⟨0, 0, 0, 0⟩, (c : Int), NONE⟩ (some al) tag file q = .ok ((g, 1, bpp), q') ∧
      Found h (described rate c LITTLE k) g ∧ (g.isUncompressed = false → bpp = g.channels) := by
  have hbits := (field_num (h := h) (k := .s2) he (show _ < 65536 from hb)).2
  unfold waveKind at hk
  unfold waveSwitch
  by_cases t1 : tag = 1
  · rw [if_pos t1] at hk ⊢
    rw [Rd.bind_ok hbits]
    unfold wavePCM
    by_cases b1 : 1 ≤ bits ∧ bits ≤ 8
    · rw [if_pos b1] at hk
      injection hk with hk; subst hk
      rw [if_neg (by omega)]
      refine ⟨good_unsigned (by omega), _, _, _, rfl, ⟨rfl, ?_, rfl, rfl, rfl, fun _ _ => rfl⟩, fun h => ?_⟩
      · dsimp only; rw [if_pos (by omega)]; rfl
      · exact absurd h (by simp [AFmt.isUncompressed])
    · rw [if_neg b1] at hk
      by_cases b2 : 9 ≤ bits ∧ bits ≤ 32
      · rw [if_pos b2] at hk
        injection hk with hk; subst hk
        rw [if_neg (by omega)]
        refine ⟨good_signed (by omega), _, _, _, rfl, ⟨rfl, ?_, rfl, rfl, rfl, fun _ _ => rfl⟩, fun h => ?_⟩
        · dsimp only; rw [if_neg (by omega)]; rfl
        · exact absurd h (by simp [AFmt.isUncompressed])
      · rw [if_neg b2] at hk; cases hk
  · rw [if_neg t1] at hk ⊢
    by_cases t3 : tag = 3
    · rw [if_pos t3] at hk
      rw [if_neg (by omega), if_neg (by omega), if_pos t3, Rd.bind_ok hbits]
      unfold waveFloat
      by_cases b1 : bits = 32
      · rw [if_pos b1] at hk
        injection hk with hk; subst hk
        rw [if_neg (by omega)]
        exact ⟨good_float, _, _, _, rfl, ⟨rfl, rfl, rfl, rfl, rfl, fun _ _ => rfl⟩, fun h => absurd h (by simp [AFmt.isUncompressed])⟩
      · rw [if_neg b1] at hk
        by_cases b2 : bits = 64
        · rw [if_pos b2] at hk
          injection hk with hk; subst hk
          rw [if_pos (by omega)]
          exact ⟨good_double, _, _, _, rfl, ⟨rfl, rfl, rfl, rfl, rfl, fun _ _ => rfl⟩, fun h => absurd h (by simp [AFmt.isUncompressed])⟩
        · rw [if_neg b2] at hk; cases hk
    · rw [if_neg t3] at hk
      by_cases t6 : tag = 6 ∨ tag = 0x102
      · rw [if_pos t6] at hk
        injection hk with hk; subst hk
        rw [if_neg (by omega), if_pos t6]
        exact ⟨good_aLaw, _, _, _, rfl, ⟨rfl, rfl, rfl, rfl, rfl, fun h => by cases h⟩, fun _ => rfl⟩
      · rw [if_neg t6] at hk
        by_cases t7 : tag = 7 ∨ tag = 0x101
        · rw [if_pos t7] at hk
          injection hk with hk; subst hk
          rw [if_pos t7]
          exact ⟨good_muLaw, _, _, _, rfl, ⟨rfl, rfl, rfl, rfl, rfl, fun h => by cases h⟩, fun _ => rfl⟩
        · rw [if_neg t7] at hk; cases hk

theorem extensible_kind {h : Endian} {bits size valid mask tag al c rate : Nat} {more : List Byte} {k : Kind}
    (hk : (WaveFmt.extensible bits size valid mask tag more).kind = some k) {file rest : List Byte} {q : Nat}
    (hb : bits < 2 ^ 16) (hv : valid < 2 ^ 16)
    (he : file.drop q = num .little 2 bits ++ (num .little 2 size ++ (num .little 2 valid ++ (num .little 4 mask ++ (guid tag ++ rest))))) :
    Kind.Good k ∧ ∃ g bpp q', waveSwitch h ⟨(rate : Rat), 0, 0, LITTLE, ⟨0, 0, 0, 0⟩, (c : Int), NONE⟩ (some al) 0xfffe file q = .ok ((g, 1, bpp), q') ∧
      Found h (described rate c LITTLE k) g ∧ (g.isUncompressed = false → bpp = g.channels) := by
  have hbits := (field_num (h := h) (k := .s2) he (show _ < 65536 from hb)).2
  have e1 := drop_step he (num_length _ _ _)
  obtain ⟨y1, hy1, -⟩ := field_any (h := h) (k := .s2) e1
  have e2 := drop_step e1 (num_length _ _ _)
  have hvalid := (field_num (h := h) (k := .s2) e2 (show _ < 65536 from hv)).2
  have e3 := drop_step e2 (num_length _ _ _)
  obtain ⟨y2, hy2, -⟩ := field_any (h := h) (k := .s4) e3
  have e4 := drop_step e3 (num_length _ _ _)
  have hgl : (guid tag).length = 16 := by unfold guid; rw [List.length_append, le_length]; rfl
  have hread := Rd.read_ok e4 hgl
  unfold WaveFmt.kind at hk
  dsimp only at hk
  unfold waveSwitch
  rw [if_neg (by decide), if_neg (by decide), if_neg (by decide), if_neg (by decide), if_neg (by decide), if_neg (by decide), if_pos rfl,
    Rd.bind_ok hbits, Rd.bind_ok hy1, Rd.bind_ok hvalid, Rd.bind_ok hy2, Rd.bind_ok hread, if_neg (by omega)]
  by_cases t1 : tag = 1
  · subst t1
    rw [if_pos rfl] at hk
    by_cases hval : valid ≤ bits ∧ (valid + 7) / 8 = (bits + 7) / 8
    · rw [if_pos hval] at hk
      rw [if_pos (by decide), if_pos hval]
      unfold waveKind at hk
      rw [if_pos rfl] at hk
      unfold wavePCM
      by_cases b1 : 1 ≤ valid ∧ valid ≤ 8
      · rw [if_pos b1] at hk
        injection hk with hk; subst hk
        rw [if_neg (by omega)]
        refine ⟨good_unsigned (by omega), _, _, _, rfl, ⟨rfl, ?_, rfl, rfl, rfl, fun _ _ => rfl⟩, fun h => ?_⟩
        · dsimp only; rw [if_pos (by omega)]; rfl
        · exact absurd h (by simp [AFmt.isUncompressed])
      · rw [if_neg b1] at hk
        by_cases b2 : 9 ≤ valid ∧ valid ≤ 32
        · rw [if_pos b2] at hk
          injection hk with hk; subst hk
          rw [if_neg (by omega)]
          refine ⟨good_signed (by omega), _, _, _, rfl, ⟨rfl, ?_, rfl, rfl, rfl, fun _ _ => rfl⟩, fun h => ?_⟩
          · dsimp only; rw [if_neg (by omega)]; rfl
          · exact absurd h (by simp [AFmt.isUncompressed])
        · rw [if_neg b2] at hk; cases hk
    · rw [if_neg hval] at hk; cases hk
  · rw [if_neg t1] at hk
    by_cases t2 : tag = 3 ∨ tag = 6 ∨ tag = 7
    · rw [if_pos t2] at hk
      unfold waveKind at hk
      rcases t2 with rfl | rfl | rfl
      · rw [if_neg (by decide), if_pos rfl] at hk
        rw [if_neg (by decide), if_pos (by decide)]
        unfold waveFloat
        by_cases b1 : bits = 32
        · rw [if_pos b1] at hk
          injection hk with hk; subst hk
          rw [if_neg (by omega)]
          exact ⟨good_float, _, _, _, rfl, ⟨rfl, rfl, rfl, rfl, rfl, fun _ _ => rfl⟩, fun h => absurd h (by simp [AFmt.isUncompressed])⟩
        · rw [if_neg b1] at hk
          by_cases b2 : bits = 64
          · rw [if_pos b2] at hk
            injection hk with hk; subst hk
            rw [if_pos (by omega)]
            exact ⟨good_double, _, _, _, rfl, ⟨rfl, rfl, rfl, rfl, rfl, fun _ _ => rfl⟩, fun h => absurd h (by simp [AFmt.isUncompressed])⟩
          · rw [if_neg b2] at hk; cases hk
      · injection hk with hk; subst hk
        rw [if_neg (by decide), if_neg (by decide), if_pos (by decide)]
        exact ⟨good_aLaw, _, _, _, rfl, ⟨rfl, rfl, rfl, rfl, rfl, fun h => by cases h⟩, fun _ => rfl⟩
      · injection hk with hk; subst hk
        rw [if_neg (by decide), if_neg (by decide), if_neg (by decide), if_pos (by decide)]
        exact ⟨good_muLaw, _, _, _, rfl, ⟨rfl, rfl, rfl, rfl, rfl, fun h => by cases h⟩, fun _ => rfl⟩
    · rw [if_neg t2] at hk; cases hk

/-- What the reader knows after the format chunk. -/
def fmtStateB (s : WaveRead) (f : AFmt) (fpp bpp : Nat) : WaveRead :=
  { s with hasFormat := true, t := { s.t with f := f, fpp := (fpp : Int), bpp := (bpp : Int) } }

abbrev fmtState (s : WaveRead) (g : AFmt) (bpp : Nat) : WaveRead := fmtStateB s (setSampleFormat g g.sampleFormat g.sampleWidth).2 1 bpp

/-- The format chunk. -/
theorem wave_fmt {h : Endian} {w : Wave} (ok : w.Ok) {k : Kind} (hk : w.fmt.kind = some k) {file rest : List Byte} {q : Nat} (s : WaveRead)
    (he : file.drop q = w.fmtBody ++ rest) :
    Kind.Good k ∧ ∃ g q', Found h (described w.rate w.channels LITTLE k) g ∧ waveParseFormat h s file q =
      .ok (fmtState s g (k.bytes * w.channels), q') := by
  have hc := ok.channels
  have hr := ok.rate
  have hb := ok.bits
  have n2 : ∀ x : Nat, num .little 2 x = fieldBytes .little .little .s2 x := fun x => num_field .little .little .s2 x
  have n4 : ∀ x : Nat, num .little 4 x = fieldBytes .little .little .s4 x := fun x => num_field .little .little .s4 x
  have fin : ∀ {tag : Nat} {tail : List Byte} (_ : tag < 65536) (_ : file.drop q = num .little 2 tag ++ (num .little 2 w.channels ++ (num .little 4 w.rate ++
      (num .little 4 w.byteRate ++ (num .little 2 w.blockAlign ++ tail))))) {al : Nat} (_ : ((w.blockAlign : Int) % 65536).toNat = al)
      (_ : Kind.Good k ∧ ∃ g bpp q', waveSwitch h ⟨(w.rate : Rat), 0, 0, LITTLE, ⟨0, 0, 0, 0⟩, (w.channels : Int), NONE⟩ (some al) tag file (q + 14) = .ok ((g, 1, bpp), q') ∧
        Found h (described w.rate w.channels LITTLE k) g ∧ (g.isUncompressed = false → bpp = g.channels)),
      Kind.Good k ∧ ∃ g q', Found h (described w.rate w.channels LITTLE k) g ∧ waveParseFormat h s file q =
      .ok (fmtState s g (k.bytes * w.channels), q') := by
    intro tag tail ht he al hal hsw
    obtain ⟨good, g, bpp, q', hsw, hF, hbpp⟩ := hsw
    refine ⟨good, g, q', hF, ?_⟩
    rw [n2, n2, n2, n4, n4] at he
    have := parse_prefix (h := .little) (h' := h) (s := s) he (by omega) (by omega) (by omega) (f := g) (fpp := 1) (bpp := bpp) (q' := q')
      (by rw [hal, Int.toNat_natCast, Int.toNat_natCast]; exact hsw)
    unfold fmtState fmtStateB
    rw [this, ← found_bpp hF]
    cases hu : g.isUncompressed with
    | true => rfl
    | false => rw [if_neg (by simp), if_neg (by simp), hbpp hu]; rfl
  unfold Wave.fmtBody at he
  revert he hb hk
  cases w.fmt with
  | plain tag bits more =>
    intro hk he hb
    dsimp only at he hb
    have he' : file.drop q = num .little 2 tag ++ (num .little 2 w.channels ++ (num .little 4 w.rate ++
      (num .little 4 w.byteRate ++ (num .little 2 w.blockAlign ++ (num .little 2 bits ++ (more ++ rest)))))) := by
      rw [he]; simp only [List.append_assoc, le_num]
    have e1 := drop_step he' (num_length _ _ _)
    have e2 := drop_step e1 (num_length _ _ _)
    have e3 := drop_step e2 (num_length _ _ _)
    have e4 := drop_step e3 (num_length _ _ _)
    have e5 := drop_step e4 (num_length _ _ _)
    exact fin hb.1 he' rfl (plain_kind hk hb.2 e5)
  | extensible bits size valid mask tag more =>
    intro hk he hb
    dsimp only at he hb
    have he' : file.drop q = num .little 2 0xfffe ++ (num .little 2 w.channels ++ (num .little 4 w.rate ++
      (num .little 4 w.byteRate ++ (num .little 2 w.blockAlign ++ (num .little 2 bits ++ (num .little 2 size ++ (num .little 2 valid ++
        (num .little 4 mask ++ (guid tag ++ (more ++ rest)))))))))) := by
      rw [he]; simp only [List.append_assoc, le_num]
    have e1 := drop_step he' (num_length _ _ _)
    have e2 := drop_step e1 (num_length _ _ _)
    have e3 := drop_step e2 (num_length _ _ _)
    have e4 := drop_step e3 (num_length _ _ _)
    have e5 := drop_step e4 (num_length _ _ _)
    exact fin (by decide) he' rfl (extensible_kind hk hb.1 hb.2 e5)

theorem unknown_length {cs : List Chunk} (h : ∀ c ∈ cs, c.Ok) : cs.length ≤ (cs.flatMap Chunk.riff).length := by
  induction cs with
  | nil => exact Nat.le_refl _
  | cons c cs ih =>
    rw [List.flatMap_cons, List.length_append, List.length_cons, riff_length (h c List.mem_cons_self)]
    have := ih fun x hx => h x (List.mem_cons_of_mem _ hx)
    omega

/-- The fact chunk, if there is one. -/
theorem walk_factChunk {h : Endian} {fuel size : Nat} {file rest : List Byte} {w : Wave} (ok : w.Ok) {s : WaveRead} {p : Nat}
    (hs : s.hasFrameCount = false) (hp : p = s.index + 8) (hev : s.index % 2 = 0) (hlt : s.index + w.factChunk.length ≤ size) (hb : size + 9 < 2 ^ 32)
    (he : file.drop p = w.factChunk ++ rest) :
    ∃ j s', j ≤ w.factChunk.length ∧ Walk h fuel size file j s p s' (p + w.factChunk.length) ∧ file.drop (p + w.factChunk.length) = rest ∧
      s'.index = s.index + w.factChunk.length ∧ s'.index % 2 = 0 ∧ s'.hasFormat = s.hasFormat ∧ s'.hasData = s.hasData ∧
      s'.t.f = s.t.f ∧ s'.t.fpp = s.t.fpp ∧ s'.t.bpp = s.t.bpp ∧
      (∀ n more, w.fact = some (n, more) → s'.hasFrameCount = true ∧ s'.t.frames = n) ∧ (w.fact = none → s'.hasFrameCount = false) := by
  cases hfact : w.fact with
  | none =>
    have hz : w.factChunk = [] := by unfold Wave.factChunk; rw [hfact]
    rw [hz] at he ⊢
    exact ⟨0, s, Nat.le_refl _, Walk.refl _ _ _ _ _ _, he, rfl, hev, rfl, rfl, rfl, rfl, rfl, (fun _ _ h => by cases h), fun _ => hs⟩
  | some nm =>
    obtain ⟨n, more⟩ := nm
    have hz : w.factChunk = (Chunk.mk (text "fact") (le 4 n ++ more) w.factPad).riff := by unfold Wave.factChunk; rw [hfact]
    have hok := ok.fact n more hfact
    rw [hz] at he hlt ⊢
    generalize hC : Chunk.mk (text "fact") (le 4 n ++ more) w.factPad = C at *
    have cok : C.Ok := by
      rw [← hC]
      refine ⟨rfl, ?_⟩
      dsimp only
      rw [hok.2, List.length_append, le_length]; omega
    have hbody := riff_body cok he
    have hbody' : file.drop (p + 8) = num .little 4 n ++ (more ++ (C.pad ++ rest)) := by
      rw [hbody, ← hC]; simp only [List.append_assoc, le_num]
    have hc : waveChunk h fuel C.id C.body.length s file (p + 8) =
        .ok ({ s with hasFrameCount := true, t := { s.t with frames := n } }, p + 8 + 4) := by
      have : C.id = tag "fact" := by rw [← hC]; rfl
      rw [this]
      unfold waveChunk
      rw [if_neg (by decide), if_neg (by decide), if_neg (by decide), if_pos rfl]
      unfold waveParseFact
      rw [Rd.bind_ok (field_num (k := .s4) hbody' (show _ < 2 ^ 32 from hok.1)).2]
      rfl
    obtain ⟨w1, d1, v1⟩ := walk_riff (h := h) (fuel := fuel) (size := size) cok hp hev hlt hb he hc rfl
    have hrl := riff_length cok
    exact ⟨1, _, by omega, w1, d1, rfl, v1, rfl, rfl, rfl, rfl, rfl, (fun n' m' h' => by cases h'; exact ⟨rfl, rfl⟩), fun h' => by cases h'⟩

set_option maxHeartbeats 2000000 in
theorem wave_walk (h : Endian) (w : Wave) (ok : w.Ok) {fuel : Nat} (hfuel : w.file.length < fuel) {P : AFmt → Prop} {fpp bpp : Nat} (hf0 : 0 < fpp) (hb0 : 0 < bpp)
    (hfmt : ∀ (S : WaveRead) (q : Nat) (rest : List Byte), w.file.drop q = w.fmtBody ++ rest →
      ∃ f q', P f ∧ waveParseFormat h S w.file q = .ok (fmtStateB S f fpp bpp, q')) :
    ∃ s p f first afterData frames, P f ∧ waveRead h fuel w.file 0 = .ok (s, p) ∧ (w.file.drop first).take w.sound.length = w.sound ∧
      ((∀ n more, w.fact = some (n, more) → s.t = ⟨f, fpp, bpp, (first : Nat), afterData, w.sound.length, n⟩) ∧
       (w.fact = none → s.t = (Trk.mk f fpp bpp (first : Nat) afterData w.sound.length frames).computeTotalFileFrames)) := by
  have hsize := ok.size
  have hcs := ok.others
  have hc1 : ∀ c ∈ w.first, c.Ok ∧ c.id ∉ waveKnown := fun c hc => hcs c (by simp [hc])
  have hc2 : ∀ c ∈ w.second, c.Ok ∧ c.id ∉ waveKnown := fun c hc => hcs c (by simp [hc])
  have hc3 : ∀ c ∈ w.third, c.Ok ∧ c.id ∉ waveKnown := fun c hc => hcs c (by simp [hc])
  have hc4 : ∀ c ∈ w.last, c.Ok ∧ c.id ∉ waveKnown := fun c hc => hcs c (by simp [hc])
  have l1 := unknown_length fun c hc => (hc1 c hc).1
  have l2 := unknown_length fun c hc => (hc2 c hc).1
  have l3 := unknown_length fun c hc => (hc3 c hc).1
  have l4 := unknown_length fun c hc => (hc4 c hc).1
  generalize hfm : Chunk.mk (text "fmt ") w.fmtBody w.fmtPad = FM
  generalize hdm : Chunk.mk (text "data") w.sound w.soundPad = DM
  have fok : FM.Ok := by rw [← hfm]; exact ⟨rfl, ok.fmtPad⟩
  have dok : DM.Ok := by rw [← hdm]; exact ⟨rfl, ok.soundPad⟩
  have r1 := riff_length fok
  have r2 := riff_length dok
  have hdl : DM.body.length = w.sound.length := by rw [← hdm]
  generalize hcl : w.chunks.length = N
  have hchunks : w.chunks = w.first.flatMap Chunk.riff ++ (FM.riff ++ (w.second.flatMap Chunk.riff ++ (w.factChunk ++
      (w.third.flatMap Chunk.riff ++ (DM.riff ++ (w.last.flatMap Chunk.riff ++ [])))))) := by
    unfold Wave.chunks
    rw [hfm, hdm]
    simp only [List.append_assoc, List.append_nil]
  have hN := congrArg List.length hchunks
  simp only [List.length_append, List.length_nil] at hN
  rw [hcl] at hN
  have e1 : (text "RIFF").length = 4 := rfl
  have e2 : (text "WAVE").length = 4 := rfl
  have hlen : w.file.length = N + 12 := by
    unfold Wave.file
    rw [List.length_append, List.length_append, List.length_append, e1, e2, le_length, hcl]
    omega
  have hd0 : w.file.drop 0 = text "RIFF" ++ (num .little 4 (N + 4) ++ (text "WAVE" ++ w.chunks)) := by
    rw [List.drop_zero]
    unfold Wave.file
    rw [hcl]
    simp only [List.append_assoc, le_num]
  have hd1 := drop_step hd0 e1
  have hd2 := drop_step hd1 (num_length _ _ _)
  have hd3 := drop_step hd2 e2
  rw [hchunks] at hd3
  generalize w.file = file at *
  unfold waveRead
  rw [Rd.bind_ok (a := ()) (p' := 0) rfl, Rd.bind_ok (Rd.tag_ok hd0 e1), Rd.bind_ok (field_num (k := .s4) hd1 (show _ < 2 ^ 32 by omega)).2,
    Rd.bind_ok (Rd.tag_ok hd2 e2)]
  have hd3' : file.drop 12 = w.first.flatMap Chunk.riff ++ (FM.riff ++ (w.second.flatMap Chunk.riff ++ (w.factChunk ++
      (w.third.flatMap Chunk.riff ++ (DM.riff ++ (w.last.flatMap Chunk.riff ++ [])))))) := hd3
  rw [show 0 + 4 + 4 + 4 = 12 from rfl]
  generalize hS0 : WaveRead.mk 4 false false false
    (Trk.ofFormat ⟨0, 0, 0, 0, ⟨0, 0, 0, 0⟩, 0, 0⟩) [] [] = S0
  have z1 : S0.index = 4 := by rw [← hS0]
  have z2 : S0.hasFrameCount = false := by rw [← hS0]
  clear hS0
  -- before the format
  obtain ⟨w1, d1, v1⟩ := walk_unknown (h := h) (fuel := fuel) (size := N + 4) w.first (s := S0) (p := 12) hc1 (by omega) (by omega) (by omega) (by omega) hd3'
  generalize hS1 : WaveRead.mk (S0.index + (w.first.flatMap Chunk.riff).length) S0.hasFormat S0.hasData S0.hasFrameCount S0.t S0.markers S0.misc = S1 at w1
  have i1 : S1.index = 4 + (w.first.flatMap Chunk.riff).length := by rw [← hS1, ← z1]
  -- the format
  have hbody := riff_body fok d1
  rw [← hfm] at hbody
  obtain ⟨f, q', hPf, hpf⟩ := hfmt S1 _ _ hbody
  have hcF : waveChunk h fuel FM.id FM.body.length S1 file (12 + (w.first.flatMap Chunk.riff).length + 8) =
      .ok (fmtStateB S1 f fpp bpp, q') := by
    have : FM.id = tag "fmt " := by rw [← hfm]; rfl
    rw [this]
    unfold waveChunk
    rw [if_pos rfl]
    exact hpf
  obtain ⟨w2, d2, v2⟩ := walk_riff (h := h) (fuel := fuel) (size := N + 4) (s := S1) fok (by omega) (by omega) (by omega) (by omega) d1 hcF rfl
  have w12 := w1.trans w2
  generalize hS2 : WaveRead.mk (S1.index + FM.riff.length) (fmtStateB S1 f fpp bpp).hasFormat (fmtStateB S1 f fpp bpp).hasData
    (fmtStateB S1 f fpp bpp).hasFrameCount (fmtStateB S1 f fpp bpp).t (fmtStateB S1 f fpp bpp).markers
    (fmtStateB S1 f fpp bpp).misc = S2 at w12
  have i2 : S2.index = S1.index + FM.riff.length ∧ S2.hasFormat = true ∧ S2.hasFrameCount = false ∧
      S2.t.f = f ∧ S2.t.fpp = (fpp : Int) ∧ S2.t.bpp = (bpp : Int) := by
    rw [← hS2]
    refine ⟨rfl, rfl, ?_, rfl, rfl, rfl⟩
    rw [← hS1]; exact z2
  obtain ⟨j1, j2, j3, j4, j5, j6⟩ := i2
  -- before the fact
  obtain ⟨w3, d3, v3⟩ := walk_unknown (h := h) (fuel := fuel) (size := N + 4) w.second (s := S2)
    (p := 12 + (w.first.flatMap Chunk.riff).length + FM.riff.length) hc2 (by omega) (by omega) (by omega) (by omega) d2
  have w123 := w12.trans w3
  -- the fact
  obtain ⟨j, S4, hj, w4, d4, k1, k2, k3, k4, k5, k6, k7, k8, k9⟩ := walk_factChunk (h := h) (fuel := fuel) (size := N + 4) ok
    (s := { S2 with index := S2.index + (w.second.flatMap Chunk.riff).length })
    (p := 12 + (w.first.flatMap Chunk.riff).length + FM.riff.length + (w.second.flatMap Chunk.riff).length)
    j3 (by dsimp only; omega) v3 (by dsimp only; omega) (by omega) d3
  have w1234 := w123.trans w4
  dsimp only at k1 k3 k5 k6 k7
  rw [j2] at k3
  rw [j4] at k5
  rw [j5] at k6
  rw [j6] at k7
  -- before the data
  obtain ⟨w5, d5, v5⟩ := walk_unknown (h := h) (fuel := fuel) (size := N + 4) w.third (s := S4)
    (p := 12 + (w.first.flatMap Chunk.riff).length + FM.riff.length + (w.second.flatMap Chunk.riff).length + w.factChunk.length)
    hc3 (by omega) k2 (by omega) (by omega) d4
  have w15 := w1234.trans w5
  generalize hP : 12 + (w.first.flatMap Chunk.riff).length + FM.riff.length + (w.second.flatMap Chunk.riff).length + w.factChunk.length +
    (w.third.flatMap Chunk.riff).length = P at *
  generalize hS5 : WaveRead.mk (S4.index + (w.third.flatMap Chunk.riff).length) S4.hasFormat S4.hasData S4.hasFrameCount S4.t S4.markers S4.misc = S5 at w15
  have m1 : S5.index = S4.index + (w.third.flatMap Chunk.riff).length ∧ S5.hasFormat = true ∧ S5.t = S4.t ∧ S5.hasFrameCount = S4.hasFrameCount := by
    rw [← hS5]; exact ⟨rfl, k3, rfl, rfl⟩
  obtain ⟨m1, m2, m3, m4⟩ := m1
  -- the data
  have hcD : waveChunk h fuel DM.id DM.body.length S5 file (P + 8) =
      .ok ({ S5 with hasData := true, t := { S5.t with first := ((P + 8 : Nat) : Int), dataSize := (DM.body.length : Int) } }, P + 8) := by
    have : DM.id = tag "data" := by rw [← hdm]; rfl
    rw [this]
    unfold waveChunk
    rw [if_neg (by decide), if_pos rfl, if_neg (by rw [m2]; decide)]
    rfl
  obtain ⟨w6, d6, v6⟩ := walk_riff (h := h) (fuel := fuel) (size := N + 4) (s := S5) dok (by omega) (by omega) (by omega) (by omega) d5 hcD rfl
  have hsound := riff_body dok d5
  have w16 := w15.trans w6
  dsimp only at w16
  generalize hS6 : WaveRead.mk (S5.index + DM.riff.length) S5.hasFormat true S5.hasFrameCount
    { S5.t with first := ((P + 8 : Nat) : Int), dataSize := (DM.body.length : Int) } S5.markers S5.misc = S6 at w16
  -- the rest
  obtain ⟨w7, d7, v7⟩ := walk_unknown (h := h) (fuel := fuel) (size := N + 4) w.last (s := S6) (p := P + DM.riff.length)
    hc4 (by rw [← hS6]; dsimp only; omega) (by rw [← hS6]; dsimp only; omega) (by rw [← hS6]; dsimp only; omega) (by omega) d6
  have w17 := w16.trans w7
  generalize hS7 : WaveRead.mk (S6.index + (w.last.flatMap Chunk.riff).length) S6.hasFormat S6.hasData S6.hasFrameCount S6.t S6.markers S6.misc = S7 at w17
  have n1 : S7.index = S5.index + DM.riff.length + (w.last.flatMap Chunk.riff).length ∧ S7.hasFormat = true ∧ S7.hasData = true ∧
      S7.hasFrameCount = S4.hasFrameCount ∧ S7.t = { S4.t with first := ((P + 8 : Nat) : Int), dataSize := (DM.body.length : Int) } := by
    rw [← hS7, ← hS6]; exact ⟨rfl, m2, rfl, m4, by dsimp only; rw [m3]⟩
  obtain ⟨n1, n2, n3, n4, n5⟩ := n1
  generalize hK : w.first.length + 1 + w.second.length + j + w.third.length + 1 + w.last.length = K at w17
  obtain ⟨M, hM⟩ : ∃ M, fuel = M + 1 + K := ⟨fuel - K - 1, by omega⟩
  have hw := w17 (M + 1)
  rw [← hM] at hw
  have hend : ∀ p, Rd.loop (waveRound h fuel (N + 4)) (M + 1) S7 file p = .ok (S7, p) := by
    intro p
    refine Rd.loop_done ?_
    unfold waveRound
    rw [if_neg (by omega)]
    rfl
  rw [hend] at hw
  rw [Rd.bind_ok hw, n2, n3, if_neg (by simp)]
  have haudio : (file.drop (P + 8)).take w.sound.length = w.sound := by
    rw [hsound, ← hdm, List.take_left]
  cases hfact : w.fact with
  | none =>
    rw [n4, k9 hfact, if_pos (by rfl), if_pos (by rw [n5]; dsimp only; rw [k6, k7]; omega)]
    refine ⟨_, _, f, P + 8, S4.t.afterData, S4.t.frames, hPf, rfl, haudio, (fun n more e => by cases e), fun _ => ?_⟩
    dsimp only
    rw [n5, hdl]
    dsimp only
    rw [k5, k6, k7]
  | some nm =>
    obtain ⟨n, more⟩ := nm
    have hc := k8 n more hfact
    rw [n4, hc.1, if_neg (by simp)]
    refine ⟨_, _, f, P + 8, S4.t.afterData, 0, hPf, rfl, haudio, (fun n' more' e => ?_), fun e => by cases e⟩
    cases e
    rw [n5, hdl]
    dsimp only
    rw [k5, k6, k7, hc.2]

theorem waveKind_good {tag bits : Nat} {k : Kind} (hk : waveKind tag bits = some k) : Kind.Good k := by
  unfold waveKind at hk
  by_cases h1 : tag = 1
  · rw [if_pos h1] at hk
    by_cases h2 : 1 ≤ bits ∧ bits ≤ 8
    · rw [if_pos h2] at hk; injection hk with hk; subst hk; exact good_unsigned (by omega)
    rw [if_neg h2] at hk
    by_cases h3 : 9 ≤ bits ∧ bits ≤ 32
    · rw [if_pos h3] at hk; injection hk with hk; subst hk; exact good_signed (by omega)
    rw [if_neg h3] at hk
    cases hk
  rw [if_neg h1] at hk
  by_cases h1 : tag = 3
  · rw [if_pos h1] at hk
    by_cases h2 : bits = 32
    · rw [if_pos h2] at hk; injection hk with hk; subst hk; exact good_float
    rw [if_neg h2] at hk
    by_cases h3 : bits = 64
    · rw [if_pos h3] at hk; injection hk with hk; subst hk; exact good_double
    rw [if_neg h3] at hk
    cases hk
  rw [if_neg h1] at hk
  by_cases h1 : tag = 6 ∨ tag = 0x102
  · rw [if_pos h1] at hk; injection hk with hk; subst hk; exact good_aLaw
  rw [if_neg h1] at hk
  by_cases h1 : tag = 7 ∨ tag = 0x101
  · rw [if_pos h1] at hk; injection hk with hk; subst hk; exact good_muLaw
  rw [if_neg h1] at hk
  cases hk

theorem waveFmt_good {f : WaveFmt} {k : Kind} (hk : f.kind = some k) : Kind.Good k := by
  unfold WaveFmt.kind at hk
  split at hk
  · exact waveKind_good hk
  · split at hk
    · split at hk
      · exact waveKind_good hk
      · cases hk
    · split at hk
      · exact waveKind_good hk
      · cases hk

theorem wave_found (h : Endian) (w : Wave) (ok : w.Ok) {k : Kind} (hk : w.fmt.kind = some k) {fuel : Nat} (hfuel : w.file.length < fuel) :
    ∃ s p, waveRead h fuel w.file 0 = .ok (s, p) ∧ SameSound (described w.rate w.channels LITTLE k) w.sound (w.frames k) w.file s.t := by
  have hch := ok.channels
  have hsize := ok.size
  have good := waveFmt_good hk
  have hgb := good_bytes good
  have hpos : 0 < k.bytes * w.channels := Nat.mul_pos (by omega) (by omega)
  obtain ⟨s, p, f, first, ad, fr, ⟨g, hF, hfg⟩, h1, h2, h3, h4⟩ := wave_walk h w ok hfuel (fpp := 1) (bpp := k.bytes * w.channels) (by decide) hpos
    (P := fun f => ∃ g, Found h (described w.rate w.channels LITTLE k) g ∧ f = (setSampleFormat g g.sampleFormat g.sampleWidth).2) (by
      intro S q rest he
      obtain ⟨-, g, q', hF, hp⟩ := wave_fmt (h := h) ok hk S he
      exact ⟨_, q', ⟨g, hF, rfl⟩, hp⟩)
  refine ⟨s, p, h1, ?_⟩
  have hsl : w.sound.length ≤ w.file.length := by
    have := congrArg List.length h2
    rw [List.length_take, List.length_drop] at this
    omega
  cases hfact : w.fact with
  | none =>
    have hfr : w.frames k = w.sound.length / (k.bytes * w.channels) := by unfold Wave.frames; rw [hfact]
    rw [hfr, h4 hfact]
    exact found_counted' good hF hfg (by omega) (by omega) (by omega) rfl rfl h2
  | some nm =>
    obtain ⟨n, more⟩ := nm
    have hfr : w.frames k = n := by unfold Wave.frames; rw [hfact]
    rw [hfr, h3 n more hfact]
    exact found_same good hF hfg (by dsimp only; omega) rfl (by dsimp only; rw [Int.toNat_natCast]; exact h2) rfl

end AF.Foreign
