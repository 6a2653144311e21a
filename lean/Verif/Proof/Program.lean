import Verif.Spec.Program
import Verif.Spec.Files
import Verif.Props.Writing
import Verif.Props.G711
namespace AF.Program
open AF AF.Setup AF.Files AF.Convert AF.Spec AF.Virtual AF.Spec.Setup AF.Spec.Formats AF.Spec.Files AF.Spec.Program

/-! ## Formats -/

theorem defaultMapping_int (u : Bool) (w : Int) (B : Nat) (hB : ((w + 7) / 8).toNat = B) :
    defaultMapping (if u then UNSIGNED else TWOSCOMP) w = if u then defaultUnsigned B else defaultSigned B := by
  subst hB
  unfold defaultMapping
  cases u
  · rfl
  · rfl

theorem integer_int {v : Fmt} (hv : Integer v) : IntFmt v (bytesOf v) (v.sampleFormat == .unsigned) := by
  have hw := hv.width
  have hm := hv.mapping
  rcases hv.kind with hk | hk
  · refine ⟨by rw [hk]; rfl, rfl, by unfold bytesOf; omega, ?_⟩
    rw [hm, hk]
    exact defaultMapping_int false v.width (bytesOf v) (by unfold bytesOf; omega)
  · refine ⟨by rw [hk]; rfl, rfl, by unfold bytesOf; omega, ?_⟩
    rw [hm, hk]
    exact defaultMapping_int true v.width (bytesOf v) (by unfold bytesOf; omega)

/-- What the conversion chain needs to know of a track of integers: `B` bytes per sample, unsigned or not. -/
structure IntTrack (f : AFmt) (B : Nat) (u : Bool) : Prop where
  kind : f.sampleFormat = if u then UNSIGNED else TWOSCOMP
  width : 1 ≤ f.sampleWidth ∧ f.sampleWidth ≤ 32
  bytes : ((f.sampleWidth + 7) / 8).toNat = B
  mapping : f.pcm = defaultMapping f.sampleFormat f.sampleWidth

theorem IntTrack.int {f : AFmt} {B : Nat} {u : Bool} (hf : IntTrack f B u) : IntFmt (chainFormat f) B u := by
  have hw := hf.width
  have hb := hf.bytes
  refine ⟨?_, ?_, by omega, ?_⟩
  · show (if f.sampleFormat = UNSIGNED then SampleFormat.unsigned else _) = _
    rw [hf.kind]
    cases u <;> rfl
  · show (f.sampleWidth.toNat + 7) / 8 = B
    omega
  · show f.pcm = _
    rw [hf.mapping, hf.kind]
    exact defaultMapping_int u f.sampleWidth B hb

/-- The same for a track of floating point samples. -/
structure FloatTrack (f : AFmt) (B : Nat) : Prop where
  kind : f.sampleFormat = FLOAT ∧ B = 4 ∨ f.sampleFormat = DOUBLE ∧ B = 8
  mapping : f.pcm = ⟨1, 0, 0, 0⟩

theorem FloatTrack.float {f : AFmt} {B : Nat} (hf : FloatTrack f B) : FloatFmt (chainFormat f) B := by
  refine ⟨?_, ?_⟩
  · rcases hf.kind with ⟨h1, h2⟩ | ⟨h1, h2⟩
    · exact .inl ⟨by simp [chainFormat, h1, FLOAT, UNSIGNED], h2⟩
    · exact .inr ⟨by simp [chainFormat, h1, FLOAT, UNSIGNED, DOUBLE], h2⟩
  · show f.pcm.maxClip ≤ f.pcm.minClip
    rw [hf.mapping]
    exact Rat.le_refl

theorem floating_float {v : Fmt} (hv : Floating v) : FloatFmt v (bytesOf v) := by
  refine ⟨?_, by rw [hv.mapping]; exact Rat.le_refl⟩
  rcases hv.kind with ⟨h1, h2⟩ | ⟨h1, h2⟩
  · exact .inl ⟨h1, by unfold bytesOf; omega⟩
  · exact .inr ⟨h1, by unfold bytesOf; omega⟩

/-! ## One frame to the file -/

/-- A frame of integers as it stands between the chain and the codec. -/
theorem int_toFile (h : Endian) (fm : Module → List Byte → List Byte) (v : Fmt) (f : AFmt) (B : Nat) (u : Bool) (hv : Integer v)
    (hu : Usable h f v) (hf : IntTrack f B u) (fr : List Int) (hfr : Fits f v fr) :
    toFile h fm v (chainFormat f) (userBytes v.byteOrder (bytesOf v) fr)
      = packedBytes (fileOrder h (chainFormat f)) B (fr.map (convertSample (bytesOf v) (v.sampleFormat == .unsigned) B u)) := by
  have hch : v.channels = (chainFormat f).channels := by
    have := hu.channels
    show v.channels = f.channels.toNat
    omega
  obtain ⟨c, e, b⟩ := chain_writing h fm v (chainFormat f) _ B _ u (integer_int hv) hf.int hu.uncompressed hu.order hch fr (hfr.2 hv)
  unfold toFile
  rw [e]
  exact b

theorem int_fromFile (h : Endian) (fm : Module → List Byte → List Byte) (w : Fmt) (f : AFmt) (B : Nat) (u : Bool) (hw : Integer w)
    (hu : Usable h f w) (hf : IntTrack f B u) (fr : List Int) (hfr : ∀ x ∈ fr, SampleRange B u x) :
    fromFile h fm w (chainFormat f) (packedBytes (fileOrder h (chainFormat f)) B fr)
      = userBytes w.byteOrder (bytesOf w) (fr.map (convertSample B u (bytesOf w) (w.sampleFormat == .unsigned))) := by
  have hch : (chainFormat f).channels = w.channels := by
    have := hu.channels
    show f.channels.toNat = w.channels
    omega
  obtain ⟨c, e, b⟩ := chain_reading h fm (chainFormat f) w B _ u _ hf.int (integer_int hw) hu.uncompressed hu.order hch fr hfr
  unfold fromFile
  rw [e]
  exact b

theorem convert_range {B : Nat} {u : Bool} {B' : Nat} (u' : Bool) (hB : 1 ≤ B ∧ B ≤ 4) (hB' : 1 ≤ B' ∧ B' ≤ 4) {x : Int}
    (hx : SampleRange B u x) : SampleRange B' u' (convertSample B u B' u' x) := by
  have h1 := rescale_range B B' hB hB' _ (signedValue_range B hB u x hx)
  unfold convertSample
  cases u' with
  | false => simpa using h1
  | true =>
    have hhalf : (2 : Int) ^ (8 * B') = 2 * 2 ^ (8 * B' - 1) := by
      obtain ⟨k, hk⟩ : ∃ k, 8 * B' = k + 1 := ⟨8 * B' - 1, by omega⟩
      rw [hk, Int.pow_succ]; simp; omega
    simp only [SampleRange, Bool.false_eq_true, if_false, if_true] at h1 ⊢
    omega

theorem userBytes_packed {B : Nat} (hB : B ≠ 3) (e : Endian) (fr : List Int) : userBytes e B fr = packedBytes e B fr := by
  simp [userBytes, packedBytes, userSize, hB]

theorem float_toFile (h : Endian) (fm : Module → List Byte → List Byte) (v : Fmt) (f : AFmt) (B : Nat) (hv : Floating v)
    (hu : Usable h f v) (hf : FloatTrack f B) (hB : bytesOf v = B) (hc : f.compression = NONE) (fr : List Int) :
    toFile h fm v (chainFormat f) (userBytes v.byteOrder (bytesOf v) fr) = packedBytes (chainFormat f).byteOrder B fr := by
  subst hB
  have hch : v.channels = (chainFormat f).channels := by
    have := hu.channels
    show v.channels = f.channels.toNat
    omega
  obtain ⟨c, e, b⟩ := float_chain h fm false v (chainFormat f) _ (floating_float hv) hf.float (by rw [hv.mapping]; exact hf.mapping.symm)
    hu.uncompressed (by simp [chainFormat, hc]) hch fr
  unfold toFile
  rw [e, userBytes_packed (by rcases hf.kind with ⟨-, h⟩ | ⟨-, h⟩ <;> omega)]
  exact b

theorem float_fromFile (h : Endian) (fm : Module → List Byte → List Byte) (w : Fmt) (f : AFmt) (B : Nat) (hw : Floating w)
    (hu : Usable h f w) (hf : FloatTrack f B) (hB : bytesOf w = B) (hc : f.compression = NONE) (fr : List Int) :
    fromFile h fm w (chainFormat f) (packedBytes (chainFormat f).byteOrder B fr) = userBytes w.byteOrder (bytesOf w) fr := by
  subst hB
  have hch : (chainFormat f).channels = w.channels := by
    have := hu.channels
    show f.channels.toNat = w.channels
    omega
  obtain ⟨c, e, b⟩ := float_chain h fm true (chainFormat f) w _ hf.float (floating_float hw) (by rw [hw.mapping]; exact hf.mapping)
    (by simp [chainFormat, hc]) hu.uncompressed hch fr
  unfold fromFile
  rw [e, userBytes_packed (by rcases hf.kind with ⟨-, h⟩ | ⟨-, h⟩ <;> omega)]
  exact b

/-! ## G.711 -/

theorem range16 {x : Int} (hx : SampleRange 2 false x) : -32768 ≤ x ∧ x ≤ 32767 := by
  simp only [SampleRange, Bool.false_eq_true, if_false] at hx
  omega

theorem sval_toBytes (h : Endian) {x : Int} (hx : SampleRange 2 false x) : sval h (toBytes h 2 x) = x := by
  have := range16 hx
  unfold sval
  rw [toBytes_length, uintOf_toBytes]
  unfold wrapS
  rw [Int.bmod_def]
  simp only [Nat.reduceMul, Nat.reducePow]
  omega

/-- The codec's view of one sample of 16 bits. -/
def code (f : AFmt) (x : Int) : Nat := if f.compression = ULAW then G711.linear2ulaw x else G711.linear2alaw x

theorem code_lt (f : AFmt) {x : Int} (hx : SampleRange 2 false x) : code f x < 256 := by
  have := range16 hx
  unfold code
  split
  · exact G711.C01_ulaw_code_range x this
  · exact G711.C03_alaw_code_range x this

theorem encode_g711 (h : Endian) {f : AFmt} (hc : f.compression = ULAW ∨ f.compression = ALAW) (xs : List Int)
    (hxs : ∀ x ∈ xs, SampleRange 2 false x) :
    encodeFrame h f (packedBytes h 2 xs) = xs.map fun x => BitVec.ofNat 8 (code f x) := by
  have key : ∀ g : Int → Nat, mapSamples 2 (fun b => [BitVec.ofNat 8 (g (sval h b))]) (packedBytes h 2 xs)
      = xs.map fun x => BitVec.ofNat 8 (g x) := by
    intro g
    unfold packedBytes
    rw [mapSamples_flatMap 2 (by decide) _ _ _ (fun x _ => toBytes_length h 2 x)]
    rw [flatMap_congr' (g := fun x => [BitVec.ofNat 8 (g x)]) fun x hx => by rw [sval_toBytes h (hxs x hx)]]
    induction xs with
    | nil => rfl
    | cons x xs ih => rw [List.flatMap_cons, List.map_cons, ih fun y hy => hxs y (List.mem_cons_of_mem _ hy)]; rfl
  unfold encodeFrame code
  rcases hc with hc | hc
  · simp only [hc, if_true]
    exact key _
  · simp only [hc, if_neg (show ¬ ALAW = ULAW by decide), if_true]
    exact key _

theorem decode_g711 (h : Endian) {f t : AFmt} (hc : f.compression = ULAW ∨ f.compression = ALAW) (ht : t.compression = f.compression)
    (xs : List Int) (hxs : ∀ x ∈ xs, SampleRange 2 false x) :
    decodeFrame h t (xs.map fun x => BitVec.ofNat 8 (code f x)) = packedBytes h 2 (xs.map (coded f)) := by
  have tn : ∀ x ∈ xs, (BitVec.ofNat 8 (code f x)).toNat = code f x := fun x hx => by
    rw [BitVec.toNat_ofNat, Nat.mod_eq_of_lt (code_lt f (hxs x hx))]
  have key : ∀ g : Nat → Int, (∀ x ∈ xs, g (code f x) = coded f x) →
      (xs.map fun x => BitVec.ofNat 8 (code f x)).flatMap (fun b => toBytes h 2 (g b.toNat)) = packedBytes h 2 (xs.map (coded f)) := by
    intro g hg
    unfold packedBytes
    rw [List.flatMap_map, List.flatMap_map]
    exact flatMap_congr' fun x hx => by rw [tn x hx, hg x hx]
  unfold decodeFrame
  rw [ht]
  rcases hc with hc | hc
  · rw [if_pos hc]
    exact key _ fun x _ => by unfold code coded; rw [if_pos hc, if_pos hc]
  · have hne : ¬ f.compression = ULAW := by rw [hc]; decide
    rw [if_neg hne, if_pos hc]
    exact key _ fun x _ => by unfold code coded; rw [if_neg hne, if_neg hne, if_pos hc]

theorem ulaw_range : ∀ c, c < 256 → -32768 ≤ G711.ulaw2linear c ∧ G711.ulaw2linear c < 32768 := by decide +kernel
theorem alaw_range : ∀ c, c < 256 → -32768 ≤ G711.alaw2linear c ∧ G711.alaw2linear c < 32768 := by decide +kernel

theorem coded_range {f : AFmt} (hc : f.compression = ULAW ∨ f.compression = ALAW) {x : Int} (hx : SampleRange 2 false x) :
    SampleRange 2 false (coded f x) := by
  have h1 := range16 hx
  have h2 := ulaw_range _ (G711.C01_ulaw_code_range x h1)
  have h3 := alaw_range _ (G711.C03_alaw_code_range x h1)
  unfold coded
  show -2 ^ (8 * 2 - 1) ≤ _ ∧ _ < _
  rcases hc with hc | hc
  · rw [if_pos hc]
    omega
  · rw [if_neg (by rw [hc]; decide), if_pos hc]
    omega

/-! ## All frames -/

theorem answers_map {V α β γ : Type} (F : List α) (g : α → β) (conv : V → β → γ) (out : V → α → γ) (ok : V → Prop)
    (hout : ∀ w a, ok w → a ∈ F → conv w (g a) = out w a) : ∀ (ops : List (Spec.Call V)) (c : Cursor V), ok c.fmt →
      (∀ op ∈ ops, ∀ w, op = .setFormat w → ok w) → answers (F.map g) conv c ops = answers F out c ops := by
  intro ops
  induction ops with
  | nil => intros; rfl
  | cons op ops ih =>
    intro c hc hops
    have hmv : move (F.map g) c op = move F c op := by
      cases op <;> simp [move, List.length_map, ← List.map_drop, ← List.map_take]
    have hok : ok (move F c op).fmt := by
      cases op with
      | setFormat w => exact hops _ List.mem_cons_self w rfl
      | seek f => unfold move; dsimp only; split <;> exact hc
      | _ => exact hc
    have han : answer (F.map g) conv c op = answer F out c op := by
      cases op with
      | read n =>
        have e : ((F.map g).drop c.pos |>.take n.toNat).map (conv c.fmt) = ((F.drop c.pos).take n.toNat).map (out c.fmt) := by
          rw [← List.map_drop, ← List.map_take, List.map_map]
          refine List.map_congr_left fun a ha => hout _ _ hc ?_
          exact List.mem_of_mem_drop (List.mem_of_mem_take ha)
        unfold answer
        dsimp only
        rw [e]
      | _ => simp [answer]
    unfold answers
    rw [han, hmv, ih _ hok fun op' h' => hops op' (List.mem_cons_of_mem _ h')]

/-- A file of frames that stand alone reads back as its frames. -/
theorem reads_frames {V α : Type} (c : Reading.Cfg V (List Byte) (List Byte)) (dec : List Byte → List Byte) (frames : List α)
    (w : α → List Byte) (ok : V → Prop) (out : V → α → List Byte)
    (hkind : c.kind ≠ .block) (hfpp : c.fpp = 1) (hdec : c.decode = fun p => [dec p]) (hseek : c.seekok = true) (h0 : 0 ≤ c.fposFirst)
    (htot : c.totalf = frames.length) (hlen : ∀ a ∈ frames, (w a).length = c.bpp)
    (hfile : (c.file.drop c.fposFirst.toNat).take (frames.flatMap w).length = frames.flatMap w)
    (hout : ∀ v a, ok v → a ∈ frames → c.conv v (dec (w a)) = out v a)
    (v : V) (ops : List (Spec.Call V)) (hv : ok v)
    (hops : ∀ op ∈ ops, InRange frames.length op ∧ ∀ v', op = .setFormat v' → ok v') :
    Reading.observe c v ops = .ok ((answers frames out ⟨0, v⟩ ops).map fun a => (a.1, a.2.map some)) := by
  have hb := c.bpp_pos
  have hsum : (frames.flatMap w).length = frames.length * c.bpp := by
    clear hfile htot hout hops
    induction frames with
    | nil => simp
    | cons a l ih =>
      rw [List.flatMap_cons, List.length_append, hlen a List.mem_cons_self, ih fun b hb => hlen b (List.mem_cons_of_mem _ hb),
        List.length_cons, Nat.add_mul]
      omega
  have hlong : frames.length * c.bpp ≤ c.file.length - c.fposFirst.toNat := by
    have := congrArg List.length hfile
    rw [List.length_take, List.length_drop, hsum] at this
    omega
  have hi : Reading.Intact c := by
    refine ⟨fun p _ => by rw [hdec, hfpp]; rfl, fun _ => hfpp, h0, by rw [htot]; omega, ?_, hseek⟩
    rw [htot, hfpp, Nat.mul_one]
    have := (Nat.le_div_iff_mul_le hb).2 hlong
    omega
  have hfr : Reading.trackFrames c = frames.map fun a => dec (w a) := by
    rw [Reading.frames_eq hi]
    unfold Reading.frames Reading.allFrames
    rw [hdec, htot, Int.toNat_natCast]
    have e : ∃ R, c.file.drop c.fposFirst.toNat = frames.flatMap w ++ R :=
      ⟨(c.file.drop c.fposFirst.toNat).drop (frames.flatMap w).length, by
        conv => lhs; rw [← List.take_append_drop (frames.flatMap w).length (c.file.drop c.fposFirst.toNat)]
        rw [hfile]⟩
    obtain ⟨R, e⟩ := e
    rw [e]
    clear e hfile htot hout hops hlong hi hsum
    induction frames with
    | nil => simp
    | cons a l ih =>
      have ha := hlen a List.mem_cons_self
      rw [List.flatMap_cons, List.append_assoc, Reading.packets, if_pos (by rw [List.length_append]; omega)]
      have e1 : (w a ++ (l.flatMap w ++ R)).take c.bpp = w a := by rw [← ha, List.take_left]
      have e2 : (w a ++ (l.flatMap w ++ R)).drop c.bpp = l.flatMap w ++ R := by rw [← ha, List.drop_left]
      rw [e1, e2]
      rw [List.flatMap_cons, List.length_cons, List.map_cons]
      rw [List.singleton_append, List.take_succ_cons, ih fun b hb => hlen b (List.mem_cons_of_mem _ hb)]
  have hlen' : (Reading.trackFrames c).length = frames.length := by rw [hfr, List.length_map]
  rw [Reading.C12_reading_refines_cursor c hi v ops fun op ho => by rw [hlen']; exact (hops op ho).1, hfr,
    answers_map frames (fun a => dec (w a)) c.conv out ok (fun w a hw ha => hout w a hw ha) ops ⟨0, v⟩ hv fun op ho => (hops op ho).2]

/-! ## Tracks -/

/-- A format as it comes back: equal but for the rate and for the width within a byte. -/
structure Agrees (F f : AFmt) : Prop where
  channels : F.channels = f.channels
  compression : F.compression = f.compression
  sampleFormat : F.sampleFormat = f.sampleFormat
  bytes : (F.sampleWidth + 7) / 8 = (f.sampleWidth + 7) / 8
  order : f.compression = NONE → F.byteOrder = f.byteOrder

theorem width_bytes {s w : Int} (hl : LegalWidth s w) : 1 ≤ (w + 7) / 8 ∧ (w + 7) / 8 ≤ 8 := by
  rcases hl with h | h | h <;> omega

/-- The two kinds of tracks. -/
theorem track_kind {f : AFmt} (hl : LegalWidth f.sampleFormat f.sampleWidth) (hm : f.pcm = defaultMapping f.sampleFormat f.sampleWidth) :
    (∃ u : Bool, IntTrack f ((f.sampleWidth + 7) / 8).toNat u ∧ u = decide (f.sampleFormat = UNSIGNED) ∧
      (f.sampleFormat = TWOSCOMP ∨ f.sampleFormat = UNSIGNED)) ∨
    FloatTrack f ((f.sampleWidth + 7) / 8).toNat ∧ (f.sampleFormat = FLOAT ∨ f.sampleFormat = DOUBLE) := by
  rcases hl with ⟨h1, h2⟩ | ⟨h1, h2⟩ | ⟨h1, h2⟩
  · left
    rcases h1 with h1 | h1
    · exact ⟨false, ⟨h1, h2, rfl, hm⟩, by simp [h1, UNSIGNED], .inl h1⟩
    · exact ⟨true, ⟨h1, h2, rfl, hm⟩, by simp [h1, UNSIGNED], .inr h1⟩
  · right
    refine ⟨⟨.inl ⟨h1, by rw [h2]; rfl⟩, ?_⟩, .inl h1⟩
    rw [hm, h1]; rfl
  · right
    refine ⟨⟨.inr ⟨h1, by rw [h2]; rfl⟩, ?_⟩, .inr h1⟩
    rw [hm, h1]; rfl

theorem packedBytes_length (e : Endian) (B : Nat) (xs : List Int) : (packedBytes e B xs).length = xs.length * B :=
  flatMap_toBytes_length e B xs

theorem chain_bytes {f : AFmt} (hl : LegalWidth f.sampleFormat f.sampleWidth) :
    (chainFormat f).bytesPerSample false = ((f.sampleWidth + 7) / 8).toNat := by
  unfold Fmt.bytesPerSample chainFormat
  rcases hl with ⟨h1 | h1, h2⟩ | ⟨h1, h2⟩ | ⟨h1, h2⟩ <;> simp [h1, UNSIGNED, FLOAT, DOUBLE] <;> omega

/-- The bytes of a sample that is one byte are the same in either order. -/
theorem packedBytes_one (e e' : Endian) (xs : List Int) : packedBytes e 1 xs = packedBytes e' 1 xs := by
  unfold packedBytes
  refine flatMap_congr' fun x _ => ?_
  cases e <;> cases e' <;> simp [toBytes, leBytes]

/-- What stands in the file for a frame, and what a program gets from that. -/
theorem frame_back (h h' : Endian) (fm : Module → List Byte → List Byte) {f g : AFmt} {v w : Fmt} {fr : List Int}
    (hc : f.compression = NONE ∨ f.compression = ULAW ∨ f.compression = ALAW)
    (h16 : f.compression ≠ NONE → f.sampleFormat = TWOSCOMP ∧ f.sampleWidth = 16)
    (hl : LegalWidth f.sampleFormat f.sampleWidth) (hm : f.pcm = defaultMapping f.sampleFormat f.sampleWidth)
    (hl' : LegalWidth g.sampleFormat g.sampleWidth) (hm' : g.pcm = defaultMapping g.sampleFormat g.sampleWidth)
    (hch : g.channels = f.channels) (hcomp : g.compression = f.compression) (hsf : g.sampleFormat = f.sampleFormat)
    (hby : (g.sampleWidth + 7) / 8 = (f.sampleWidth + 7) / 8)
    (hord : f.compression = NONE → 1 < (f.sampleWidth + 7) / 8 → g.byteOrder = f.byteOrder)
    (hv : Usable h f v) (hw : Usable h' f w) (hfr : Fits f v fr) :
    (frameBytes h fm v f fr).length = packetSize g ∧
    fromFile h' fm w (chainFormat g) (decodeFrame h' g (frameBytes h fm v f fr)) = delivered f v w fr := by
  have hn := hfr.1
  have hB := width_bytes hl
  have hps : packetSize g = if f.compression = NONE then fr.length * ((f.sampleWidth + 7) / 8).toNat else fr.length := by
    unfold packetSize
    rw [hcomp, chain_bytes hl', hby, hch, ← hn, Int.toNat_natCast, Nat.mul_comm]
  have hw' : Usable h' g w := by
    refine ⟨hw.uncompressed, by rw [hch]; exact hw.channels, hw.order, ?_⟩
    rw [hcomp, hsf]
    exact hw.kind
  have nat_order : ∀ (e : Endian), ¬ f.compression = NONE → fileOrder e (chainFormat f) = e ∧ fileOrder e (chainFormat g) = e := by
    intro e hz
    simp [fileOrder, chainFormat, hz, hcomp]
  have pcm_order : ∀ (e e' : Endian), f.compression = NONE →
      (fileOrder e (chainFormat f) = fileOrder e' (chainFormat g)) ∨ ((f.sampleWidth + 7) / 8).toNat = 1 := by
    intro e e' hz
    by_cases h1 : 1 < (f.sampleWidth + 7) / 8
    · left
      simp [fileOrder, chainFormat, hz, hcomp, hord hz h1]
    · right; omega
  have plain : ∀ (x : AFmt) (b : List Byte), x.compression = NONE → encodeFrame h x b = b ∧ decodeFrame h' x b = b := by
    intro x b hz
    unfold encodeFrame decodeFrame
    rw [hz]
    simp [NONE, ULAW, ALAW]
  rcases track_kind hl hm with ⟨u, hi, hu, hkind⟩ | ⟨hf, hkind⟩
  · -- integers
    rcases track_kind hl' hm' with ⟨u', hi', hu', -⟩ | ⟨-, hk'⟩
    rotate_left
    · rw [hsf] at hk'
      simp only [TWOSCOMP, UNSIGNED, FLOAT, DOUBLE] at hkind hk'
      omega
    have huu : u' = u := by rw [hu, hu', hsf]
    rw [huu, hby] at hi'
    have hvi : Integer v := by
      rcases hv.kind with ⟨a, -⟩ | ⟨-, -, a⟩
      · exact a
      · simp only [TWOSCOMP, UNSIGNED, FLOAT, DOUBLE] at hkind a; omega
    have hwi : Integer w := by
      rcases hw.kind with ⟨a, -⟩ | ⟨-, -, a⟩
      · exact a
      · simp only [TWOSCOMP, UNSIGNED, FLOAT, DOUBLE] at hkind a; omega
    have hto := int_toFile h fm v f _ u hvi hv hi fr hfr
    have hrange : ∀ y ∈ fr.map (convertSample (bytesOf v) (v.sampleFormat == .unsigned) ((f.sampleWidth + 7) / 8).toNat u),
        SampleRange ((f.sampleWidth + 7) / 8).toNat u y := by
      intro y hy
      obtain ⟨x, hx, rfl⟩ := List.mem_map.1 hy
      exact convert_range u (integer_int hvi).range hi.int.range (hfr.2 hvi x hx)
    have hheard : ∀ x, heard f v w x = convertSample ((f.sampleWidth + 7) / 8).toNat u (bytesOf w) (w.sampleFormat == .unsigned)
        (coded f (convertSample (bytesOf v) (v.sampleFormat == .unsigned) ((f.sampleWidth + 7) / 8).toNat u x)) := by
      intro x
      have : ¬ (v.sampleFormat = .float ∨ v.sampleFormat = .double) := by
        rcases hvi.kind with a | a <;> rw [a] <;> decide
      unfold heard
      rw [if_neg this, hu]
    by_cases hz : f.compression = NONE
    · have e1 : frameBytes h fm v f fr = packedBytes (fileOrder h (chainFormat f)) ((f.sampleWidth + 7) / 8).toNat
          (fr.map (convertSample (bytesOf v) (v.sampleFormat == .unsigned) ((f.sampleWidth + 7) / 8).toNat u)) := by
        unfold frameBytes
        rw [(plain f _ hz).1]
        exact hto
      have hcod : ∀ x, coded f x = x := by intro x; unfold coded; rw [hz]; simp [NONE, ULAW, ALAW]
      have e2 : frameBytes h fm v f fr = packedBytes (fileOrder h' (chainFormat g)) ((f.sampleWidth + 7) / 8).toNat
          (fr.map (convertSample (bytesOf v) (v.sampleFormat == .unsigned) ((f.sampleWidth + 7) / 8).toNat u)) := by
        rw [e1]
        rcases pcm_order h h' hz with e | e
        · rw [e]
        · rw [e]; exact packedBytes_one _ _ _
      refine ⟨?_, ?_⟩
      · rw [e1, packedBytes_length, List.length_map, hps, if_pos hz]
      · rw [(plain g _ (hcomp.trans hz)).2, e2, int_fromFile h' fm w g _ u hwi hw' hi' _ hrange, List.map_map]
        unfold delivered
        congr 1
        refine List.map_congr_left fun x _ => ?_
        rw [hheard, hcod]
        rfl
    · obtain ⟨k1, k2⟩ := h16 hz
      have hg : f.compression = ULAW ∨ f.compression = ALAW := by
        rcases hc with a | a
        · exact absurd a hz
        · exact a
      have hu0 : u = false := by rw [hu, k1]; rfl
      have hB2 : ((f.sampleWidth + 7) / 8).toNat = 2 := by rw [k2]; rfl
      rw [hB2, hu0] at hto hrange hi' hheard
      have e1 : frameBytes h fm v f fr = (fr.map (convertSample (bytesOf v) (v.sampleFormat == .unsigned) 2 false)).map
          fun x => BitVec.ofNat 8 (code f x) := by
        unfold frameBytes
        rw [show userBytes v.byteOrder ((v.width + 7) / 8) fr = userBytes v.byteOrder (bytesOf v) fr from rfl, hto,
          (nat_order h hz).1, encode_g711 h hg _ hrange]
      refine ⟨?_, ?_⟩
      · rw [e1, List.length_map, List.length_map, hps, if_neg hz]
      · rw [e1, decode_g711 h' hg hcomp _ hrange]
        have e2 := int_fromFile h' fm w g 2 false hwi hw' hi'
          ((fr.map (convertSample (bytesOf v) (v.sampleFormat == .unsigned) 2 false)).map (coded f)) (by
            intro y hy
            obtain ⟨x, hx, rfl⟩ := List.mem_map.1 hy
            exact coded_range hg (hrange x hx))
        rw [(nat_order h' hz).2] at e2
        rw [e2, List.map_map, List.map_map]
        unfold delivered
        congr 1
        exact List.map_congr_left fun x _ => (hheard x).symm
  · -- floating point
    have hvf : Floating v ∧ f.compression = NONE ∧ (f.sampleFormat = FLOAT ∧ v.sampleFormat = .float ∨ f.sampleFormat = DOUBLE ∧ v.sampleFormat = .double) := by
      rcases hv.kind with ⟨-, a⟩ | a
      · simp only [TWOSCOMP, UNSIGNED, FLOAT, DOUBLE] at hkind a; omega
      · exact a
    have hwf : Floating w ∧ f.compression = NONE ∧ (f.sampleFormat = FLOAT ∧ w.sampleFormat = .float ∨ f.sampleFormat = DOUBLE ∧ w.sampleFormat = .double) := by
      rcases hw.kind with ⟨-, a⟩ | a
      · simp only [TWOSCOMP, UNSIGNED, FLOAT, DOUBLE] at hkind a; omega
      · exact a
    obtain ⟨hvf, hz, hvk⟩ := hvf
    obtain ⟨hwf, -, hwk⟩ := hwf
    have same : ∀ x : Fmt, Floating x → (f.sampleFormat = FLOAT ∧ x.sampleFormat = .float ∨ f.sampleFormat = DOUBLE ∧ x.sampleFormat = .double) →
        bytesOf x = ((f.sampleWidth + 7) / 8).toNat := by
      intro x hx hk
      unfold bytesOf
      simp only [FLOAT, DOUBLE] at hk
      rcases hk with ⟨a, b⟩ | ⟨a, b⟩ <;> rcases hx.kind with ⟨c, d⟩ | ⟨c, d⟩
      · rcases hl with e | e | e <;> omega
      · rw [b] at c; cases c
      · rw [b] at c; cases c
      · rcases hl with e | e | e <;> omega
    rcases track_kind hl' hm' with ⟨u', -, -, hk'⟩ | ⟨hf', -⟩
    · rw [hsf] at hk'
      simp only [TWOSCOMP, UNSIGNED, FLOAT, DOUBLE] at hkind hk'
      omega
    rw [hby] at hf'
    have h1 : 1 < (f.sampleWidth + 7) / 8 := by
      rcases hf.kind with ⟨-, a⟩ | ⟨-, a⟩ <;> omega
    have e1 : frameBytes h fm v f fr = packedBytes (chainFormat f).byteOrder ((f.sampleWidth + 7) / 8).toNat fr := by
      unfold frameBytes
      rw [(plain f _ hz).1]
      exact float_toFile h fm v f _ hvf hv hf (same v hvf hvk) hz fr
    refine ⟨?_, ?_⟩
    · rw [e1, packedBytes_length, hps, if_pos hz]
    · have eo : (chainFormat f).byteOrder = (chainFormat g).byteOrder := by simp [chainFormat, hord hz h1]
      rw [(plain g _ (hcomp.trans hz)).2, e1, eo, float_fromFile h' fm w g _ hwf hw' hf' (same w hwf hwk) (hcomp.trans hz) fr]
      unfold delivered
      have hheard : heard f v w = id := by
        funext x
        unfold heard
        rw [if_pos (by rcases hvk with ⟨-, a⟩ | ⟨-, a⟩ <;> rw [a] <;> decide)]
        rfl
      rw [hheard, List.map_id]

/-- A file whose track reads back as what was written plays back as what was written. -/
theorem plays_back (h h' : Endian) (fm : Module → List Byte → List Byte) {f F : AFmt} {v : Fmt} {frames : List (List Int)}
    {file : List Byte} {t : Trk} {n : Nat}
    (hc : f.compression = NONE ∨ f.compression = ULAW ∨ f.compression = ALAW)
    (h16 : f.compression ≠ NONE → f.sampleFormat = TWOSCOMP ∧ f.sampleWidth = 16) (hpos : 1 ≤ f.channels)
    (hl : LegalWidth f.sampleFormat f.sampleWidth) (hm : f.pcm = defaultMapping f.sampleFormat f.sampleWidth)
    (hl' : LegalWidth t.f.sampleFormat t.f.sampleWidth) (hm' : t.f.pcm = defaultMapping t.f.sampleFormat t.f.sampleWidth)
    (hF : Agrees F f) (hs : SameSound F (frames.flatMap (frameBytes h fm v f)) n file t) (hn : n = frames.length)
    (hv : Usable h f v) (hfits : ∀ fr ∈ frames, Fits f v fr) : PlaysBack h' fm f v frames file t := by
  have hch : t.f.channels = f.channels := hs.channels.trans hF.channels
  have hcomp : t.f.compression = f.compression := hs.compression.trans hF.compression
  have hB := width_bytes hl
  have key : t.f.sampleFormat = f.sampleFormat ∧ (t.f.sampleWidth + 7) / 8 = (f.sampleWidth + 7) / 8 ∧
      (f.compression = NONE → 1 < (f.sampleWidth + 7) / 8 → t.f.byteOrder = f.byteOrder) := by
    by_cases hz : f.compression = NONE
    · obtain ⟨a, b, c⟩ := hs.sample (hF.compression.trans hz)
      have := hF.bytes
      refine ⟨a.trans hF.sampleFormat, by rw [b]; exact hF.bytes, fun _ h1 => (c (by omega)).trans (hF.order hz)⟩
    · obtain ⟨a, b⟩ := hs.decoded (by rw [hF.compression]; exact hz)
      obtain ⟨c, d⟩ := h16 hz
      exact ⟨a.trans c.symm, by rw [b, d], fun e => absurd e hz⟩
  obtain ⟨hsf, hby, hord⟩ := key
  have hsize : 0 < packetSize t.f := by
    unfold packetSize
    rw [chain_bytes hl', hby, hch]
    split
    · exact Nat.mul_pos (by omega) (by omega)
    · omega
  refine ⟨hch, by rw [hs.frames, hn], hsize, fun w calls hw hcalls => ?_⟩
  have hcount : t.frames = frames.length := by rw [hs.frames, hn]
  have hback := fun (w : Fmt) (hw : Usable h' f w) (fr : List Int) (hfr : fr ∈ frames) =>
    frame_back h h' fm hc h16 hl hm hl' hm' hch hcomp hsf hby hord hv hw (hfits fr hfr)
  refine reads_frames (trackReader h' fm file t hsize) (decodeFrame h' t.f) frames (frameBytes h fm v f) (Usable h' f) (delivered f v)
    ?_ rfl rfl rfl hs.first hcount (fun fr hfr => (hback w hw fr hfr).1) ?_ (fun w fr hw hfr => (hback w hw fr hfr).2) w calls hw hcalls
  · show (if _ then Reading.Kind.pcm else .g711) ≠ _
    split <;> decide
  · have := hs.audio
    unfold audio at this
    rw [hs.size, Int.toNat_natCast] at this
    exact this

end AF.Program
