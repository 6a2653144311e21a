import Verif.Spec.Adpcm
import Verif.Spec.Written
import Verif.Proof.Program
import Verif.Props.Writing
import Verif.Props.Program
/-!
# ADPCM tracks from program to program
-/
namespace AF.Adpcm
open AF AF.Setup AF.Files AF.Convert AF.Spec AF.Spec.Formats AF.Spec.Program AF.Spec.Adpcm AF.Program AF.Virtual

/-! ## Blocks -/

section
variable {α β ε : Type}

theorem packets_prefix (fpp : Nat) (encode : ε → List α → List β × ε) : ∀ (k : Nat) (e : ε) (A B : List α), A.length = k * fpp →
    Spec.packets fpp encode k e (A ++ B) = Spec.packets fpp encode k e A
  | 0, _, _, _, _ => rfl
  | k + 1, e, A, B, h => by
    rw [Nat.add_mul, Nat.one_mul] at h
    have h1 : (A ++ B).take fpp = A.take fpp := List.take_append_of_le_length (by omega)
    have h2 : (A ++ B).drop fpp = A.drop fpp ++ B := List.drop_append_of_le_length (by omega)
    unfold Spec.packets
    rw [h1, h2, packets_prefix fpp encode k _ (A.drop fpp) B (by rw [List.length_drop]; omega)]

theorem packets_snoc (fpp : Nat) (encode : ε → List α → List β × ε) : ∀ (k : Nat) (e : ε) (A B : List α), A.length = k * fpp → B.length = fpp →
    (Spec.packets fpp encode (k + 1) e (A ++ B)).1 = (Spec.packets fpp encode k e A).1 ++ (encode (Spec.packets fpp encode k e A).2 B).1
  | 0, e, A, B, h, hB => by
    have : A = [] := List.eq_nil_of_length_eq_zero (by omega)
    subst this
    simp only [Spec.packets, List.nil_append, List.append_nil]
    rw [← hB, List.take_length]
  | k + 1, e, A, B, h, hB => by
    rw [Nat.add_mul, Nat.one_mul] at h
    have h1 : (A ++ B).take fpp = A.take fpp := List.take_append_of_le_length (by omega)
    have h2 : (A ++ B).drop fpp = A.drop fpp ++ B := List.drop_append_of_le_length (by omega)
    have ih := packets_snoc fpp encode k (encode e (A.take fpp)).2 (A.drop fpp) B (by rw [List.length_drop]; omega) hB
    rw [Spec.packets, h1, h2]
    dsimp only
    rw [ih, ← List.append_assoc]
    rfl

/-- The data are the packets of the frames and what completes the last of them. -/
theorem fileData_packets (fpp : Nat) (hf : 0 < fpp) (encode : ε → List α → List β × ε) (e : ε) (pad fs : List α) (hp : pad.length = fpp) :
    ∃ k more : Nat, ∃ rest, k * fpp = fs.length + more ∧ more < fpp ∧ rest = pad.drop (fpp - more) ∧ rest.length = more ∧
      Spec.fileData fpp encode e pad fs = (Spec.packets fpp encode k e (fs ++ rest)).1 := by
  have hdm := Nat.div_add_mod fs.length fpp
  have hml := Nat.mod_lt fs.length hf
  rw [Nat.mul_comm] at hdm
  have hd : (fs.drop (fs.length / fpp * fpp)).length = fs.length % fpp := by rw [List.length_drop]; omega
  unfold Spec.fileData
  dsimp only
  by_cases hz : fs.length % fpp = 0
  · refine ⟨fs.length / fpp, 0, [], by omega, hf, ?_, rfl, ?_⟩
    · rw [Nat.sub_zero, ← hp, List.drop_length]
    · rw [if_pos (List.eq_nil_of_length_eq_zero (by omega)), List.append_nil]
  · have hne : ¬ fs.drop (fs.length / fpp * fpp) = [] := by
      intro hn
      rw [hn] at hd
      simp only [List.length_nil] at hd
      omega
    refine ⟨fs.length / fpp + 1, fpp - fs.length % fpp, pad.drop (fs.length % fpp), by rw [Nat.add_mul]; omega, by omega, ?_, ?_, ?_⟩
    · congr 1; omega
    · rw [List.length_drop]; omega
    · rw [if_neg hne, hd]
      have hsplit : fs = fs.take (fs.length / fpp * fpp) ++ fs.drop (fs.length / fpp * fpp) := (List.take_append_drop _ _).symm
      have hA : (fs.take (fs.length / fpp * fpp)).length = fs.length / fpp * fpp := by rw [List.length_take]; omega
      have := packets_snoc fpp encode (fs.length / fpp) e (fs.take (fs.length / fpp * fpp))
        (fs.drop (fs.length / fpp * fpp) ++ pad.drop (fs.length % fpp)) hA (by rw [List.length_append, hd, List.length_drop]; omega)
      rw [← List.append_assoc, ← hsplit] at this
      rw [this]
      have e1 := packets_prefix fpp encode (fs.length / fpp) e (fs.take (fs.length / fpp * fpp)) (fs.drop (fs.length / fpp * fpp)) hA
      rw [← hsplit] at e1
      rw [e1]
end

/-- The codec works on all 16-bit frames, and its blocks have the size they should have. -/
def Good {ε : Type} (C : Codec ε) (I : ε → Prop) (fpp bpp ch : Nat) : Prop :=
  ∀ e xs, I e → xs.length = fpp → (∀ fr ∈ xs, Frame16 ch fr) →
    ∃ b e' ys, C.enc e xs = .ok (b, e') ∧ b.length = bpp ∧ I e' ∧ C.dec b = .ok ys ∧ ys.length = fpp ∧ ∀ fr ∈ ys, Frame16 ch fr

/-- A frame in memory. -/
theorem samples16_packed (h : Endian) : ∀ fr : List Int, (∀ x ∈ fr, -32768 ≤ x ∧ x ≤ 32767) → samples16 h (packedBytes h 2 fr) = fr
  | [], _ => rfl
  | x :: fr, hx => by
    have h1 : sval h (toBytes h 2 x) = x := sval_toBytes h (show SampleRange 2 false x by
      have := hx x List.mem_cons_self
      simp only [SampleRange, Bool.false_eq_true, if_false]
      omega)
    have h2 : ∃ a b, toBytes h 2 x = [a, b] := by
      have := toBytes_length h 2 x
      match hb : toBytes h 2 x, this with
      | [a, b], _ => exact ⟨a, b, rfl⟩
    obtain ⟨a, b, hab⟩ := h2
    unfold packedBytes
    rw [List.flatMap_cons, hab]
    show sval h [a, b] :: samples16 h (packedBytes h 2 fr) = _
    rw [samples16_packed h fr fun y hy => hx y (List.mem_cons_of_mem _ hy), ← hab, h1]

variable {ε : Type}

/-- Encoding in the model of the modules. -/
def encodeOf (h : Endian) (C : Codec ε) (bpp : Nat) (e : ε) (fs : List (List Byte)) : List Byte × ε :=
  match C.enc e (fs.map (samples16 h)) with
  | .ok (b, e') => ((b ++ List.replicate bpp 0).take bpp, e')
  | .error _ => (List.replicate bpp 0, e)

def decodeOf (h : Endian) (C : Codec ε) (fpp : Nat) (p : List Byte) : List (List Byte) :=
  match C.dec p with
  | .ok fs => (fs.map (packedBytes h 2) ++ List.replicate fpp []).take fpp
  | .error _ => List.replicate fpp []

theorem encodeOf_length (h : Endian) (C : Codec ε) (bpp : Nat) (e : ε) (fs : List (List Byte)) : (encodeOf h C bpp e fs).1.length = bpp := by
  unfold encodeOf
  cases C.enc e (fs.map (samples16 h)) with
  | error _ => exact List.length_replicate
  | ok r => dsimp only; rw [List.length_take, List.length_append, List.length_replicate]; omega

theorem decodeOf_length (h : Endian) (C : Codec ε) (fpp : Nat) (p : List Byte) : (decodeOf h C fpp p).length = fpp := by
  unfold decodeOf
  cases C.dec p with
  | error _ => exact List.length_replicate
  | ok r => dsimp only; rw [List.length_take, List.length_append, List.length_replicate]; omega

/-- The blocks of a track, and what is decoded from them. -/
theorem blocks {C : Codec ε} {I : ε → Prop} {fpp bpp ch : Nat} (g : Good C I fpp bpp ch) (h : Endian) :
    ∀ (k : Nat) (e : ε) (F : List (List Int)), I e → F.length = k * fpp → (∀ fr ∈ F, Frame16 ch fr) →
      ∃ (Bs : List (List Byte)) (heard : List (List Int)),
        (Spec.packets fpp (encodeOf h C bpp) k e (F.map (packedBytes h 2))).1 = Bs.flatten ∧ Bs.length = k ∧ (∀ b ∈ Bs, b.length = bpp) ∧
        (∀ h', Bs.flatMap (decodeOf h' C fpp) = heard.map (packedBytes h' 2)) ∧ heard.length = k * fpp ∧ (∀ fr ∈ heard, Frame16 ch fr) ∧ Transcoded C fpp e F heard
  | 0, e, F, _, hF, _ => by
    have : F = [] := List.eq_nil_of_length_eq_zero (by omega)
    subst this
    exact ⟨[], [], rfl, rfl, (fun b hb => by cases hb), fun _ => rfl, by simp, (fun b hb => by cases hb), .done e⟩
  | k + 1, e, F, hI, hF, hfr => by
    rw [Nat.add_mul, Nat.one_mul] at hF
    have ht : (F.take fpp).length = fpp := by rw [List.length_take]; omega
    obtain ⟨b, e', ys, h1, h2, h3, h4, h5, h6⟩ := g e (F.take fpp) hI ht fun fr hm => hfr fr (List.mem_of_mem_take hm)
    obtain ⟨Bs, heard, r1, r2, r3, r4, r5, r6, r7⟩ := blocks g h k e' (F.drop fpp) h3 (by rw [List.length_drop]; omega)
      fun fr hm => hfr fr (List.mem_of_mem_drop hm)
    have hs : ((F.take fpp).map (packedBytes h 2)).map (samples16 h) = F.take fpp := by
      rw [List.map_map]
      refine (List.map_congr_left fun fr hm => ?_).trans (List.map_id _)
      exact samples16_packed h fr (hfr fr (List.mem_of_mem_take hm)).2
    have he : encodeOf h C bpp e ((F.take fpp).map (packedBytes h 2)) = (b, e') := by
      unfold encodeOf
      rw [hs, h1]
      dsimp only
      rw [← h2, List.take_left]
    have hd : ∀ h', decodeOf h' C fpp b = ys.map (packedBytes h' 2) := by
      intro h'
      unfold decodeOf
      rw [h4]
      dsimp only
      rw [List.take_append_of_le_length (by rw [List.length_map]; omega), List.take_of_length_le (by rw [List.length_map]; omega)]
    refine ⟨b :: Bs, ys ++ heard, ?_, by rw [List.length_cons, r2], ?_, ?_, ?_, ?_, ?_⟩
    · unfold Spec.packets
      rw [← List.map_take, ← List.map_drop, he]
      dsimp only
      rw [r1, List.flatten_cons]
    · intro c hc
      rcases List.mem_cons.1 hc with rfl | hc
      · exact h2
      · exact r3 c hc
    · intro h'; rw [List.flatMap_cons, hd, r4, List.map_append]
    · rw [List.length_append, h5, r5, Nat.add_mul]; omega
    · intro fr hm
      rcases List.mem_append.1 hm with hm | hm
      · exact h6 fr hm
      · exact r6 fr hm
    · have := Transcoded.block ht h1 h4 h5 r7
      rwa [List.take_append_drop] at this

/-! ## Reading -/

/-- Reading a track of blocks. -/
theorem plays_blocks (h : Endian) (fm : Module → List Byte → List Byte) (C : Codec ε) {file : List Byte} {t : Trk} {fpp bpp ch : Nat}
    {Bs : List (List Byte)} {heard : List (List Int)} (hf : t.fpp = fpp) (hb : t.bpp = bpp) (hf0 : 0 < fpp) (hb0 : 0 < bpp)
    (h0 : 0 ≤ t.first) (hBl : ∀ b ∈ Bs, b.length = bpp) (hd : Bs.flatMap (decodeOf h C fpp) = heard.map (packedBytes h 2))
    (haud : (file.drop t.first.toNat).take Bs.flatten.length = Bs.flatten) (hcount : 0 ≤ t.frames ∧ t.frames ≤ (Bs.length * fpp : Nat))
    (h16 : ∀ fr ∈ heard, Frame16 ch fr) (hch : t.f.channels = ch) (hcomp : t.f.compression ≠ NONE)
    (htr : IntTrack t.f 2 false) : Plays h fm C (heard.take t.frames.toNat) file t := by
  have hft : t.fpp.toNat = fpp := by omega
  have hbt : t.bpp.toNat = bpp := by omega
  have hsum : Bs.flatten.length = Bs.length * bpp := by
    clear haud hcount hd
    induction Bs with
    | nil => simp
    | cons b Bs ih =>
      rw [List.flatten_cons, List.length_append, hBl b List.mem_cons_self, ih fun c hc => hBl c (List.mem_cons_of_mem _ hc), List.length_cons, Nat.add_mul]
      omega
  have hlong : Bs.length * bpp ≤ file.length - t.first.toNat := by
    have := congrArg List.length haud
    rw [List.length_take, List.length_drop, hsum] at this
    omega
  have hhl : heard.length = Bs.length * fpp := by
    have := congrArg List.length hd
    rw [List.length_map] at this
    rw [← this]
    clear haud hcount hd hlong this hsum hBl
    induction Bs with
    | nil => simp
    | cons b Bs ih => rw [List.flatMap_cons, List.length_append, decodeOf_length, ih, List.length_cons, Nat.add_mul]; omega
  have hcnt : t.frames = ((heard.take t.frames.toNat).length : Nat) := by rw [List.length_take]; omega
  refine ⟨hcnt, by omega, by omega, ?_⟩
  intro w calls hw hu hcalls
  generalize hc : blockReader h fm file t C _ _ = c
  have c1 : c.fpp = fpp := by rw [← hc]; exact hft
  have c2 : c.bpp = bpp := by rw [← hc]; exact hbt
  have c3 : c.decode = decodeOf h C fpp := by rw [← hc]; exact congrArg (decodeOf h C) hft
  have c4 : c.file = file := by rw [← hc]; rfl
  have c5 : c.fposFirst = t.first := by rw [← hc]; rfl
  have c6 : c.totalf = t.frames := by rw [← hc]; rfl
  have c7 : c.kind = .block := by rw [← hc]; rfl
  have c8 : c.seekok = true := by rw [← hc]; rfl
  have c9 : c.conv = fun v => fromFile h fm v (chainFormat t.f) := by rw [← hc]; rfl
  have hi : Reading.Intact c := by
    refine ⟨fun p _ => by rw [c3, c1, decodeOf_length], fun hk => absurd c7 hk, by rw [c5]; exact h0, by rw [c6]; exact hcount.1, ?_, c8⟩
    rw [c6, c4, c5, c2, c1]
    have := (Nat.le_div_iff_mul_le hb0).2 hlong
    have := Nat.mul_le_mul_right fpp this
    omega
  have hfr : Reading.trackFrames c = (heard.take t.frames.toNat).map (packedBytes h 2) := by
    rw [Reading.frames_eq hi]
    unfold Reading.frames Reading.allFrames
    rw [c6, c3, c4, c5]
    have e : ∃ R, file.drop t.first.toNat = Bs.flatten ++ R :=
      ⟨(file.drop t.first.toNat).drop Bs.flatten.length, by
        conv => lhs; rw [← List.take_append_drop Bs.flatten.length (file.drop t.first.toNat)]
        rw [haud]⟩
    obtain ⟨R, e⟩ := e
    have key : ∀ Bs : List (List Byte), (∀ b ∈ Bs, b.length = bpp) →
        ∃ more, (Reading.packets c.bpp c.bpp_pos (Bs.flatten ++ R)).flatMap (decodeOf h C fpp) = Bs.flatMap (decodeOf h C fpp) ++ more := by
      intro Bs
      induction Bs with
      | nil => intro _; exact ⟨_, rfl⟩
      | cons b Bs ih =>
        intro hBl
        obtain ⟨more, hm⟩ := ih fun c hc => hBl c (List.mem_cons_of_mem _ hc)
        have hbl := hBl b List.mem_cons_self
        refine ⟨more, ?_⟩
        have e1 : (b ++ (Bs.flatten ++ R)).take c.bpp = b := by rw [c2, ← hbl, List.take_left]
        have e2 : (b ++ (Bs.flatten ++ R)).drop c.bpp = Bs.flatten ++ R := by rw [c2, ← hbl, List.drop_left]
        rw [List.flatten_cons, List.append_assoc, Reading.packets, if_pos (by rw [c2, List.length_append]; omega), e1, e2, List.flatMap_cons, hm,
          List.flatMap_cons, List.append_assoc]
    obtain ⟨more, hm⟩ := key Bs hBl
    rw [e, hm, hd, List.take_append_of_le_length (by rw [List.length_map]; omega), List.map_take]
  have hlen' : (Reading.trackFrames c).length = (heard.take t.frames.toNat).length := by rw [hfr, List.length_map]
  rw [Reading.C12_reading_refines_cursor c hi w calls fun op ho => by rw [hlen']; exact (hcalls op ho).1, hfr]
  rw [answers_map (heard.take t.frames.toNat) (packedBytes h 2) c.conv from16 (fun w => Integer w ∧ Usable h t.f w) ?_ calls ⟨0, w⟩ ⟨hw, hu⟩
    fun op ho => (hcalls op ho).2]
  rintro u fr ⟨hu1, hu2⟩ hm
  have h1 := h16 fr (List.mem_of_mem_take hm)
  have hord : fileOrder h (chainFormat t.f) = h := by
    unfold fileOrder
    rw [if_pos (show (chainFormat t.f).compressed = true by
      unfold chainFormat
      simp [hcomp])]
  rw [c9]
  have := int_fromFile h fm u t.f 2 false hu1 hu2 htr fr fun x hx => by
    have := h1.2 x hx
    simp only [SampleRange, Bool.false_eq_true, if_false]
    omega
  rw [hord] at this
  exact this

/-! ## Writing -/

/-- What the writing program is assumed to do: a track whose codec is willing to work, an integer virtual format, and frames that
fit it. -/
structure Recorded (h : Endian) (f : AFmt) (v : Fmt) (frames : List (List Int)) : Prop where
  accepted : codecCheck h f = some f
  mapping : f.pcm = defaultMapping f.sampleFormat f.sampleWidth
  integer : Integer v
  usable : Usable h f v
  fits : ∀ fr ∈ frames, Fits f v fr

theorem recorded_track {h : Endian} {f : AFmt} {v : Fmt} {frames : List (List Int)} (r : Recorded h f v frames)
    (hc : f.compression = IMA ∨ f.compression = MSADPCM) : IntTrack f 2 false ∧ (f.channels = 1 ∨ f.channels = 2) := by
  have ha := r.accepted
  have hm := r.mapping
  unfold codecCheck at ha
  have hn : ¬ f.compression = NONE := by rcases hc with e | e <;> rw [e] <;> decide
  have hg : ¬ (f.compression = ULAW ∨ f.compression = ALAW) := by rcases hc with e | e <;> rw [e] <;> decide
  rw [if_neg hn, if_neg hg, if_pos hc] at ha
  by_cases h1 : f.channels ≠ 1 ∧ f.channels ≠ 2
  · rw [if_pos h1] at ha; cases ha
  · rw [if_neg h1] at ha
    by_cases h2 : f.sampleFormat ≠ TWOSCOMP ∨ f.sampleWidth ≠ 16
    · rw [if_pos h2] at ha; cases ha
    · have hw : f.sampleWidth = 16 := by omega
      exact ⟨⟨by simp only [Bool.false_eq_true, if_false]; omega, by omega, by rw [hw]; rfl, hm⟩, by omega⟩

/-- What a session of writes leaves. -/
theorem written_blocks {C : Codec ε} {I : ε → Prop} {fpp bpp ch : Nat} (g : Good C I fpp bpp ch) (hf0 : 0 < fpp) (hb0 : 0 < bpp) (h : Endian)
    (fm : Module → List Byte → List Byte) {f : AFmt} {v : Fmt} {ps : List (List (List Int))} (r : Recorded h f v ps.flatten)
    (hc : f.compression = IMA ∨ f.compression = MSADPCM) (hch : f.channels = ch) {e : ε} (hI : I e)
    {J : List (List Int)} (hJl : J.length = fpp) (hJ : ∀ fr ∈ J, Frame16 ch fr) (update : Option Int) (first : Nat) :
    ∃ (Bs : List (List Byte)) (pad heard : List (List Int)),
      Writing.session (blockWriter h fm f C fpp bpp hf0 hb0 (J.map (packedBytes h 2)) update first) e v (Writing.writes ps) =
        .ok ⟨Bs.flatten, Bs.flatten.length, ps.flatten.length⟩ ∧
      Bs.length * fpp = ps.flatten.length + pad.length ∧ pad.length < fpp ∧ (∀ fr ∈ pad, Frame16 ch fr) ∧ (∀ b ∈ Bs, b.length = bpp) ∧
      (∀ h', Bs.flatMap (decodeOf h' C fpp) = heard.map (packedBytes h' 2)) ∧ heard.length = Bs.length * fpp ∧ (∀ fr ∈ heard, Frame16 ch fr) ∧
      Transcoded C fpp e (ps.flatten.map (to16 v) ++ pad) heard := by
  obtain ⟨htr, hch12⟩ := recorded_track r hc
  generalize hcfg : blockWriter h fm f C fpp bpp hf0 hb0 (J.map (packedBytes h 2)) update first = c
  have c1 : c.fpp = fpp := by rw [← hcfg]; rfl
  have c2 : c.encode = encodeOf h C bpp := by rw [← hcfg]; rfl
  have c3 : c.junk = J.map (packedBytes h 2) := by rw [← hcfg]; rfl
  have c4 : c.bpp = bpp := by rw [← hcfg]; rfl
  have c5 : c.kind = .block := by rw [← hcfg]; rfl
  have c6 : c.conv = fun v fr => toFile h fm v (chainFormat f) (userBytes v.byteOrder ((v.width + 7) / 8) fr) := by rw [← hcfg]; rfl
  have hwf : Writing.WF c := by
    refine ⟨fun e fs _ => by rw [c2, c4, encodeOf_length], fun hk => absurd c5 hk, by rw [c3, c1, List.length_map, hJl]⟩
  have hord : fileOrder h (chainFormat f) = h := by
    unfold fileOrder
    rw [if_pos (show (chainFormat f).compressed = true by
      unfold chainFormat
      rcases hc with e | e <;> simp [e, IMA, MSADPCM, NONE])]
  have hF : ps.flatten.map (c.conv v) = (ps.flatten.map (to16 v)).map (packedBytes h 2) := by
    rw [List.map_map]
    refine List.map_congr_left fun fr hm => ?_
    have := int_toFile h fm v f 2 false r.integer r.usable htr fr (r.fits fr hm)
    rw [hord] at this
    rw [c6]
    exact this
  have h16 : ∀ fr ∈ ps.flatten.map (to16 v), Frame16 ch fr := by
    intro fr hm
    obtain ⟨fr0, hm0, rfl⟩ := List.mem_map.1 hm
    obtain ⟨g1, g2⟩ := r.fits fr0 hm0
    refine ⟨by unfold to16; rw [List.length_map]; omega, fun x hx => ?_⟩
    obtain ⟨y, hy, rfl⟩ := List.mem_map.1 hx
    have hb : 1 ≤ bytesOf v ∧ bytesOf v ≤ 4 := by
      have := r.integer.width
      unfold bytesOf
      omega
    exact range16 (convert_range false hb (by decide) (g2 r.integer y hy))
  have hs := Writing.C13_written_file c hwf e v ps
  dsimp only at hs
  rw [hF, c1, c2, c3] at hs
  -- what completes the last block
  obtain ⟨P, hP1, hPl, hP2⟩ : ∃ P : List (List Int), Spec.lastPacket fpp (J.map (packedBytes h 2)) ((ps.flatten.map (to16 v)).map (packedBytes h 2)) =
      P.map (packedBytes h 2) ∧ P.length = fpp ∧ ∀ fr ∈ P, Frame16 ch fr := by
    unfold Spec.lastPacket
    rw [List.length_map]
    by_cases hz : (ps.flatten.map (to16 v)).length / fpp = 0
    · rw [if_pos hz]; exact ⟨J, rfl, hJl, hJ⟩
    · rw [if_neg hz]
      refine ⟨((ps.flatten.map (to16 v)).drop (((ps.flatten.map (to16 v)).length / fpp - 1) * fpp)).take fpp, ?_, ?_, ?_⟩
      · rw [List.map_take, List.map_drop]
      · have h1 := Nat.div_mul_le_self (ps.flatten.map (to16 v)).length fpp
        have h2 : ((ps.flatten.map (to16 v)).length / fpp - 1) * fpp + fpp = (ps.flatten.map (to16 v)).length / fpp * fpp := by
          have h3 := Nat.pos_of_ne_zero hz
          rw [← Nat.succ_mul]; congr 1; exact Nat.succ_pred_eq_of_pos h3
        rw [List.length_take, List.length_drop]
        omega
      · exact fun fr hm => h16 fr (List.mem_of_mem_drop (List.mem_of_mem_take hm))
  rw [hP1] at hs
  obtain ⟨k, more, rest, k1, k2, k3, k4, k5⟩ := fileData_packets fpp hf0 (encodeOf h C bpp) e (P.map (packedBytes h 2))
    ((ps.flatten.map (to16 v)).map (packedBytes h 2)) (by rw [List.length_map, hPl])
  rw [List.length_map, List.length_map] at k1
  have hrest : rest = (P.drop (fpp - more)).map (packedBytes h 2) := by rw [k3, List.map_drop]
  have hpadl : (P.drop (fpp - more)).length = more := by rw [hrest, List.length_map] at k4; exact k4
  have hpad16 : ∀ fr ∈ P.drop (fpp - more), Frame16 ch fr := fun fr hm => hP2 fr (List.mem_of_mem_drop hm)
  obtain ⟨Bs, heard, b1, b2, b3, b4, b5, b6, b7⟩ := blocks g h k e (ps.flatten.map (to16 v) ++ P.drop (fpp - more)) hI
    (by rw [List.length_append, List.length_map, hpadl]; omega)
    (by
      intro fr hm
      rcases List.mem_append.1 hm with hm | hm
      · exact h16 fr hm
      · exact hpad16 fr hm)
  rw [List.map_append, ← hrest, ← k5] at b1
  rw [b1] at hs
  exact ⟨Bs, P.drop (fpp - more), heard, hs, by rw [b2, hpadl]; omega, by omega, hpad16, b3, b4, by rw [b5, b2], b6, b7⟩

/-! ## From program to program -/

/-- Opening a file whose header was read, for the two block codecs. -/
theorem openRead_block (F32 : Files.Float32) (F64 : Files.Float64) (rnd : Rat → Dbl) (h' : Endian) (fuel : Nat) {u : FileFormat} {file : List Byte}
    {t : Trk} {p : Nat} (hu : u ≠ .nist) (hid : identify file 0 = .ok (some u, 0))
    (hrd : readInit F32 F64 rnd h' fuel u file 0 = .ok (t, p)) (hc : t.f.compression = IMA ∨ t.f.compression = MSADPCM)
    (hs : t.f.sampleFormat = TWOSCOMP ∧ t.f.sampleWidth = 16) (hch : t.f.channels = 1 ∨ t.f.channels = 2) :
    openRead F32 F64 rnd h' fuel file 0 = .ok (t, p) ∧ IntTrack t.f 2 false := by
  obtain ⟨hwf, -, -, hl, -, hm⟩ := readInit_post F32 F64 rnd h' fuel u file 0 t p hrd
  have hn : ¬ t.f.compression = NONE := by rcases hc with e | e <;> rw [e] <;> decide
  have hg : ¬ (t.f.compression = ULAW ∨ t.f.compression = ALAW) := by rcases hc with e | e <;> rw [e] <;> decide
  have hord : t.f.byteOrder = native h' := by
    cases (hwf hu).coded with
    | pcm c o => exact absurd c hn
    | sixteen c s w o => exact o
    | alac c s w o => exact o
  refine ⟨?_, ⟨by rw [hs.1]; rfl, by omega, by rw [hs.2]; rfl, hm⟩⟩
  have hcheck : codecCheck h' t.f = some t.f := by
    unfold codecCheck
    rw [if_neg hn, if_neg hg, if_pos hc, if_neg (by omega), if_neg (by omega), if_neg (by omega)]
  unfold openRead
  rw [Rd.bind_ok hid]
  dsimp only
  rw [Rd.bind_ok hrd, hcheck]
  rfl

end AF.Adpcm
