import Verif.Proof.ALAC.Track
import Verif.Proof.PacketSafe
import Verif.Props.ALAC.Codec
/-!
# ALAC files

C58: what is written to an ALAC track of a CAF file can be read back. C59: reading packets stays within the buffers.
-/
namespace AF.ALAC
open AF AF.Files AF.Setup AF.Packets
variable {V W γ δ : Type}

theorem table_length (h : Endian) (t : PacketTable) : (cafTable h t).length ≤ 36 + 5 * t.sizes.length := by
  unfold cafTable
  have : (t.sizes.flatMap fun n => berEncode (BitVec.ofNat 32 n)).length ≤ 5 * t.sizes.length := by
    induction t.sizes with
    | nil => simp
    | cons n ns ih =>
      rw [List.flatMap_cons, List.length_append, List.length_cons]
      have := (berEncode_pos (BitVec.ofNat 32 n)).2
      omega
  simp only [List.length_append, fieldBytes_length, b8, b4]
  show 4 + 8 + 8 + 8 + 4 + 4 + _ ≤ _
  omega

theorem flatten_bound {L : List (List Byte)} {n : Nat} (h : ∀ p ∈ L, p.length ≤ n) : L.flatten.length ≤ L.length * n := by
  induction L with
  | nil => simp
  | cons p L ih =>
    rw [List.flatten_cons, List.length_append, List.length_cons, Nat.succ_mul]
    have := ih (fun q hq => h q (List.mem_cons_of_mem _ hq))
    have := h p List.mem_cons_self
    omega

/-- C58. A track of an ALAC CAF file is written in any number of calls, possibly with changes of the virtual format between
them (but without `afSyncFile`), and closed. The file can be opened on any host; it has the same rate, channels and sample
format; its track delivers, to any sequence of calls, the frames that were written: every sample of 16, 24 or 32 bits, the
upper 20 of 24 bits otherwise (`kept`). -/
theorem C58_alac_roundtrip (F : Float64) (h h' : Endian) (ops : List Setup.Op) (s' : Setup) (o : Opened) (f : AFmt)
    (hfmt : (Setup.run (newSetup h) ops).fileFormat = .caf)
    (ho : openWrite h (Setup.run (newSetup h) ops) = (s', some o)) (hf : o.f = [f]) (hcomp : f.compression = Setup.ALAC)
    (hok : FormatOk f) (hr : F.dec (F.enc f.rate) = f.rate)
    (choice : Nat → Nat → Choice) (hc : ∀ i j, (choice i j).OK) (m : Nat → Mem)
    (conv : V → γ → List Int) (hconv : ∀ v x, (conv v x).length = f.channels.toNat ∧ ∀ a ∈ conv v x, InRange f.sampleWidth.toNat a)
    (v : V) (writes : List (Writing.Op V γ)) (hsync : ∀ op ∈ writes, op ≠ .sync)
    (hN : (Writing.handed conv v writes).length < 2 ^ 43)
    (fuel : Nat) (hfuel : 5 ≤ fuel) (rest : Nat → Mem) (old : Nat → Nat → Int) (stale : List (List Int))
    (conv' : W → List Int → δ) (hasConv : W → Bool) (w : W) (calls : List (Spec.Call W)) :
    let frames := (Writing.handed conv v writes).map fun a => a.map (kept f.sampleWidth.toNat)
    let file := wsession (writer h f choice m conv) F f (cookieOf h f) v writes
    (∀ op ∈ calls, Spec.InRange frames.length op) →
    ∃ x p c, cafRead F h' fuel file 0 = .ok (x, p) ∧
      x.t.f.rate = f.rate ∧ x.t.f.channels = f.channels ∧ x.t.f.compression = f.compression ∧
      x.t.f.sampleFormat = f.sampleFormat ∧ x.t.f.sampleWidth = f.sampleWidth ∧ x.t.frames = frames.length ∧
      reader h' file x rest old stale conv' hasConv = .ok (some c) ∧
      run c (init c w) calls = .ok ((Spec.answers frames conv' ⟨0, w⟩ calls).map fun a => (a.1, a.2.map some)) := by
  intro frames file hin
  obtain ⟨tr, -, -, -, -, hlf, -⟩ := opened ho hf
  obtain ⟨h8, hts, hw⟩ := hok
  have h1 := hlf.channels
  generalize hD : f.sampleWidth.toNat = d at *
  generalize hC : f.channels.toNat = ch at *
  have hch : 1 ≤ ch ∧ ch ≤ 8 := by omega
  have hd : Depth d := by unfold Depth; omega
  have hd32 : d ≤ 32 := by rcases hd with rfl | rfl | rfl | rfl <;> omega
  have hwr : writer h f choice m conv = ⟨h, 4096, by decide, encodePacket d 4096 ch choice m, conv⟩ := by
    unfold writer; rw [hD, hC]
  have hck : cookieOf h f = magicCookie h 4096 d ch (toUnsigned f.rate) := by unfold cookieOf; rw [hD, hC]
  have henc : Encodes (writer h f choice m conv) (Frame d ch) := by
    intro i gs hl hg
    rw [hwr] at hl ⊢
    obtain ⟨bs, e, -⟩ := packet_track hd hch.1 hch.2 hc m i hl hg
    exact ⟨bs, e⟩
  obtain ⟨L, hE, hL, hfile⟩ := wsession_file henc (fun v x => by rw [hwr]; exact hconv v x) F hcomp (cookie := cookieOf h f)
    (by rw [hck, magicCookie_length]; congr 1; exact propext (by omega)) v writes hsync
  rw [hwr] at hE hL hfile
  dsimp only at hE hL hfile
  have hfr : frames.length = (Writing.handed conv v writes).length := List.length_map _
  have hG : ∀ a ∈ Writing.handed conv v writes, Frame d ch a := by
    clear hE hL hfile hfr hN hin henc file frames
    induction writes generalizing v with
    | nil => intro a ha; simp [Writing.handed] at ha
    | cons op ops ih =>
      have ih' := fun w => ih w (fun o ho => hsync o (List.mem_cons_of_mem _ ho))
      cases op with
      | sync => exact ih' v
      | setFormat w => exact ih' w
      | write xs =>
        intro a ha
        rcases List.mem_append.1 ha with ha | ha
        · obtain ⟨x, -, rfl⟩ := List.mem_map.1 ha
          exact hconv _ _
        · exact ih' v a ha
  have hframes : ∀ i, ((frames.drop (i * 4096)).take 4096) =
      (((Writing.handed conv v writes).drop (i * 4096)).take 4096).map (fun a => a.map (kept d)) := by
    intro i
    have e : frames = (Writing.handed conv v writes).map (fun a => a.map (kept d)) := by rw [← hD]
    rw [e, List.map_take, List.map_drop]
  generalize hA : Writing.handed conv v writes = A at *
  have hpk : ∀ i (hi : i < L.length), 1 ≤ L[i].length ∧ L[i].length ≤ bufferSize 4096 ch d ∧
      ∀ rest old, decodePacket (some (configOf 4096 d)) 4096 ch rest old i L[i] = .ok ((frames.drop (i * 4096)).take 4096) := by
    intro i hi
    obtain ⟨bs, e, p1, p2, p3⟩ := packet_track hd hch.1 hch.2 hc m i (fs := (A.drop (i * 4096)).take 4096)
      (by rw [List.length_take]; omega) (fun a ha => hG a (List.mem_of_mem_drop (List.mem_of_mem_take ha)))
    have e2 := hE i hi
    dsimp only at e2
    rw [e] at e2
    injection e2 with e2
    subst e2
    exact ⟨p1, p2, fun r o => by rw [p3, hframes]⟩
  have hbuf : bufferSize 4096 ch d ≤ 2 ^ 18 := by
    unfold bufferSize
    have h1 : (10 + d) / 8 ≤ 5 := by omega
    have h2 : 4096 * ch * ((10 + d) / 8) ≤ 4096 * 8 * 5 := Nat.mul_le_mul (Nat.mul_le_mul_left _ hch.2) h1
    omega
  have hmem : ∀ p ∈ L, 1 ≤ p.length ∧ p.length ≤ bufferSize 4096 ch d := by
    intro p hp
    obtain ⟨i, hi, rfl⟩ := List.mem_iff_getElem.1 hp
    exact ⟨(hpk i hi).1, (hpk i hi).2.1⟩
  have hLn : L.length ≤ 2 ^ 31 := by
    rw [hL]
    have : A.length / 4096 < 2 ^ 31 := (Nat.div_lt_iff_lt_mul (by omega)).2 (by omega)
    omega
  have hDl : L.flatten.length ≤ 2 ^ 49 := by
    have h1 := flatten_bound (fun p hp => (hmem p hp).2)
    have h2 : L.length * bufferSize 4096 ch d ≤ 2 ^ 31 * 2 ^ 18 := Nat.mul_le_mul hLn hbuf
    omega
  have hckl : (cookieOf h f).length ≤ 48 := by rw [hck, magicCookie_length]; split <;> omega
  have htl := table_length h ⟨L.map List.length, (A.length : Int), 0, 0⟩
  dsimp only at htl
  rw [List.length_map] at htl
  obtain ⟨g, p, hread, g1, g2, g3, g4, g5, -⟩ := packetFile_read (F := F) (h := h) (h' := h') (f := f) hcomp hw (by omega)
    (cookie := cookieOf h f) (D := L.flatten) (tab := ⟨L.map List.length, (A.length : Int), 0, 0⟩)
    (by
      intro n hn
      obtain ⟨q, hq, rfl⟩ := List.mem_map.1 hn
      have := hmem q hq
      omega)
    (by intro hz; have := congrArg List.length hz; simp at this; rw [this] at hL; simp at hL) (by dsimp only; omega) rfl rfl
    (by
      unfold packetFile
      simp only [List.length_append, cafHead_length, cookieChunk_length, cafDataHead_length]
      omega) hfuel
  have hfile' : file = packetFile F h (cafTrk f) (cookieOf h f) L.flatten ⟨L.map List.length, (A.length : Int), 0, 0⟩ := by
    show wsession (writer h f choice m conv) F f (cookieOf h f) v writes = _
    rw [hwr]; exact hfile
  rw [hfile']
  refine ⟨_, p, ?_, hread, by rw [← hr]; exact g1, g2, g3, by rw [hts]; exact g4, g5, by rw [hfr], ?_⟩
  · exact { fpp := 4096, fpp_pos := by decide, sizes := some (L.map List.length), capacity := bufferSize 4096 ch d
            decode := decodePacket (some (configOf 4096 d)) 4096 ch rest old
            stale := stale, conv := conv', hasConv := hasConv
            file := packetFile F h (cafTrk f) (cookieOf h f) L.flatten ⟨L.map List.length, (A.length : Int), 0, 0⟩
            fposFirst := 80 + (cookieOf h f).length, totalf := A.length }
  constructor
  · unfold reader
    dsimp only
    rw [hck, initDecoder_cookie h h' _ hd (by omega), ← hck, g2, g5, hC, hD]
    rfl
  · refine run_ok (F := frames) (P := L) ?_ calls (init _ w) ⟨0, w⟩ (init_rel w) hin
    refine ⟨rfl, ⟨cafTable h ⟨L.map List.length, (A.length : Int), 0, 0⟩, ?_⟩, by rw [hL, hfr], fun i hi => (hpk i hi).2.2 rest old, fun q hq => (hmem q hq).2,
      by rw [hfr], ?_⟩
    · dsimp only
      unfold packetFile
      rw [← List.append_assoc, ← List.append_assoc, List.drop_left']
      simp only [List.length_append, cafHead_length, cookieChunk_length, cafDataHead_length]
      omega
    · dsimp only
      rw [hfr]
      exact ⟨(Nat.div_lt_iff_lt_mul (by omega)).2 (by omega), by omega⟩

/-- C37. The description of an ALAC file, for any history of calls without `afSyncFile`. -/
theorem C37_alac_description (F : Float64) (h h' : Endian) (ops : List Setup.Op) (s' : Setup) (o : Opened) (f : AFmt)
    (hfmt : (Setup.run (newSetup h) ops).fileFormat = .caf)
    (ho : openWrite h (Setup.run (newSetup h) ops) = (s', some o)) (hf : o.f = [f]) (hcomp : f.compression = Setup.ALAC)
    (hok : FormatOk f) (hr : F.dec (F.enc f.rate) = f.rate)
    (choice : Nat → Nat → Choice) (hc : ∀ i j, (choice i j).OK) (m : Nat → Mem)
    (conv : V → γ → List Int) (hconv : ∀ v x, (conv v x).length = f.channels.toNat ∧ ∀ a ∈ conv v x, InRange f.sampleWidth.toNat a)
    (v : V) (writes : List (Writing.Op V γ)) (hsync : ∀ op ∈ writes, op ≠ .sync)
    (hN : (Writing.handed conv v writes).length < 2 ^ 43) (fuel : Nat) (hfuel : 5 ≤ fuel) :
    ∃ x p, cafRead F h' fuel (wsession (writer h f choice m conv) F f (cookieOf h f) v writes) 0 = .ok (x, p) ∧
      x.t.f.rate = f.rate ∧ x.t.f.channels = f.channels ∧ x.t.f.compression = f.compression ∧
      x.t.f.sampleFormat = f.sampleFormat ∧ x.t.f.sampleWidth = f.sampleWidth ∧
      x.t.frames = (Writing.handed conv v writes).length := by
  obtain ⟨x, p, -, h1, h2, h3, h4, h5, h6, h7, -⟩ := C58_alac_roundtrip F h h' ops s' o f hfmt ho hf hcomp hok hr choice hc m
    conv hconv v writes hsync hN fuel hfuel (fun _ _ => 0) (fun _ _ => 0) [] (fun (_ : Unit) a => a) (fun _ => false) () [] (by simp)
  exact ⟨x, p, h1, h2, h3, h4, h5, h6, by rw [h7, List.length_map]⟩

/-! The hypotheses are met. -/

example : ∃ s' o f, openWrite .little (Setup.run (newSetup .little) (cafExample 540)) = (s', some o) ∧ o.f = [f] ∧
    (Setup.run (newSetup .little) (cafExample 540)).fileFormat = .caf ∧ f.compression = Setup.ALAC ∧ f.channels ≤ 8 ∧
    f.sampleFormat = TWOSCOMP ∧ f.sampleWidth = 16 ∧ demoF64.dec (demoF64.enc f.rate) = f.rate := by
  refine ⟨_, _, _, rfl, rfl, ?_⟩
  decide +kernel

example : ∀ i j : Nat, ((fun _ _ => demoChoice) i j : Choice).OK := fun _ _ => demoChoice_ok

/-- Changing the virtual format between writes: `true` swaps the channels. -/
example : ∀ (v : Bool) (x : BitVec 16 × BitVec 16),
    let conv := fun (v : Bool) (x : BitVec 16 × BitVec 16) => if v then [x.2.toInt, x.1.toInt] else [x.1.toInt, x.2.toInt]
    (conv v x).length = 2 ∧ ∀ a ∈ conv v x, InRange 16 a := by
  intro v x conv
  have hb : ∀ y : BitVec 16, InRange 16 y.toInt := by
    intro y
    have h1 : y.toInt < 2 ^ 15 := BitVec.toInt_lt
    have h2 : -2 ^ 15 ≤ y.toInt := BitVec.le_toInt y
    unfold InRange
    rw [if_pos rfl]
    exact ⟨h2, h1⟩
  cases v
  · exact ⟨rfl, by intro a ha; simp [conv] at ha; rcases ha with rfl | rfl <;> exact hb _⟩
  · exact ⟨rfl, by intro a ha; simp [conv] at ha; rcases ha with rfl | rfl <;> exact hb _⟩

/-! ## `afSyncFile` on an ALAC track destroys the file -/

/-- A stereo track of 16 bits. -/
def demoF : AFmt := ⟨44100, 401, 16, 501, ⟨32768, 0, -32768, 32767⟩, 2, 540⟩

/-- The file after the given calls and `afCloseFile`. -/
def demoFile (ops : List (Writing.Op Unit (List Int))) : List Byte :=
  wsession (writer .little demoF (fun _ _ => demoChoice) (fun _ _ => 0) (fun _ x => x)) demoF64 demoF (cookieOf .little demoF) () ops

/-- What is found in a file: the number of frames, and the packet table. -/
def found (file : List Byte) : Option (Int × Option (List Nat × Int)) :=
  match cafRead demoF64 .little 20 file 0 with
  | .ok (x, _) => some (x.t.frames, x.table.map fun t => (t.sizes, t.numValidFrames))
  | .error _ => none

/-- C58. One frame is written, and the file is closed: it is there. If `afSyncFile` is called before the file is closed,
the file has no frames and no packet table. If more is written after `afSyncFile`, it
can happen that the file cannot even be opened. -/
theorem C58_sync_lost :
    found (demoFile [.write [[5, -3]]]) = some (1, some ([12], 1)) ∧
    found (demoFile [.write [[5, -3]], .sync]) = some (0, none) ∧
    found (demoFile [.sync]) = some (0, none) ∧
    found (demoFile [.write [[5, -3]], .sync, .write [[7, 7]]]) = some (0, none) ∧
    found (demoFile [.write [[5, -3], [6, 6]], .sync, .write [[7, 7]]]) = none := by
  exact ⟨by decide +kernel, by decide +kernel, by decide +kernel, by decide +kernel, by decide +kernel⟩

end AF.ALAC

namespace AF.Packets
open AF AF.Files
variable {V α γ : Type}

/-- C59. A track whose packet table lists packets that fit into the buffer, and not more frames than the packets can hold,
is read within its buffers by any sequence of calls (other than a seek beyond the end of an empty track): no call aborts,
and none stores more frames than the client has asked for. -/
theorem C59_reading_safe {c : RCfg V α γ} {S : List Nat} (h : Sound c S) (v : V) (ops : List (Spec.Call V))
    (hops : ∀ op ∈ ops, Spec.InRange c.totalf.toNat op) :
    ∃ os, run c (init c v) ops = .ok os ∧ os.length = ops.length ∧
      ∀ (i : Nat) op o, ops[i]? = some op → os[i]? = some o → Within op o :=
  run_safe h ops _ (init_fine h v) hops

/-- C59. Without a packet table every call that needs the position of a packet uses a null pointer. The library itself
writes such files (`C58_sync_lost`). -/
theorem C59_no_table {c : RCfg V α γ} (h : c.sizes = none) (v : V) (op : Spec.Call V) (hop : ∀ w, op ≠ .setFormat w) :
    step c (init c v) op = .error .bufferOverflow := by
  have e : ensure c (init c v) = .error .bufferOverflow := by
    unfold ensure setup init
    rw [h]; rfl
  cases op with
  | setFormat w => exact absurd rfl (hop w)
  | read n => simp only [step, readFrames, bind, Except.bind, e]
  | seek f => simp only [step, seekFrame, bind, Except.bind, e]
  | tell => simp only [step, seekFrame, bind, Except.bind, e]
  | count => simp only [step, bind, Except.bind, e]

theorem chainPull_large {c : RCfg V α γ} {n : Nat} {S : List Nat} (h : c.sizes = some (n :: S)) (hn : c.capacity < n)
    (hfile : c.fposFirst + n ≤ c.file.length) (k : Nat) (s : RSt V α) (hk : 0 < k) (h1 : s.held = []) (h2 : s.eof = false)
    (h3 : s.cur = 0) (h4 : s.filePos = c.fposFirst) : chainPull c k s = .error .bufferOverflow := by
  have hf : filePull c { s with held := [] } = .error .bufferOverflow := by
    unfold filePull
    rw [h]
    dsimp only
    rw [h3, h4, if_neg (by simp), if_neg (by decide), if_pos]
    show c.capacity < ((c.file.drop (c.fposFirst : Int).toNat).take n).length
    rw [List.length_take, List.length_drop]
    omega
  simp only [chainPull, rebufPull, bind, Except.bind, h1, List.length_nil, Nat.not_lt_zero, if_false, Nat.sub_zero]
  rw [rebufLoop]
  simp only [h2] at hf
  simp only [Nat.pos_iff_ne_zero.1 hk, dite_false, h2, Bool.false_eq_true, if_false, hf, bind, Except.bind]

theorem readLoop_large {c : RCfg V α γ} {n : Nat} {S : List Nat} (h : c.sizes = some (n :: S)) (hn : c.capacity < n)
    (hfile : c.fposFirst + n ≤ c.file.length) (k : Nat) (s : RSt V α) (hk : 0 < k) (h0 : s.happy = true) (h1 : s.held = [])
    (h2 : s.eof = false) (h3 : s.cur = 0) (h4 : s.filePos = c.fposFirst) : readLoop c k s = .error .bufferOverflow := by
  rw [readLoop]
  have hp : 0 < min 1024 k := by omega
  simp only [Nat.pos_iff_ne_zero.1 hk, dite_false, bind, Except.bind, h0, Bool.true_eq_false, if_false]
  rw [chainPull_large h hn hfile _ _ hp h1 h2 h3 h4]

theorem setup_first {c : RCfg V α γ} {S : List Nat} (h : c.sizes = some S) (s : RSt V α) (hn : s.nextv = 0) :
    ∃ s', setup c s = .ok s' ∧ s'.totalv = c.totalf ∧ s'.nextv = 0 ∧ s'.ignore = 0 ∧ s'.held = [] ∧ s'.eof = false ∧ s'.cur = 0 ∧
      s'.fposNext = c.fposFirst := by
  have z : wrapU 64 0 = 0 := rfl
  have z2 : wrapS 32 0 = 0 := rfl
  have z3 : wrapS 64 0 = 0 := rfl
  have e2 : (⟨S, 0, 0, 0⟩ : PacketTable).startOfPacket 0 = some 0 := rfl
  unfold setup
  dsimp only
  rw [h]
  dsimp only
  rw [hn, z, Int.zero_ediv, z2, z, Int.zero_mul, z3, Int.toNat_zero, e2]
  exact ⟨_, rfl, rfl, rfl, rfl, rfl, rfl, rfl, by simp⟩

/-- C59. A first packet that is larger than the buffer is read over its end. -/
theorem C59_large_packet {c : RCfg V α γ} {n : Nat} {S : List Nat} (h : c.sizes = some (n :: S)) (hn : c.capacity < n)
    (hfile : c.fposFirst + n ≤ c.file.length) (ht : 0 < c.totalf) (v : V) (wanted : Int) (hw : 0 < wanted) :
    step c (init c v) (.read wanted) = .error .bufferOverflow := by
  obtain ⟨s, e, t1, t2, t3, t4, t5, t6, t7⟩ := setup_first h (init c v) rfl
  have e' : ensure c (init c v) = .ok s := e
  simp only [step, readFrames, bind, Except.bind, e']
  rw [if_neg (by rw [t7]; omega)]
  unfold skip
  rw [if_pos t3]
  simp only [pure, Except.pure]
  generalize hL : (if s.totalv = -1 then wanted else if wanted > s.totalv - s.nextv then s.totalv - s.nextv else wanted).toNat = l
  have hl : 0 < l := by rw [← hL, t1, t2]; split <;> omega
  rw [if_neg Bool.false_ne_true, readLoop_large h hn hfile l { s with filePos := s.fposNext, happy := true } hl rfl t4 t5 t6 t7]

theorem setup_outside {c : RCfg V α γ} {S : List Nat} (h : c.sizes = some S) (s : RSt V α)
    (hlt : S.length < (wrapU 64 (wrapS 32 (wrapU 64 s.nextv / c.fpp))).toNat) : setup c s = .error .bufferOverflow := by
  unfold setup
  dsimp only
  rw [h]
  dsimp only
  generalize (wrapU 64 (wrapS 32 (wrapU 64 s.nextv / c.fpp))).toNat = k at *
  rw [C47_outside _ k hlt]

/-- C59. If the table tells of more frames than its packets can hold, a seek beyond the packets reads sizes from memory
behind the table. -/
theorem C59_seek_outside {c : RCfg V α γ} {S : List Nat} (h : c.sizes = some S) (s : RSt V α) (hd : s.dirty = false)
    (ht : s.totalv = c.totalf) (f : Nat) (hf : f ≤ c.totalf) (hne : (f : Int) ≠ s.nextv) (hs : f < 2 ^ 31)
    (hout : S.length < f / c.fpp) : step c s (.seek f) = .error .bufferOverflow := by
  have hq : f / c.fpp ≤ f := Nat.div_le_self ..
  have hq0 : 0 ≤ ((f / c.fpp : Nat) : Int) := Int.natCast_nonneg _
  have e0 : wrapU 64 (f : Int) = f := wrapU_id (by omega) (by omega)
  have e1 : wrapS 32 ((f : Int) / (c.fpp : Int)) = ((f / c.fpp : Nat) : Int) := by
    rw [← Int.natCast_ediv]
    exact wrapS_id (by omega) (by omega)
  have e2 : wrapU 64 ((f / c.fpp : Nat) : Int) = ((f / c.fpp : Nat) : Int) := wrapU_id (by omega) (by omega)
  simp only [step, seekFrame, ensure, hd, Bool.false_eq_true, if_false, bind, Except.bind]
  rw [if_neg (by omega), if_neg hne, ht, if_neg (by omega)]
  have key : setup c { s with nextv := (f : Int), totalv := c.totalf, dirty := false } = .error .bufferOverflow :=
    setup_outside h _ (by dsimp only; rw [e0, e1, e2, Int.toNat_natCast]; exact hout)
  rw [key]

/-- C59. Seeking beyond the end of a track without frames: the position becomes -1, and the sizes of 2^64 - 1 packets are
added up. This is what happens with the file that is written when nothing is written. -/
theorem C59_seek_empty {c : RCfg V α γ} (hfpp : c.fpp = 4096) {S : List Nat} (h : c.sizes = some S) (hS : S.length < 2 ^ 31)
    (ht : c.totalf = 0) (s : RSt V α) (hd : s.dirty = false) (hv : s.totalv = 0) (hn : s.nextv = 0) (f : Int) (hf : 0 < f) :
    step c s (.seek f) = .error .bufferOverflow := by
  simp only [step, seekFrame, ensure, hd, Bool.false_eq_true, if_false, bind, Except.bind]
  rw [if_neg (by omega), if_neg (by omega), hv, if_pos ⟨by decide, hf⟩]
  have key : setup c { s with nextv := 0 - 1, totalv := 0, dirty := false } = .error .bufferOverflow := by
    refine setup_outside h _ ?_
    rw [hfpp]
    have e : 2 ^ 31 < (wrapU 64 (wrapS 32 (wrapU 64 (0 - 1) / ((4096 : Nat) : Int)))).toNat := by decide +kernel
    exact Nat.lt_trans hS e
  rw [key]

/-! A file with two packets of 3 and 1 bytes; a packet decodes to its bytes. -/

def demoPackets : RCfg Unit Byte Byte :=
  { fpp := 3, fpp_pos := by decide, sizes := some [3, 1], capacity := 3, decode := fun _ bs => .ok (bs.take 3), stale := []
    conv := fun _ b => b, hasConv := fun _ => false, file := [9, 9, 1, 2, 3, 4], fposFirst := 2, totalf := 4 }

example : Sound demoPackets [3, 1] :=
  ⟨rfl, by decide, by decide, by decide, fun _ _ _ => ⟨_, rfl, by rw [List.length_take]; exact Nat.min_le_left ..⟩, by decide⟩

example : (match run demoPackets (init demoPackets ()) [.read 2, .seek 3, .read 5, .count] with
    | .ok os => os | .error _ => []) = [(2, [some 1, some 2]), (3, []), (1, [some 4]), (4, [])] := by
  decide +kernel

end AF.Packets
