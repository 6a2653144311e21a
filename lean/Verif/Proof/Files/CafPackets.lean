import Verif.Proof.PacketWrite
import Verif.Proof.PacketRead
/-! The CAF file of a track of packets: as it is written, and read back. -/
namespace AF.Packets
open AF AF.Files AF.Setup
variable {V α γ : Type}

theorem cookieChunk_length (h : Endian) (c : List Byte) : (cafCookieChunk h c).length = 12 + c.length := by
  unfold cafCookieChunk
  simp only [List.length_append, fieldBytes_length]
  show 4 + 8 + _ = _
  omega

/-- Head, codec data, data, packet table. -/
def packetFile (F : Float64) (h : Endian) (t : Trk) (cookie D : List Byte) (tab : PacketTable) : List Byte :=
  cafHead F h t ++ (cafCookieChunk h cookie ++ (cafDataHead h ((D.length + 4 : Nat) : Int) ++ (D ++ cafTable h tab)))

theorem update_file {F : Float64} {h : Endian} {t t' : Trk} {c0 cookie D : List Byte} {L : Int} {tab : PacketTable}
    (hc : c0.length = cookie.length) (ha : t'.afterData = ((52 + (12 + cookie.length) + 16 + D.length : Nat) : Int)) (hs : t'.dataSize = D.length)
    (n : Nat) :
    (cafUpdate h t' ⟨some cookie, some 52, some (52 + (12 + cookie.length)), some tab⟩
      ⟨cafHead F h t ++ cafCookieChunk h c0 ++ cafDataHead h L ++ D, n⟩).1.bytes = packetFile F h t cookie D tab := by
  unfold cafUpdate cafWriteCookie cafWriteData cafWriteTable
  dsimp only
  have e1 := Disk.patch (A := cafHead F h t) (B := cafCookieChunk h c0) (C := cafDataHead h L ++ D) (B' := cafCookieChunk h cookie)
    (d := ⟨cafHead F h t ++ cafCookieChunk h c0 ++ cafDataHead h L ++ D, n⟩) (by simp only [List.append_assoc])
    (by rw [cookieChunk_length, cookieChunk_length, hc])
  rw [cafHead_length] at e1
  have e2 := Disk.patch (A := cafHead F h t ++ cafCookieChunk h cookie) (B := cafDataHead h L) (C := D)
    (B' := cafDataHead h (t'.dataSize + 4))
    (d := (Disk.seek 52 ⟨cafHead F h t ++ cafCookieChunk h c0 ++ cafDataHead h L ++ D, n⟩).write (cafCookieChunk h cookie))
    (by rw [e1]; simp only [List.append_assoc]) (by rw [cafDataHead_length, cafDataHead_length])
  rw [List.length_append, cafHead_length, cookieChunk_length] at e2
  rw [Disk.write_end]
  · show _ ++ cafTable h tab = _
    rw [Disk.seek_bytes, e2, hs]
    unfold packetFile
    simp only [List.append_assoc, Int.natCast_add]
    rfl
  · rw [Disk.seek_pos, Disk.seek_bytes, e2, ha, Int.toNat_natCast]
    simp only [List.length_append, cafHead_length, cookieChunk_length, cafDataHead_length]

/-- What a session without `afSyncFile` leaves in the file. -/
theorem wsession_file {c : WCfg V α γ} {G : α → Prop} (henc : Encodes c G) (hconv : ∀ v x, G (c.conv v x)) (F : Float64) {f : AFmt}
    (hf : f.compression = ALAC) {cookie : List Byte} (hc : cookie.length = if f.channels > 2 then 48 else 24) (v : V)
    (ops : List (Writing.Op V γ)) (hops : ∀ op ∈ ops, op ≠ .sync) :
    ∃ L, Encoded c (Writing.handed c.conv v ops) L ∧ L.length = (Writing.handed c.conv v ops).length / c.fpp + 1 ∧
      wsession c F f cookie v ops = packetFile F c.host (cafTrk f) cookie L.flatten
        ⟨L.map List.length, ((Writing.handed c.conv v ops).length : Int), 0, 0⟩ := by
  simp only [Setup.ALAC] at hf
  have hobj : (cafParams f (Trk.ofFormat f)) = (cafTrk f, ⟨some (List.replicate cookie.length 0), none, none, some PacketTable.empty⟩) := by
    unfold cafTrk cafParams
    rw [if_neg (by simp only [IMA]; omega), if_pos (by simp only [Setup.ALAC]; omega), hc]
  have hds : (cafTrk f).dataSize = 0 := by
    unfold cafTrk cafParams
    rw [if_neg (by simp only [IMA]; omega), if_pos (by simp only [Setup.ALAC]; omega)]
    rfl
  generalize hB0 : cafHead F c.host (cafTrk f) ++ cafCookieChunk c.host (List.replicate cookie.length 0) ++ cafDataHead c.host (-1) = B0
  have hB0l : B0.length = 52 + (12 + cookie.length) + 16 := by
    rw [← hB0]; simp only [List.length_append, cafHead_length, cookieChunk_length, cafDataHead_length, List.length_replicate]
  have hini : cafInit F c.host f = (⟨B0, B0.length⟩, { cafTrk f with first := (B0.length : Int) },
      ⟨some (List.replicate cookie.length 0), some 52, some (52 + (12 + cookie.length)), some PacketTable.empty⟩) := by
    unfold cafInit
    rw [hobj]
    dsimp only
    rw [caf_start]
    unfold cafWriteCookie cafWriteData
    dsimp only
    have k1 := Disk.write_end (bs := cafCookieChunk c.host (List.replicate cookie.length 0)) (d := ⟨cafHead F c.host (cafTrk f), 52⟩)
      (by simp only [cafHead_length])
    have k2 := Disk.write_end (bs := cafDataHead c.host (-1)) (d := ⟨cafHead F c.host (cafTrk f) ++
      cafCookieChunk c.host (List.replicate cookie.length 0), 52 + (cafCookieChunk c.host (List.replicate cookie.length 0)).length⟩)
      (by simp only [cafHead_length, List.length_append])
    rw [k1, k2]
    dsimp only
    rw [hB0, cookieChunk_length, cafDataHead_length, List.length_replicate, hB0l]
  have hb0 : Between c B0 { cafTrk f with first := (B0.length : Int) }
      ⟨some cookie, some 52, some (52 + (12 + cookie.length)), some PacketTable.empty⟩ [] (winit F c.host f cookie v : WSt V α) := by
    unfold winit
    rw [hini]
    refine ⟨[], ⟨rfl, ?_, ?_, ?_, ?_, rfl⟩, ?_, Nat.le_refl 0 |> fun _ => by simp, ?_, ?_⟩
    · simp
    · simp
    · dsimp only
      rw [hds]
      rfl
    · dsimp only
      simp [PacketTable.empty]
    · intro i hi; simp at hi
    · simp
    · exact c.fpp_pos
  have hb1 := wsteps_ok henc hconv ops [] (winit F c.host f cookie v : WSt V α) hops (by simp) hb0
  have hv : (winit F c.host f cookie v : WSt V α).v = v := rfl
  rw [hv, List.nil_append] at hb1
  have hG : ∀ a ∈ Writing.handed c.conv v ops, G a := by
    clear hb1 hb0 hv hini
    induction ops generalizing v with
    | nil => intro a ha; simp [Writing.handed] at ha
    | cons op ops ih =>
      have ih' := fun w => ih w (fun o ho => hops o (List.mem_cons_of_mem _ ho))
      cases op with
      | sync => exact ih' v
      | setFormat w => exact ih' w
      | write xs =>
        intro a ha
        rcases List.mem_append.1 ha with ha | ha
        · obtain ⟨x, -, rfl⟩ := List.mem_map.1 ha
          exact hconv _ _
        · exact ih' v a ha
  obtain ⟨L, hE, hL, hd⟩ := sync_ok henc hG hb1
  refine ⟨L, hE, hL, ?_⟩
  unfold wsession
  rw [hd, ← hB0]
  refine update_file (by rw [List.length_replicate]) ?_ rfl _
  dsimp only
  rw [hB0, List.length_append, hB0l]


/-! ## Reading back -/

theorem cafFormat_alac (h' : Endian) {f : AFmt} (h0 : f.compression = 540)
    (hw : f.sampleWidth = 16 ∨ f.sampleWidth = 20 ∨ f.sampleWidth = 24 ∨ f.sampleWidth = 32) (t : Trk) (ht : t.f = f) (hp : t.fpp = 4096)
    (R : Rat) :
    (1 ≤ (cafFields t).2.1 ∧ (cafFields t).2.1 ≤ 4) ∧ (cafFields t).2.2.2.1 = 4096 ∧ (cafFields t).2.2.2.2 = f.sampleWidth ∧
    ∃ g : AFmt, (∀ s : CafRead, cafFormat h' (cafFields t).1 (cafFields t).2.1.toNat (cafFields t).2.2.2.1.toNat (cafFields t).2.2.2.2.toNat
      { rate := R, sampleFormat := 0, sampleWidth := (cafFields t).2.2.2.2, byteOrder := 0
        pcm := ⟨0, 0, 0, 0⟩, channels := f.channels, compression := 0 } s =
          some { s with hasDesc := true, t := { s.t with f := g, fpp := 4096, bpp := 0 } }) ∧
      g.rate = R ∧ g.channels = f.channels ∧ g.compression = f.compression ∧ g.sampleFormat = 401 ∧ g.sampleWidth = f.sampleWidth ∧
      g.byteOrder = native h' := by
  unfold cafFields
  rw [ht]
  dsimp only
  rw [h0, if_neg (by decide), if_neg (by decide), if_neg (by decide), if_pos rfl, hp]
  obtain ⟨g, hg, g1, g2, g3, g4, g5, g6⟩ := set_some (f := { rate := R, sampleFormat := 0, sampleWidth := f.sampleWidth, byteOrder := native h', pcm := ⟨0, 0, 0, 0⟩, channels := f.channels, compression := Setup.ALAC }) (a := 401) (w := f.sampleWidth) (by omega)
  dsimp only at g1 g2 g3 g4 g5 g6
  have hg2 := congrArg Prod.snd hg
  dsimp only at hg2
  rcases hw with hw | hw | hw | hw <;> rw [hw] at hg2 ⊢ <;>
    exact ⟨by simp, rfl, rfl, g, fun s => by rw [← hg2]; rfl, g1, g2, g3, g4, by rw [g5, hw], g6⟩

theorem cookie_chunk {F : Float64} {h h' : Endian} {file : List Byte} {p : Nat} {c : List Byte} {s : CafRead} {rest : List Byte}
    (he : file.drop p = cafCookieChunk h c ++ rest) (hlt : p + 12 + c.length < 2 ^ 63) :
    cafRound F h' file.length ((p : Int), s) file p = .ok (.inl (((p + 12 + c.length : Nat) : Int), { s with params := .cookie c }),
      p + 12 + c.length) := by
  have hl : p < file.length := by
    have := congrArg List.length he
    simp only [List.length_drop, List.length_append, cookieChunk_length] at this
    omega
  unfold cafCookieChunk at he
  simp only [List.append_assoc] at he
  refine caf_chunk (type := tag "kuki") rfl (len := c.length) (q := p + 12 + c.length) he hl ?_ (by omega)
  have e1 := drop_step he (n := 4) rfl
  have e2 := fb _ _ _ _ e1
  rw [b8] at e2
  unfold cafChunk
  rw [if_neg (by decide), if_neg (by decide), if_neg (by decide), if_pos rfl]
  unfold cafParseCookie
  rw [if_neg (by omega), Int.toNat_natCast, Rd.bind_ok (Rd.read_ok e2 rfl), if_neg (by simp)]
  rfl

theorem packetFile_read {F : Float64} {h h' : Endian} {f : AFmt} (h0 : f.compression = Setup.ALAC)
    (hw : f.sampleWidth = 16 ∨ f.sampleWidth = 20 ∨ f.sampleWidth = 24 ∨ f.sampleWidth = 32)
    (hch : 1 ≤ f.channels ∧ f.channels < 2 ^ 31) {cookie D : List Byte} {tab : PacketTable}
    (hs : ∀ n ∈ tab.sizes, 0 < n ∧ n < 2 ^ 32) (hne : tab.sizes ≠ []) (hf : -2 ^ 63 ≤ tab.numValidFrames ∧ tab.numValidFrames < 2 ^ 63)
    (hp : tab.primingFrames = 0) (hr : tab.remainderFrames = 0)
    (hsz : (packetFile F h (cafTrk f) cookie D tab).length < 2 ^ 63) {fuel : Nat} (hfuel : 5 ≤ fuel) :
    ∃ g p, cafRead F h' fuel (packetFile F h (cafTrk f) cookie D tab) 0 =
        .ok (⟨true, ⟨g, 4096, 0, ((80 + cookie.length : Nat) : Int), 0, D.length, tab.numValidFrames⟩, .cookie cookie, some tab⟩, p) ∧
      g.rate = F.dec (F.enc f.rate) ∧ g.channels = f.channels ∧ g.compression = f.compression ∧ g.sampleFormat = 401 ∧
      g.sampleWidth = f.sampleWidth ∧ g.byteOrder = native h' := by
  simp only [Setup.ALAC] at h0
  obtain ⟨fuel, rfl⟩ : ∃ k, fuel = k + 5 := ⟨fuel - 5, by omega⟩
  have ht := cafTrk_f f
  have hfpp : (cafTrk f).fpp = 4096 := by
    unfold cafTrk cafParams
    rw [if_neg (by simp only [IMA]; omega), if_pos (by simp only [Setup.ALAC]; omega)]
  obtain ⟨k1, k2, k3, g, hg, g1, g2, g3, g4, g5, g6⟩ := cafFormat_alac h' h0 hw (cafTrk f) ht hfpp (F.dec (F.enc (cafTrk f).f.rate))
  generalize hfile : packetFile F h (cafTrk f) cookie D tab = file at *
  have hlen : file.length = 52 + 12 + cookie.length + 16 + D.length + (cafTable h tab).length := by
    rw [← hfile]; unfold packetFile
    simp only [List.length_append, cafHead_length, cookieChunk_length, cafDataHead_length]; omega
  have d8 : file.drop 8 = cafDesc F h (cafTrk f) ++ (cafCookieChunk h cookie ++ (cafDataHead h ((D.length + 4 : Nat) : Int) ++ (D ++ cafTable h tab))) := by
    have : file.drop 0 = tag "caff" ++ ([0, 1, 0, 0] ++ (cafDesc F h (cafTrk f) ++ (cafCookieChunk h cookie ++ (cafDataHead h ((D.length + 4 : Nat) : Int) ++ (D ++ cafTable h tab))))) := by
      rw [← hfile]; unfold packetFile; simp only [cafHead, List.append_assoc, List.drop_zero]
    exact drop_step (n := 4) (p := 4) (drop_step (p := 0) (n := 4) this rfl) rfl
  have d52 := drop_step d8 (cafDesc_length F h (cafTrk f))
  have dd := drop_step d52 (cookieChunk_length h cookie)
  have dt := drop_step (drop_step dd (cafDataHead_length h _)) (n := D.length) rfl
  rw [show 8 + 44 + (12 + cookie.length) = 52 + 12 + cookie.length by omega] at dd dt
  refine ⟨g, file.length, ?_, by rw [g1, ht], g2, g3, g4, g5, g6⟩
  unfold cafRead
  rw [Rd.bind_ok (a := ()) (p' := 8) rfl, Rd.bind_ok (a := file.length) (p' := 8) rfl]
  have w1 := cafDesc_chunk (h' := h') (p := 8) d8 (by omega) (by rw [ht]; exact hch) (by omega) (by omega) (by omega)
    (by rw [ht]; rw [ht] at hg; exact hg ⟨false, Trk.ofFormat ⟨0, 0, 0, 0, ⟨0, 0, 0, 0⟩, 0, 0⟩, .none, none⟩)
  have w2 := cookie_chunk (F := F) (h' := h') (p := 52) (s := ⟨true, ⟨g, 4096, 0, 0, 0, 0, 0⟩, .none, none⟩) d52 (by omega)
  have w3 := cafData_chunk (F := F) (h' := h') (p := 52 + 12 + cookie.length) (s := ⟨true, ⟨g, 4096, 0, 0, 0, 0, 0⟩, .cookie cookie, none⟩) dd (by omega) rfl
  have w4 := C37_table_roundtrip h h' tab ⟨true, ⟨g, 4096, 0, ((52 + 12 + cookie.length + 16 : Nat) : Int), 0, D.length, 0⟩, .cookie cookie, none⟩ file [] (52 + 12 + cookie.length + 16 + D.length) F
    hs hne hf (by omega) (by omega) (by omega) (by rw [dt, List.append_nil])
  have w5 := caf_end (F := F) (h' := h') (file := file) (p := file.length) (n := fuel + 1)
    (s := ⟨true, ⟨g, 4096, 0, ((52 + 12 + cookie.length + 16 : Nat) : Int), 0, D.length, tab.numValidFrames⟩, .cookie cookie, some tab⟩) (by omega)
  have w : Rd.loop (cafRound F h' file.length) (fuel + 5) (8, ⟨false, Trk.ofFormat ⟨0, 0, 0, 0, ⟨0, 0, 0, 0⟩, 0, 0⟩, .none, none⟩) file 8 =
      .ok (⟨true, ⟨g, 4096, 0, ((80 + cookie.length : Nat) : Int), 0, D.length, tab.numValidFrames⟩, .cookie cookie, some tab⟩, file.length) := by
    show Rd.loop _ (fuel + 4 + 1) (((8 : Nat) : Int), _) file 8 = _
    rw [Rd.loop_step w1]
    show Rd.loop _ (fuel + 3 + 1) (((52 : Nat) : Int), (⟨true, ⟨g, 4096, 0, 0, 0, 0, 0⟩, .none, none⟩ : CafRead)) file 52 = _
    rw [Rd.loop_step w2, Rd.loop_step w3]
    show Rd.loop _ (fuel + 1 + 1) _ file _ = _
    have w3' : Trk.computeTotalFileFrames ⟨g, 4096, 0, ((52 + 12 + cookie.length + 16 : Nat) : Int), 0, D.length, 0⟩ =
      ⟨g, 4096, 0, ((52 + 12 + cookie.length + 16 : Nat) : Int), 0, D.length, 0⟩ := by
      unfold Trk.computeTotalFileFrames; rw [if_neg (by simp)]
    rw [w3', Rd.loop_step w4, ← hlen, w5, show 52 + 12 + cookie.length + 16 = 80 + cookie.length by omega]
  rw [Rd.bind_ok w]
  rfl

end AF.Packets
