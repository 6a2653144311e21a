import Verif.Spec.Packets
import Verif.Spec.WriteCalls
import Verif.Props.Files.CAF
/-! What writing packets leaves in the file. -/
namespace AF.Packets
open AF AF.Files
variable {V α γ : Type}

/-- The packets `L`, with `N` frames, have been written behind `B0`. -/
structure Put (B0 : List Byte) (t0 : Trk) (x0 : CafObj) (s : WSt V α) (L : List (List Byte)) (N : Nat) : Prop where
  calls : s.calls = L.length
  disk : s.disk = ⟨B0 ++ L.flatten, (B0 ++ L.flatten).length⟩
  fpos : s.fposNext = (B0 ++ L.flatten).length
  t : s.t = { t0 with dataSize := (L.flatten.length : Int) }
  x : s.x = { x0 with table := some ⟨L.map List.length, (N : Int), 0, 0⟩ }
  happy : s.happy = true

/-- `L` are the packets of the first frames of `F`. -/
def Encoded (c : WCfg V α γ) (F : List α) (L : List (List Byte)) : Prop :=
  ∀ i (hi : i < L.length), c.encode i ((F.drop (i * c.fpp)).take c.fpp) = some L[i]

structure Kept (s s' : WSt V α) : Prop where
  v : s'.v = s.v
  dirty : s'.dirty = s.dirty
  totalv : s'.totalv = s.totalv
  nextv : s'.nextv = s.nextv
  held : s'.held = s.held

theorem Kept.refl (s : WSt V α) : Kept s s := ⟨rfl, rfl, rfl, rfl, rfl⟩
theorem Kept.trans {a b d : WSt V α} (h : Kept a b) (k : Kept b d) : Kept a d :=
  ⟨k.v.trans h.v, k.dirty.trans h.dirty, k.totalv.trans h.totalv, k.nextv.trans h.nextv, k.held.trans h.held⟩

variable {B0 : List Byte} {t0 : Trk} {x0 : CafObj}

theorem filePush_ok {c : WCfg V α γ} {s : WSt V α} {L : List (List Byte)} {N : Nat} (h : Put B0 t0 x0 s L N) {fs : List α} {bs : List Byte}
    (he : c.encode L.length fs = some bs) :
    Put B0 t0 x0 (filePush c fs s) (L ++ [bs]) (N + fs.length) ∧ Kept s (filePush c fs s) := by
  have hfl : (L ++ [bs]).flatten = L.flatten ++ bs := by simp
  unfold filePush
  rw [h.calls, he]
  refine ⟨⟨?_, ?_, ?_, ?_, ?_, h.happy⟩, ⟨rfl, rfl, rfl, rfl, rfl⟩⟩
  · show L.length + 1 = _
    simp
  · show s.disk.write bs = _
    rw [h.disk, Disk.write_end rfl, hfl]
    simp only [List.append_assoc, List.length_append, Disk.mk.injEq, true_and]
    omega
  · show s.fposNext + bs.length = _
    rw [h.fpos, hfl]; simp only [List.length_append]; omega
  · show { s.t with dataSize := s.t.dataSize + bs.length } = _
    rw [h.t, hfl, List.length_append, Int.natCast_add]
  · show { s.x with table := s.x.table.map (addPacket bs.length fs.length) } = _
    rw [h.x]
    simp only [Option.map_some, addPacket, List.map_append, List.map_cons, List.map_nil, Int.natCast_add]

theorem Encoded.snoc {c : WCfg V α γ} {F : List α} {L : List (List Byte)} (h : Encoded c F L) {bs : List Byte}
    (he : c.encode L.length ((F.drop (L.length * c.fpp)).take c.fpp) = some bs) : Encoded c F (L ++ [bs]) := by
  intro i hi
  by_cases hl : i < L.length
  · rw [List.getElem_append_left hl]; exact h i hl
  · have : i = L.length := by rw [List.length_append, List.length_singleton] at hi; omega
    subst this
    rw [List.getElem_append_right (Nat.le_refl _)]
    simpa using he

theorem Encoded.more {c : WCfg V α γ} {F : List α} {L : List (List Byte)} (h : Encoded c F L) (hL : L.length * c.fpp ≤ F.length)
    (G : List α) : Encoded c (F ++ G) L := by
  intro i hi
  rw [← h i hi]
  have : (i + 1) * c.fpp ≤ L.length * c.fpp := Nat.mul_le_mul_right _ hi
  rw [Nat.succ_mul] at this
  rw [List.drop_append_of_le_length (by omega), List.take_append_of_le_length (by rw [List.length_drop]; omega)]

theorem pushLoop_ok {c : WCfg V α γ} {F : List α} (n : Nat) : ∀ (held fs : List α) (s : WSt V α) (L : List (List Byte)), fs.length = n →
    (∀ i (gs : List α), gs.length ≤ c.fpp → (∀ a ∈ gs, a ∈ F) → ∃ bs, c.encode i gs = some bs) →
    held.length < c.fpp → F.drop (L.length * c.fpp) = held ++ fs → L.length * c.fpp ≤ F.length → Encoded c F L →
    Put B0 t0 x0 s L (L.length * c.fpp) →
    ∃ held' fs' s' L', pushLoop c held fs s = (held', fs', s') ∧ F.drop (L'.length * c.fpp) = held' ++ fs' ∧ (held' ++ fs').length < c.fpp ∧
      L'.length * c.fpp ≤ F.length ∧ Encoded c F L' ∧ Put B0 t0 x0 s' L' (L'.length * c.fpp) ∧ Kept s s' := by
  induction n using Nat.strongRecOn with
  | _ n ih =>
  intro held fs s L hn henc hh hF hLF hE hP
  have hfp := c.fpp_pos
  rw [pushLoop]
  by_cases hc : held.length < c.fpp ∧ c.fpp ≤ held.length + fs.length
  · rw [dif_pos hc]
    have hlF := congrArg List.length hF
    rw [List.length_drop, List.length_append] at hlF
    have htake : (F.drop (L.length * c.fpp)).take c.fpp = held ++ fs.take (c.fpp - held.length) := by
      rw [hF, List.take_append, List.take_of_length_le (by omega)]
    have hlen : (held ++ fs.take (c.fpp - held.length)).length = c.fpp := by
      rw [List.length_append, List.length_take]; omega
    obtain ⟨bs, hbs⟩ := henc L.length (held ++ fs.take (c.fpp - held.length)) (by omega) (by
      intro a ha
      rw [← htake] at ha
      exact List.mem_of_mem_drop (List.mem_of_mem_take ha))
    obtain ⟨p1, p2⟩ := filePush_ok hP hbs
    rw [hlen] at p1
    have hL1 : (L ++ [bs]).length * c.fpp = L.length * c.fpp + c.fpp := by
      rw [List.length_append, List.length_singleton, Nat.succ_mul]
    have hF1 : F.drop ((L ++ [bs]).length * c.fpp) = [] ++ fs.drop (c.fpp - held.length) := by
      rw [hL1, ← List.drop_drop, hF, List.drop_append, List.drop_eq_nil_of_le (by omega)]
    obtain ⟨held', fs', s', L', e, r1, r2, r3, r4, r5, r6⟩ := ih (fs.drop (c.fpp - held.length)).length (by rw [List.length_drop]; omega)
      [] (fs.drop (c.fpp - held.length)) (filePush c (held ++ fs.take (c.fpp - held.length)) s) (L ++ [bs]) rfl henc (by simpa using hfp)
      hF1 (by omega) (hE.snoc (by rw [htake]; exact hbs)) (by rw [hL1]; exact p1)
    exact ⟨held', fs', s', L', e, r1, r2, r3, r4, r5, p2.trans r6⟩
  · rw [dif_neg hc]
    exact ⟨held, fs, s, L, rfl, hF, by rw [List.length_append]; omega, hLF, hE, hP, Kept.refl s⟩

/-- Between calls: the full packets of `F` have been written, the rest is held back. -/
structure Between (c : WCfg V α γ) (B0 : List Byte) (t0 : Trk) (x0 : CafObj) (F : List α) (s : WSt V α) : Prop where
  ex : ∃ L, Put B0 t0 x0 s L (L.length * c.fpp) ∧ Encoded c F L ∧ L.length * c.fpp ≤ F.length ∧
    s.held = F.drop (L.length * c.fpp) ∧ s.held.length < c.fpp

/-- Every short list of good frames can be encoded. -/
def Encodes (c : WCfg V α γ) (G : α → Prop) : Prop :=
  ∀ i (gs : List α), gs.length ≤ c.fpp → (∀ a ∈ gs, G a) → ∃ bs, c.encode i gs = some bs

theorem rebufPush_ok {c : WCfg V α γ} {G : α → Prop} (henc : Encodes c G) {F fs : List α} {s : WSt V α}
    (hG : ∀ a ∈ F ++ fs, G a) (h : Between c B0 t0 x0 F s) :
    Between c B0 t0 x0 (F ++ fs) (rebufPush c fs s) ∧ (rebufPush c fs s).v = s.v ∧ (rebufPush c fs s).dirty = s.dirty ∧
      (rebufPush c fs s).happy = true ∧ (rebufPush c fs s).nextv = s.nextv ∧ (rebufPush c fs s).totalv = s.totalv := by
  obtain ⟨L, hP, hE, hL, hh, hl⟩ := h.ex
  obtain ⟨held', fs', s', L', e, r1, r2, r3, r4, r5, r6⟩ := pushLoop_ok (c := c) (F := F ++ fs) fs.length s.held fs s L rfl
    (fun i gs hg hm => henc i gs hg (fun a ha => hG a (hm a ha))) hl (by rw [List.drop_append_of_le_length hL, hh])
    (by rw [List.length_append]; omega) (hE.more hL fs) hP
  unfold rebufPush
  rw [e]
  refine ⟨⟨L', ⟨r5.calls, r5.disk, r5.fpos, r5.t, r5.x, r5.happy⟩, r4, r3, r1.symm, r2⟩, r6.v, r6.dirty, r5.happy, r6.nextv, r6.totalv⟩

theorem writeLoop_ok {c : WCfg V α γ} {G : α → Prop} (henc : Encodes c G) (hconv : ∀ v x, G (c.conv v x)) (n : Nat) :
    ∀ (xs : List γ) (F : List α) (s : WSt V α), xs.length = n → (∀ a ∈ F, G a) → Between c B0 t0 x0 F s →
    ∃ s', writeLoop c xs s = (xs.length, s') ∧ Between c B0 t0 x0 (F ++ xs.map (c.conv s.v)) s' ∧ s'.v = s.v ∧ s'.dirty = s.dirty ∧
      s'.nextv = s.nextv ∧ s'.totalv = s.totalv := by
  induction n using Nat.strongRecOn with
  | _ n ih =>
  intro xs F s hn hG hB
  rw [writeLoop]
  by_cases h0 : xs.length = 0
  · rw [dif_pos h0]
    have : xs = [] := List.length_eq_zero_iff.1 h0
    subst this
    exact ⟨s, rfl, by simpa using hB, rfl, rfl, rfl, rfl⟩
  · rw [dif_neg h0]
    have hG1 : ∀ a ∈ F ++ (xs.take 1024).map (c.conv s.v), G a := by
      intro a ha
      rcases List.mem_append.1 ha with ha | ha
      · exact hG a ha
      · obtain ⟨x, -, rfl⟩ := List.mem_map.1 ha
        exact hconv _ _
    obtain ⟨b1, b2, b3, b4, b5, b6⟩ := rebufPush_ok henc hG1 hB
    dsimp only
    rw [b4]
    obtain ⟨s', e, r1, r2, r3, r4, r5⟩ := ih (xs.drop 1024).length (by rw [List.length_drop]; omega) (xs.drop 1024) _ _ rfl hG1 b1
    refine ⟨s', ?_, ?_, r2.trans b2, r3.trans b3, r4.trans b5, r5.trans b6⟩
    · rw [e]
      simp only [Bool.not_true, Bool.false_eq_true, if_false, ← List.length_append, List.take_append_drop]
    · rw [b2, List.append_assoc, ← List.map_append, List.take_append_drop] at r1
      exact r1

theorem Between.congr {c : WCfg V α γ} {F : List α} {s s' : WSt V α} (h : Between c B0 t0 x0 F s) (h1 : s'.calls = s.calls)
    (h2 : s'.disk = s.disk) (h3 : s'.fposNext = s.fposNext) (h4 : s'.t = s.t) (h5 : s'.x = s.x) (h6 : s'.happy = true)
    (h7 : s'.held = s.held) : Between c B0 t0 x0 F s' := by
  obtain ⟨L, hP, hE, hL, hh, hl⟩ := h.ex
  exact ⟨L, ⟨h1.trans hP.calls, h2.trans hP.disk, h3.trans hP.fpos, h4.trans hP.t, h5.trans hP.x, h6⟩, hE, hL, h7.trans hh,
    by rw [h7]; exact hl⟩

theorem writeFrames_ok {c : WCfg V α γ} {G : α → Prop} (henc : Encodes c G) (hconv : ∀ v x, G (c.conv v x)) {F : List α} {s : WSt V α}
    (hG : ∀ a ∈ F, G a) (hB : Between c B0 t0 x0 F s) (xs : List γ) :
    (writeFrames c xs s).1 = xs.length ∧ Between c B0 t0 x0 (F ++ xs.map (c.conv s.v)) (writeFrames c xs s).2 ∧
      (writeFrames c xs s).2.v = s.v := by
  unfold writeFrames
  dsimp only
  have key : ∀ s1 : WSt V α, s1.v = s.v → Between c B0 t0 x0 F s1 →
      (((writeLoop c xs { s1 with disk := s1.disk.seek s1.fposNext, happy := true }).1 : Nat) : Int) = xs.length ∧
      Between c B0 t0 x0 (F ++ xs.map (c.conv s.v)) (writeLoop c xs { s1 with disk := s1.disk.seek s1.fposNext, happy := true }).2 ∧
      (writeLoop c xs { s1 with disk := s1.disk.seek s1.fposNext, happy := true }).2.v = s.v ∧
      (writeLoop c xs { s1 with disk := s1.disk.seek s1.fposNext, happy := true }).2.happy = true := by
    intro s1 hv hB1
    have hd : s1.disk.seek s1.fposNext = s1.disk := by
      obtain ⟨L, hP, -⟩ := hB1.ex
      rw [hP.disk, hP.fpos]; rfl
    rw [hd]
    obtain ⟨s', e, r1, r2, -⟩ := writeLoop_ok henc hconv xs.length xs F { s1 with disk := s1.disk, happy := true } rfl hG
      (hB1.congr rfl rfl rfl rfl rfl rfl rfl)
    rw [e]
    refine ⟨rfl, by rw [← hv]; exact r1, r2.trans hv, ?_⟩
    obtain ⟨L, hP, -⟩ := r1.ex
    exact hP.happy
  obtain ⟨a1, a2, a3, a4⟩ := key (if s.dirty then wsetup s else s) (by split <;> rfl) (by
    split
    · exact hB.congr rfl rfl rfl rfl rfl rfl rfl
    · exact hB)
  refine ⟨a1, a2.congr rfl rfl rfl rfl rfl ?_ rfl, a3⟩
  exact a4

theorem wsteps_ok {c : WCfg V α γ} {G : α → Prop} (henc : Encodes c G) (hconv : ∀ v x, G (c.conv v x)) (ops : List (Writing.Op V γ)) :
    ∀ (F : List α) (s : WSt V α), (∀ op ∈ ops, op ≠ .sync) → (∀ a ∈ F, G a) → Between c B0 t0 x0 F s →
      Between c B0 t0 x0 (F ++ Writing.handed c.conv s.v ops) (ops.foldl (wstep c) s) := by
  induction ops with
  | nil => intro F s _ _ hB; simpa [Writing.handed] using hB
  | cons op ops ih =>
    intro F s hops hG hB
    have hops' : ∀ op ∈ ops, op ≠ .sync := fun o ho => hops o (List.mem_cons_of_mem _ ho)
    cases op with
    | sync => exact absurd rfl (hops _ List.mem_cons_self)
    | setFormat v => exact ih F { s with v := v, dirty := true } hops' hG (hB.congr rfl rfl rfl rfl rfl (by
        obtain ⟨L, hP, -⟩ := hB.ex
        exact hP.happy) rfl)
    | write xs =>
      obtain ⟨-, b, e⟩ := writeFrames_ok henc hconv hG hB xs
      have := ih (F ++ xs.map (c.conv s.v)) (writeFrames c xs s).2 hops' (by
        intro a ha
        rcases List.mem_append.1 ha with ha | ha
        · exact hG a ha
        · obtain ⟨x, -, rfl⟩ := List.mem_map.1 ha
          exact hconv _ _) b
      rw [e, List.append_assoc] at this
      exact this

/-- The last `afSyncFile`: one more packet, of the frames that are left (maybe none), and the header is updated. -/
theorem sync_ok {c : WCfg V α γ} {G : α → Prop} (henc : Encodes c G) {F : List α} {s : WSt V α} (hG : ∀ a ∈ F, G a)
    (hB : Between c B0 t0 x0 F s) :
    ∃ L, Encoded c F L ∧ L.length = F.length / c.fpp + 1 ∧
      (syncFile c s).disk = (cafUpdate c.host { t0 with dataSize := (L.flatten.length : Int), afterData := ((B0 ++ L.flatten).length : Int) }
        { x0 with table := some ⟨L.map List.length, (F.length : Int), 0, 0⟩ } ⟨B0 ++ L.flatten, (B0 ++ L.flatten).length⟩).1 := by
  have key : ∀ s1 : WSt V α, Between c B0 t0 x0 F s1 → ∃ L, Encoded c F L ∧ L.length = F.length / c.fpp + 1 ∧
      Put B0 t0 x0 (filePush c s1.held { s1 with happy := true }) L F.length := by
    intro s1 hB1
    obtain ⟨L, hP, hE, hL, hh, hl⟩ := hB1.ex
    have hlen : s1.held.length = F.length - L.length * c.fpp := by rw [hh, List.length_drop]
    obtain ⟨bs, hbs⟩ := henc L.length s1.held (by omega) (by
      intro a ha
      rw [hh] at ha
      exact hG a (List.mem_of_mem_drop ha))
    obtain ⟨p1, -⟩ := filePush_ok (s := { s1 with happy := true }) ⟨hP.calls, hP.disk, hP.fpos, hP.t, hP.x, rfl⟩ hbs
    refine ⟨L ++ [bs], hE.snoc ?_, ?_, ?_⟩
    · rw [List.take_of_length_le (by rw [← hh]; omega), ← hh]; exact hbs
    · rw [List.length_append, List.length_singleton]
      congr 1
      symm
      refine Nat.div_eq_of_lt_le hL ?_
      rw [Nat.succ_mul]; omega
    · rw [show L.length * c.fpp + s1.held.length = F.length by omega] at p1
      exact p1
  unfold syncFile
  dsimp only
  obtain ⟨L, hE, hL, hP⟩ := key (if s.dirty then wsetup s else s) (by
    split
    · exact hB.congr rfl rfl rfl rfl rfl rfl rfl
    · exact hB)
  refine ⟨L, hE, hL, ?_⟩
  rw [hP.t, hP.x, hP.disk]

end AF.Packets
