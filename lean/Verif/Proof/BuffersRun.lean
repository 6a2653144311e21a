import Verif.Proof.Buffers
import Verif.Spec.Buffers
import Verif.Proof.Files.Simple
/-! Reading and writing stay within the buffers. -/
namespace AF.Buffers
open AF.Convert AF.Spec.Buffers

theorem divisor_ok {n : Nat} (h : 0 < n) : divisor n = .ok () := by unfold divisor; rw [if_neg (by omega)]

theorem use_ok {cap b : Nat} (h : b ≤ cap) : use cap b = .ok () := if_pos h

theorem largest_from (l : List Int) (m : Int) : m ≤ l.foldl (fun m x => if x > m then x else m) m ∧
    ∀ x ∈ l, x ≤ l.foldl (fun m x => if x > m then x else m) m := by
  induction l generalizing m with
  | nil => exact ⟨Int.le_refl _, by simp⟩
  | cons a l ih =>
    simp only [List.foldl_cons]
    have := ih (if a > m then a else m)
    refine ⟨?_, ?_⟩
    · refine Int.le_trans ?_ this.1
      split <;> omega
    · intro x hx
      rcases List.mem_cons.1 hx with rfl | hx
      · refine Int.le_trans ?_ this.1
        split <;> omega
      · exact this.2 x hx

theorem largest_ge {l : List Int} {x : Int} (h : x ∈ l) : x ≤ largest l := (largest_from l 0).2 x h

theorem bufsize_eq {k b : Nat} (h : k * b < 2 ^ 31) : bufsize k b = ((k * b : Nat) : Int) := by
  unfold bufsize
  generalize k * b = x at h ⊢
  exact Files.wrapS_id (by omega) (by omega)

theorem cap_chunk {c : Cfg} {gs : List Fmt} {g : Fmt} {g' : Fmt} (hg : g' ∈ gs) (hs : 1024 * bytesPerFrame g' true < 2 ^ 31) :
    1024 * bytesPerFrame g' true ≤ maxbufsize c gs g := by
  have := largest_ge (l := gs.map (fun g => bufsize 1024 (bytesPerFrame g true)) ++
    (if c.codec.rebuffers then [bufsize c.fpp (bytesPerFrame g true)] else []) ++ [fileBufferSize c g])
    (x := bufsize 1024 (bytesPerFrame g' true))
    (List.mem_append_left _ (List.mem_append_left _ (List.mem_map_of_mem (f := fun g => bufsize 1024 (bytesPerFrame g true)) hg)))
  rw [bufsize_eq hs] at this
  unfold maxbufsize
  omega

theorem cap_packet {c : Cfg} {gs : List Fmt} {g : Fmt} (hr : c.codec.rebuffers = true) (hs : c.fpp * bytesPerFrame g true < 2 ^ 31) :
    c.fpp * bytesPerFrame g true ≤ maxbufsize c gs g := by
  have := largest_ge (l := gs.map (fun g => bufsize 1024 (bytesPerFrame g true)) ++
    (if c.codec.rebuffers then [bufsize c.fpp (bytesPerFrame g true)] else []) ++ [fileBufferSize c g])
    (x := bufsize c.fpp (bytesPerFrame g true))
    (List.mem_append_left _ (List.mem_append_right _ (by rw [if_pos hr]; exact List.mem_singleton.2 rfl)))
  have e := bufsize_eq hs
  unfold maxbufsize
  omega

theorem cap_alac {c : Cfg} {gs : List Fmt} {g : Fmt} (hr : c.codec = .alac)
    (hs : c.fpp * c.f.channels * ((10 + c.f.width) / 8) + 1 < 2 ^ 31) :
    c.fpp * c.f.channels * ((10 + c.f.width) / 8) + 1 ≤ maxbufsize c gs g := by
  have h1 := largest_ge (l := gs.map (fun g => bufsize 1024 (bytesPerFrame g true)) ++
    (if c.codec.rebuffers then [bufsize c.fpp (bytesPerFrame g true)] else []) ++ [fileBufferSize c g])
    (x := fileBufferSize c g) (List.mem_append_right _ (List.mem_singleton.2 rfl))
  have h2 : fileBufferSize c g = ((c.fpp * c.f.channels * ((10 + c.f.width) / 8) + 1 : Nat) : Int) := by
    unfold fileBufferSize
    rw [hr]
    dsimp only
    generalize c.fpp * c.f.channels * ((10 + c.f.width) / 8) + 1 = x at hs ⊢
    exact Files.wrapS_id (by omega) (by omega)
  unfold maxbufsize
  omega

/-- Run the conversion modules for `req` frames. -/
theorem runConvs_ok (cap clast req : Nat) (ms : List Module) (cin : Nat) (g : Fmt) (n : Nat) (hf : Fits ms g) (hn : n ≤ req)
    (hs : ∀ g' ∈ chunkFormats g ms, req * bytesPerFrame g' true ≤ cap ∧ req * g'.channels < 2 ^ 31)
    (hi : ms ≠ [] → req * bytesPerFrame g true ≤ cin) (hl : req * bytesPerFrame (lastFormat g ms) true ≤ clast) :
    runConvs cap clast req ms cin g n = .ok () := by
  induction ms generalizing cin g n with
  | nil => rfl
  | cons m ms ih =>
    have h0 := hs g (first_mem _ _)
    have e1 : ¬ 2 ^ 31 ≤ g.channels * n := by
      have : n * g.channels ≤ req * g.channels := Nat.mul_le_mul_right _ hn
      rw [Nat.mul_comm g.channels]
      omega
    have st := hf.1
    have e2 : n * (inChannels m g * inSample m) ≤ cin := by
      refine Nat.le_trans ?_ (hi (by simp))
      refine Nat.mul_le_mul hn ?_
      rw [st.ic, bytesPerFrame, Nat.mul_comm]
      exact Nat.mul_le_mul_right _ st.i
    have e3 : n * (outChannels m g * outSample m) ≤ req * bytesPerFrame (m.describe g) true := by
      refine Nat.mul_le_mul hn ?_
      rw [st.oc, bytesPerFrame, Nat.mul_comm]
      exact Nat.mul_le_mul_right _ st.o
    have e4 : req * bytesPerFrame (m.describe g) true ≤ if ms.isEmpty then clast else cap := by
      cases ms with
      | nil => exact hl
      | cons a ms => exact (hs (m.describe g) (List.mem_cons_of_mem _ (first_mem _ _))).1
    unfold runConvs
    rw [if_neg e1]
    simp only [bind, Except.bind, pure, Except.pure, use_ok e2, use_ok (Nat.le_trans e3 e4)]
    exact ih _ _ _ hf.2 (Nat.le_refl _) (fun g' h' => hs g' (List.mem_cons_of_mem _ h')) (fun _ => e4) hl

/-- What a file module may change. -/
structure Same (s s' : RSt) : Prop where
  v : s'.v = s.v
  dirty : s'.dirty = s.dirty
  mods : s'.mods = s.mods
  cap : s'.cap = s.cap
  nextv : s'.nextv = s.nextv
  ignore : s'.ignore = s.ignore

theorem Same.trans {a b c : RSt} (h : Same a b) (h' : Same b c) : Same a c :=
  ⟨h'.v.trans h.v, h'.dirty.trans h.dirty, h'.mods.trans h.mods, h'.cap.trans h.cap, h'.nextv.trans h.nextv, h'.ignore.trans h.ignore⟩

theorem Same.refl (a : RSt) : Same a a := ⟨rfl, rfl, rfl, rfl, rfl, rfl⟩

theorem sample_le (f : Fmt) : f.bytesPerSample false ≤ f.bytesPerSample true := by
  unfold Fmt.bytesPerSample
  cases f.sampleFormat <;> simp only [Nat.le_refl]
  all_goals
    simp only [Bool.false_eq_true, and_false, if_false]
    split <;> omega

theorem frame_le (f : Fmt) : bytesPerFrame f false ≤ bytesPerFrame f true := Nat.mul_le_mul_right _ (sample_le f)

theorem false_decoded (c : Cfg) : bytesPerFrame c.f false = bytesPerFrame c.decoded false := by
  unfold Cfg.decoded
  cases c.codec <;> simp [bytesPerFrame, Fmt.bytesPerSample]

theorem file_le_decoded (c : Cfg) : bytesPerFrame c.f false ≤ bytesPerFrame c.decoded true := by
  rw [false_decoded]; exact frame_le _

theorem sixteen_frame {c : Cfg} (h : c.f.sampleFormat = .twos ∧ c.f.width = 16) : bytesPerFrame c.f false = 2 * c.f.channels := by
  simp [bytesPerFrame, Fmt.bytesPerSample, h.1, h.2]

/-- The file module, asked for `n` frames. -/
theorem filePull_ok {c : Cfg} (hc : Readable c) {cin cout n : Nat} {s : RSt} (hr : c.codec.rebuffers = true → n = c.fpp)
    (h1 : n * bytesPerFrame c.decoded true ≤ cout)
    (h2 : c.codec = .g711 → n * c.f.channels ≤ cin) (h3 : c.codec = .block → c.bpp ≤ cin)
    (h4 : c.codec = .alac → ∀ p ∈ c.sizes, p ≤ cin) :
    ∃ r s', filePull c cin cout n s = .ok (r, s') ∧ Same s s' ∧ s'.held = s.held ∧ s'.eof = s.eof ∧ r ≤ n := by
  have hfd : n * bytesPerFrame c.f false ≤ cout := Nat.le_trans (Nat.mul_le_mul_left _ (file_le_decoded c)) h1
  unfold filePull
  cases hk : c.codec
  · dsimp only [fread]
    have hb : min (s.answers.headD 0) (n * bytesPerFrame c.f false) ≤ n * bytesPerFrame c.f false := Nat.min_le_right _ _
    generalize min (s.answers.headD 0) (n * bytesPerFrame c.f false) = b at hb ⊢
    simp only [use_ok (Nat.le_trans hb hfd), divisor_ok (hc.frame hk), bind, Except.bind, pure, Except.pure]
    refine ⟨_, _, rfl, ?_, ?_, ?_, Nat.div_le_of_le_mul (by rw [Nat.mul_comm]; exact hb)⟩
    · split <;> exact ⟨rfl, rfl, rfl, rfl, rfl, rfl⟩
    · split <;> rfl
    · split <;> rfl
  · dsimp only [fread]
    have hb : min (s.answers.headD 0) (n * c.f.channels) ≤ n * c.f.channels := Nat.min_le_right _ _
    generalize min (s.answers.headD 0) (n * c.f.channels) = b at hb ⊢
    have hg := h2 hk
    rw [sixteen_frame (hc.coded.g711 hk)] at hfd
    simp only [use_ok (Nat.le_trans hb hg), use_ok hg, use_ok hfd, divisor_ok (hc.channels hk), bind, Except.bind, pure, Except.pure]
    refine ⟨_, _, rfl, ?_, ?_, ?_, Nat.div_le_of_le_mul (by rw [Nat.mul_comm]; exact hb)⟩
    · split <;> exact ⟨rfl, rfl, rfl, rfl, rfl, rfl⟩
    · split <;> rfl
    · split <;> rfl
  · dsimp only [fread]
    have hn := hr (by rw [hk]; rfl)
    subst hn
    have hq : c.fpp / c.fpp = 1 := Nat.div_self c.fpp_pos
    rw [hq, Nat.mul_one]
    have hb : min (s.answers.headD 0) c.bpp ≤ c.bpp := Nat.min_le_right _ _
    generalize min (s.answers.headD 0) c.bpp = b at hb ⊢
    have hg := h3 hk
    rw [sixteen_frame (hc.coded.block hk)] at hfd
    have hk1 : b / c.bpp ≤ 1 := Nat.div_le_of_le_mul (by omega)
    generalize b / c.bpp = k at hk1 ⊢
    have u1 : k * c.bpp ≤ cin := Nat.le_trans (Nat.mul_le_mul_right _ hk1) (by omega)
    have u2 : k * c.fpp * (2 * c.f.channels) ≤ cout :=
      Nat.le_trans (Nat.mul_le_mul_right _ (Nat.le_trans (Nat.mul_le_mul_right _ hk1) (by omega))) hfd
    simp only [use_ok (Nat.le_trans hb hg), divisor_ok (hc.block hk).1, use_ok u1, use_ok u2, bind, Except.bind, pure, Except.pure]
    refine ⟨_, _, rfl, ?_, ?_, ?_, Nat.le_trans (Nat.mul_le_mul_right _ hk1) (by omega)⟩
    · split <;> exact ⟨rfl, rfl, rfl, rfl, rfl, rfl⟩
    · split <;> rfl
    · split <;> rfl
  · dsimp only
    cases hp : c.sizes[s.cur]? with
    | none => exact ⟨_, _, rfl, Same.refl _, rfl, rfl, Nat.zero_le _⟩
    | some p =>
      have hp' := h4 hk p (List.mem_of_getElem? hp)
      have hn := hr (by rw [hk]; rfl)
      subst hn
      obtain ⟨b, s1, hq, hb, hs, h5, h6, hcur⟩ : ∃ b s1, fread p s = (b, s1) ∧ b ≤ p ∧ Same s s1 ∧ s1.held = s.held ∧ s1.eof = s.eof ∧ s1.cur = s.cur :=
        ⟨_, _, rfl, Nat.min_le_right _ _, ⟨rfl, rfl, rfl, rfl, rfl, rfl⟩, rfl, rfl, rfl⟩
      dsimp only
      rw [hq]
      dsimp only
      simp only [use_ok (Nat.le_trans hb hp'), bind, Except.bind, pure, Except.pure]
      split
      · exact ⟨_, _, rfl, ⟨hs.v, hs.dirty, hs.mods, hs.cap, hs.nextv, hs.ignore⟩, h5, h6, Nat.le_refl _⟩
      · have hf := hc.frames hk s1.cur
        have u : c.frames s1.cur * bytesPerFrame c.f false ≤ cout := Nat.le_trans (Nat.mul_le_mul_right _ hf) hfd
        simp only [use_ok u]
        exact ⟨_, _, rfl, ⟨hs.v, hs.dirty, hs.mods, hs.cap, hs.nextv, hs.ignore⟩, h5, h6, hf⟩

/-- What the buffers hold. -/
structure Room (c : Cfg) (cap : Nat) : Prop where
  packet : c.codec.rebuffers = true → c.fpp * bytesPerFrame c.decoded true ≤ cap
  g711 : c.codec = .g711 → 1024 * c.f.channels ≤ cap
  block : c.codec = .block → c.bpp ≤ cap
  alac : c.codec = .alac → ∀ p ∈ c.sizes, p ≤ cap

theorem rebufLoop_ok {c : Cfg} (hc : Readable c) {cap cout : Nat} (hr : c.codec.rebuffers = true) (hm : Room c cap) (want got : Nat) (s : RSt)
    (hout : (got + want) * bytesPerFrame c.decoded true ≤ cout) (hh : s.held < c.fpp) :
    ∃ r s', rebufLoop c cap cout want got s = .ok (r, s') ∧ Same s s' ∧ s'.held < c.fpp ∧ r ≤ got + want := by
  induction want using Nat.strongRecOn generalizing got s with
  | _ want ih =>
    unfold rebufLoop
    by_cases hw : want = 0
    · rw [dif_pos hw]; exact ⟨_, _, rfl, Same.refl _, hh, by omega⟩
    rw [dif_neg hw]
    by_cases he : s.eof = true
    · rw [if_pos he]; exact ⟨_, _, rfl, Same.refl _, hh, by omega⟩
    rw [if_neg he]
    have hfp := c.fpp_pos
    have hpk := hm.packet hr
    obtain ⟨r, s1, e1, e2, e3, e4, e5⟩ := filePull_ok hc (cin := cap) (cout := cap) (n := c.fpp) (s := s) (fun _ => rfl) hpk
      (fun hk => by rw [hk] at hr; exact absurd hr (by decide)) hm.block hm.alac
    have hbd := file_le_decoded c
    have u1 : min want r * bytesPerFrame c.f false ≤ cap :=
      Nat.le_trans (Nat.mul_le_mul (Nat.le_trans (Nat.min_le_right _ _) e5) hbd) hpk
    have u2 : (got + min want r) * bytesPerFrame c.f false ≤ cout :=
      Nat.le_trans (Nat.mul_le_mul (Nat.add_le_add_left (Nat.min_le_left _ _) _) hbd) hout
    simp only [e1, use_ok u1, use_ok u2, bind, Except.bind, pure, Except.pure]
    by_cases hlt : want < r
    · rw [if_pos hlt]
      have u3 : r * bytesPerFrame c.f false ≤ cap := Nat.le_trans (Nat.mul_le_mul e5 hbd) hpk
      have u4 : (r - want) * bytesPerFrame c.f false ≤ c.fpp * bytesPerFrame c.f false := Nat.mul_le_mul_right _ (by omega)
      simp only [use_ok u3, use_ok u4]
      refine ⟨_, _, rfl, e2.trans ⟨rfl, rfl, rfl, rfl, rfl, rfl⟩, ?_, Nat.le_refl _⟩
      show r - want < c.fpp
      omega
    · rw [if_neg hlt]
      by_cases hrf : r = c.fpp
      · rw [if_pos hrf]
        obtain ⟨r', s', i1, i2, i3, i4⟩ := ih (want - c.fpp) (by omega) (got + c.fpp) s1
          (by rw [show got + c.fpp + (want - c.fpp) = got + want by omega]; exact hout) (e3 ▸ hh)
        exact ⟨r', s', i1, e2.trans i2, i3, by omega⟩
      · rw [if_neg hrf]
        exact ⟨_, _, rfl, e2.trans ⟨rfl, rfl, rfl, rfl, rfl, rfl⟩, e3 ▸ hh, by omega⟩

theorem rebufPull_ok {c : Cfg} (hc : Readable c) {cap cout n : Nat} (hr : c.codec.rebuffers = true) (hm : Room c cap) {s : RSt}
    (hout : n * bytesPerFrame c.decoded true ≤ cout) (hh : s.held < c.fpp) :
    ∃ r s', rebufPull c cap cout n s = .ok (r, s') ∧ Same s s' ∧ s'.held < c.fpp ∧ r ≤ n := by
  unfold rebufPull
  have u : min n s.held * bytesPerFrame c.f false ≤ cout :=
    Nat.le_trans (Nat.mul_le_mul (Nat.min_le_left _ _) (file_le_decoded c)) hout
  simp only [use_ok u, bind, Except.bind, pure, Except.pure]
  by_cases hn : n < s.held
  · rw [if_pos hn]
    refine ⟨_, _, rfl, ⟨rfl, rfl, rfl, rfl, rfl, rfl⟩, ?_, Nat.le_refl _⟩
    show s.held - n < c.fpp
    omega
  · rw [if_neg hn]
    obtain ⟨r, s', i1, i2, i3, i4⟩ := rebufLoop_ok hc (cap := cap) (cout := cout) hr hm (n - s.held) s.held { s with held := 0 }
      (by rw [show s.held + (n - s.held) = n by omega]; exact hout) c.fpp_pos
    exact ⟨r, s', i1, ⟨i2.v, i2.dirty, i2.mods, i2.cap, i2.nextv, i2.ignore⟩, i3, by omega⟩

/-- The track has been set up. -/
def Ready (c : Cfg) (s : RSt) : Prop :=
  ∃ ch, arrange c.h true c.f s.v = some ch ∧ s.mods = ch.mods ∧ s.cap = maxbufsize c (chunkFormats c.decoded ch.mods) c.decoded

theorem decoded_fields {c : Cfg} (h : Coded c) : c.decoded.sampleFormat = c.f.sampleFormat ∧ c.decoded.width = c.f.width ∧
    c.decoded.channels = c.f.channels ∧ c.decoded.compressed = false := by
  unfold Cfg.decoded
  cases hk : c.codec
  · exact ⟨rfl, rfl, rfl, h.pcm hk⟩
  all_goals exact ⟨rfl, rfl, rfl, rfl⟩

theorem frame_small {g : Fmt} (hc : ∃ fc, g.code = some fc) (hu : g.compressed = false) :
    g.channels ≤ bytesPerFrame g true ∧ bytesPerFrame g true ≤ 8 * g.channels := by
  obtain ⟨fc, hfc⟩ := hc
  unfold bytesPerFrame
  rw [code_storage hfc hu]
  have : 1 ≤ fc.storage ∧ fc.storage ≤ 8 := by cases fc <;> decide
  exact ⟨Nat.le_mul_of_pos_left _ this.1, Nat.mul_le_mul_right _ this.2⟩

/-- What `setup` guarantees. -/
theorem ready_room {c : Cfg} (hc : Readable c) {s : RSt} (hv : ReadAs c s.v) (hr : Ready c s) :
    Room c s.cap ∧ Fits s.mods c.decoded ∧ bytesPerFrame (lastFormat c.decoded s.mods) true = bytesPerFrame s.v true ∧
    (∀ g ∈ chunkFormats c.decoded s.mods, 1024 * bytesPerFrame g true ≤ s.cap ∧ 1024 * g.channels < 2 ^ 31) ∧
    (c.codec.rebuffers = true → ∀ g ∈ chunkFormats c.decoded s.mods, (c.fpp - 1) * bytesPerFrame g true ≤ s.cap ∧
      (c.fpp - 1) * g.channels < 2 ^ 31) := by
  obtain ⟨ch, ha, hm, hcap⟩ := hr
  obtain ⟨d1, d2, d3, d4⟩ := decoded_fields hc.coded
  obtain ⟨fc, hfc, hi⟩ := arrange_fits ha d1 d2 d3 d4
  have f1 := hc.few
  have f2 := hv.few
  unfold Few at f1 f2
  have hall : ∀ g ∈ chunkFormats c.decoded ch.mods, g.channels ≤ bytesPerFrame g true ∧ bytesPerFrame g true ≤ 8 * g.channels ∧ g.channels < 2 ^ 18 := by
    intro g hg
    obtain ⟨a1, a2, a3⟩ := hi.all g hg
    have := frame_small a1 a2
    refine ⟨this.1, this.2, ?_⟩
    rcases a3 with a3 | a3 <;> omega
  have h1024 : ∀ g ∈ chunkFormats c.decoded ch.mods, 1024 * bytesPerFrame g true ≤ s.cap ∧ 1024 * g.channels < 2 ^ 31 := by
    intro g hg
    have := hall g hg
    refine ⟨?_, by omega⟩
    rw [hcap]
    exact cap_chunk hg (by omega)
  have hd := hall _ (first_mem c.decoded ch.mods)
  rw [d3] at hd
  have hpb : c.codec.rebuffers = true → c.fpp * bytesPerFrame c.decoded true < 2 ^ 31 := fun hr =>
    Nat.lt_of_le_of_lt (Nat.mul_le_mul_left _ hd.2.1) (hc.packet hr)
  have hpk : c.codec.rebuffers = true → c.fpp * bytesPerFrame c.decoded true ≤ s.cap := fun hr => by
    rw [hcap]; exact cap_packet hr (hpb hr)
  have h0 := h1024 _ (first_mem c.decoded ch.mods)
  rw [hm]
  refine ⟨⟨hpk, fun _ => ?_, fun hk => ?_, fun hk p hp => ?_⟩, hi.fits, ?_, h1024, fun hr g hg => ?_⟩
  · have : 1024 * c.f.channels ≤ 1024 * bytesPerFrame c.decoded true := Nat.mul_le_mul_left _ hd.1
    omega
  · have hb := (hc.block hk).2
    have h16 := hc.coded.block hk
    have hr : c.codec.rebuffers = true := by rw [hk]; rfl
    have e : 2 * c.f.channels ≤ bytesPerFrame c.decoded true := by
      rw [← sixteen_frame h16]; exact file_le_decoded c
    refine Nat.le_trans hb ?_
    rw [Nat.mul_comm]
    rcases Nat.le_total 1024 c.fpp with hle | hle
    · rw [Nat.max_eq_right hle]
      exact Nat.le_trans (Nat.mul_le_mul_left _ e) (hpk hr)
    · rw [Nat.max_eq_left hle]
      exact Nat.le_trans (Nat.mul_le_mul_left _ e) h0.1
  · refine Nat.le_trans (hc.sizes hk p hp) ?_
    rw [hcap]
    refine cap_alac hk ?_
    have hr : c.codec.rebuffers = true := by rw [hk]; rfl
    have hp1 := hc.packet hr
    have hw := (hc.coded.alac hk).2
    have h5 : (10 + c.f.width) / 8 ≤ 5 := by omega
    have : c.fpp * c.f.channels * ((10 + c.f.width) / 8) ≤ c.fpp * c.f.channels * 5 := Nat.mul_le_mul_left _ h5
    have e8 : c.fpp * (8 * c.f.channels) = 8 * (c.fpp * c.f.channels) := by rw [Nat.mul_left_comm]
    rw [e8] at hp1
    generalize c.fpp * c.f.channels * ((10 + c.f.width) / 8) = y at this ⊢
    generalize c.fpp * c.f.channels = x at hp1 this
    omega
  · rw [bytesPerFrame, bytesPerFrame, hi.ch, code_storage hi.code hi.unc, code_storage hfc hv.unc]
  · rcases hv.long hr with hle | hno
    · have hg' := h1024 g hg
      have m1 : (c.fpp - 1) * bytesPerFrame g true ≤ 1024 * bytesPerFrame g true := Nat.mul_le_mul_right _ (by omega)
      have m2 : (c.fpp - 1) * g.channels ≤ 1024 * g.channels := Nat.mul_le_mul_right _ (by omega)
      exact ⟨by omega, by omega⟩
    · have hw := hno ch ha g hg
      have m1 : (c.fpp - 1) * bytesPerFrame g true ≤ c.fpp * bytesPerFrame c.decoded true := Nat.mul_le_mul (by omega) hw
      have m2 : (c.fpp - 1) * g.channels ≤ (c.fpp - 1) * bytesPerFrame g true := Nat.mul_le_mul_left _ (hall g hg).1
      have := hpk hr
      have := hpb hr
      exact ⟨by omega, by omega⟩

theorem chainPull_ok {c : Cfg} (hc : Readable c) {s : RSt} (hv : ReadAs c s.v) (hr : Ready c s) (hh : s.held < c.fpp) {user n : Nat}
    (hn : n ≤ 1024 ∨ (c.codec.rebuffers = true ∧ n ≤ c.fpp - 1)) (hu : n * bytesPerFrame s.v true ≤ user) :
    ∃ r s', chainPull c user n s = .ok (r, s') ∧ Same s s' ∧ s'.held < c.fpp ∧ r ≤ n := by
  obtain ⟨hm, hf, hlast, h1, h2⟩ := ready_room hc hv hr
  have hgs : ∀ g ∈ chunkFormats c.decoded s.mods, n * bytesPerFrame g true ≤ s.cap ∧ n * g.channels < 2 ^ 31 := by
    intro g hg
    rcases hn with hn | ⟨hb, hn⟩
    · have := h1 g hg
      have m1 : n * bytesPerFrame g true ≤ 1024 * bytesPerFrame g true := Nat.mul_le_mul_right _ hn
      have m2 : n * g.channels ≤ 1024 * g.channels := Nat.mul_le_mul_right _ hn
      exact ⟨by omega, by omega⟩
    · have := h2 hb g hg
      have m1 : n * bytesPerFrame g true ≤ (c.fpp - 1) * bytesPerFrame g true := Nat.mul_le_mul_right _ hn
      have m2 : n * g.channels ≤ (c.fpp - 1) * g.channels := Nat.mul_le_mul_right _ hn
      exact ⟨by omega, by omega⟩
  have hcout : n * bytesPerFrame c.decoded true ≤ if s.mods.isEmpty then user else s.cap := by
    cases hms : s.mods with
    | nil =>
      rw [hms] at hlast
      simp only [List.isEmpty_nil, if_true]
      rw [show bytesPerFrame c.decoded true = bytesPerFrame s.v true from hlast]
      exact hu
    | cons a l =>
      simp only [List.isEmpty_cons, Bool.false_eq_true, if_false]
      exact (hgs c.decoded (first_mem _ _)).1
  unfold chainPull
  dsimp only
  have src : ∃ r s', sourcePull c s.cap (if s.mods.isEmpty then user else s.cap) n s = .ok (r, s') ∧ Same s s' ∧ s'.held < c.fpp ∧ r ≤ n := by
    unfold sourcePull
    by_cases hb : c.codec.rebuffers = true
    · rw [if_pos hb]
      exact rebufPull_ok hc hb hm hcout hh
    · rw [if_neg hb]
      have hn' : n ≤ 1024 := by
        rcases hn with hn | hn
        · exact hn
        · exact absurd hn.1 hb
      obtain ⟨r, s', e1, e2, e3, e4, e5⟩ := filePull_ok hc (cin := s.cap) (cout := if s.mods.isEmpty then user else s.cap) (n := n) (s := s)
        (fun h => absurd h hb) hcout (fun hk => Nat.le_trans (Nat.mul_le_mul_right _ hn') (hm.g711 hk)) hm.block hm.alac
      exact ⟨r, s', e1, e2, e3 ▸ hh, e5⟩
  obtain ⟨r, s', e1, e2, e3, e4⟩ := src
  have cv : runConvs s'.cap user n s'.mods (if s.mods.isEmpty then user else s.cap) c.decoded r = .ok () := by
    rw [e2.cap, e2.mods]
    exact runConvs_ok _ _ _ _ _ _ _ hf e4 hgs (fun _ => hcout) (hlast ▸ hu)
  simp only [e1, cv, bind, Except.bind, pure, Except.pure]
  refine ⟨_, _, rfl, e2, e3, ?_⟩
  split
  · exact e4
  · exact Nat.le_refl _

theorem Ready.same {c : Cfg} {s s' : RSt} (h : Ready c s) (e : Same s s') : Ready c s' := by
  obtain ⟨ch, a1, a2, a3⟩ := h
  exact ⟨ch, e.v ▸ a1, e.mods.trans a2, e.cap.trans a3⟩

theorem readLoop_ok {c : Cfg} (hc : Readable c) (left : Nat) (s : RSt) (hv : ReadAs c s.v) (hr : Ready c s) (hh : s.held < c.fpp) :
    ∃ k s', readLoop c left s = .ok (k, s') ∧ Same s s' ∧ s'.held < c.fpp := by
  induction left using Nat.strongRecOn generalizing s with
  | _ left ih =>
    unfold readLoop
    by_cases hl : left = 0
    · rw [dif_pos hl]; exact ⟨_, _, rfl, Same.refl _, hh⟩
    rw [dif_neg hl]
    by_cases hy : s.happy = false
    · rw [if_pos hy]; exact ⟨_, _, rfl, Same.refl _, hh⟩
    rw [if_neg hy]
    dsimp only
    obtain ⟨r, s1, e1, e2, e3, e4⟩ := chainPull_ok hc hv hr hh (user := left * bytesPerFrame s.v true) (n := min 1024 left)
      (.inl (Nat.min_le_left _ _)) (Nat.mul_le_mul_right _ (Nat.min_le_right _ _))
    simp only [e1, bind, Except.bind, pure, Except.pure]
    by_cases hy1 : s1.happy = true
    · rw [if_pos hy1]
      by_cases hlt : r < min 1024 left
      · rw [if_pos hlt]; exact ⟨_, _, rfl, e2, e3⟩
      · rw [if_neg hlt]
        obtain ⟨k, s2, i1, i2, i3⟩ := ih (left - min 1024 left) (by omega) s1 (e2.v ▸ hv) (hr.same e2) e3
        simp only [i1]
        exact ⟨_, _, rfl, e2.trans i2, i3⟩
    · rw [if_neg hy1]; exact ⟨_, _, rfl, e2, e3⟩

/-- The state between calls. -/
structure RInv (c : Cfg) (s : RSt) : Prop where
  v : ReadAs c s.v
  ready : s.dirty = false → Ready c s
  held : s.held < c.fpp
  ignore : s.ignore = 0 ∨ (c.codec.rebuffers = true ∧ s.ignore ≤ c.fpp - 1)

theorem setup_inv {c : Cfg} {s s' : RSt} (hv : ReadAs c s.v) (h : setup c s = some s') : RInv c s' ∧ Ready c s' ∧ s'.dirty = false := by
  unfold setup at h
  cases ha : arrange c.h true c.f s.v with
  | none => rw [ha] at h; cases h
  | some ch =>
    rw [ha] at h
    cases h
    have hrd : Ready c { s with
        dirty := false
        mods := ch.mods
        cap := maxbufsize c (chunkFormats c.decoded ch.mods) c.decoded
        held := 0, eof := false
        cur := s.nextv / c.fpp
        ignore := if c.codec.rebuffers then s.nextv % c.fpp else 0 } := ⟨ch, ha, rfl, rfl⟩
    refine ⟨⟨hv, fun _ => hrd, c.fpp_pos, ?_⟩, hrd, rfl⟩
    dsimp only
    by_cases hb : c.codec.rebuffers = true
    · rw [if_pos hb]
      have := Nat.mod_lt s.nextv c.fpp_pos
      exact .inr ⟨hb, by omega⟩
    · rw [if_neg hb]; exact .inl rfl

theorem ensure_inv {c : Cfg} {s s' : RSt} (hi : RInv c s) (h : ensure c s = some s') : RInv c s' ∧ Ready c s' ∧ s'.dirty = false := by
  unfold ensure at h
  by_cases hd : s.dirty = true
  · rw [if_pos hd] at h; exact setup_inv hi.v h
  · rw [if_neg hd] at h
    cases h
    have hd : s.dirty = false := by simpa using hd
    exact ⟨hi, hi.ready hd, hd⟩

theorem RInv.same {c : Cfg} {s s' : RSt} (h : RInv c s) (e : Same s s') (hh : s'.held < c.fpp) : RInv c s' :=
  ⟨e.v ▸ h.v, fun hd => (h.ready (e.dirty ▸ hd)).same e, hh, e.ignore ▸ h.ignore⟩

theorem skip_ok {c : Cfg} (hc : Readable c) {s : RSt} (hi : RInv c s) (hr : Ready c s) :
    ∃ b s', skip c s = .ok (b, s') ∧ RInv c s' ∧ Ready c s' := by
  unfold skip
  by_cases h0 : s.ignore = 0
  · rw [if_pos h0]; exact ⟨_, _, rfl, hi, hr⟩
  · rw [if_neg h0]
    have hig := hi.ignore.resolve_left h0
    obtain ⟨r, s3, e1, e2, e3, e4⟩ := chainPull_ok hc hi.v hr hi.held (user := s.ignore * bytesPerFrame s.v true) (n := s.ignore)
      (.inr hig) (Nat.le_refl _)
    simp only [e1, bind, Except.bind, pure, Except.pure]
    have i3 := hi.same e2 e3
    have r3 := hr.same e2
    exact ⟨_, _, rfl, ⟨i3.v, fun _ => r3, i3.held, .inl rfl⟩, r3⟩

theorem readFrames_ok {c : Cfg} (hc : Readable c) {s : RSt} (hi : RInv c s) (n : Nat) : ∃ s', readFrames c n s = .ok s' ∧ RInv c s' := by
  unfold readFrames
  cases he : ensure c s with
  | none => exact ⟨s, rfl, hi⟩
  | some s1 =>
    obtain ⟨i1, r1, d1⟩ := ensure_inv hi he
    dsimp only
    unfold readReady
    have hn1 : RInv c { s1 with happy := true } := ⟨i1.v, fun _ => r1, i1.held, i1.ignore⟩
    obtain ⟨b, s2, e1, i2, r2⟩ := skip_ok hc hn1 r1
    simp only [e1, bind, Except.bind, pure, Except.pure]
    cases b with
    | true => exact ⟨_, rfl, i2⟩
    | false =>
      simp only [Bool.false_eq_true, if_false]
      obtain ⟨k, s3, e1, e2, e3⟩ := readLoop_ok hc (framesToRead c n s2) s2 i2.v r2 i2.held
      simp only [e1]
      have := i2.same e2 e3
      exact ⟨_, rfl, ⟨this.v, this.ready, this.held, this.ignore⟩⟩

theorem seekFrame_ok {c : Cfg} {s : RSt} (hi : RInv c s) (f : Nat) (hf : c.total = some 0 → f = 0) : ∃ s', seekFrame c f s = .ok s' ∧ RInv c s' := by
  unfold seekFrame
  cases he : ensure c s with
  | none => exact ⟨s, rfl, hi⟩
  | some s1 =>
    obtain ⟨i1, r1, d1⟩ := ensure_inv hi he
    dsimp only
    have key : ∀ p, RInv c ((setup c { s1 with nextv := p }).getD s1) := by
      intro p
      cases hs : setup c { s1 with nextv := p } with
      | none => exact i1
      | some s2 => exact (setup_inv (s := { s1 with nextv := p }) i1.v hs).1
    by_cases hp : f = s1.nextv
    · rw [if_pos hp]; exact ⟨_, rfl, i1⟩
    · rw [if_neg hp]
      cases ht : c.total with
      | none => exact ⟨_, rfl, key _⟩
      | some t =>
        cases t with
        | zero =>
          dsimp only
          rw [if_pos (hf ht)]
          exact ⟨_, rfl, key _⟩
        | succ t => exact ⟨_, rfl, key _⟩

theorem rrun_ok {c : Cfg} (hc : Readable c) (ops : List ROp) (s : RSt) (hi : RInv c s) (ho : ∀ op ∈ ops, MayRead c op) :
    ∃ s', rrun c s ops = .ok s' := by
  induction ops generalizing s with
  | nil => exact ⟨s, rfl⟩
  | cons op ops ih =>
    have h1 := ho op (List.mem_cons_self ..)
    have step : ∃ s', rstep c s op = .ok s' ∧ RInv c s' := by
      cases op with
      | read n => exact readFrames_ok hc hi n
      | seek f => exact seekFrame_ok hi f h1
      | setFormat v => exact ⟨_, rfl, ⟨h1, (fun h => by cases h), hi.held, hi.ignore⟩⟩
    obtain ⟨s', e1, e2⟩ := step
    obtain ⟨s'', e3⟩ := ih s' e2 fun op h => ho op (List.mem_cons_of_mem _ h)
    exact ⟨s'', by simp only [rrun, e1, bind, Except.bind]; exact e3⟩

/-! ## Writing -/

/-- What the buffers hold when writing; `g` is the format before the file module. -/
structure WRoom (c : Cfg) (cap : Nat) : Prop where
  frame : c.codec.rebuffers = false → 1024 * bytesPerFrame c.f false ≤ cap
  packet : c.codec.rebuffers = true → c.fpp * bytesPerFrame c.f false ≤ cap
  g711 : c.codec = .g711 → 1024 * c.f.channels ≤ cap
  block : c.codec = .block → c.bpp ≤ cap
  alac : c.codec = .alac → c.fpp * c.f.channels * ((10 + c.f.width) / 8) + 1 ≤ cap

theorem packed_tail {c : Cfg} {l : List Nat} (h : Packed c l) : Packed c l.tail := fun p hp => h p (List.mem_of_mem_tail hp)

theorem packed_head {c : Cfg} {l : List Nat} (h : Packed c l) : l.headD 0 ≤ c.fpp * c.f.channels * ((10 + c.f.width) / 8) + 1 := by
  cases l with
  | nil => exact Nat.zero_le _
  | cons a l => exact h a (List.mem_cons_self ..)

structure WSame (c : Cfg) (s s' : WSt) : Prop where
  v : s'.v = s.v
  dirty : s'.dirty = s.dirty
  mods : s'.mods = s.mods
  cap : s'.cap = s.cap
  packed : Packed c s.answers → Packed c s'.answers

theorem WSame.refl (c : Cfg) (a : WSt) : WSame c a a := ⟨rfl, rfl, rfl, rfl, id⟩

theorem WSame.trans {k : Cfg} {a b c : WSt} (h : WSame k a b) (h' : WSame k b c) : WSame k a c :=
  ⟨h'.v.trans h.v, h'.dirty.trans h.dirty, h'.mods.trans h.mods, h'.cap.trans h.cap, fun x => h'.packed (h.packed x)⟩

theorem filePush_ok {c : Cfg} (hc : Writable c) {cin cap n : Nat} (hm : WRoom c cap) {s : WSt} (hp : Packed c s.answers)
    (hn : n ≤ if c.codec.rebuffers then c.fpp else 1024) (hin : n * bytesPerFrame c.f false ≤ cin)
    (hb : c.codec = .block → c.fpp * bytesPerFrame c.f false ≤ cin) :
    ∃ s', filePush c cin cap n s = .ok s' ∧ WSame c s s' ∧ s'.held = s.held := by
  unfold filePush
  cases hk : c.codec
  · simp only [use_ok hin, divisor_ok (hc.frame hk), bind, Except.bind, pure, Except.pure]
    exact ⟨_, rfl, WSame.refl _ _, rfl⟩
  · rw [hk] at hn
    have hn : n ≤ 1024 := hn
    rw [sixteen_frame (hc.coded.g711 hk)] at hin
    have u : n * c.f.channels ≤ cap := Nat.le_trans (Nat.mul_le_mul_right _ hn) (hm.g711 hk)
    simp only [use_ok hin, use_ok u, divisor_ok (hc.channels hk), bind, Except.bind, pure, Except.pure]
    exact ⟨_, rfl, WSame.refl _ _, rfl⟩
  · rw [hk] at hn
    have hn : n ≤ c.fpp := hn
    have hb := hb hk
    rw [sixteen_frame (hc.coded.block hk)] at hb
    have hfp := c.fpp_pos
    have hk1 : (n + c.fpp - 1) / c.fpp ≤ 1 := by
      have : (n + c.fpp - 1) / c.fpp < 2 := (Nat.div_lt_iff_lt_mul hfp).2 (by omega)
      omega
    generalize (n + c.fpp - 1) / c.fpp = k at hk1 ⊢
    have u1 : k * c.fpp * (2 * c.f.channels) ≤ cin :=
      Nat.le_trans (Nat.mul_le_mul_right _ (Nat.le_trans (Nat.mul_le_mul_right _ hk1) (by omega))) hb
    have u2 : k * c.bpp ≤ cap := by
      have : k * c.bpp ≤ 1 * c.bpp := Nat.mul_le_mul_right _ hk1
      have := hm.block hk
      omega
    simp only [use_ok u1, use_ok u2, divisor_ok (hc.block hk).1, bind, Except.bind, pure, Except.pure]
    exact ⟨_, rfl, WSame.refl _ _, rfl⟩
  · simp only [use_ok hin, use_ok (Nat.le_trans (packed_head hp) (hm.alac hk)), bind, Except.bind, pure, Except.pure]
    exact ⟨_, rfl, ⟨rfl, rfl, rfl, rfl, fun h => packed_tail h⟩, rfl⟩

theorem pushLoop_ok {c : Cfg} (hc : Writable c) {cin cap : Nat} (hr : c.codec.rebuffers = true) (hm : WRoom c cap) (left used : Nat) (s : WSt)
    (hp : Packed c s.answers) (hin : (used + left) * bytesPerFrame c.f false ≤ cin) (hh : s.held < c.fpp) :
    ∃ l u s', pushLoop c cin cap left used s = .ok (l, u, s') ∧ WSame c s s' ∧ u + l = used + left ∧ s'.held + l < c.fpp := by
  induction left using Nat.strongRecOn generalizing used s with
  | _ left ih =>
    unfold pushLoop
    by_cases hg : s.held + left ≥ c.fpp ∧ s.held < c.fpp
    · rw [dif_pos hg]
      dsimp only
      have u1 : (used + (c.fpp - s.held)) * bytesPerFrame c.f false ≤ cin :=
        Nat.le_trans (Nat.mul_le_mul_right _ (by omega)) hin
      have hpk := hm.packet hr
      have u2 : (s.held + (c.fpp - s.held)) * bytesPerFrame c.f false ≤ cap :=
        Nat.le_trans (Nat.mul_le_mul_right _ (by omega)) hpk
      obtain ⟨s1, e1, e2, e3⟩ := filePush_ok hc (cin := cap) (n := c.fpp) hm hp (by rw [if_pos hr]; exact Nat.le_refl _) hpk (fun _ => hpk)
      simp only [use_ok u1, use_ok u2, e1, bind, Except.bind]
      obtain ⟨l, u, s', i1, i2, i3, i4⟩ := ih (left - (c.fpp - s.held)) (by omega) (used + (c.fpp - s.held)) { s1 with held := 0 } (e2.packed hp)
        (by rw [show used + (c.fpp - s.held) + (left - (c.fpp - s.held)) = used + left by omega]; exact hin) c.fpp_pos
      refine ⟨l, u, s', i1, e2.trans ⟨i2.v, i2.dirty, i2.mods, i2.cap, i2.packed⟩, by omega, i4⟩
    · rw [dif_neg hg]
      refine ⟨_, _, _, rfl, WSame.refl _ _, rfl, by omega⟩

theorem rebufPush_ok {c : Cfg} (hc : Writable c) {cin cap n : Nat} (hr : c.codec.rebuffers = true) (hm : WRoom c cap) {s : WSt}
    (hp : Packed c s.answers) (hin : n * bytesPerFrame c.f false ≤ cin) (hh : s.held < c.fpp) :
    ∃ s', rebufPush c cin cap n s = .ok s' ∧ WSame c s s' ∧ s'.held < c.fpp := by
  unfold rebufPush
  have hpk := hm.packet hr
  have u0 : s.held * bytesPerFrame c.f false ≤ cap := Nat.le_trans (Nat.mul_le_mul_right _ (by omega)) hpk
  obtain ⟨l, u, s', e1, e2, e3, e4⟩ := pushLoop_ok hc hr hm n 0 s hp (by rw [Nat.zero_add]; exact hin) hh
  have u1 : (u + l) * bytesPerFrame c.f false ≤ cin := by rw [e3, Nat.zero_add]; exact hin
  have u2 : (s'.held + l) * bytesPerFrame c.f false ≤ c.fpp * bytesPerFrame c.f false := Nat.mul_le_mul_right _ (by omega)
  have fin : ∃ s'', (Except.ok { s' with held := s'.held + l } : Except Abort WSt) = .ok s'' ∧ WSame c s s'' ∧ s''.held < c.fpp :=
    ⟨_, rfl, ⟨e2.v, e2.dirty, e2.mods, e2.cap, e2.packed⟩, e4⟩
  split
  · simp only [use_ok u0, e1, use_ok u1, use_ok u2, bind, Except.bind, pure, Except.pure]
    exact fin
  · simp only [e1, use_ok u1, use_ok u2, bind, Except.bind, pure, Except.pure]
    exact fin

/-- The track has been set up for writing. -/
def WReady (c : Cfg) (s : WSt) : Prop :=
  ∃ ch, arrange c.h false s.v c.f = some ch ∧ s.mods = ch.mods ∧
    s.cap = maxbufsize c (chunkFormats s.v ch.mods) (lastFormat s.v ch.mods)

theorem wready_room {c : Cfg} (hc : Writable c) {s : WSt} (hu : s.v.compressed = false) (hv : Few s.v) (hr : WReady c s) :
    WRoom c s.cap ∧ Fits s.mods s.v ∧ bytesPerFrame c.f false ≤ bytesPerFrame (lastFormat s.v s.mods) true ∧
    (∀ g ∈ chunkFormats s.v s.mods, 1024 * bytesPerFrame g true ≤ s.cap ∧ 1024 * g.channels < 2 ^ 31) := by
  obtain ⟨ch, ha, hm, hcap⟩ := hr
  obtain ⟨fc, hfc, hi⟩ := arrange_fits (g0 := s.v) ha rfl rfl rfl hu
  have f1 := hc.few
  unfold Few at f1 hv
  have hall : ∀ g ∈ chunkFormats s.v ch.mods, g.channels ≤ bytesPerFrame g true ∧ bytesPerFrame g true ≤ 8 * g.channels ∧ g.channels < 2 ^ 18 := by
    intro g hg
    obtain ⟨a1, a2, a3⟩ := hi.all g hg
    have := frame_small a1 a2
    refine ⟨this.1, this.2, ?_⟩
    rcases a3 with a3 | a3 <;> omega
  have h1024 : ∀ g ∈ chunkFormats s.v ch.mods, 1024 * bytesPerFrame g true ≤ s.cap ∧ 1024 * g.channels < 2 ^ 31 := by
    intro g hg
    have := hall g hg
    refine ⟨?_, by omega⟩
    rw [hcap]
    exact cap_chunk hg (by omega)
  have hlm := lastFormat_mem s.v ch.mods
  have hl := hall _ hlm
  have hl1 := h1024 _ hlm
  have hch := hi.ch
  rw [hch] at hl
  have hfl : bytesPerFrame c.f false ≤ bytesPerFrame (lastFormat s.v ch.mods) true := by
    rw [bytesPerFrame, bytesPerFrame, hch, code_storage hi.code hi.unc, code_bytes hfc]
    exact Nat.mul_le_mul_right _ (bytes_le_storage _)
  have hpb : c.codec.rebuffers = true → c.fpp * bytesPerFrame (lastFormat s.v ch.mods) true < 2 ^ 31 := fun hr =>
    Nat.lt_of_le_of_lt (Nat.mul_le_mul_left _ hl.2.1) (hc.packet hr)
  have hpk : c.codec.rebuffers = true → c.fpp * bytesPerFrame (lastFormat s.v ch.mods) true ≤ s.cap := fun hr => by
    rw [hcap]; exact cap_packet hr (hpb hr)
  rw [hm]
  refine ⟨⟨fun _ => ?_, fun hr => Nat.le_trans (Nat.mul_le_mul_left _ hfl) (hpk hr), fun _ => ?_, fun hk => ?_, fun hk => ?_⟩, hi.fits, hfl, h1024⟩
  · exact Nat.le_trans (Nat.mul_le_mul_left _ hfl) hl1.1
  · exact Nat.le_trans (Nat.mul_le_mul_left _ hl.1) hl1.1
  · have hb := hc.block hk
    have h16 := hc.coded.block hk
    have hr : c.codec.rebuffers = true := by rw [hk]; rfl
    have e : 2 * c.f.channels ≤ bytesPerFrame (lastFormat s.v ch.mods) true := by rw [← sixteen_frame h16]; exact hfl
    refine Nat.le_trans hb.2 ?_
    rw [Nat.mul_comm]
    rcases Nat.le_total 1024 c.fpp with hle | hle
    · rw [Nat.max_eq_right hle]
      exact Nat.le_trans (Nat.mul_le_mul_left _ e) (hpk hr)
    · rw [Nat.max_eq_left hle]
      exact Nat.le_trans (Nat.mul_le_mul_left _ e) hl1.1
  · rw [hcap]
    refine cap_alac hk ?_
    have hr : c.codec.rebuffers = true := by rw [hk]; rfl
    have hp1 := hc.packet hr
    have hw := (hc.coded.alac hk).2
    have h5 : (10 + c.f.width) / 8 ≤ 5 := by omega
    have : c.fpp * c.f.channels * ((10 + c.f.width) / 8) ≤ c.fpp * c.f.channels * 5 := Nat.mul_le_mul_left _ h5
    have e8 : c.fpp * (8 * c.f.channels) = 8 * (c.fpp * c.f.channels) := by rw [Nat.mul_left_comm]
    rw [e8] at hp1
    generalize c.fpp * c.f.channels * ((10 + c.f.width) / 8) = y at this ⊢
    generalize c.fpp * c.f.channels = x at hp1 this
    omega

theorem chainPush_ok {c : Cfg} (hc : Writable c) {s : WSt} (hu : s.v.compressed = false) (hv : Few s.v) (hr : WReady c s)
    (hp : Packed c s.answers) (hh : s.held < c.fpp) {user n : Nat} (hn : n ≤ 1024) (hus : n * bytesPerFrame s.v true ≤ user) :
    ∃ s', chainPush c user n s = .ok s' ∧ WSame c s s' ∧ s'.held < c.fpp := by
  obtain ⟨hm, hf, hlast, h1⟩ := wready_room hc hu hv hr
  have hgs : ∀ g ∈ chunkFormats s.v s.mods, n * bytesPerFrame g true ≤ s.cap ∧ n * g.channels < 2 ^ 31 := by
    intro g hg
    have := h1 g hg
    have m1 : n * bytesPerFrame g true ≤ 1024 * bytesPerFrame g true := Nat.mul_le_mul_right _ hn
    have m2 : n * g.channels ≤ 1024 * g.channels := Nat.mul_le_mul_right _ hn
    exact ⟨by omega, by omega⟩
  have cv : runConvs s.cap s.cap n s.mods user s.v n = .ok () :=
    runConvs_ok _ _ _ _ _ _ _ hf (Nat.le_refl _) hgs (fun _ => hus) (hgs _ (lastFormat_mem _ _)).1
  have hin : n * bytesPerFrame c.f false ≤ if s.mods.isEmpty then user else s.cap := by
    refine Nat.le_trans (Nat.mul_le_mul_left _ hlast) ?_
    have hl := (hgs _ (lastFormat_mem _ _)).1
    by_cases he : s.mods.isEmpty = true
    · rw [if_pos he, List.isEmpty_iff.1 he]; exact hus
    · rw [if_neg he]; exact hl
  unfold chainPush
  simp only [cv, bind, Except.bind]
  by_cases hb : c.codec.rebuffers = true
  · rw [if_pos hb]
    exact rebufPush_ok hc hb hm hp hin hh
  · rw [if_neg hb]
    obtain ⟨s', e1, e2, e3⟩ := filePush_ok hc hm hp (by rw [if_neg hb]; exact hn) hin
      (fun hk => absurd (by rw [hk]; rfl) hb)
    exact ⟨s', e1, e2, e3 ▸ hh⟩

theorem WReady.same {c : Cfg} {s s' : WSt} (h : WReady c s) (e : WSame c s s') : WReady c s' := by
  obtain ⟨ch, a1, a2, a3⟩ := h
  exact ⟨ch, e.v ▸ a1, e.mods.trans a2, by rw [e.cap, e.v]; exact a3⟩

theorem writeLoop_ok {c : Cfg} (hc : Writable c) (left : Nat) (s : WSt) (hu : s.v.compressed = false) (hv : Few s.v) (hr : WReady c s)
    (hp : Packed c s.answers) (hh : s.held < c.fpp) : ∃ s', writeLoop c left s = .ok s' ∧ WSame c s s' ∧ s'.held < c.fpp := by
  induction left using Nat.strongRecOn generalizing s with
  | _ left ih =>
    unfold writeLoop
    by_cases hl : left = 0
    · rw [dif_pos hl]; exact ⟨_, rfl, WSame.refl _ _, hh⟩
    rw [dif_neg hl]
    dsimp only
    obtain ⟨s1, e1, e2, e3⟩ := chainPush_ok hc hu hv hr hp hh (user := left * bytesPerFrame s.v true) (n := min 1024 left)
      (Nat.min_le_left _ _) (Nat.mul_le_mul_right _ (Nat.min_le_right _ _))
    simp only [e1, bind, Except.bind]
    obtain ⟨s2, i1, i2, i3⟩ := ih (left - min 1024 left) (by omega) s1 (e2.v ▸ hu) (e2.v ▸ hv) (hr.same e2) (e2.packed hp) e3
    exact ⟨s2, i1, e2.trans i2, i3⟩

structure WInv (c : Cfg) (s : WSt) : Prop where
  unc : s.v.compressed = false
  few : Few s.v
  ready : s.dirty = false → WReady c s
  held : s.held < c.fpp
  packed : Packed c s.answers

theorem wensure_inv {c : Cfg} {s s' : WSt} (hi : WInv c s) (h : wensure c s = some s') : WInv c s' ∧ WReady c s' := by
  unfold wensure at h
  by_cases hd : s.dirty = true
  · rw [if_pos hd] at h
    unfold wsetup at h
    cases ha : arrange c.h false s.v c.f with
    | none => rw [ha] at h; cases h
    | some ch =>
      rw [ha] at h
      cases h
      have hrd : WReady c { s with
          dirty := false
          mods := ch.mods
          cap := maxbufsize c (chunkFormats s.v ch.mods) (lastFormat s.v ch.mods) } := ⟨ch, ha, rfl, rfl⟩
      exact ⟨⟨hi.unc, hi.few, fun _ => hrd, hi.held, hi.packed⟩, hrd⟩
  · rw [if_neg hd] at h
    cases h
    exact ⟨hi, hi.ready (by simpa using hd)⟩

theorem WInv.same {c : Cfg} {s s' : WSt} (h : WInv c s) (hr : WReady c s) (e : WSame c s s') (hh : s'.held < c.fpp) : WInv c s' :=
  ⟨e.v ▸ h.unc, e.v ▸ h.few, fun _ => hr.same e, hh, e.packed h.packed⟩

theorem wstep_ok {c : Cfg} (hc : Writable c) {s : WSt} (hi : WInv c s) (op : WOp) (ho : MayWrite op) : ∃ s', wstep c s op = .ok s' ∧ WInv c s' := by
  cases op with
  | setFormat v => exact ⟨_, rfl, ⟨ho.1, ho.2, (fun h => by cases h), hi.held, hi.packed⟩⟩
  | write n =>
    show ∃ s', writeFrames c n s = .ok s' ∧ WInv c s'
    unfold writeFrames
    cases he : wensure c s with
    | none => exact ⟨s, rfl, hi⟩
    | some s1 =>
      obtain ⟨i1, r1⟩ := wensure_inv hi he
      obtain ⟨s2, e1, e2, e3⟩ := writeLoop_ok hc n s1 i1.unc i1.few r1 i1.packed i1.held
      exact ⟨s2, e1, i1.same r1 e2 e3⟩
  | sync =>
    show ∃ s', syncFile c s = .ok s' ∧ WInv c s'
    unfold syncFile
    cases he : wensure c s with
    | none => exact ⟨s, rfl, hi⟩
    | some s1 =>
      obtain ⟨i1, r1⟩ := wensure_inv hi he
      dsimp only
      by_cases hb : c.codec.rebuffers = true
      · rw [if_pos hb]
        obtain ⟨hm, -, -, -⟩ := wready_room hc i1.unc i1.few r1
        have hpk := hm.packet hb
        have hh := i1.held
        have u : s1.held * bytesPerFrame c.f false ≤ s1.cap := Nat.le_trans (Nat.mul_le_mul_right _ (by omega)) hpk
        obtain ⟨s2, e1, e2, e3⟩ := filePush_ok hc (cin := s1.cap) (n := s1.held) hm i1.packed (by rw [if_pos hb]; omega) u (fun _ => hpk)
        simp only [use_ok u, e1, bind, Except.bind, pure, Except.pure]
        have e2' : WSame c s1 { s2 with held := s1.held } := ⟨e2.v, e2.dirty, e2.mods, e2.cap, e2.packed⟩
        exact ⟨_, rfl, i1.same r1 e2' hh⟩
      · rw [if_neg hb]; exact ⟨_, rfl, i1⟩

theorem wrun_ok {c : Cfg} (hc : Writable c) (ops : List WOp) (s : WSt) (hi : WInv c s) (ho : ∀ op ∈ ops, MayWrite op) :
    ∃ s', wrun c s ops = .ok s' := by
  induction ops generalizing s with
  | nil => exact ⟨s, rfl⟩
  | cons op ops ih =>
    obtain ⟨s', e1, e2⟩ := wstep_ok hc hi op (ho op (List.mem_cons_self ..))
    obtain ⟨s'', e3⟩ := ih s' e2 fun op h => ho op (List.mem_cons_of_mem _ h)
    exact ⟨s'', by simp only [wrun, e1, bind, Except.bind]; exact e3⟩

end AF.Buffers
