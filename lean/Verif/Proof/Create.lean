import Verif.Model.Create
import Verif.Spec.Create
import Verif.Proof.Setup
/-! Setups and requests; the outcome of opening for writing. -/
namespace AF.Create
open AF AF.Setup AF.Meta AF.Spec.Create

theorem native_eq (h : Endian) : native h = hostOrder h := by cases h <;> rfl

/-- The track of a setup holds what the request says. -/
structure OnTrack (h : Endian) (tr : TrackSetup) (r : Request) : Prop where
  id : tr.id = 1001
  rate : tr.f.rate = r.rate.getD 44100
  rateSet : tr.rateSet = r.rate.isSome
  ratePos : 0 < tr.f.rate
  channels : tr.f.channels = r.channels.getD 2
  channelsSet : tr.channelCountSet = r.channels.isSome
  channelsPos : 1 ≤ tr.f.channels
  fmt : tr.f.sampleFormat = r.enc.1
  width : tr.f.sampleWidth = r.enc.2
  fmtSet : tr.sampleFormatSet = r.encoding.isSome
  widthSet : tr.sampleWidthSet = r.encoding.isSome
  legal : ((r.enc.1 = 401 ∨ r.enc.1 = 402) ∧ 1 ≤ r.enc.2 ∧ r.enc.2 ≤ 32) ∨ (r.enc.1 = 403 ∧ r.enc.2 = 32) ∨ (r.enc.1 = 404 ∧ r.enc.2 = 64)
  order : tr.f.byteOrder = r.order.getD (hostOrder h)
  orderSet : tr.byteOrderSet = r.order.isSome
  orderLegal : tr.f.byteOrder = 501 ∨ tr.f.byteOrder = 502
  comp : tr.f.compression = r.comp
  compSet : tr.compressionSet = r.compression.isSome
  compLegal : r.comp ∈ [(0 : Int), 502, 503, 519, 523, 530, 540]
  aes : tr.aesDataSet = r.aes
  markers : r.markers = if tr.markersSet then some tr.markers.length else none

/-- A setup holds what the request says. -/
structure Holds (h : Endian) (s : Setup) (r : Request) : Prop where
  track : ∃ tr, s.tracks = [tr] ∧ OnTrack h tr r
  format : s.fileFormat = r.format
  instruments : r.instruments = if s.instrumentSet then some (s.instruments.map fun i => (i.id, i.loops.length)) else none
  nodup : (s.instruments.map (·.id)).Nodup
  misc : r.misc = if s.miscellaneousSet then some (s.miscellaneous.map fun m => (m.id, m.type)) else none
  implemented : s.fileFormat.implemented = true

theorem holds_new (h : Endian) : Holds h (newSetup h) (Request.initial h) := by
  refine ⟨⟨newTrack h 0, rfl, ?_⟩, rfl, rfl, (newSetup_inv h).insts, rfl, (newSetup_inv h).implemented⟩
  cases h <;> constructor <;> first | rfl | decide | (simp [newTrack, setSampleFormat]; done) | skip

theorem onTrack_holds {h : Endian} {s : Setup} {r r' : Request} (hs : Holds h s r) {t : Int} (ht : t = 1001) (g : TrackSetup → TrackSetup)
    (hg : ∀ tr, OnTrack h tr r → OnTrack h (g tr) r')
    (h1 : r'.format = r.format) (h2 : r'.instruments = r.instruments) (h3 : r'.misc = r.misc) :
    Holds h (s.onTrack t g) r' := by
  obtain ⟨tr, ht', hr⟩ := hs.track
  rw [onTrack_one ht', if_pos (by rw [hr.id, ht])]
  exact ⟨⟨g tr, rfl, hg tr hr⟩, by rw [h1]; exact hs.format, by rw [h2]; exact hs.instruments, hs.nodup, by rw [h3]; exact hs.misc,
    hs.implemented⟩

theorem onTrack_other {h : Endian} {s : Setup} {r : Request} (hs : Holds h s r) {t : Int} (ht : ¬ t = 1001) (g : TrackSetup → TrackSetup) :
    Holds h (s.onTrack t g) r := by
  obtain ⟨tr, ht', hr⟩ := hs.track
  rw [onTrack_one ht', if_neg (by rw [hr.id]; exact fun x => ht x.symm)]
  exact hs

theorem onTrack_same {h : Endian} {s : Setup} {r : Request} (hs : Holds h s r) (t : Int) (g : TrackSetup → TrackSetup)
    (hg : ∀ tr, OnTrack h tr r → OnTrack h (g tr) r) : Holds h (s.onTrack t g) r := by
  by_cases ht : t = 1001
  · exact onTrack_holds hs ht g hg rfl rfl rfl
  · exact onTrack_other hs ht g

/-- The track does not care about the rest of the request. -/
theorem OnTrack.other {h : Endian} {tr : TrackSetup} {r r' : Request} (hr : OnTrack h tr r) (h1 : r'.rate = r.rate)
    (h2 : r'.channels = r.channels) (h3 : r'.encoding = r.encoding) (h4 : r'.order = r.order) (h5 : r'.compression = r.compression)
    (h6 : r'.aes = r.aes) (h7 : r'.markers = r.markers) : OnTrack h tr r' := by
  obtain ⟨a1, a2, a3, a4, a5, a6, a7, a8⟩ := r
  obtain ⟨b1, b2, b3, b4, b5, b6, b7, b8⟩ := r'
  dsimp only at h1 h2 h3 h4 h5 h6 h7
  subst h1 h2 h3 h4 h5 h6 h7
  exact { hr with id := hr.id }

theorem Holds.other {h : Endian} {s : Setup} {r : Request} (hs : Holds h s r) (r' : Request) (h1 : r'.rate = r.rate)
    (h2 : r'.channels = r.channels) (h3 : r'.encoding = r.encoding) (h4 : r'.order = r.order) (h5 : r'.compression = r.compression)
    (h6 : r'.aes = r.aes) (h7 : r'.markers = r.markers) : ∃ tr, s.tracks = [tr] ∧ OnTrack h tr r' := by
  obtain ⟨tr, ht, hr⟩ := hs.track
  exact ⟨tr, ht, hr.other h1 h2 h3 h4 h5 h6 h7⟩

theorem formatOf_eq (n : Int) (s : Setup) :
    (initFileFormat s n).fileFormat = (formatOf n).getD s.fileFormat ∧ (initFileFormat s n) = { s with fileFormat := (initFileFormat s n).fileFormat } := by
  by_cases hn : n < 0 ∨ n ≥ 17
  · unfold initFileFormat formatOf
    rw [if_pos hn]
    repeat rw [if_neg (by omega)]
    exact ⟨rfl, rfl⟩
  · have : n = 0 ∨ n = 1 ∨ n = 2 ∨ n = 3 ∨ n = 4 ∨ n = 5 ∨ n = 6 ∨ n = 7 ∨ n = 8 ∨ n = 9 ∨ n = 10 ∨ n = 11 ∨ n = 12 ∨ n = 13 ∨ n = 14 ∨
      n = 15 ∨ n = 16 := by omega
    rcases this with e | e | e | e | e | e | e | e | e | e | e | e | e | e | e | e | e <;> subst e <;> exact ⟨rfl, rfl⟩

theorem format_implemented (n : Int) (u : FileFormat) (hu : u.implemented = true) : ((formatOf n).getD u).implemented = true := by
  by_cases hn : n < 0 ∨ n ≥ 17
  · have : formatOf n = none := by
      unfold formatOf
      repeat rw [if_neg (by omega)]
    rw [this]; exact hu
  · have : n = 0 ∨ n = 1 ∨ n = 2 ∨ n = 3 ∨ n = 4 ∨ n = 5 ∨ n = 6 ∨ n = 7 ∨ n = 8 ∨ n = 9 ∨ n = 10 ∨ n = 11 ∨ n = 12 ∨ n = 13 ∨ n = 14 ∨
      n = 15 ∨ n = 16 := by omega
    rcases this with e | e | e | e | e | e | e | e | e | e | e | e | e | e | e | e | e <;> subst e <;> first | rfl | exact hu

theorem updFirst_misc (m v : Int) (l : List MiscSetup) :
    (updFirst (fun x : MiscSetup => x.id == m) (fun x => { x with type := v }) l).map (fun x => (x.id, x.type)) =
      setFirst m v (l.map fun x => (x.id, x.type)) := by
  induction l with
  | nil => rfl
  | cons a l ih =>
    unfold updFirst
    by_cases e : a.id = m
    · simp [setFirst, e]
    · simp [setFirst, e, ih]

theorem updFirst_loops (i : Int) (n : List Int) (l : List InstrumentSetup) (hn : (l.map (·.id)).Nodup) :
    (updFirst (fun x : InstrumentSetup => x.id == i) (fun x => { x with loops := n }) l).map (fun x => (x.id, x.loops.length)) =
      (l.map fun x => (x.id, x.loops.length)).map fun x => if x.1 = i then (i, n.length) else x := by
  induction l with
  | nil => rfl
  | cons a l ih =>
    have hn' := List.nodup_cons.1 hn
    unfold updFirst
    by_cases e : a.id = i
    · have hx : ∀ x ∈ l, ¬ x.id = i := fun x hx he => hn'.1 (List.mem_map.2 ⟨x, hx, he.trans e.symm⟩)
      simp only [e, beq_self_eq_true, if_true, List.map_cons, List.map_map, List.cons.injEq, true_and]
      apply List.map_congr_left
      intro x hm
      simp [hx x hm]
    · simp only [e, beq_iff_eq, if_false, List.map_cons, ih hn'.2, List.cons.injEq, true_and]

theorem step_holds {h : Endian} {s : Setup} {r : Request} (hs : Holds h s r) (op : Setup.Op) :
    Holds h (Setup.step s op) (r.step op) := by
  cases op with
  | fileFormat n =>
    obtain ⟨e1, e2⟩ := formatOf_eq n s
    show Holds h (initFileFormat s n) _
    rw [e2]
    refine ⟨hs.other _ rfl rfl rfl rfl rfl rfl rfl, ?_, hs.instruments, hs.nodup, hs.misc, ?_⟩
    · show (initFileFormat s n).fileFormat = _
      rw [e1, hs.format]; rfl
    · show (initFileFormat s n).fileFormat.implemented = true
      rw [e1]
      exact format_implemented n _ hs.implemented
  | channels t n =>
    show Holds h _ (if t = 1001 ∧ 1 ≤ n then { r with channels := some n } else r)
    by_cases ht : t = 1001
    · by_cases hn : 1 ≤ n
      · rw [if_pos ⟨ht, hn⟩]
        refine onTrack_holds hs ht _ ?_ rfl rfl rfl
        intro tr hr
        rw [if_neg (by omega)]
        exact { hr with channels := rfl, channelsSet := rfl, channelsPos := hn }
      · rw [if_neg (fun x => hn x.2)]
        refine onTrack_same hs t _ ?_
        intro tr hr
        rw [if_pos (by omega)]; exact hr
    · rw [if_neg (fun x => ht x.1)]
      exact onTrack_other hs ht _
  | sampleFormat t f w =>
    show Holds h _ (if t = 1001 then { r with encoding := some (askEncoding r.encoding f w) } else r)
    by_cases ht : t = 1001
    · rw [if_pos ht]
      refine onTrack_holds hs ht _ ?_ rfl rfl rfl
      intro tr hr
      have hf := hr.fmt
      have hw := hr.width
      have hl := hr.legal
      have key : (setSampleFormat tr.f f w).2.sampleFormat = (askEncoding r.encoding f w).1 ∧
          (setSampleFormat tr.f f w).2.sampleWidth = (askEncoding r.encoding f w).2 ∧
          (setSampleFormat tr.f f w).2.rate = tr.f.rate ∧ (setSampleFormat tr.f f w).2.channels = tr.f.channels ∧
          (setSampleFormat tr.f f w).2.byteOrder = tr.f.byteOrder ∧ (setSampleFormat tr.f f w).2.compression = tr.f.compression := by
        unfold setSampleFormat askEncoding
        simp only [TWOSCOMP, UNSIGNED, FLOAT, DOUBLE, Request.enc] at *
        by_cases h1 : f = 401 ∨ f = 402
        · rw [if_pos (Or.symm h1), if_pos h1]
          by_cases h2 : 1 ≤ w ∧ w ≤ 32
          · rw [if_neg (by omega), if_pos h2]
            split <;> simp
          · rw [if_pos (by omega), if_neg h2]
            exact ⟨hf, hw, rfl, rfl, rfl, rfl⟩
        · rw [if_neg (fun x => h1 (Or.symm x)), if_neg h1]
          by_cases h3 : f = 403
          · rw [if_pos h3, if_pos h3]; exact ⟨h3, rfl, rfl, rfl, rfl, rfl⟩
          · rw [if_neg h3, if_neg h3]
            by_cases h4 : f = 404
            · rw [if_pos h4, if_pos h4]; exact ⟨h4, rfl, rfl, rfl, rfl, rfl⟩
            · rw [if_neg h4, if_neg h4]; exact ⟨hf, hw, rfl, rfl, rfl, rfl⟩
      obtain ⟨k1, k2, k3, k4, k5, k6⟩ := key
      have hlegal : (((askEncoding r.encoding f w).1 = 401 ∨ (askEncoding r.encoding f w).1 = 402) ∧ 1 ≤ (askEncoding r.encoding f w).2 ∧
          (askEncoding r.encoding f w).2 ≤ 32) ∨ ((askEncoding r.encoding f w).1 = 403 ∧ (askEncoding r.encoding f w).2 = 32) ∨
          ((askEncoding r.encoding f w).1 = 404 ∧ (askEncoding r.encoding f w).2 = 64) := by
        unfold askEncoding
        unfold Request.enc at hl
        repeat' split
        all_goals first | exact hl | skip
        all_goals dsimp only
        all_goals omega
      exact {
        id := hr.id, rate := k3.trans hr.rate, rateSet := hr.rateSet, ratePos := by rw [k3]; exact hr.ratePos
        channels := k4.trans hr.channels, channelsSet := hr.channelsSet, channelsPos := by rw [k4]; exact hr.channelsPos
        fmt := k1, width := k2, fmtSet := rfl, widthSet := rfl, legal := hlegal
        order := k5.trans hr.order, orderSet := hr.orderSet, orderLegal := by rw [k5]; exact hr.orderLegal
        comp := k6.trans hr.comp, compSet := hr.compSet, compLegal := hr.compLegal, aes := hr.aes, markers := hr.markers }
    · rw [if_neg ht]
      exact onTrack_other hs ht _
  | byteOrder t o =>
    show Holds h _ (if t = 1001 ∧ (o = 501 ∨ o = 502) then { r with order := some o } else r)
    by_cases ht : t = 1001
    · by_cases hn : o = 501 ∨ o = 502
      · rw [if_pos ⟨ht, hn⟩]
        refine onTrack_holds hs ht _ ?_ rfl rfl rfl
        intro tr hr
        rw [if_neg (by simp only [BIG, LITTLE]; omega)]
        exact { hr with order := rfl, orderSet := rfl, orderLegal := hn }
      · rw [if_neg (fun x => hn x.2)]
        refine onTrack_same hs t _ ?_
        intro tr hr
        rw [if_pos (by simp only [BIG, LITTLE]; omega)]; exact hr
    · rw [if_neg (fun x => ht x.1)]
      exact onTrack_other hs ht _
  | rate t x =>
    show Holds h _ (if t = 1001 ∧ 0 < x then { r with rate := some x } else r)
    by_cases ht : t = 1001
    · by_cases hn : 0 < x
      · rw [if_pos ⟨ht, hn⟩]
        refine onTrack_holds hs ht _ ?_ rfl rfl rfl
        intro tr hr
        rw [if_neg (Rat.not_le.2 hn)]
        exact { hr with rate := rfl, rateSet := rfl, ratePos := hn }
      · rw [if_neg (fun x => hn x.2)]
        refine onTrack_same hs t _ ?_
        intro tr hr
        rw [if_pos (Rat.not_lt.1 hn)]; exact hr
    · rw [if_neg (fun x => ht x.1)]
      exact onTrack_other hs ht _
  | dataOffset t o =>
    refine onTrack_same hs t _ ?_
    intro tr hr
    split
    · exact hr
    · exact { hr with id := hr.id }
  | frameCount t o =>
    refine onTrack_same hs t _ ?_
    intro tr hr
    split
    · exact hr
    · exact { hr with id := hr.id }
  | compression t c =>
    show Holds h _ (if t = 1001 ∧ c ∈ [(0 : Int), 502, 503, 519, 523, 530, 540] then { r with compression := some c } else r)
    by_cases ht : t = 1001
    · by_cases hn : c ∈ [(0 : Int), 502, 503, 519, 523, 530, 540]
      · rw [if_pos ⟨ht, hn⟩]
        refine onTrack_holds hs ht _ ?_ rfl rfl rfl
        intro tr hr
        have : ∃ q, compressionUnit c = some q := by
          simp only [List.mem_cons, List.not_mem_nil, or_false] at hn
          rcases hn with e | e | e | e | e | e | e <;> subst e <;> exact ⟨_, rfl⟩
        obtain ⟨q, hq⟩ := this
        rw [hq]
        exact { hr with comp := rfl, compSet := rfl, compLegal := hn }
      · rw [if_neg (fun x => hn x.2)]
        refine onTrack_same hs t _ ?_
        intro tr hr
        cases hq : compressionUnit c with
        | none => exact hr
        | some q => exact absurd (compressionUnit_mem hq) hn
    · rw [if_neg (fun x => ht x.1)]
      exact onTrack_other hs ht _
  | pcmMapping t p => exact onTrack_same hs t _ (fun tr hr => { hr with id := hr.id })
  | aes t on =>
    show Holds h _ (if t = 1001 then { r with aes := on } else r)
    by_cases ht : t = 1001
    · rw [if_pos ht]
      exact onTrack_holds hs ht _ (fun tr hr => { hr with aes := rfl }) rfl rfl rfl
    · rw [if_neg ht]
      exact onTrack_other hs ht _
  | markIDs t ids =>
    show Holds h _ (if t = 1001 then { r with markers := some ids.length } else r)
    by_cases ht : t = 1001
    · rw [if_pos ht]
      refine onTrack_holds hs ht _ (fun tr hr => { hr with markers := ?_ }) rfl rfl rfl
      simp
    · rw [if_neg ht]
      exact onTrack_other hs ht _
  | markName t m name =>
    refine onTrack_same hs t _ (fun tr hr => { hr with markers := ?_ })
    have := congrArg List.length (updFirst_map (fun x : MarkerSetup => x.id == m) (fun mk => { mk with name := name.take 255 }) (·.id)
      (fun _ => rfl) tr.markers)
    simp only [List.length_map] at this
    rw [hr.markers, this]
  | markComment t m name =>
    refine onTrack_same hs t _ (fun tr hr => { hr with markers := ?_ })
    have := congrArg List.length (updFirst_map (fun x : MarkerSetup => x.id == m) (fun mk => { mk with comment := name }) (·.id)
      (fun _ => rfl) tr.markers)
    simp only [List.length_map] at this
    rw [hr.markers, this]
  | instIDs ids =>
    show Holds h (initInstIDs s ids) (if ids.Nodup then _ else r)
    unfold initInstIDs
    by_cases hn : ids.Nodup
    · rw [if_neg (by simp [(uniqueIds_iff ids).2 hn]), if_pos hn, newInstruments_eq]
      refine ⟨hs.other _ rfl rfl rfl rfl rfl rfl rfl, hs.format, ?_, ?_, hs.misc, hs.implemented⟩
      · simp
      · have e : (ids.map fun id => ({ id := id, loops := [1, 2], loopSet := false } : InstrumentSetup)).map (·.id) = ids := by
          rw [List.map_map]; exact List.map_id ids
        show ((ids.map fun id => ({ id := id, loops := [1, 2], loopSet := false } : InstrumentSetup)).map (·.id)).Nodup
        rw [e]; exact hn
    · rw [if_pos (by simpa using fun x => hn ((uniqueIds_iff ids).1 x)), if_neg hn]
      exact hs
  | loopIDs i ids =>
    show Holds h (initLoopIDs s i ids) (if ids.Nodup then _ else r)
    unfold initLoopIDs
    by_cases hn : ids.Nodup
    · rw [if_neg (by simp [(uniqueIds_iff ids).2 hn]), if_pos hn]
      refine ⟨hs.other _ rfl rfl rfl rfl rfl rfl rfl, hs.format, ?_, ?_, hs.misc, hs.implemented⟩
      · dsimp only
        rw [hs.instruments]
        by_cases e : s.instrumentSet = true
        · rw [if_pos e, if_pos e, updFirst_loops _ _ _ hs.nodup]; rfl
        · rw [if_neg e, if_neg e]; rfl
      · dsimp only
        have e := updFirst_map (fun x : InstrumentSetup => x.id == i) (fun inst => { inst with loops := ids }) (·.id) (fun _ => rfl)
          s.instruments
        rw [e]
        exact hs.nodup
    · rw [if_pos (by simpa using fun x => hn ((uniqueIds_iff ids).1 x)), if_neg hn]
      exact hs
  | miscIDs ids =>
    refine ⟨hs.other _ rfl rfl rfl rfl rfl rfl rfl, hs.format, hs.instruments, hs.nodup, ?_, hs.implemented⟩
    show some (ids.map fun i => (i, (0 : Int))) =
      if true then some ((ids.map fun id => ({ id := id, type := 0, size := 0 } : MiscSetup)).map fun m => (m.id, m.type)) else none
    simp
  | miscType m v =>
    refine ⟨hs.other _ rfl rfl rfl rfl rfl rfl rfl, hs.format, hs.instruments, hs.nodup, ?_, hs.implemented⟩
    show r.misc.map (setFirst m v) = if s.miscellaneousSet then some ((initMiscType s m v).miscellaneous.map _) else none
    unfold initMiscType
    rw [hs.misc, updFirst_misc]
    split <;> rfl
  | miscSize m v =>
    refine ⟨hs.other _ rfl rfl rfl rfl rfl rfl rfl, hs.format, hs.instruments, hs.nodup, ?_, hs.implemented⟩
    show r.misc = if s.miscellaneousSet then some ((initMiscSize s m v).miscellaneous.map _) else none
    unfold initMiscSize
    dsimp only
    have e := updFirst_map (fun x : MiscSetup => x.id == m) (fun x => { x with size := v }) (fun x => (x.id, x.type)) (fun _ => rfl)
      s.miscellaneous
    rw [e]
    exact hs.misc

theorem run_holds (h : Endian) (ops : List Setup.Op) : Holds h (Setup.run (newSetup h) ops) (Request.after h ops) := by
  have : ∀ (ops : List Setup.Op) (s : Setup) (r : Request), Holds h s r → Holds h (ops.foldl Setup.step s) (ops.foldl Request.step r) := by
    intro ops
    induction ops with
    | nil => intro s r hs; exact hs
    | cons op ops ih => intro s r hs; exact ih _ _ (step_holds hs op)
  exact this ops _ _ (holds_new h)

end AF.Create
