import Verif.Proof.Files.Whole
import Verif.Props.Files.Ends
import Verif.Model.Files.VOC
import Verif.Model.Files.SampleVision
/-!
# C51: files that have what they announce are opened or refused, for reasons that are in the file
-/
namespace AF.Files
open AF AF.Setup AF.Spec.Walk AF.Convert

/-! ## AIFF -/

theorem formParseMisc_def {file : List Byte} {p : Nat} (type : Int) (n : Nat) (ms : List Meta.Misc) :
    Def file p (formParseMisc type n ms) fun _ _ => True := by
  unfold formParseMisc
  refine Def.ite (fun _ => Def.pure trivial) fun _ => ?_
  exact (Def.read' _).bind fun _ _ _ => Def.pure trivial

theorem aiffReadMark_def {file : List Byte} (h : Endian) {p : Nat} (hp : p + 7 + byteAt file (p + 6) ≤ file.length) :
    Def file p (aiffReadMark h) fun _ q => q = p + 7 + byteAt file (p + 6) + (1 - byteAt file (p + 6) % 2) := by
  have := bytes_s1
  have := bytes_s2
  have := bytes_s4
  unfold aiffReadMark
  refine (Def.uInit h .big .s2 (by omega)).bind fun _ q1 h1 => ?_
  refine (Def.uInit h .big .s4 (by omega)).bind fun _ q2 h2 => ?_
  have e2 : q2 = p + 6 := by omega
  subst e2
  refine (Def.uOne h .big (by omega)).bind fun size q3 h3 => ?_
  rw [h3.1, h3.2]
  generalize byteAt file (p + 6) = b at hp ⊢
  refine (Def.read b (by omega)).bind fun name q4 h4 => ?_
  rw [if_neg (by omega)]
  refine (Def.skip _).bind fun _ q5 h5 => Def.pure ?_
  rw [h5, h4.1]
  split <;> omega

theorem aiffMarks_def {file : List Byte} (h : Endian) : ∀ (n p : Nat), MarksIn file n p →
    Def file p (Rd.times (aiffReadMark h) n) fun _ _ => True
  | 0, _, _ => Def.pure trivial
  | n + 1, p, hp => by
    unfold Rd.times
    refine (aiffReadMark_def h hp.1).bind fun _ q hq => ?_
    subst hq
    exact (aiffMarks_def h n _ hp.2).bind fun _ _ _ => Def.pure trivial

theorem aiffChunk_def {file : List Byte} (rnd : Rat → Dbl) (h : Endian) (aifc : Bool) (id : List Byte) (n q : Nat) (x : AiffRead)
    (hn : AiffNeeds file id q) :
    Def file q (aiffChunk rnd h aifc id n x) fun y _ => (x.hasCOMM = true ∨ id = ascii "COMM" → y.hasCOMM = true) := by
  have b1 := bytes_s1
  have b2 := bytes_s2
  have b4 := bytes_s4
  obtain ⟨n1, n2, n3, n4⟩ := hn
  unfold aiffChunk
  refine Def.ite (fun hid => ?_) fun hc => ?_
  · replace n1 := n1 hid
    unfold aiffParseCOMM
    refine (Def.field h .big .s2 (by omega)).bind fun _ q1 h1 => ?_
    refine Def.ite (fun _ => Def.fail) fun _ => ?_
    refine (Def.field h .big .s4 (by omega)).bind fun _ q2 h2 => ?_
    refine (Def.field h .big .s2 (by omega)).bind fun _ q3 h3 => ?_
    refine (Def.read 10 (by omega)).bind fun rate q4 h4 => ?_
    rw [if_neg (by omega)]
    refine Def.bind (P := fun _ _ => True) ?_ fun cid q5 _ => ?_
    · unfold aiffReadCompression
      refine Def.ite (fun _ => ?_) fun _ => Def.pure trivial
      refine Def.bind (P := fun _ _ => True) ?_ fun _ _ _ => ?_
      · unfold Rd.tag
        exact (Def.read' _).bind fun _ _ _ => Def.pure trivial
      · exact (Def.read' _).bind fun _ _ _ => (Def.read' _).bind fun _ _ _ => Def.pure trivial
    · split
      · exact Def.fail
      · dsimp only
        exact Def.ite (fun _ => Def.fail) fun _ => Def.pure fun _ => rfl
  have keep : ∀ {y : AiffRead}, y.hasCOMM = x.hasCOMM → (x.hasCOMM = true ∨ id = ascii "COMM" → y.hasCOMM = true) := by
    intro y hy hx
    rw [hy]
    exact hx.resolve_right hc
  refine Def.ite (fun _ => ?_) fun _ => ?_
  · exact (Def.field?' _ _ _).bind fun _ _ _ => Def.pure (keep rfl)
  refine Def.ite (fun hid => ?_) fun _ => ?_
  · replace n2 := n2 hid
    unfold aiffParseINST
    refine (Def.field h .big .s1 (by omega)).bind fun _ q1 h1 => ?_
    refine (Def.field h .big .s1 (by omega)).bind fun _ q2 h2 => ?_
    refine (Def.field h .big .s1 (by omega)).bind fun _ q3 h3 => ?_
    refine (Def.field h .big .s1 (by omega)).bind fun _ q4 h4 => ?_
    refine (Def.field h .big .s1 (by omega)).bind fun _ q5 h5 => ?_
    refine (Def.field h .big .s1 (by omega)).bind fun _ q6 h6 => ?_
    refine (Def.field h .big .s2 (by omega)).bind fun _ q7 h7 => ?_
    refine (Def.field h .big .s2 (by omega)).bind fun _ q8 h8 => ?_
    refine (Def.field h .big .s2 (by omega)).bind fun _ q9 h9 => ?_
    refine (Def.field h .big .s2 (by omega)).bind fun _ q10 h10 => ?_
    refine (Def.field h .big .s2 (by omega)).bind fun _ q11 h11 => ?_
    refine (Def.field h .big .s2 (by omega)).bind fun _ q12 h12 => ?_
    refine (Def.field h .big .s2 (by omega)).bind fun _ q13 h13 => ?_
    exact Def.pure (keep rfl)
  refine Def.ite (fun hid => ?_) fun _ => ?_
  · replace n4 := n4 hid
    unfold aiffParseMARK
    refine (Def.be2 h n4.1).bind fun k q1 h1 => ?_
    rw [h1.1, h1.2]
    exact (aiffMarks_def h _ _ n4.2).bind fun _ _ _ => Def.pure (keep rfl)
  refine Def.ite (fun _ => ?_) fun _ => ?_
  · unfold aiffParseAESD
    exact (Def.read' _).bind fun _ _ _ => Def.pure (keep rfl)
  split
  · exact (formParseMisc_def _ _ _).bind fun _ _ _ => Def.pure (keep rfl)
  · refine Def.ite (fun hid => ?_) fun _ => Def.pure (keep rfl)
    replace n3 := n3 hid
    refine Def.ite (fun _ => Def.fail) fun _ => ?_
    unfold aiffParseSSND
    refine (Def.field h .big .s4 (by omega)).bind fun _ q1 h1 => ?_
    exact (Def.field?' _ _ _).bind fun _ _ _ => Def.tell.bind fun _ _ _ => Def.pure (keep rfl)

/-- C51: an AIFF or AIFF-C file that has what it announces is opened or refused; nothing that was not read is used. -/
theorem C51_aiff_defined (rnd : Rat → Dbl) (h : Endian) (fuel : Nat) (file : List Byte) (hw : AiffWhole file) (p : Nat) :
    aiffRead rnd h fuel file p ≠ .error .undefined := by
  refine Def.not_undefined (Q := fun _ _ => True) ?_
  unfold aiffRead
  refine form_open (c := fun type formtype => type ≠ tag "FORM" ∨ (formtype ≠ tag "AIFF" ∧ formtype ≠ tag "AIFC"))
    (chunk := fun ft => aiffChunk rnd h (ft = tag "AIFC")) (found := fun x => x.hasCOMM = true) hw.1 hw.2 (fun q => ?_) (fun id q q' hq hn => ?_)
    (fun ft id n q x hn => aiffChunk_def rnd h _ id n q x hn) (fun x q hx => ?_)
  · exact ⟨(by decide : [0, 0, 0, 0] ≠ ascii "COMM").elim, (by decide : [0, 0, 0, 0] ≠ ascii "INST").elim,
      (by decide : [0, 0, 0, 0] ≠ ascii "SSND").elim, (by decide : [0, 0, 0, 0] ≠ ascii "MARK").elim⟩
  · obtain ⟨n1, n2, n3, n4⟩ := hn
    exact ⟨fun h => by have := n1 h; omega, fun h => by have := n2 h; omega, fun h => by have := n3 h; omega,
      fun h => by have := (n4 h).1; omega⟩
  · rw [hx]
    exact Def.pure trivial

/-! ## IFF -/

theorem iffChunk_def {file : List Byte} (h : Endian) (id : List Byte) (n q : Nat) (x : IffRead) (hn : IffNeeds file id q) :
    Def file q (iffChunk h id n x) fun y _ => (x.hasVHDR = true ∨ id = ascii "VHDR" → y.hasVHDR = true) := by
  have b4 := bytes_s4
  have b2 := bytes_s2
  unfold iffChunk
  refine Def.ite (fun hid => ?_) fun hc => ?_
  · replace hn := hn hid
    unfold iffParseVHDR
    refine (Def.field? h .big .s4 (by omega)).bind fun _ q1 h1 => ?_
    replace h1 := h1.1
    refine (Def.field? h .big .s4 (by omega)).bind fun _ q2 h2 => ?_
    replace h2 := h2.1
    refine (Def.field? h .big .s4 (by omega)).bind fun _ q3 h3 => ?_
    replace h3 := h3.1
    refine (Def.field h .big .s2 (by omega)).bind fun _ q4 h4 => ?_
    exact (Def.field?' _ _ _).bind fun _ _ _ => (Def.field?' _ _ _).bind fun _ _ _ => (Def.field?' _ _ _).bind fun _ _ _ => Def.pure fun _ => rfl
  have keep : ∀ {y : IffRead}, y.hasVHDR = x.hasVHDR → (x.hasVHDR = true ∨ id = ascii "VHDR" → y.hasVHDR = true) := by
    intro y hy hx
    rw [hy]
    exact hx.resolve_right hc
  refine Def.ite (fun hid => ?_) fun hc => ?_
  · unfold iffParseBODY
    exact Def.tell.bind fun _ _ _ => Def.pure (keep rfl)
  split
  · exact (formParseMisc_def _ _ _).bind fun _ _ _ => Def.pure (keep rfl)
  · exact Def.pure (keep rfl)

/-- C51: an IFF file that has what it announces is opened or refused. -/
theorem C51_iff_defined (h : Endian) (fuel : Nat) (file : List Byte) (hw : IffWhole file) (p : Nat) :
    iffRead h fuel file p ≠ .error .undefined := by
  refine Def.not_undefined (Q := fun _ _ => True) ?_
  unfold iffRead
  refine form_open (c := fun type formtype => type ≠ tag "FORM" ∨ formtype ≠ tag "8SVX")
    (chunk := fun _ => iffChunk h) (found := fun x => x.hasVHDR = true) hw.1 hw.2 (fun q => ?_) (fun id q q' hq hn => ?_)
    (fun ft id n q x hn => iffChunk_def h id n q x hn) (fun x q hx => ?_)
  · exact (by decide : [0, 0, 0, 0] ≠ ascii "VHDR").elim
  · exact fun h => by have := hn h; omega
  · rw [hx]
    exact Def.pure trivial

/-! ## WAVE -/

theorem waveSwitch_def {file : List Byte} (h : Endian) (f : AFmt) (b q : Nat) (hf : FmtIn file q) :
    Def file (q + 14) (waveSwitch h f (some b) (le16 file q)) fun _ _ => True := by
  have b2 := bytes_s2
  have b4 := bytes_s4
  obtain ⟨_, n1, n2, n3, n4⟩ := hf
  unfold waveSwitch
  generalize le16 file q = t at *
  refine Def.ite (fun ht => ?_) fun _ => ?_
  · have := n1 (.inl ht)
    refine (Def.field h .little .s2 (by omega)).bind fun bits q1 h1 => ?_
    split
    · exact Def.fail
    · exact Def.pure trivial
  refine Def.ite (fun ht => Def.pure trivial) fun _ => ?_
  refine Def.ite (fun ht => Def.pure trivial) fun _ => ?_
  refine Def.ite (fun ht => ?_) fun _ => ?_
  · have := n1 (.inr ht)
    exact (Def.field h .little .s2 (by omega)).bind fun bits q1 h1 => Def.pure trivial
  refine Def.ite (fun ht => ?_) fun _ => ?_
  · obtain ⟨hl, hc⟩ := n2 ht
    refine (Def.field? h .little .s2 (by omega)).bind fun _ q1 h1 => ?_
    replace h1 := h1.1
    refine (Def.field? h .little .s2 (by omega)).bind fun _ q2 h2 => ?_
    replace h2 := h2.1
    refine (Def.field h .little .s2 (by omega)).bind fun _ q3 h3 => ?_
    have e3 : q3 = q + 20 := by omega
    subst e3
    refine (Def.le2 h (by omega)).bind fun k q4 h4 => ?_
    rw [if_neg (by omega)]
    refine Def.bind (P := fun _ _ => True) (Def.times (fun p => ?_) _) fun _ _ _ => Def.pure trivial
    unfold waveCoefficient
    exact (Def.field?' _ _ _).bind fun _ _ _ => (Def.field?' _ _ _).bind fun _ _ _ => Def.pure trivial
  refine Def.ite (fun ht => ?_) fun _ => ?_
  · have hl := n3 ht
    refine (Def.field? h .little .s2 (by omega)).bind fun _ q1 h1 => ?_
    replace h1 := h1.1
    refine (Def.field? h .little .s2 (by omega)).bind fun _ q2 h2 => ?_
    replace h2 := h2.1
    exact (Def.field h .little .s2 (by omega)).bind fun _ q3 h3 => Def.pure trivial
  refine Def.ite (fun ht => ?_) fun _ => Def.fail
  have hl := n4 ht
  refine (Def.field h .little .s2 (by omega)).bind fun bits q1 h1 => ?_
  refine (Def.field? h .little .s2 (by omega)).bind fun _ q2 h2 => ?_
  replace h2 := h2.1
  refine (Def.field h .little .s2 (by omega)).bind fun reserved q3 h3 => ?_
  refine (Def.field? h .little .s4 (by omega)).bind fun _ q4 h4 => ?_
  replace h4 := h4.1
  refine (Def.read 16 (by omega)).bind fun guid q5 h5 => ?_
  rw [if_neg (by omega)]
  refine Def.ite (fun _ => ?_) fun _ => ?_
  · dsimp only
    split
    · exact Def.fail
    · exact Def.pure trivial
  refine Def.ite (fun _ => Def.pure trivial) fun _ => ?_
  refine Def.ite (fun _ => Def.pure trivial) fun _ => ?_
  exact Def.ite (fun _ => Def.pure trivial) fun _ => Def.fail

theorem waveADTL_def {file : List Byte} (h : Endian) (start stop : Nat) (hs : file.length < 2 ^ 32)
    (hl : ∀ e, ListEntry file start stop e → e < stop → e + 8 + le32 file (e + 4) ≤ file.length ∧
      (Named file e "labl" ∨ Named file e "note" → 4 ≤ le32 file (e + 4))) (fuel : Nat) (ms : List RMark) :
    Def file start (Rd.loop (waveADTL h stop) fuel ms) fun _ _ => True := by
  have b4 := bytes_s4
  refine Def.loop (fun _ e => ListEntry file start stop e) (fun ms e he => ?_) fuel ms start .first
  unfold waveADTL
  refine Def.tell'.bind fun p q hp => ?_
  rw [hp.1, hp.2]
  refine Def.ite (fun hlt => ?_) fun _ => Def.pure trivial
  obtain ⟨hin, hm⟩ := hl e he hlt
  have hnext := ListEntry.next he hlt
  refine (Def.tag (by omega)).bind fun id q1 h1 => ?_
  rw [h1.1, h1.2]
  refine (Def.le4 h (by omega)).bind fun size q2 h2 => ?_
  rw [h2.1, h2.2]
  have hz := le32_lt file (e + 4)
  generalize le32 file (e + 4) = z at *
  refine Def.ite (fun hid => ?_) fun _ => ?_
  · have h4 := hm hid
    refine (Def.field? h .little .s4 (by omega)).bind fun mark q3 h3 => ?_
    have ez : (z + 2 ^ 32 - 4) % 2 ^ 32 = z - 4 := by omega
    rw [ez]
    refine (Def.read (z - 4) (by omega)).bind fun text q4 h4 => ?_
    split
    · simp at h3
    · refine (Def.skip _).bind fun _ q5 h5 => Def.pure ?_
      show ListEntry file start stop q5
      have e5 : q5 = e + 8 + z + z % 2 := by omega
      rw [e5]
      exact hnext
  · have ez : (z + z % 2) % 2 ^ 32 = z + z % 2 := by omega
    rw [ez]
    refine (Def.skip _).bind fun _ q5 h5 => Def.pure ?_
    show ListEntry file start stop q5
    have e5 : q5 = e + 8 + z + z % 2 := by omega
    rw [e5]
    exact hnext

theorem waveINFO_def {file : List Byte} (h : Endian) (start stop : Nat)
    (hl : ∀ e, ListEntry file start stop e → e < stop → e + 8 + le32 file (e + 4) ≤ file.length) (fuel : Nat) (ms : List Meta.Misc) :
    Def file start (Rd.loop (waveINFO h stop) fuel ms) fun _ _ => True := by
  refine Def.loop (fun _ e => ListEntry file start stop e) (fun ms e he => ?_) fuel ms start .first
  unfold waveINFO
  refine Def.tell'.bind fun p q hp => ?_
  rw [hp.1, hp.2]
  refine Def.ite (fun hlt => ?_) fun _ => Def.pure trivial
  have hin := hl e he hlt
  have hnext := ListEntry.next he hlt
  refine (Def.tag (by omega)).bind fun id q1 h1 => ?_
  rw [h1.1, h1.2]
  refine (Def.le4 h (by omega)).bind fun size q2 h2 => ?_
  rw [h2.1, h2.2]
  generalize le32 file (e + 4) = z at *
  split
  · refine (Def.read z (by omega)).bind fun text q4 h4 => ?_
    refine (Def.skip _).bind fun _ q5 h5 => Def.pure ?_
    show ListEntry file start stop q5
    have e5 : q5 = e + 8 + z + z % 2 := by omega
    rw [e5]
    exact hnext
  · refine (Def.skip _).bind fun _ q4 h4 => (Def.skip _).bind fun _ q5 h5 => Def.pure ?_
    show ListEntry file start stop q5
    have e5 : q5 = e + 8 + z + z % 2 := by omega
    rw [e5]
    exact hnext

theorem waveCues_def {file : List Byte} (h : Endian) : ∀ (n p : Nat), p + 24 * n ≤ file.length →
    Def file p (Rd.times (waveReadCue h) n) fun _ _ => True
  | 0, _, _ => Def.pure trivial
  | n + 1, p, hp => by
    have b4 := bytes_s4
    unfold Rd.times
    refine Def.bind (P := fun _ q => q = p + 24) ?_ fun _ q hq => ?_
    · unfold waveReadCue
      refine (Def.field h .little .s4 (by omega)).bind fun _ q1 h1 => ?_
      refine (Def.field? h .little .s4 (by omega)).bind fun _ q2 h2 => ?_
      replace h2 := h2.1
      refine (Def.field? h .little .s4 (by omega)).bind fun _ q3 h3 => ?_
      replace h3 := h3.1
      refine (Def.field? h .little .s4 (by omega)).bind fun _ q4 h4 => ?_
      replace h4 := h4.1
      refine (Def.field? h .little .s4 (by omega)).bind fun _ q5 h5 => ?_
      replace h5 := h5.1
      refine (Def.field h .little .s4 (by omega)).bind fun _ q6 h6 => Def.pure ?_
      omega
    · exact (waveCues_def h n q (by omega)).bind fun _ _ _ => Def.pure trivial

theorem waveChunk_def {file : List Byte} (h : Endian) (fuel : Nat) (id : List Byte) (n q : Nat) (x : WaveRead)
    (hs : file.length < 2 ^ 32) (hn : WaveNeeds file id q n) (hn32 : n < 2 ^ 32) :
    Def file q (waveChunk h fuel id n x) fun y _ => y.index = x.index := by
  have b4 := bytes_s4
  have b2 := bytes_s2
  obtain ⟨n1, n2, n3, n4, n5⟩ := hn
  unfold waveChunk
  refine Def.ite (fun hid => ?_) fun _ => ?_
  · replace n1 := n1 hid
    have h14 := n1.1
    unfold waveParseFormat
    refine (Def.le2? h (by omega)).bind fun ft q1 h1 => ?_
    obtain ⟨e1, h1⟩ := h1
    subst e1
    refine (Def.field h .little .s2 (by omega)).bind fun cc q2 h2 => ?_
    refine (Def.field? h .little .s4 (by omega)).bind fun sr q3 h3 => ?_
    refine (Def.field? h .little .s4 (by omega)).bind fun _ q4 h4 => ?_
    refine (Def.field? h .little .s2 (by omega)).bind fun ba q5 h5 => ?_
    refine Def.ite (fun _ => Def.fail) fun _ => ?_
    obtain ⟨h3, s3⟩ := h3
    obtain ⟨h4, -⟩ := h4
    obtain ⟨h5, s5⟩ := h5
    obtain ⟨sr, rfl⟩ := Option.isSome_iff_exists.mp s3
    obtain ⟨ba, rfl⟩ := Option.isSome_iff_exists.mp s5
    dsimp only
    have e5 : q5 = q + 14 := by omega
    subst e5
    exact (waveSwitch_def h _ ba q n1).bind fun _ _ _ => Def.pure rfl
  refine Def.ite (fun hid => Def.ite (fun _ => Def.fail) fun _ => ?_) fun _ => ?_
  · unfold waveParseData
    exact Def.tell.bind fun _ _ _ => Def.pure rfl
  refine Def.ite (fun hid => (Def.read' _).bind fun _ _ _ => Def.pure rfl) fun _ => ?_
  refine Def.ite (fun hid => ?_) fun _ => ?_
  · have := n2 hid
    unfold waveParseFact
    exact (Def.field h .little .s4 (by omega)).bind fun _ _ _ => Def.pure rfl
  refine Def.ite (fun hid => ?_) fun _ => ?_
  · obtain ⟨h1, h2⟩ := n4 hid
    unfold waveParseCues
    refine (Def.le4 h (by omega)).bind fun k q1 hk => ?_
    rw [hk.1, hk.2]
    exact (waveCues_def h _ _ h2).bind fun _ _ _ => Def.pure rfl
  refine Def.ite (fun hid => ?_) fun _ => ?_
  · replace n5 := n5 hid
    unfold waveParseList
    by_cases h4 : q + 4 ≤ file.length
    · refine (Def.tag h4).bind fun ty q1 h1 => ?_
      rw [h1.1, h1.2]
      dsimp only
      refine Def.tell'.bind fun p1 q2 h2 => ?_
      rw [h2.1, h2.2]
      refine Def.ite (fun hty => ?_) fun _ => Def.ite (fun hty => ?_) fun _ => ?_
      · obtain ⟨hn4, hl⟩ := n5 (.inl hty)
        have e : q + 4 + (n + 2 ^ 32 - 4) % 2 ^ 32 = q + n := by omega
        rw [e]
        exact (waveADTL_def h _ _ hs (fun e he hlt => ⟨(hl e he hlt).1, (hl e he hlt).2 hty⟩) fuel _).bind fun _ _ _ => Def.pure rfl
      · obtain ⟨hn4, hl⟩ := n5 (.inr hty)
        have e : q + 4 + (n + 2 ^ 32 - 4) % 2 ^ 32 = q + n := by omega
        rw [e]
        exact (waveINFO_def h _ _ (fun e he hlt => (hl e he hlt).1) fuel _).bind fun _ _ _ => Def.pure rfl
      · exact (Def.skip _).bind fun _ _ _ => Def.pure rfl
    · refine (Def.tagShort h4).bind fun ty q1 h1 => ?_
      rw [h1.1]
      dsimp only
      refine Def.tell.bind fun _ _ _ => ?_
      rw [if_neg (by decide), if_neg (by decide)]
      exact (Def.skip _).bind fun _ _ _ => Def.pure rfl
  refine Def.ite (fun hid => (Def.read' _).bind fun _ _ _ => Def.pure rfl) fun _ => ?_
  refine Def.ite (fun hid => ?_) fun _ => Def.pure rfl
  have := n3 hid
  unfold wavePlayList
  refine (Def.field h .little .s4 (by omega)).bind fun k _ _ => ?_
  refine Def.bind (P := fun _ _ => True) (Def.times (fun p => ?_) _) fun _ _ _ => Def.pure rfl
  exact (Def.field?' _ _ _).bind fun _ _ _ => (Def.field?' _ _ _).bind fun _ _ _ => (Def.field?' _ _ _).bind fun _ _ _ => Def.pure trivial

theorem RiffChunk.even {file : List Byte} {p : Nat} (h : RiffChunk file p) : p % 2 = 0 ∧ 12 ≤ p := by
  induction h with
  | first => exact ⟨rfl, Nat.le_refl _⟩
  | next _ _ ih => omega

theorem waveNext_step {p z : Nat} (he : p % 2 = 0) (h8 : 8 ≤ p) (h : p + 8 + z + z % 2 < 2 ^ 32) :
    waveNext (p - 8) z = p + z + z % 2 ∧ (waveNext (p - 8) z + 8) % 2 ^ 32 = p + 8 + z + z % 2 := by
  unfold waveNext
  have e : (p - 8 + (z + 8)) % 2 ^ 32 = p + z := by omega
  rw [e]
  dsimp only
  split <;> omega

/-- C51: a WAVE file that has what it announces is opened or refused. -/
theorem C51_wave_defined (h : Endian) (fuel : Nat) (file : List Byte) (hw : WaveWhole file) (p : Nat) :
    waveRead h fuel file p ≠ .error .undefined := by
  refine Def.not_undefined (Q := fun _ _ => True) ?_
  have h12 := hw.header
  unfold waveRead
  refine (Def.seek 0).bind fun _ q hq => ?_
  subst hq
  refine (Def.tag (by omega)).bind fun _ q1 h1 => ?_
  refine (Def.le4 h (by omega)).bind fun size q2 h2 => ?_
  refine (Def.tag (by omega)).bind fun _ q3 h3 => ?_
  have e1 : q1 = 4 := by omega
  have e3 : q3 = 12 := by omega
  subst e1 e3
  rw [h2.1]
  refine Def.bind (P := fun _ _ => True) (Def.loop (fun s p => p = s.index + 8 ∧ RiffChunk file p) ?_ fuel _ 12 ⟨rfl, .first⟩) fun s q _ => ?_
  · rintro s p ⟨hp, hr⟩
    unfold waveRound
    refine Def.ite (fun hlt => ?_) fun _ => Def.pure trivial
    obtain ⟨he, hge⟩ := RiffChunk.even hr
    obtain ⟨hp32, hin⟩ := hw.chunks p hr
    have hnext := RiffChunk.next hr (by omega)
    have hn32 := (hw.chunks _ hnext).1
    have hi : s.index = p - 8 := by omega
    have key : ∀ (id : List Byte) (q : Nat), WaveNeeds file id q (le32 file (p + 4)) →
        Def file q (waveChunk h fuel id (le32 file (p + 4)) s >>= fun s => Rd.seek ((waveNext s.index (le32 file (p + 4)) + 8) % 2 ^ 32) >>= fun _ =>
          Pure.pure (Sum.inl (β := WaveRead) { s with index := waveNext s.index (le32 file (p + 4)) }))
          (fun (r : WaveRead ⊕ WaveRead) q => match r with | .inl s' => q = s'.index + 8 ∧ RiffChunk file q | .inr _ => True) := by
      intro id q hn
      refine (waveChunk_def h fuel id _ q s hw.small hn (le32_lt _ _)).bind fun y _ hy => (Def.seek _).bind fun _ _ hs => ?_
      subst hs
      refine Def.pure ?_
      show (waveNext y.index _ + 8) % 2 ^ 32 = waveNext y.index _ + 8 ∧ RiffChunk file ((waveNext y.index _ + 8) % 2 ^ 32)
      rw [hy, hi]
      generalize le32 file (p + 4) = z at *
      obtain ⟨w1, w2⟩ := waveNext_step he (by omega) hn32
      rw [w2, w1]
      exact ⟨by omega, hnext⟩
    rcases hin (by omega) with hfar | ⟨hl, hn⟩
    · have hz : le32 file (p + 4) = 0 := by
        unfold le32
        rw [List.drop_eq_nil_of_le (by omega)]
        rfl
      refine (Def.tagShort (by omega)).bind fun a r ⟨ha, hr⟩ => ?_
      subst ha
      refine (Def.u32Short h .little (by omega)).bind fun b r' ⟨_, _, hb⟩ => ?_
      rw [hb (by omega), ← hz]
      refine key [0, 0, 0, 0] r' ⟨(by decide : [0, 0, 0, 0] ≠ ascii "fmt ").elim, (by decide : [0, 0, 0, 0] ≠ ascii "fact").elim,
        (by decide : [0, 0, 0, 0] ≠ ascii "plst").elim, (by decide : [0, 0, 0, 0] ≠ ascii "cue ").elim, fun h => ?_⟩
      exact (by decide : ¬ ([0, 0, 0, 0] = ascii "LIST" ∨ [0, 0, 0, 0] = ascii "list")).elim h
    · refine (Def.tag (by omega)).bind fun a r ⟨ha, hr⟩ => ?_
      subst ha hr
      refine (Def.u32Little h (by omega)).bind fun b r' ⟨hb, hr⟩ => ?_
      subst hb hr
      exact Def.mono (key _ _ hn) fun r q hr => by cases r <;> exact hr
  · refine Def.ite (fun _ => Def.fail) fun _ => Def.ite (fun _ => Def.ite (fun _ => Def.pure trivial) fun _ => Def.fail) fun _ => Def.pure trivial

/-! ## CAF -/

theorem Def.err {α : Type} {file : List Byte} {p : Nat} {m : Rd α} {Q : α → Nat → Prop} (h : m file p = .error .fail) : Def file p m Q := by
  unfold Def; rw [h]; simp

theorem cafChunk_def {file : List Byte} (F : Float64) (h : Endian) (id : List Byte) (n : Int) (q : Nat) (x : CafRead)
    (hk : id = tag "kuki" → 0 ≤ n) (hd : id = tag "data" → x.hasDesc = true) :
    Def file q (cafChunk F h id n x) fun y _ => (x.hasDesc = true ∨ id = tag "desc" → y.hasDesc = true) := by
  unfold cafChunk
  refine Def.ite (fun hid => ?_) fun hc => ?_
  · unfold cafParseDesc
    refine (Def.field?' _ _ _).bind fun r _ _ => ?_
    split
    · exact Def.fail
    · refine Def.tag4.bind fun id _ _ => (Def.u32 _).bind fun flags _ _ => (Def.u32 _).bind fun _ _ _ => (Def.u32 _).bind fun fpp _ _ =>
        (Def.u32 _).bind fun ch _ _ => (Def.u32 _).bind fun bits _ _ => Def.ite (fun _ => Def.fail) fun _ => ?_
      dsimp only
      split
      · rename_i s hs
        refine Def.pure fun _ => ?_
        unfold cafFormat at hs
        dsimp only at hs
        repeat' split at hs
        all_goals first
          | (cases hs; rfl)
          | (cases hs; done)
          | (simp only [Option.map_eq_some_iff] at hs; obtain ⟨_, _, rfl⟩ := hs; rfl)
      · exact Def.fail
  have keep : ∀ {y : CafRead}, y.hasDesc = x.hasDesc → (x.hasDesc = true ∨ id = tag "desc" → y.hasDesc = true) := by
    intro y hy hx
    rw [hy]
    exact hx.resolve_right hc
  refine Def.ite (fun hid => ?_) fun _ => ?_
  · unfold cafParseData
    refine (Def.u32 _).bind fun _ _ _ => Def.tell.bind fun _ _ _ => ?_
    have := hd hid
    rw [if_neg (by simp [this])]
    exact Def.pure (keep rfl)
  refine Def.ite (fun hid => ?_) fun _ => ?_
  · unfold cafParseTable
    refine Def.ite (fun _ => Def.fail) fun _ => ?_
    refine (Def.s64 _).bind fun _ _ _ => (Def.s64 _).bind fun _ _ _ => (Def.u32 _).bind fun _ _ _ => (Def.u32 _).bind fun _ _ _ => ?_
    refine Def.ite (fun _ => Def.pure (keep rfl)) fun _ => ?_
    dsimp only
    exact (Def.read' _).bind fun _ _ _ => Def.ite (fun _ => Def.fail) fun _ => Def.pure (keep rfl)
  refine Def.ite (fun hid => ?_) fun _ => Def.pure (keep rfl)
  unfold cafParseCookie
  rw [if_neg (by have := hk hid; omega)]
  exact (Def.read' _).bind fun _ _ _ => Def.ite (fun _ => Def.fail) fun _ => Def.pure (keep rfl)

def CafStep (file : List Byte) (p q : Nat) : Prop :=
  p + 12 ≤ file.length ∧ ¬ OpenEnd file p ∧ 0 ≤ be64 file (p + 4) ∧ q = ((p : Int) + 12 + be64 file (p + 4)).toNat

theorem CafChunk.reach {file : List Byte} (hw : CafWhole file) {p : Nat} (h : CafChunk file p) : Reach (CafStep file) 8 p := by
  induction h with
  | first => exact .refl _
  | next hc hl ho ih => exact ih.snoc ⟨hl, ho, (hw.lengths _ hc hl ho).1, rfl⟩

/-- C51: a CAF file whose lengths are not negative and whose description comes before its audio data is opened or refused. -/
theorem C51_caf_defined (F : Float64) (h : Endian) (fuel : Nat) (file : List Byte) (hw : CafWhole file) (p : Nat) :
    cafRead F h fuel file p ≠ .error .undefined := by
  refine Def.not_undefined (Q := fun _ _ => True) ?_
  have hmono : ∀ p q, CafStep file p q → p < q := fun p q h => by have := h.2.2; omega
  have hdata : tag "data" = [0x64, 0x61, 0x74, 0x61] := by decide
  unfold cafRead
  refine (Def.seek 8).bind fun _ q hq => Def.length'.bind fun n q' hn => ?_
  rw [hn.1, hn.2, hq]
  refine Def.bind (P := fun s _ => s.hasDesc = true) (Def.loop (fun s p => s.1 = (p : Int) ∧ (CafChunk file p ∨ file.length ≤ p) ∧
    (s.2.hasDesc = true ∨ ∀ q, CafChunk file q → q + 12 ≤ file.length → Named file q "desc" → Reach (CafStep file) p q)) ?_ fuel _ 8
      ⟨rfl, .inl .first, .inr fun q hq _ _ => CafChunk.reach hw hq⟩) fun s q hs => ?_
  · rintro ⟨i, x⟩ p ⟨hi, hch, hf⟩
    dsimp only at hi hf
    subst hi
    unfold cafRound
    dsimp only
    refine Def.ite (fun hlt => ?_) fun hge => Def.pure ?_
    · have hch : CafChunk file p := hch.resolve_right (by omega)
      by_cases h12 : p + 12 ≤ file.length
      · refine Def.bind (Def.of_run (Q := fun a q => a = fourAt file p ∧ q = p + 4) ((tag4_run file p).1 (by omega)) ⟨rfl, rfl⟩) fun a r ⟨ha, hr⟩ => ?_
        subst ha hr
        refine Def.bind (Def.of_run (Q := fun a q => a = be64 file (p + 4) ∧ q = p + 4 + 8) ((s64_run h file (p + 4)).1 (by omega)) ⟨rfl, rfl⟩) fun a r ⟨ha, hr⟩ => ?_
        subst ha hr
        have hd : fourAt file p = tag "data" → x.hasDesc = true := by
          intro hd
          refine hf.resolve_right fun hall => ?_
          obtain ⟨q, hqp, hq, hqn⟩ := hw.before p hch h12 hd
          have := (hall q hq (by omega) hqn).le hmono
          omega
        by_cases ho : OpenEnd file p
        · have e : (if fourAt file p = tag "data" ∧ be64 file (p + 4) = -1 then (file.length : Int) - ((p : Int) + 12) else be64 file (p + 4)) =
              (file.length : Int) - ((p : Int) + 12) := if_pos ⟨by rw [hdata]; exact ho.1, ho.2⟩
          rw [e]
          refine (cafChunk_def F h _ _ _ x (fun _ => by omega) hd).bind fun y _ hy => ?_
          have hs := hw.small
          rw [if_neg (by omega), if_neg (by omega)]
          refine (Def.seek _).bind fun _ _ hs => Def.pure ?_
          subst hs
          refine ⟨by omega, .inr (by omega), .inl (hy (.inl (hd (by rw [hdata]; exact ho.1))))⟩
        · have e : (if fourAt file p = tag "data" ∧ be64 file (p + 4) = -1 then (file.length : Int) - ((p : Int) + 12) else be64 file (p + 4)) =
              be64 file (p + 4) := if_neg fun hh => ho ⟨by rw [← hdata]; exact hh.1, hh.2⟩
          rw [e]
          obtain ⟨hl0, hl63⟩ := hw.lengths p hch h12 ho
          have hnext := CafChunk.next hch h12 ho
          refine (cafChunk_def F h _ _ _ x (fun _ => hl0) hd).bind fun y _ hy => ?_
          rw [if_neg (by omega), if_neg (by omega)]
          refine (Def.seek _).bind fun _ _ hs => Def.pure ?_
          subst hs
          refine ⟨by omega, .inl hnext, ?_⟩
          rcases hf with hf | hall
          · exact .inl (hy (.inl hf))
          · by_cases hde : Named file p "desc"
            · exact .inl (hy (.inr hde))
            · refine .inr fun q hq hql hqn => ?_
              refine (hall q hq hql hqn).pop (fun r hr => hr.2.2.2) fun hqp => ?_
              subst hqp
              exact hde hqn
      · by_cases h4 : p + 4 ≤ file.length
        · refine Def.bind (Def.of_run (Q := fun _ q => q = p + 4) ((tag4_run file p).1 h4) rfl) fun a r hr => ?_
          subst hr
          exact Def.bind (P := fun _ _ => False) (Def.err ((s64_run h file (p + 4)).2 (by omega))) fun _ _ hh => hh.elim
        · exact Def.bind (P := fun _ _ => False) (Def.err ((tag4_run file p).2 h4)) fun _ _ hh => hh.elim
    · refine hf.resolve_right fun hall => ?_
      obtain ⟨q, hq, hql, hqn⟩ := hw.described
      have := (hall q hq hql hqn).le hmono
      omega
  · rw [hs]
    exact Def.pure trivial

/-! ## VOC -/

def VocStep (file : List Byte) (p q : Nat) : Prop := p + 4 ≤ file.length ∧ q = p + 4 + le32 file p / 256

theorem VocBlock.reach {file : List Byte} {p : Nat} (h : VocBlock file p) : Reach (VocStep file) 26 p := by
  induction h with
  | first => exact .refl _
  | next _ hl ih => exact ih.snoc ⟨hl, rfl⟩

theorem le32_mod (file : List Byte) {p : Nat} (hp : p + 4 ≤ file.length) : le32 file p % 256 = byteAt file p := by
  unfold le32 byteAt
  rw [List.drop_eq_getElem_cons (by omega), List.take_succ_cons, ofLE, List.getD_eq_getElem?_getD, List.getElem?_eq_getElem (by omega)]
  show _ = (file[p]).toNat
  have h1 := (ofLE_bounds ((file.drop (p + 1)).take 3)).1
  have h2 := (file[p]'(by omega)).isLt
  generalize ofLE ((file.drop (p + 1)).take 3) = z at *
  omega

/-- C51: a VOC file with a sound block that has the beginnings of its blocks is opened or refused. -/
theorem C51_voc_defined (h : Endian) (fuel : Nat) (file : List Byte) (hw : VocWhole file) (p : Nat) :
    vocRead h fuel file p ≠ .error .undefined := by
  have b1 := bytes_s1
  have b2 := bytes_s2
  have b4 := bytes_s4
  refine Def.not_undefined (Q := fun _ _ => True) ?_
  have hmono : ∀ p q, VocStep file p q → p < q := fun p q h => by have := h.2; omega
  have h26 := hw.header
  unfold vocRead
  refine (Def.seek 20).bind fun _ q hq => ?_
  refine (Def.field? h .little .s2 (by omega)).bind fun _ q1 h1 => ?_
  replace h1 := h1.1
  refine (Def.field? h .little .s2 (by omega)).bind fun _ q2 h2 => ?_
  replace h2 := h2.1
  refine (Def.field? h .little .s2 (by omega)).bind fun _ q3 h3 => ?_
  replace h3 := h3.1
  refine Def.tell'.bind fun pos q4 h4 => ?_
  have e : q3 = 26 := by omega
  rw [h4.1, h4.2, e]
  refine Def.bind (P := fun r _ => r.isSome = true) (Def.loop (fun s p => s.position = p ∧ VocBlock file p ∧ (s.track.isSome = true ∨
    ∃ q, Reach (VocStep file) p q ∧ q + 4 ≤ file.length ∧ (byteAt file q = 1 ∨ byteAt file q = 9))) ?_ fuel _ 26 ⟨rfl, .first, .inr ?_⟩) ?_
  · rintro ⟨pos, ext, track⟩ p ⟨rfl, hb, hf⟩
    dsimp only at hb hf ⊢
    have hover : ¬ pos + 4 ≤ file.length → track.isSome = true := by
      intro hn
      refine hf.resolve_right ?_
      rintro ⟨q, hr, hq, _⟩
      have := hr.le hmono
      omega
    unfold vocRound
    dsimp only
    refine Def.length'.bind fun n q hn => ?_
    rw [hn.1, hn.2]
    refine Def.ite (fun hlt => ?_) fun hge => Def.pure (hover (by omega))
    by_cases h4 : pos + 4 ≤ file.length
    · refine (Def.le4? h h4).bind fun hd q1 hq1 => ?_
      obtain ⟨e1, e2⟩ := hq1
      subst e1 e2
      dsimp only
      obtain ⟨n1, n8, n9⟩ := hw.blocks pos hb h4
      have hty := le32_mod file h4
      have hnext := VocBlock.next hb h4
      have hpop : ∀ t : Option Trk, (byteAt file pos ≠ 1 ∧ byteAt file pos ≠ 9 ∧ t = track) ∨ t.isSome = true →
          (t.isSome = true ∨ ∃ q, Reach (VocStep file) (pos + (4 + le32 file pos / 256)) q ∧ q + 4 ≤ file.length ∧ (byteAt file q = 1 ∨ byteAt file q = 9)) := by
        rintro t (⟨a1, a9, rfl⟩ | ht)
        · rcases hf with hf | ⟨q, hr, hq, hs⟩
          · exact .inl hf
          · refine .inr ⟨q, hr.pop (fun r hr => by rw [hr.2]; omega) ?_, hq, hs⟩
            rintro rfl
            exact hs.elim a1 a9
        · exact .inl ht
      have hnext' : VocBlock file (pos + (4 + le32 file pos / 256)) := by rw [← Nat.add_assoc]; exact hnext
      rw [hty]
      generalize le32 file pos / 256 = size at *
      refine Def.ite (fun h1 => ?_) fun ht1 => Def.ite (fun h8 => ?_) fun ht8 => Def.ite (fun h9 => ?_) fun ht9 => ?_
      · have := n1 h1
        refine Def.ite (fun _ => Def.fail) fun _ => ?_
        refine (Def.field? h .little .s1 (by omega)).bind fun dv q1 hq1 => ?_
        obtain ⟨hq1, sd⟩ := hq1
        refine (Def.field h .little .s1 (by omega)).bind fun codec q2 hq2 => ?_
        refine Def.ite (fun _ => Def.fail) fun _ => ?_
        split
        · refine Def.bind (P := fun _ _ => True) (Def.pure trivial) fun _ _ _ => ?_
          refine Def.tell.bind fun _ _ _ => (Def.seek _).bind fun _ _ hs => Def.pure ?_
          subst hs
          exact ⟨rfl, hnext', .inl rfl⟩
        · refine Def.bind (P := fun _ _ => True) (Def.pure trivial) fun _ _ _ => ?_
          refine Def.tell.bind fun _ _ _ => (Def.seek _).bind fun _ _ hs => Def.pure ?_
          subst hs
          exact ⟨rfl, hnext', .inl rfl⟩
        · simp at sd
      · have := n8 h8
        refine Def.ite (fun _ => Def.fail) fun _ => ?_
        refine (Def.field h .little .s2 (by omega)).bind fun dv q1 hq1 => ?_
        refine (Def.field? h .little .s1 (by omega)).bind fun _ q2 hq2 => ?_
        replace hq2 := hq2.1
        refine (Def.field h .little .s1 (by omega)).bind fun st q3 hq3 => ?_
        refine (Def.seek _).bind fun _ _ hs => Def.pure ?_
        subst hs
        exact ⟨rfl, hnext', hpop _ (.inl ⟨by omega, by omega, rfl⟩)⟩
      · have := n9 h9
        refine Def.ite (fun _ => Def.fail) fun _ => ?_
        refine (Def.field h .little .s4 (by omega)).bind fun rate q1 hq1 => ?_
        refine (Def.field? h .little .s1 (by omega)).bind fun _ q2 hq2 => ?_
        replace hq2 := hq2.1
        refine (Def.field h .little .s1 (by omega)).bind fun ch q3 hq3 => ?_
        refine (Def.field h .little .s2 (by omega)).bind fun fmt q4 hq4 => ?_
        refine (Def.field?' _ _ _).bind fun _ _ _ => ?_
        refine Def.ite (fun _ => Def.fail) fun _ => ?_
        refine Def.tell.bind fun _ _ _ => ?_
        split
        · exact Def.fail
        · refine (Def.seek _).bind fun _ _ hs => Def.pure ?_
          subst hs
          exact ⟨rfl, hnext', .inl rfl⟩
      · refine (Def.seek _).bind fun _ _ hs => Def.pure ?_
        subst hs
        exact ⟨rfl, hnext', hpop _ (.inl ⟨ht1, ht9, rfl⟩)⟩
    · refine Def.bind (P := fun a _ => a = none) ?_ ?_
      · unfold Def Rd.field?
        rw [readField_eq, if_neg (by rw [List.length_drop, b4]; omega)]
      · rintro _ _ rfl
        exact Def.pure (hover h4)
  · obtain ⟨p, hp, hl, hs⟩ := hw.sound
    exact ⟨p, VocBlock.reach hp, hl, hs⟩
  · intro r q hr
    obtain ⟨t, rfl⟩ := Option.isSome_iff_exists.mp hr
    exact Def.pure trivial

/-! ## Sample Vision -/

theorem smpText_def {file : List Byte} {p : Nat} (type : Int) (n : Nat) (h : p + n ≤ file.length) :
    Def file p (smpText type n) fun _ q => q = p + n := by
  unfold smpText
  refine (Def.read n h).bind fun bs q hq => ?_
  rw [if_neg (by omega)]
  exact Def.pure hq.1

/-- C51: a Sample Vision file that has its header and its trailer is opened or refused. -/
theorem C51_smp_defined (h : Endian) (file : List Byte) (hw : SmpWhole file) (p : Nat) : smpRead h file p ≠ .error .undefined := by
  have b1 := bytes_s1
  have b2 := bytes_s2
  have b4 := bytes_s4
  obtain ⟨h116, htr⟩ := hw
  refine Def.not_undefined (Q := fun _ _ => True) ?_
  unfold smpRead
  refine (Def.seek 0).bind fun _ q hq => ?_
  refine (Def.read 18 (by omega)).bind fun _ q1 h1 => ?_
  replace h1 := h1.1
  refine Def.ite (fun _ => Def.fail) fun _ => ?_
  refine (Def.read 4 (by omega)).bind fun _ q2 h2 => ?_
  replace h2 := h2.1
  refine Def.ite (fun _ => Def.fail) fun _ => ?_
  refine (smpText_def _ _ (by omega)).bind fun _ q3 h3 => ?_
  refine (smpText_def _ _ (by omega)).bind fun _ q4 h4 => ?_
  have e4 : q4 = 112 := by omega
  subst e4
  refine (Def.le4 h (by omega)).bind fun fc q5 h5 => ?_
  refine Def.tell'.bind fun first q6 h6 => ?_
  rw [h6.1, h5.1, h5.2]
  dsimp only
  generalize 2 * le32 file 112 % 2 ^ 32 = size at *
  refine (Def.seek _).bind fun _ q7 h7 => ?_
  refine (Def.field? h .little .s2 (by omega)).bind fun _ q8 h8 => ?_
  replace h8 := h8.1
  have steps : ∀ (m : Rd Unit) (k : Nat), (∀ p, p + k ≤ file.length → Def file p m fun _ q => q = p + k) → ∀ n p, p + k * n ≤ file.length →
      Def file p (Rd.times m n) fun _ q => q = p + k * n := by
    intro m k hm n
    induction n with
    | zero => intro p _; exact Def.pure rfl
    | succ n ih =>
      intro p hp
      have e : k * (n + 1) = k * n + k := Nat.mul_succ k n
      unfold Rd.times
      refine (hm p (by omega)).bind fun _ q hq => (ih q (by omega)).bind fun _ r hr => Def.pure ?_
      omega
  refine (steps (smpSkipLoop h) 11 (fun p hp => ?_) 8 q8 (by omega)).bind fun _ q9 h9 => ?_
  · unfold smpSkipLoop
    refine (Def.field? h .little .s4 (by omega)).bind fun _ r1 k1 => ?_
    replace k1 := k1.1
    refine (Def.field? h .little .s4 (by omega)).bind fun _ r2 k2 => ?_
    replace k2 := k2.1
    refine (Def.field? h .little .s1 (by omega)).bind fun _ r3 k3 => ?_
    replace k3 := k3.1
    refine (Def.field? h .little .s2 (by omega)).bind fun _ r4 k4 => Def.pure ?_
    replace k4 := k4.1
    omega
  refine (steps (smpSkipMarker h) 14 (fun p hp => ?_) 8 q9 (by omega)).bind fun _ q10 h10 => ?_
  · unfold smpSkipMarker
    refine (Def.read 10 (by omega)).bind fun _ r1 k1 => ?_
    replace k1 := k1.1
    refine (Def.field? h .little .s4 (by omega)).bind fun _ r4 k4 => Def.pure ?_
    replace k4 := k4.1
    omega
  refine (Def.field? h .little .s1 (by omega)).bind fun _ q11 h11 => ?_
  replace h11 := h11.1
  refine (Def.field h .little .s4 (by omega)).bind fun _ q12 h12 => ?_
  exact (Def.field?' _ _ _).bind fun _ _ _ => (Def.field?' _ _ _).bind fun _ _ _ => Def.pure trivial

/-- C51 is false for shorter ones: the name is whatever was in memory. -/
theorem C51_smp_short (h : Endian) : smpRead h (smpMagic ++ smpVersion) 0 = .error .undefined := by
  cases h <;> rfl

end AF.Files
