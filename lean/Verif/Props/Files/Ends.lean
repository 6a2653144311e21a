import Verif.Proof.Files.Ends
/-!
# C38: opening a file of chunks comes to an end
-/
namespace AF.Files
open AF AF.Setup AF.Spec.Walk AF.Convert

theorem formParseMisc_ends {file : List Byte} (type : Int) (n : Nat) (ms : List Meta.Misc) :
    Safe file (formParseMisc type n ms) fun _ => True := by
  unfold formParseMisc; rd_ends

theorem aiffReadMark_ends {file : List Byte} (h : Endian) : Safe file (aiffReadMark h) fun _ => True := by
  unfold aiffReadMark; rd_ends

theorem aiffReadCompression_ends {file : List Byte} (b : Bool) : Safe file (aiffReadCompression b) fun _ => True := by
  unfold aiffReadCompression; rd_ends

theorem aiffChunk_ends {file : List Byte} (rnd : Rat → Dbl) (h : Endian) (aifc : Bool) (id : List Byte) (n : Nat) (s : AiffRead) :
    Safe file (aiffChunk rnd h aifc id n s) fun _ => True := by
  unfold aiffChunk
  refine Safe.ite (fun _ => ?_) fun _ => ?_
  · unfold aiffParseCOMM
    rd_ends
    refine Safe.bind' (aiffReadCompression_ends _) fun _ => ?_
    rd_ends
  refine Safe.ite (fun _ => ?_) fun _ => ?_
  · rd_ends
  refine Safe.ite (fun _ => ?_) fun _ => ?_
  · unfold aiffParseINST; rd_ends
  refine Safe.ite (fun _ => ?_) fun _ => ?_
  · unfold aiffParseMARK
    rd_ends
    exact aiffReadMark_ends h
  refine Safe.ite (fun _ => ?_) fun _ => ?_
  · unfold aiffParseAESD; rd_ends
  split
  · exact Safe.bind' (formParseMisc_ends _ _ _) fun _ => Safe.pure trivial
  · unfold aiffParseSSND; rd_ends

theorem iffChunk_ends {file : List Byte} (h : Endian) (id : List Byte) (n : Nat) (s : IffRead) :
    Safe file (iffChunk h id n s) fun _ => True := by
  unfold iffChunk
  refine Safe.ite (fun _ => ?_) fun _ => ?_
  · unfold iffParseVHDR; rd_ends
  refine Safe.ite (fun _ => ?_) fun _ => ?_
  · unfold iffParseBODY; rd_ends
  split
  · exact Safe.bind' (formParseMisc_ends _ _ _) fun _ => Safe.pure trivial
  · rd_ends

theorem ite_running {α : Type} {c : Prop} [Decidable c] {m1 m2 : Rd α} {file : List Byte} {p : Nat}
    (h1 : c → m1 file p ≠ .error .running) (h2 : ¬ c → m2 file p ≠ .error .running) : (if c then m1 else m2) file p ≠ .error .running := by
  split
  · exact h1 ‹_›
  · exact h2 ‹_›

theorem bind_running {α β : Type} {m : Rd α} {g : α → Rd β} {file : List Byte} {p : Nat}
    (h1 : m file p ≠ .error .running) (h2 : ∀ a q, g a file q ≠ .error .running) : (m >>= g) file p ≠ .error .running := by
  match hm : m file p with
  | .error e =>
    rw [Rd.bind_error hm]
    intro he
    cases he
    exact h1 hm
  | .ok (a, q) =>
    rw [Rd.bind_ok hm]
    exact h2 a q

/-- The beginning of a FORM file. -/
theorem form_begin {α : Type} {h : Endian} {k : List Byte → Nat → List Byte → Rd α} {file : List Byte} {p : Nat}
    (hshort : ∀ type size ft q, ft.length < 4 → k type size ft file q ≠ .error .running)
    (hlong : ∀ type ft, k type (be32 file 4) ft file 12 ≠ .error .running) :
    (Rd.seek 0 >>= fun _ => Rd.read 4 >>= fun type => Rd.field h .big .s4 >>= fun size => Rd.read 4 >>= fun ft => k type size ft)
      file p ≠ .error .running := by
  rw [Rd.bind_ok (a := ()) (p' := 0) rfl, Rd.bind_ok (a := (file.drop 0).take 4) (p' := 0 + ((file.drop 0).take 4).length) rfl]
  have ht : ((file.drop 0).take 4).length = min 4 file.length := by simp
  generalize (file.drop 0).take 4 = type at ht ⊢
  match hf : Rd.field h .big .s4 file (0 + type.length) with
  | .error e =>
    rw [Rd.bind_error hf]
    intro he
    cases he
    exact (Safe.field h .big .s4).not_running _ hf
  | .ok (size, q) =>
    obtain ⟨hq, rfl⟩ := field4_pos hf
    have e : type.length = 4 := by omega
    rw [e] at hf
    obtain rfl := field_big hf
    rw [Rd.bind_ok (by rw [e]; exact hf),
      show 0 + 4 + 4 = 8 from rfl, show 0 + 4 = 4 from rfl, Rd.bind_ok (a := (file.drop 8).take 4) (p' := 8 + ((file.drop 8).take 4).length) rfl]
    have hft : ((file.drop 8).take 4).length = min 4 (file.length - 8) := by simp
    generalize (file.drop 8).take 4 = ft at hft ⊢
    by_cases hl : ft.length < 4
    · exact hshort _ _ _ _ hl
    · rw [show 8 + ft.length = 12 by omega]
      exact hlong _ _

/-- C38: opening an AIFF or AIFF-C file ends, whatever it contains, as long as no chunk of it says that it is 2³² − 8 bytes or
longer. -/
theorem C38_aiff_terminates (rnd : Rat → Dbl) (h : Endian) (file : List Byte)
    (hyp : ∀ p, FormChunk file p → p + 8 ≤ file.length → be32 file (p + 4) < 2 ^ 32 - 8) (fuel : Nat) (hfuel : be32 file 4 < fuel) :
    aiffRead rnd h fuel file 0 ≠ .error .running := by
  unfold aiffRead
  refine form_begin (fun type size ft q hft => ?_) fun type ft => ?_
  · rw [if_pos]
    · exact (Safe.fail (Q := fun _ => True)).not_running _
    · refine .inr ⟨fun e => ?_, fun e => ?_⟩ <;> (rw [e] at hft; revert hft; decide)
  · refine ite_running (fun _ => (Safe.fail (Q := fun _ => True)).not_running _) fun _ => ?_
    refine bind_running (form_ends (fun id n x => aiffChunk_ends rnd h _ id n x) hyp fuel 4 _ (by decide) (.inl .first) (by omega))
      fun s q => ?_
    exact ite_running (fun _ => (Safe.undefined (Q := fun _ => True)).not_running _) fun _ => by simp [Rd.pure_run]

/-- C38: opening an IFF/8SVX file ends, whatever it contains, as long as no chunk of it says that it is 2³² − 8 bytes or longer. -/
theorem C38_iff_terminates (h : Endian) (file : List Byte)
    (hyp : ∀ p, FormChunk file p → p + 8 ≤ file.length → be32 file (p + 4) < 2 ^ 32 - 8) (fuel : Nat) (hfuel : be32 file 4 < fuel) :
    iffRead h fuel file 0 ≠ .error .running := by
  unfold iffRead
  refine form_begin (fun type size ft q hft => ?_) fun type ft => ?_
  · rw [if_pos]
    · exact (Safe.fail (Q := fun _ => True)).not_running _
    · refine .inr fun e => ?_
      rw [e] at hft; revert hft; decide
  · refine ite_running (fun _ => (Safe.fail (Q := fun _ => True)).not_running _) fun _ => ?_
    refine bind_running (form_ends (fun id n x => iffChunk_ends h id n x) hyp fuel 4 _ (by decide) (.inl .first) (by omega))
      fun s q => ?_
    exact ite_running (fun _ => (Safe.undefined (Q := fun _ => True)).not_running _) fun _ => by simp [Rd.pure_run]

/-! ## RIFF files -/

/-- A loop whose position rises in every round, and which does not go on at the end of the file. -/
theorem loop_rises {σ α : Type} {body : σ → Rd (σ ⊕ α)} {file : List Byte}
    (hr : ∀ s p, body s file p ≠ .error .running)
    (hb : ∀ s p s' p', body s file p = .ok (.inl s', p') → p < p' ∧ p < file.length) (n : Nat) :
    ∀ s p, file.length - p < n → Rd.loop body n s file p ≠ .error .running := by
  induction n with
  | zero => intro s p h; omega
  | succ n ih =>
    intro s p hn
    match hm : body s file p with
    | .error e =>
      rw [Rd.loop, Rd.bind_error hm]
      intro he
      cases he
      exact hr s p hm
    | .ok (.inl s', p') =>
      rw [loop_not_running hm]
      have := hb s p s' p' hm
      exact ih _ _ (by omega)
    | .ok (.inr a, p') =>
      rw [Rd.loop, Rd.bind_ok hm]
      simp [Rd.pure_run]

/-- A reader that does not go back. -/
def Rises {α : Type} (file : List Byte) (m : Rd α) : Prop := ∀ p a p', m file p = .ok (a, p') → p ≤ p'

namespace Rises
variable {α β : Type} {file : List Byte}
theorem bind {m : Rd α} {g : α → Rd β} (h1 : Rises file m) (h2 : ∀ a, Rises file (g a)) : Rises file (m >>= g) := by
  intro p b p' h
  match hm : m file p with
  | .error e => rw [Rd.bind_error hm] at h; cases h
  | .ok (a, q) =>
    rw [Rd.bind_ok hm] at h
    have := h1 p a q hm
    have := h2 a q b p' h
    omega
theorem pure (a : α) : Rises file (Pure.pure a : Rd α) := by intro p b p' h; cases h; omega
theorem undefined : Rises file (Rd.undefined : Rd α) := by intro p b p' h; cases h
theorem read (n : Nat) : Rises file (Rd.read n) := by intro p b p' h; cases h; omega
theorem skip (n : Nat) : Rises file (Rd.skip n) := by intro p b p' h; cases h; omega
theorem tag : Rises file Rd.tag := (read 4).bind fun _ => pure _
theorem field? (h o : Endian) (k : FieldSize) : Rises file (Rd.field? h o k) := by
  intro p b p' hm
  unfold Rd.field? at hm
  split at hm <;> cases hm <;> omega
end Rises

theorem waveADTL_ends (h : Endian) (e : Nat) (file : List Byte) (ms : List RMark) : Safe file (waveADTL h e ms) fun _ => True := by
  unfold waveADTL
  refine Safe.bind' Safe.tell fun _ => Safe.ite (fun _ => ?_) fun _ => Safe.pure trivial
  refine Safe.bind' Safe.tag fun _ => Safe.bind' (Safe.field _ _ _) fun _ => ?_
  refine Safe.ite (fun _ => ?_) fun _ => ?_
  · refine Safe.bind' (Safe.field? _ _ _) fun _ => Safe.bind' (Safe.read _) fun _ => ?_
    split
    · exact Safe.undefined
    · exact Safe.bind' (Safe.skip _) fun _ => Safe.pure trivial
  · exact Safe.bind' (Safe.skip _) fun _ => Safe.pure trivial

theorem waveINFO_ends (h : Endian) (e : Nat) (file : List Byte) (ms : List Meta.Misc) : Safe file (waveINFO h e ms) fun _ => True := by
  unfold waveINFO; rd_ends

/-- A round that reads a type and a length. -/
theorem entry_rises {σ α : Type} {h : Endian} {e : Nat} {a : α} {g : List Byte → Nat → Rd (σ ⊕ α)} {file : List Byte} {p : Nat} {s' : σ} {p' : Nat}
    (hg : ∀ id n, Rises file (g id n))
    (hm : (Rd.tell >>= fun p => if p < e then Rd.tag >>= fun id => Rd.field h .little .s4 >>= fun n => g id n else Pure.pure (.inr a)) file p =
      .ok (.inl s', p')) : p < p' ∧ p < file.length := by
  rw [Rd.bind_ok (a := p) (p' := p) rfl] at hm
  by_cases hp : p < e
  · rw [if_pos hp] at hm
    obtain ⟨b, hb⟩ := tag_run file p
    rw [Rd.bind_ok hb] at hm
    generalize hq : (if p + 4 ≤ file.length then p + 4 else p + (file.drop p).length) = q at hb hm
    have hpq : p ≤ q := by rw [← hq]; split <;> omega
    match hf : Rd.field h .little .s4 file q with
    | .error e => rw [Rd.bind_error hf] at hm; cases hm
    | .ok (x, r) =>
      rw [Rd.bind_ok hf] at hm
      have h1 := field4_pos hf
      have h2 := hg _ _ _ _ _ hm
      omega
  · rw [if_neg hp] at hm
    cases hm

theorem waveADTL_rises {h : Endian} {e : Nat} {file : List Byte} {ms : List RMark} {p : Nat} {s' : List RMark} {p' : Nat}
    (hm : waveADTL h e ms file p = .ok (.inl s', p')) : p < p' ∧ p < file.length := by
  unfold waveADTL at hm
  refine entry_rises (σ := List RMark) (a := ms) (h := h) (e := e) (g := _) (fun id n => ?_) hm
  split
  · refine (Rises.field? _ _ _).bind fun m => (Rises.read _).bind fun t => ?_
    split
    · exact Rises.undefined
    · exact (Rises.skip _).bind fun _ => Rises.pure _
  · exact (Rises.skip _).bind fun _ => Rises.pure _

theorem waveINFO_rises {h : Endian} {e : Nat} {file : List Byte} {ms : List Meta.Misc} {p : Nat} {s' : List Meta.Misc} {p' : Nat}
    (hm : waveINFO h e ms file p = .ok (.inl s', p')) : p < p' ∧ p < file.length := by
  unfold waveINFO at hm
  refine entry_rises (σ := List Meta.Misc) (a := ms) (h := h) (e := e) (g := _) (fun id n => ?_) hm
  split
  · exact (Rises.read _).bind fun t => (Rises.skip _).bind fun _ => Rises.pure _
  · exact (Rises.skip _).bind fun _ => (Rises.skip _).bind fun _ => Rises.pure _

theorem waveSwitch_ends {file : List Byte} (h : Endian) (f : AFmt) (b : Option Nat) (n : Nat) :
    Safe file (waveSwitch h f b n) fun _ => True := by
  unfold waveSwitch waveCoefficient; rd_ends

theorem waveParseList_ends {file : List Byte} (h : Endian) {fuel : Nat} (hf : file.length < fuel) (n : Nat) (s : WaveRead) :
    Safe file (waveParseList h fuel s n) fun s' => s'.index = s.index := by
  have key : ∀ z, Safe file (Rd.tag >>= fun typeID => Rd.tell >>= fun p =>
      if typeID = tag "adtl" then Rd.loop (waveADTL h (p + z)) fuel s.markers >>= fun ms => Pure.pure { s with markers := ms }
      else if typeID = tag "INFO" then Rd.loop (waveINFO h (p + z)) fuel s.misc >>= fun ms => Pure.pure { s with misc := ms }
      else Rd.skip z >>= fun _ => Pure.pure s) fun s' => s'.index = s.index := by
    intro z
    refine Safe.bind' Safe.tag fun _ => ?_
    refine Safe.bind' Safe.tell fun _ => ?_
    refine Safe.ite (fun _ => ?_) fun _ => ?_
    · refine Safe.bind' (Safe.intro fun p => ⟨fun _ _ _ => trivial, ?_⟩) fun _ => Safe.pure rfl
      exact loop_rises (fun s p => (waveADTL_ends _ _ _ _).not_running p) (fun s p s' p' hm => waveADTL_rises hm) _ _ _ (by omega)
    refine Safe.ite (fun _ => ?_) fun _ => ?_
    · refine Safe.bind' (Safe.intro fun p => ⟨fun _ _ _ => trivial, ?_⟩) fun _ => Safe.pure rfl
      exact loop_rises (fun s p => (waveINFO_ends _ _ _ _).not_running p) (fun s p s' p' hm => waveINFO_rises hm) _ _ _ (by omega)
    · exact Safe.bind' (Safe.skip _) fun _ => Safe.pure rfl
  exact key _

theorem waveChunk_ends {file : List Byte} (h : Endian) {fuel : Nat} (hf : file.length < fuel) (id : List Byte) (n : Nat) (s : WaveRead) :
    Safe file (waveChunk h fuel id n s) fun s' => s'.index = s.index := by
  unfold waveChunk
  refine Safe.ite (fun _ => ?_) fun _ => ?_
  · unfold waveParseFormat
    refine Safe.bind' (Safe.field? _ _ _) fun _ => Safe.bind' (Safe.field _ _ _) fun _ => Safe.bind' (Safe.field? _ _ _) fun _ =>
      Safe.bind' (Safe.field? _ _ _) fun _ => Safe.bind' (Safe.field? _ _ _) fun _ => Safe.ite (fun _ => Safe.fail) fun _ => ?_
    split
    · exact Safe.bind' (waveSwitch_ends _ _ _ _) fun _ => Safe.pure rfl
    · exact Safe.undefined
  refine Safe.ite (fun _ => ?_) fun _ => ?_
  · unfold waveParseData; rd_ends <;> rfl
  refine Safe.ite (fun _ => ?_) fun _ => ?_
  · rd_ends <;> rfl
  refine Safe.ite (fun _ => ?_) fun _ => ?_
  · unfold waveParseFact; rd_ends <;> rfl
  refine Safe.ite (fun _ => ?_) fun _ => ?_
  · unfold waveParseCues waveReadCue; rd_ends <;> rfl
  refine Safe.ite (fun _ => ?_) fun _ => ?_
  · exact waveParseList_ends h hf n s
  refine Safe.ite (fun _ => ?_) fun _ => ?_
  · rd_ends <;> rfl
  refine Safe.ite (fun _ => ?_) fun _ => ?_
  · unfold wavePlayList; rd_ends <;> rfl
  · rd_ends <;> rfl

/-- What is read of a chunk header of a RIFF file, whether the file has all of it or not. -/
theorem riff_header (h : Endian) (file : List Byte) (p : Nat) (hp : h = .little ∨ ¬ (p + 4 < file.length ∧ file.length < p + 8)) :
    ∃ b q r, Rd.tag file p = .ok (b, q) ∧ Rd.u32Init h .little file q = .ok (le32 file (p + 4), r) := by
  obtain ⟨b, hb⟩ := tag_run file p
  have hz : ∀ q, file.length ≤ q → (uintOf h (file.drop q ++ List.replicate (4 - (file.drop q).length) 0)).toNat = 0 := by
    intro q hq
    rw [List.drop_eq_nil_of_le hq]
    cases h <;> rfl
  have hz' : ∀ q, file.length ≤ q → le32 file q = 0 := by
    intro q hq
    unfold le32
    rw [List.drop_eq_nil_of_le hq]
    rfl
  by_cases h4 : p + 4 ≤ file.length
  · rw [if_pos h4] at hb
    obtain ⟨r, hr⟩ := u32Init_little h file (p + 4)
    refine ⟨b, p + 4, r, hb, ?_⟩
    rw [hr]
    by_cases h8 : p + 4 + 4 ≤ file.length
    · rw [if_pos h8]
    · rw [if_neg h8]
      by_cases he : file.length ≤ p + 4
      · rw [hz _ he, hz' _ he]
      · rcases hp with rfl | hp
        · show Except.ok ((ofLE (file.drop (p + 4) ++ List.replicate (4 - (file.drop (p + 4)).length) 0)).toNat, r) = _
          rw [ofLE_zeros]
          unfold le32
          rw [List.take_of_length_le (by rw [List.length_drop]; omega)]
        · omega
  · rw [if_neg h4] at hb
    have hq : file.length ≤ p + (file.drop p).length := by rw [List.length_drop]; omega
    generalize p + (file.drop p).length = q at hb hq
    obtain ⟨r, hr⟩ := u32Init_little h file q
    refine ⟨b, q, r, hb, ?_⟩
    rw [hr, if_neg (by omega), hz _ hq, hz' _ (by omega)]

theorem riff_header_at (h : Endian) (file : List Byte) (p p' : Nat) (hp : h = .little ∨ ¬ (p + 4 < file.length ∧ file.length < p + 8))
    (hp' : p' = p ∨ file.length ≤ p' ∧ file.length ≤ p) :
    ∃ b q r, Rd.tag file p' = .ok (b, q) ∧ Rd.u32Init h .little file q = .ok (le32 file (p + 4), r) := by
  rcases hp' with rfl | ⟨h1, h2⟩
  · exact riff_header h file p' hp
  · have e : ∀ q, file.length ≤ q → le32 file q = 0 := by
      intro q hq
      unfold le32
      rw [List.drop_eq_nil_of_le hq]
      rfl
    rw [e _ (by omega), ← e (p' + 4) (by omega)]
    exact riff_header h file p' (.inr (by omega))

theorem waveNext_even (i sz : Nat) : waveNext i sz % 2 = 0 := by unfold waveNext; dsimp only; split <;> omega
theorem waveNext_lt (i sz : Nat) : waveNext i sz < 2 ^ 32 := by unfold waveNext; dsimp only; split <;> omega
theorem waveNext_eq {i sz : Nat} (hi : i % 2 = 0) (hlt : i + 8 + sz + sz % 2 < 2 ^ 32) : waveNext i sz = i + 8 + sz + sz % 2 := by
  unfold waveNext
  have : (i + (sz + 8)) % 2 ^ 32 = i + (sz + 8) := Nat.mod_eq_of_lt (by omega)
  rw [this]
  dsimp only
  split
  · rw [Nat.mod_eq_of_lt (by omega)]; omega
  · omega

/-- A walk over the chunks of a RIFF file ends. -/
theorem riff_ends {h : Endian} {file : List Byte} {fuel : Nat} (hf : file.length < fuel)
    (hyp : ∀ p, RiffChunk file p → p < 2 ^ 32 ∧ (h = .little ∨ ¬ (p + 4 < file.length ∧ file.length < p + 8))) (n : Nat) :
    ∀ (s : WaveRead) (p' : Nat), s.index % 2 = 0 → RiffChunk file (s.index + 8) → le32 file 4 - s.index < n →
      (p' = s.index + 8 ∨ file.length ≤ p' ∧ file.length ≤ s.index + 8) →
      Rd.loop (waveRound h fuel (le32 file 4)) n s file p' ≠ .error .running := by
  induction n with
  | zero => intro s p' _ _ h; omega
  | succ n ih =>
    intro s p' hi hch hn hp'
    by_cases hlt : s.index < le32 file 4
    · obtain ⟨b, q, r, hq, hr⟩ := riff_header_at h file (s.index + 8) p' (hyp _ hch).2 hp'
      generalize hsz : le32 file (s.index + 8 + 4) = sz at hr
      have hnext : RiffChunk file (s.index + 8 + 8 + sz + sz % 2) := by
        have := RiffChunk.next hch (by omega)
        rw [hsz] at this
        exact this
      have hb := (hyp _ hnext).1
      have hbody : waveRound h fuel (le32 file 4) s file p' =
          (waveChunk h fuel b sz s >>= fun x => Rd.seek ((waveNext x.index sz + 8) % 2 ^ 32) >>= fun _ =>
            Pure.pure (.inl { x with index := waveNext x.index sz })) file r := by
        unfold waveRound
        rw [if_pos hlt, Rd.bind_ok hq, Rd.bind_ok hr]
      match hm : waveChunk h fuel b sz s file r with
      | .error e =>
        rw [Rd.loop, Rd.bind_error (by rw [hbody, Rd.bind_error hm])]
        intro he
        cases he
        exact (waveChunk_ends h hf b sz s).not_running r hm
      | .ok (x, r') =>
        have hx : x.index = s.index := (waveChunk_ends h hf b sz s).ok hm
        have e1 : waveNext x.index sz = s.index + 8 + sz + sz % 2 := by rw [hx]; exact waveNext_eq hi (by omega)
        have e2 : (waveNext x.index sz + 8) % 2 ^ 32 = waveNext x.index sz + 8 := by rw [e1]; exact Nat.mod_eq_of_lt (by omega)
        rw [loop_not_running (s' := { x with index := waveNext x.index sz }) (p' := waveNext x.index sz + 8)
          (by rw [hbody, Rd.bind_ok hm, e2]; rfl)]
        refine ih { x with index := waveNext x.index sz } _ (waveNext_even _ _) ?_ ?_ (.inl rfl)
        · show RiffChunk file (waveNext x.index sz + 8)
          rw [e1, show s.index + 8 + sz + sz % 2 + 8 = s.index + 8 + 8 + sz + sz % 2 by omega]
          exact hnext
        · show le32 file 4 - waveNext x.index sz < n
          omega
    · rw [Rd.loop]
      have : waveRound h fuel (le32 file 4) s file p' = .ok (.inr s, p') := by
        unfold waveRound; rw [if_neg hlt]; rfl
      rw [Rd.bind_ok this]
      simp [Rd.pure_run]

/-- The beginning of a RIFF file. -/
theorem riff_begin {α : Type} {h : Endian} {k : Nat → Rd α} {file : List Byte} {p : Nat} {Q : Except Err (α × Nat) → Prop}
    (hu : Q (.error .undefined)) (hshort : file.length < 12 → ∀ q, file.length ≤ q → Q (k (le32 file 4) file q)) (hlong : Q (k (le32 file 4) file 12)) :
    Q ((Rd.seek 0 >>= fun _ => Rd.tag >>= fun _ => Rd.field h .little .s4 >>= fun size => Rd.tag >>= fun _ => k size) file p) := by
  rw [Rd.bind_ok (a := ()) (p' := 0) rfl]
  obtain ⟨b, hb⟩ := tag_run file 0
  rw [Rd.bind_ok hb]
  by_cases h8 : 8 ≤ file.length
  · rw [if_pos (by omega)]
    obtain ⟨x, hx⟩ : ∃ x, Rd.field h .little .s4 file (0 + 4) = .ok (x, 8) := by
      unfold Rd.field Rd.field?
      simp only [bind, (field4_run h .little file (0 + 4)).1 (by omega)]
      exact ⟨_, rfl⟩
    rw [Rd.bind_ok hx, field_little hx]
    obtain ⟨b, hb⟩ := tag_run file 8
    rw [Rd.bind_ok hb]
    by_cases h12 : 8 + 4 ≤ file.length
    · rw [if_pos h12]; exact hlong
    · rw [if_neg h12]; exact hshort (by omega) _ (by rw [List.length_drop]; omega)
  · have : Rd.field h .little .s4 file (if 0 + 4 ≤ file.length then 0 + 4 else 0 + (file.drop 0).length) = .error .undefined := by
      unfold Rd.field Rd.field?
      simp only [bind, (field4_run h .little file _).2 (show ¬ (if 0 + 4 ≤ file.length then 0 + 4 else 0 + (file.drop 0).length) + 4 ≤ file.length by
        split
        · omega
        · rw [List.length_drop]; omega)]
      rfl
    rw [Rd.bind_error this]
    exact hu

/-- C38: opening a WAVE file ends, whatever it contains, as long as the walk from chunk to chunk does not leave the first 4 GiB.
(On a big-endian machine a chunk length that the file only has the first bytes of is read as another number.) -/
theorem C38_wave_terminates (h : Endian) (file : List Byte)
    (hyp : ∀ p, RiffChunk file p → p < 2 ^ 32 ∧ (h = .little ∨ ¬ (p + 4 < file.length ∧ file.length < p + 8)))
    (fuel : Nat) (hf : file.length < fuel) (hs : le32 file 4 < fuel) : waveRead h fuel file 0 ≠ .error .running := by
  unfold waveRead
  refine riff_begin (Q := (· ≠ .error .running)) (by simp) (fun h12 q hq => ?_) ?_
  · refine bind_running (riff_ends hf hyp fuel _ q (by decide) .first (by omega) (.inr ⟨hq, ?_⟩)) fun s q => ?_
    · show file.length ≤ 12
      omega
    · refine ite_running (fun _ => (Safe.fail (Q := fun _ => True)).not_running _) fun _ => ite_running (fun _ => ite_running (fun _ => ?_) fun _ => ?_) fun _ => ?_
      · simp [Rd.pure_run]
      · exact (Safe.fail (Q := fun _ => True)).not_running _
      · simp [Rd.pure_run]
  · refine bind_running (riff_ends hf hyp fuel _ 12 (by decide) .first (by omega) (.inl rfl)) fun s q => ?_
    refine ite_running (fun _ => (Safe.fail (Q := fun _ => True)).not_running _) fun _ => ite_running (fun _ => ite_running (fun _ => ?_) fun _ => ?_) fun _ => ?_
    · simp [Rd.pure_run]
    · exact (Safe.fail (Q := fun _ => True)).not_running _
    · simp [Rd.pure_run]

/-- C38, false for WAVE files whose header gives the length 2³² − 1, as programs do that write to a pipe: such a file is never opened. -/
theorem C38_wave_streaming (h : Endian) (file : List Byte) (hs : le32 file 4 = 2 ^ 32 - 1) (fuel : Nat) (r : WaveRead × Nat) :
    waveRead h fuel file 0 ≠ .ok r := by
  have loop : ∀ (n : Nat) (s : WaveRead) (p : Nat), s.index % 2 = 0 → s.index < 2 ^ 32 → ∀ a q,
      Rd.loop (waveRound h fuel (le32 file 4)) n s file p ≠ .ok (a, q) := by
    intro n
    induction n with
    | zero => intro s p _ _ a q hx; cases hx
    | succ n ih =>
      intro s p he hl a q hx
      rw [Rd.loop] at hx
      match hm : waveRound h fuel (le32 file 4) s file p with
      | .error e => rw [Rd.bind_error hm] at hx; cases hx
      | .ok (.inl s', p') =>
        rw [Rd.bind_ok hm] at hx
        unfold waveRound at hm
        rw [if_pos (by omega)] at hm
        obtain ⟨b, hb⟩ := tag_run file p
        rw [Rd.bind_ok hb] at hm
        obtain ⟨sz, r, hr⟩ : ∃ sz r, Rd.u32Init h .little file (if p + 4 ≤ file.length then p + 4 else p + (file.drop p).length) = .ok (sz, r) :=
          ⟨_, u32Init_little h file _⟩
        rw [Rd.bind_ok hr] at hm
        match hc : waveChunk h fuel b sz s file r with
        | .error e => rw [Rd.bind_error hc] at hm; cases hm
        | .ok (x, r') =>
          rw [Rd.bind_ok hc] at hm
          cases hm
          exact ih _ _ (waveNext_even _ _) (waveNext_lt _ _) _ _ hx
      | .ok (.inr s', p') =>
        unfold waveRound at hm
        rw [if_pos (by omega)] at hm
        obtain ⟨b, hb⟩ := tag_run file p
        rw [Rd.bind_ok hb] at hm
        obtain ⟨sz, r, hr⟩ : ∃ sz r, Rd.u32Init h .little file (if p + 4 ≤ file.length then p + 4 else p + (file.drop p).length) = .ok (sz, r) :=
          ⟨_, u32Init_little h file _⟩
        rw [Rd.bind_ok hr] at hm
        match hc : waveChunk h fuel b sz s file r with
        | .error e => rw [Rd.bind_error hc] at hm; cases hm
        | .ok (x, r') => rw [Rd.bind_ok hc] at hm; cases hm
  have key : ∀ {g : WaveRead → Rd WaveRead} (s : WaveRead) (q : Nat), s.index % 2 = 0 → s.index < 2 ^ 32 →
      (Rd.loop (waveRound h fuel (le32 file 4)) fuel s >>= g) file q ≠ .ok r := by
    intro g s q he hl hx
    match hm : Rd.loop (waveRound h fuel (le32 file 4)) fuel s file q with
    | .error e => rw [Rd.bind_error hm] at hx; cases hx
    | .ok (a, q') => exact loop _ _ _ he hl _ _ hm
  unfold waveRead
  refine riff_begin (Q := (· ≠ .ok r)) (by simp) (fun _ q _ => ?_) ?_
  · exact key _ _ (by decide) (by decide)
  · exact key _ _ (by decide) (by decide)

/-! ## CAF -/

theorem cafChunk_ends {file : List Byte} (F : Float64) (h : Endian) (id : List Byte) (n : Int) (s : CafRead) :
    Safe file (cafChunk F h id n s) fun _ => True := by
  unfold cafChunk
  refine Safe.ite (fun _ => ?_) fun _ => ?_
  · unfold cafParseDesc
    refine Safe.bind' (Safe.field? _ _ _) fun _ => ?_
    split
    · exact Safe.fail
    · refine Safe.bind' Safe.tag4 fun _ => Safe.bind' (Safe.u32 _) fun _ => Safe.bind' (Safe.u32 _) fun _ => Safe.bind' (Safe.u32 _) fun _ =>
        Safe.bind' (Safe.u32 _) fun _ => Safe.bind' (Safe.u32 _) fun _ => Safe.ite (fun _ => Safe.fail) fun _ => ?_
      dsimp only
      split
      · exact Safe.pure trivial
      · exact Safe.fail
  refine Safe.ite (fun _ => ?_) fun _ => ?_
  · unfold cafParseData; rd_ends
  refine Safe.ite (fun _ => ?_) fun _ => ?_
  · unfold cafParseTable; rd_ends
  refine Safe.ite (fun _ => ?_) fun _ => ?_
  · unfold cafParseCookie; rd_ends
  · exact Safe.pure trivial

theorem s64_run (h : Endian) (file : List Byte) (p : Nat) :
    (p + 8 ≤ file.length → Rd.s64 h file p = .ok (be64 file p, p + 8)) ∧ (¬ p + 8 ≤ file.length → Rd.s64 h file p = .error .fail) := by
  have hb : FieldSize.s8.bytes = 8 := rfl
  have hr := readField_eq h .big .s8 (file.drop p)
  refine ⟨fun hp => ?_, fun hp => ?_⟩
  · rw [if_pos (by rw [hb, List.length_drop]; omega)] at hr
    have hf : Rd.field? h .big .s8 file p =
        .ok (some (BitVec.ofInt (8 * FieldSize.s8.bytes) (ofLE ((file.drop p).take 8).reverse)).toNat, p + 8) := by
      unfold Rd.field?
      rw [hr]
      rfl
    unfold Rd.s64
    rw [Rd.bind_ok hf]
    show Except.ok (wrapS 64 ((BitVec.ofInt (8 * FieldSize.s8.bytes) (ofLE ((file.drop p).take 8).reverse)).toNat : Int), p + 8) = _
    unfold be64
    have e : (2 ^ (8 * FieldSize.s8.bytes) : Nat) = 18446744073709551616 := rfl
    rw [BitVec.toNat_ofInt, e]
    generalize ofLE ((file.drop p).take 8).reverse = x
    have : ((x % ((18446744073709551616 : Nat) : Int)).toNat : Int) = x % ((18446744073709551616 : Nat) : Int) := by omega
    rw [this]
    refine congrArg Except.ok (congrArg (·, p + 8) ?_)
    unfold wrapS
    exact Int.emod_bmod x (2 ^ 64)
  · rw [if_neg (by rw [hb, List.length_drop]; omega)] at hr
    have hf : Rd.field? h .big .s8 file p = .ok (none, p + (file.drop p).length) := by
      unfold Rd.field?
      rw [hr]
    unfold Rd.s64
    rw [Rd.bind_ok hf]
    rfl

theorem tag4_run (file : List Byte) (p : Nat) :
    (p + 4 ≤ file.length → Rd.tag4 file p = .ok ((file.drop p).take 4, p + 4)) ∧ (¬ p + 4 ≤ file.length → Rd.tag4 file p = .error .fail) := by
  have hl : ((file.drop p).take 4).length = min 4 (file.length - p) := by simp
  unfold Rd.tag4
  rw [Rd.bind_ok (a := (file.drop p).take 4) (p' := p + ((file.drop p).take 4).length) rfl]
  refine ⟨fun hp => ?_, fun hp => ?_⟩
  · rw [if_neg (by omega), hl, show min 4 (file.length - p) = 4 by omega]; rfl
  · rw [if_pos (by omega)]; rfl

/-- A walk over the chunks of a CAF file ends. -/
theorem caf_ends (F : Float64) {h : Endian} {file : List Byte}
    (hyp : ∀ p, CafChunk file p → p + 12 ≤ file.length → OpenEnd file p ∨ -12 < be64 file (p + 4)) (n : Nat) :
    ∀ (p : Nat) (x : CafRead), CafChunk file p ∨ file.length ≤ p → file.length - p < n →
      Rd.loop (cafRound F h file.length) n ((p : Int), x) file p ≠ .error .running := by
  induction n with
  | zero => intro p x _ h; omega
  | succ n ih =>
    intro p x hch hn
    by_cases hlt : p < file.length
    · have hch : CafChunk file p := hch.resolve_right (by omega)
      rw [Rd.loop]
      by_cases h12 : p + 12 ≤ file.length
      · generalize hty : (file.drop p).take 4 = type
        generalize hlen : (if type = tag "data" ∧ be64 file (p + 4) = -1 then (file.length : Int) - ((p : Int) + 12) else be64 file (p + 4)) = len
        have hbody : cafRound F h file.length ((p : Int), x) file p =
            (cafChunk F h type len x >>= fun x => if (p : Int) + 12 + len < -2 ^ 63 ∨ 2 ^ 63 ≤ (p : Int) + 12 + len then Rd.undefined
              else if (p : Int) + 12 + len < 0 then Pure.pure (.inl (-1, x))
              else Rd.seek ((p : Int) + 12 + len).toNat >>= fun _ => Pure.pure (.inl ((p : Int) + 12 + len, x))) file (p + 12) := by
          unfold cafRound
          rw [if_pos (by dsimp only; omega), Rd.bind_ok ((tag4_run file p).1 (by omega)), Rd.bind_ok ((s64_run h file (p + 4)).1 (by omega)), hty]
          dsimp only
          rw [hlen]
        have hdata : tag "data" = [0x64, 0x61, 0x74, 0x61] := by decide
        have hnext : (p : Int) < (p : Int) + 12 + len ∧ (CafChunk file ((p : Int) + 12 + len).toNat ∨ file.length ≤ ((p : Int) + 12 + len).toNat) := by
          by_cases ho : type = tag "data" ∧ be64 file (p + 4) = -1
          · rw [if_pos ho] at hlen
            omega
          · rw [if_neg ho] at hlen
            have hno : ¬ OpenEnd file p := by
              rintro ⟨h1, h2⟩
              exact ho ⟨by rw [← hty, h1, hdata], h2⟩
            have := (hyp p hch h12).resolve_left hno
            have hn := CafChunk.next hch h12 hno
            rw [hlen] at this hn
            exact ⟨by omega, .inl hn⟩
        match hm : cafChunk F h type len x file (p + 12) with
        | .error e =>
          rw [Rd.bind_error (by rw [hbody, Rd.bind_error hm])]
          intro he
          cases he
          exact (cafChunk_ends F h _ _ _).not_running _ hm
        | .ok (y, q) =>
          by_cases hov : (p : Int) + 12 + len < -2 ^ 63 ∨ 2 ^ 63 ≤ (p : Int) + 12 + len
          · have : cafRound F h file.length ((p : Int), x) file p = .error .undefined := by
              rw [hbody, Rd.bind_ok hm, if_pos hov]; rfl
            rw [Rd.bind_error this]
            simp
          · have : cafRound F h file.length ((p : Int), x) file p =
                .ok (.inl ((((p : Int) + 12 + len).toNat : Int), y), ((p : Int) + 12 + len).toNat) := by
              rw [hbody, Rd.bind_ok hm, if_neg hov, if_neg (by omega), Rd.bind_ok (a := ()) (p' := ((p : Int) + 12 + len).toNat) rfl]
              have e : (((p : Int) + 12 + len).toNat : Int) = (p : Int) + 12 + len := by omega
              rw [e]
              rfl
            rw [Rd.bind_ok this]
            exact ih _ _ hnext.2 (by omega)
      · have : cafRound F h file.length ((p : Int), x) file p = .error .fail := by
          unfold cafRound
          rw [if_pos (by dsimp only; omega)]
          by_cases h4 : p + 4 ≤ file.length
          · rw [Rd.bind_ok ((tag4_run file p).1 h4), Rd.bind_error ((s64_run h file (p + 4)).2 (by omega))]
          · rw [Rd.bind_error ((tag4_run file p).2 h4)]
        rw [Rd.bind_error this]
        simp
    · rw [Rd.loop]
      have : cafRound F h file.length ((p : Int), x) file p = .ok (.inr x, p) := by
        unfold cafRound
        rw [if_neg (by dsimp only; omega)]
        rfl
      rw [Rd.bind_ok this]
      simp [Rd.pure_run]

/-- C38: opening a CAF file ends, whatever it contains, as long as no chunk of it that it gets to has a length of −12 or less. -/
theorem C38_caf_terminates (F : Float64) (h : Endian) (file : List Byte)
    (hyp : ∀ p, CafChunk file p → p + 12 ≤ file.length → OpenEnd file p ∨ -12 < be64 file (p + 4))
    (fuel : Nat) (hf : file.length < fuel) : cafRead F h fuel file 0 ≠ .error .running := by
  unfold cafRead
  rw [Rd.bind_ok (a := ()) (p' := 8) rfl, Rd.bind_ok (a := file.length) (p' := 8) rfl]
  refine bind_running (caf_ends F hyp fuel 8 _ (.inl .first) (by omega)) fun s q => ?_
  exact ite_running (fun _ => (Safe.undefined (Q := fun _ => True)).not_running _) fun _ => by simp [Rd.pure_run]

/-! ## Files that meet the hypotheses -/

/-- A FORM file with an odd chunk. -/
def formWalkExample : List Byte := tag "FORM" ++ [0, 0, 0, 16] ++ tag "AIFF" ++ tag "NAME" ++ [0, 0, 0, 3, 65, 66, 67, 0]

example : (∀ p, FormChunk formWalkExample p → p + 8 ≤ formWalkExample.length → be32 formWalkExample (p + 4) < 2 ^ 32 - 8) ∧
    FormChunk formWalkExample 24 := by
  have e : be32 formWalkExample (12 + 4) = 3 := by decide
  have l : formWalkExample.length = 24 := by decide
  refine ⟨fun p hp => ?_, ?_⟩
  · have : p = 12 ∨ p = 24 := by
      induction hp with
      | first => exact .inl rfl
      | next _ hlt ih =>
        rcases ih with rfl | rfl
        · rw [e]; exact .inr rfl
        · omega
    rcases this with rfl | rfl
    · rw [e]; decide
    · omega
  · have := FormChunk.next (file := formWalkExample) .first (by omega)
    rw [e] at this
    exact this

/-- A RIFF file that ends inside its last chunk, after which the walk goes on for two empty chunks. -/
def riffWalkExample : List Byte := tag "RIFF" ++ [28, 0, 0, 0] ++ tag "WAVE" ++ tag "junk" ++ [3, 0, 0, 0, 65]

example : (∀ p, RiffChunk riffWalkExample p → p < 2 ^ 32 ∧ (Endian.big = .little ∨ ¬ (p + 4 < riffWalkExample.length ∧ riffWalkExample.length < p + 8))) ∧
    RiffChunk riffWalkExample 40 := by
  have e : le32 riffWalkExample (12 + 4) = 3 := by decide
  have e1 : le32 riffWalkExample (24 + 4) = 0 := by decide
  have e2 : le32 riffWalkExample (32 + 4) = 0 := by decide
  have e4 : le32 riffWalkExample 4 = 28 := by decide
  have l : riffWalkExample.length = 21 := by decide
  refine ⟨fun p hp => ?_, ?_⟩
  · have : p = 12 ∨ p = 24 ∨ p = 32 ∨ p = 40 := by
      induction hp with
      | first => exact .inl rfl
      | next _ hlt ih =>
        rcases ih with rfl | rfl | rfl | rfl
        · rw [e]; exact .inr (.inl rfl)
        · rw [e1]; exact .inr (.inr (.inl rfl))
        · rw [e2]; exact .inr (.inr (.inr rfl))
        · omega
    rw [l]
    omega
  · have h1 := RiffChunk.next (file := riffWalkExample) .first (by omega)
    rw [e] at h1
    have h2 := RiffChunk.next h1 (by rw [e4]; omega)
    simp only [Nat.reduceAdd, Nat.reduceMod] at h2
    rw [show le32 riffWalkExample 28 = 0 from e1] at h2
    have h3 := RiffChunk.next h2 (by rw [e4]; omega)
    simp only [Nat.reduceAdd, Nat.reduceMod] at h3
    rw [show le32 riffWalkExample 36 = 0 from e2] at h3
    exact h3

/-- A CAF file whose data chunk reaches to the end. -/
def cafWalkExample : List Byte := tag "caff" ++ [0, 1, 0, 0] ++ tag "free" ++ [0, 0, 0, 0, 0, 0, 0, 1, 0] ++ tag "data" ++
  [255, 255, 255, 255, 255, 255, 255, 255, 0, 0, 0, 0]

example : (∀ p, CafChunk cafWalkExample p → p + 12 ≤ cafWalkExample.length → OpenEnd cafWalkExample p ∨ -12 < be64 cafWalkExample (p + 4)) ∧
    CafChunk cafWalkExample 21 ∧ OpenEnd cafWalkExample 21 := by
  have e : be64 cafWalkExample (8 + 4) = 1 := by decide
  have l : cafWalkExample.length = 37 := by decide
  have ho : OpenEnd cafWalkExample 21 := ⟨by decide, by decide⟩
  have hn : ¬ OpenEnd cafWalkExample 8 := fun h => by have := h.2; rw [e] at this; omega
  refine ⟨fun p hp => ?_, ?_, ho⟩
  · have : p = 8 ∨ p = 21 := by
      induction hp with
      | first => exact .inl rfl
      | next _ hlt hop ih =>
        rcases ih with rfl | rfl
        · rw [e]; exact .inr rfl
        · exact absurd ho hop
    rcases this with rfl | rfl
    · intro _; right; rw [e]; decide
    · intro _; exact .inl ho
  · have := CafChunk.next (file := cafWalkExample) .first (by omega) hn
    rw [e] at this
    exact this

end AF.Files
