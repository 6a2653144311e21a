import Verif.Proof.CreateOpen
/-!
# C73: which setups make a file

The table in `Spec/Create.lean` says for every request whether afOpenFile makes a file and what sound the file holds.
-/
namespace AF.Create
open AF AF.Spec.Create
open AF.Setup (newSetup FileFormat)

/-- C73: whatever calls are made on a new setup, on either kind of host and with or without FLAC, opening a file with it for writing
does what the table says: it is refused, or a file with exactly that sound is made. -/
theorem C73_create (flac : Bool) (h : Endian) (ops : List Setup.Op) :
    outcomeOf (create flac h (Setup.run (newSetup h) ops)) = outcome flac h (Request.after h ops) :=
  create_eq (run_holds h ops) flac

/-- The table never turns a definite request into something else: rate, channels, width and compression are as asked for, the sample
format up to the sign of integers (NeXT and WAVE), the byte order unless samples are one byte, or the format (IFF/8SVX, SampleVision,
FLAC) or the codec (ALAC) has its own. -/
theorem C73_as_asked (flac : Bool) (h : Endian) (ops : List Setup.Op) (m : Made)
    (ho : outcomeOf (create flac h (Setup.run (newSetup h) ops)) = .opened m) :
    let r := Request.after h ops
    (∀ x, r.rate = some x → m.rate = x) ∧ (∀ n, r.channels = some n → m.channels = n) ∧
    (∀ f w, r.encoding = some (f, w) → m.sampleWidth = w ∧
      (m.sampleFormat = f ∨ (r.format = .next ∧ f = 402 ∧ m.sampleFormat = 401) ∨
        (r.format = .wave ∧ (f = 401 ∨ f = 402) ∧ m.sampleFormat = if w ≤ 8 then 402 else 401))) ∧
    (∀ c, r.compression = some c → m.compression = c) ∧
    (∀ o, r.order = some o → m.order = o ∨ m.sampleWidth ≤ 8 ∨ r.format = .smp ∨ r.format = .flac ∨ m.compression = 540) := by
  rw [C73_create] at ho
  intro r
  change outcome flac h r = _ at ho
  unfold outcome at ho
  split at ho
  · rename_i hc
    split at ho
    · cases ho
    · obtain ⟨-, ⟨t1, t2, t3, t4, -⟩, -⟩ := hc
      simp only [Outcome.opened.injEq] at ho
      have e : m.rate = (made h r).rate ∧ m.channels = (made h r).channels ∧ m.sampleFormat = (made h r).sampleFormat ∧
          m.sampleWidth = (made h r).sampleWidth ∧ m.compression = (made h r).compression ∧
          (m.order = (made h r).order ∨ r.comp = 540) := by
        subst ho
        split
        · exact ⟨rfl, rfl, rfl, rfl, rfl, Or.inr ‹_›⟩
        · exact ⟨rfl, rfl, rfl, rfl, rfl, Or.inl rfl⟩
      obtain ⟨e1, e2, e3, e4, e5, e6⟩ := e
      rw [e1, e2, e3, e4, e5]
      unfold made at e6 ⊢
      dsimp only at e6 ⊢
      refine ⟨?_, ?_, ?_, ?_, ?_⟩
      · intro x hx; rw [hx]; rfl
      · intro n hn
        split
        · rename_i hf
          rw [hf] at t4
          rw [hn] at t4
          simp [takesChannels] at t4
          exact t4.symm
        · rw [hn]; rfl
      · intro f w hw
        have he : r.enc = (f, w) := by unfold Request.enc; rw [hw]; rfl
        unfold madeEncoding
        rw [he]
        split
        · rename_i hf
          split
          · rename_i hx; exact ⟨rfl, Or.inr (Or.inl ⟨hf, hx, rfl⟩)⟩
          · exact ⟨rfl, Or.inl rfl⟩
        · rename_i hf
          split
          · rename_i hx; exact ⟨rfl, Or.inr (Or.inr ⟨hf, hx.2, rfl⟩)⟩
          · exact ⟨rfl, Or.inl rfl⟩
        · rename_i hf
          rw [hf, hw] at t1
          simp [takesEncoding] at t1
          simp [t1]
        · exact ⟨rfl, Or.inl rfl⟩
      · intro c hc
        split
        · rename_i hf
          rw [hf, hc] at t2
          simp [takesCompression] at t2
          exact t2.symm
        · unfold Request.comp; rw [hc]; rfl
      · intro o hx
        rcases e6 with e6 | e6
        · by_cases hF : r.format = .flac
          · exact Or.inr (Or.inr (Or.inr (Or.inl hF)))
          by_cases hS : r.format = .smp
          · exact Or.inr (Or.inr (Or.inl hS))
          rw [if_neg hF] at e6
          have hoc : r.order.getD (hostOrder h) = o := by rw [hx]; rfl
          by_cases hc : r.comp = 0
          · rw [if_pos (Or.inl hc)] at e6
            unfold takesOrder at t3
            rw [hx] at t3
            cases hf : r.format <;> simp only [hf, prescribed] at e6 t3 <;>
              first
              | exact Or.inl (e6.trans hoc)
              | skip
            all_goals
              try simp [hc] at t3
              unfold madeEncoding
              simp only [hf]
            all_goals simp_all
            all_goals grind
          · rw [if_neg (by simp [hc, hS])] at e6
            exact Or.inl (e6.trans hoc)
        · refine Or.inr (Or.inr (Or.inr ?_))
          split
          · exact Or.inl ‹_›
          · exact Or.inr e6

  · cases ho

/-- C73: a file that was opened can be written: the sound has a positive rate and number of channels, a legal width, a byte order and a
compression type there is, and the codec takes it. -/
theorem C73_usable (flac : Bool) (h : Endian) (ops : List Setup.Op) (m : Made)
    (ho : outcomeOf (create flac h (Setup.run (newSetup h) ops)) = .opened m) :
    0 < m.rate ∧ 1 ≤ m.channels ∧
    (((m.sampleFormat = 401 ∨ m.sampleFormat = 402) ∧ 1 ≤ m.sampleWidth ∧ m.sampleWidth ≤ 32) ∨
      (m.sampleFormat = 403 ∧ m.sampleWidth = 32) ∨ (m.sampleFormat = 404 ∧ m.sampleWidth = 64)) ∧
    (m.order = 501 ∨ m.order = 502) ∧ m.compression ∈ [(0 : Int), 502, 503, 519, 523, 530, 540] ∧ codecTakes flac h m = true := by
  obtain ⟨tr, ht, hr⟩ := (run_holds h ops).track
  rw [C73_create] at ho
  generalize Request.after h ops = r at *
  unfold outcome at ho
  split at ho
  · rename_i hc
    split at ho
    · cases ho
    · obtain ⟨hF, ⟨t1, t2, t3, t4, -⟩, hk⟩ := hc
      simp only [Outcome.opened.injEq] at ho
      have hrate := hr.ratePos
      rw [hr.rate] at hrate
      have hch := hr.channelsPos
      rw [hr.channels] at hch
      have hl := hr.legal
      have hor := hr.orderLegal
      rw [hr.order] at hor
      have hco := hr.compLegal
      have hhost : hostOrder h = 501 ∨ hostOrder h = 502 := by cases h <;> simp [hostOrder]
      have horder : (made h r).order = 501 ∨ (made h r).order = 502 := by
        unfold made
        dsimp only
        split
        · exact hhost
        · split
          · rename_i o hx
            split at hx
            · cases hf : r.format <;> simp [hf, prescribed] at hx <;> omega
            · cases hx
          · exact hor
      have hcomp : (made h r).compression ∈ [(0 : Int), 502, 503, 519, 523, 530, 540] := by
        unfold made
        dsimp only
        split
        · decide
        · exact hco
      have hlegal : ((((made h r).sampleFormat = 401 ∨ (made h r).sampleFormat = 402) ∧ 1 ≤ (made h r).sampleWidth ∧ (made h r).sampleWidth ≤ 32) ∨
          ((made h r).sampleFormat = 403 ∧ (made h r).sampleWidth = 32) ∨ ((made h r).sampleFormat = 404 ∧ (made h r).sampleWidth = 64)) := by
        show ((((madeEncoding r).1 = 401 ∨ (madeEncoding r).1 = 402) ∧ 1 ≤ (madeEncoding r).2 ∧ (madeEncoding r).2 ≤ 32) ∨
          ((madeEncoding r).1 = 403 ∧ (madeEncoding r).2 = 32) ∨ ((madeEncoding r).1 = 404 ∧ (madeEncoding r).2 = 64))
        unfold madeEncoding
        split
        · split
          · dsimp only; omega
          · exact hl
        · split
          · dsimp only; split <;> omega
          · exact hl
        · dsimp only; omega
        · exact hl
      have hchan : 1 ≤ (made h r).channels := by
        unfold made
        dsimp only
        split
        · omega
        · exact hch
      subst ho
      split
      · rename_i h540
        refine ⟨hrate, hchan, hlegal, hhost, hcomp, ?_⟩
        have : (made h r).compression = 540 := by
          show (if r.format = .flac then 530 else r.comp) = 540
          rw [if_neg, h540]
          intro hf
          rw [hf] at t2
          have hx : r.compression = some 540 := by
            unfold Request.comp at h540
            cases hy : r.compression with
            | none => rw [hy] at h540; cases h540
            | some v => rw [hy] at h540; simp at h540; rw [h540]
          rw [hx] at t2
          cases t2
        unfold codecTakes at hk ⊢
        dsimp only
        rw [this] at hk ⊢
        exact hk
      · exact ⟨hrate, hchan, hlegal, horder, hcomp, hk⟩
  · cases ho

/-- C73: opening a file for writing is defined unless a raw file is to be compressed in blocks or packets. -/
theorem C73_defined (flac : Bool) (h : Endian) (ops : List Setup.Op) (hr : (Request.after h ops).format ≠ .raw) :
    ∃ o, create flac h (Setup.run (newSetup h) ops) = .ok o := by
  have e := C73_create flac h ops
  cases hc : create flac h (Setup.run (newSetup h) ops) with
  | ok o => exact ⟨o, rfl⟩
  | error a =>
    rw [hc] at e
    unfold outcome at e
    split at e
    · rw [if_neg (fun x => hr x.1)] at e; cases e
    · cases e

/-- C73, negation: a raw file in IMA ADPCM is not refused: every check passes, the codec finds no parameters, and the size of its chunks
is read from memory nobody has set. -/
theorem C73_negation_raw_blocks (flac : Bool) (h : Endian) (c : Int) (hc : c = 519 ∨ c = 523 ∨ c = 540) :
    create flac h (Setup.run (newSetup h) [.fileFormat 0, .channels 1001 1, .compression 1001 c]) = .error .uninitialised := by
  rcases hc with rfl | rfl | rfl <;> cases h <;> cases flac <;> decide +kernel

/-! ## Examples -/

/-- mono, 24 bits, AIFF -/
def createMono24 : List Setup.Op :=
  [.fileFormat 2, .channels 1001 1, .sampleFormat 1001 401 24, .rate 1001 48000, .markIDs 1001 [1, 2], .instIDs [5], .miscIDs [7], .miscType 7 203]

example : outcome false .little (Request.after .little createMono24) =
    .opened { rate := 48000, sampleFormat := 401, sampleWidth := 24, order := 501, channels := 1, compression := 0 } := by decide +kernel
example : outcomeOf (create false .little (Setup.run (newSetup .little) createMono24)) =
    .opened { rate := 48000, sampleFormat := 401, sampleWidth := 24, order := 501, channels := 1, compression := 0 } := by decide +kernel

/-- the same as WAVE: the miscellaneous type 203 and the markers are fine there too -/
example : outcome true .big (Request.after .big (createMono24 ++ [.fileFormat 4])) =
    .opened { rate := 48000, sampleFormat := 401, sampleWidth := 24, order := 502, channels := 1, compression := 0 } := by decide +kernel

/-- 8-bit u-law: the NeXT format takes it, the codec does not -/
example : formatTakes (Request.after .little [.fileFormat 3, .sampleFormat 1001 401 8, .compression 1001 502]) ∧
    outcome true .little (Request.after .little [.fileFormat 3, .sampleFormat 1001 401 8, .compression 1001 502]) = .refused := by
  constructor <;> decide +kernel

/-- A WAVE file with signed 8-bit samples holds unsigned ones. -/
example : outcome true .little (Request.after .little [.fileFormat 4, .sampleFormat 1001 401 8]) =
    .opened { rate := 44100, sampleFormat := 402, sampleWidth := 8, order := 502, channels := 2, compression := 0 } := by decide +kernel

/-- FLAC needs FLAC. -/
example : outcome true .little (Request.after .little [.fileFormat 16]) =
    .opened { rate := 44100, sampleFormat := 401, sampleWidth := 16, order := 502, channels := 2, compression := 530 } ∧
    outcome false .little (Request.after .little [.fileFormat 16]) = .refused := by constructor <;> decide +kernel

end AF.Create
