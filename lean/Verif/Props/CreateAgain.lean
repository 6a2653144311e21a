import Verif.Props.Create
import Verif.Proof.CreateAgain
/-!
# C74: using a setup again

A batch program makes one setup and opens many files with it. The library completes the caller's setup in place, so the second file is
opened with a setup that is not the one the program made.
-/
namespace AF.Create
open AF AF.Spec.Create
open AF.Setup (newSetup FileFormat)

theorem used_again (flac : Bool) (h : Endian) (ops : List Setup.Op) :
    complete flac h (used flac h (Setup.run (newSetup h) ops)) = complete flac h (Setup.run (newSetup h) ops) ∧
      (used flac h (Setup.run (newSetup h) ops)).fileFormat = (Setup.run (newSetup h) ops).fileFormat := by
  have hs := run_holds h ops
  have hinv : Setup.Inv (Setup.run (newSetup h) ops) := Setup.foldl_inv (Setup.newSetup_inv h)
  obtain ⟨tr, ht, hr⟩ := hs.track
  have k := known hr
  have o := oneTrack ht hr.id
  generalize Setup.run (newSetup h) ops = s at *
  unfold used complete
  by_cases hF : s.fileFormat = .flac
  · simp only [if_pos hF]
    cases flac
    · simp [hF]
    · simp only [if_true]
      have e : (FLAC.completeFLAC h s).1.fileFormat = .flac := by
        unfold FLAC.completeFLAC
        rw [o.h1]
        dsimp only
        simp only [o.hw]
        repeat' split
        all_goals exact hF
      rw [if_pos e]
      exact ⟨flac_again o k, e.trans hF.symm⟩
  · simp only [if_neg hF]
    obtain ⟨f, e1, -⟩ := Setup.complete_shape h ht hr.id hinv
    have e2 : (Setup.complete h s).1.fileFormat = s.fileFormat := by rw [e1]; rfl
    rw [if_neg (by rw [e2]; exact hF)]
    have key : ∀ q, q.fileFormat = s.fileFormat → Setup.complete h q = match s.fileFormat with
        | .raw => Setup.completeRaw q
        | .aiff | .aiffc => Setup.completeAIFF q
        | .next => Setup.completeNeXT q
        | .wave => Setup.completeWAVE q
        | .ircam => Setup.completeIRCAM q
        | .avr => Setup.completeAVR q
        | .iff => Setup.completeIFF q
        | .smp => Setup.completeSMP q
        | .voc => Setup.completeVOC q
        | .nist => Setup.completeNIST q
        | .caf => Setup.completeCAF h q
        | .mpeg1 | .sd1 | .sd2 | .sf2 | .flac => (q, none) := by
      intro q hq
      unfold Setup.complete
      rw [hq]
      cases s.fileFormat <;> rfl
    refine ⟨?_, e2⟩
    rw [key _ e2, key s rfl]
    cases s.fileFormat <;> dsimp only
    case aiff => exact aiff_again o k
    case aiffc => exact aiff_again o k
    case next => exact next_again o k
    case wave => exact wave_again o k
    case avr => exact avr_again o k
    case iff => exact iff_again o k
    case smp => exact smp_again o k
    case voc => exact voc_again o k
    case caf => exact caf_again o k
    case raw =>
      have : (Setup.completeRaw s).1 = s := by unfold Setup.completeRaw; rw [o.h1]; dsimp only; split <;> rfl
      rw [this]
    case ircam =>
      have : (Setup.completeIRCAM s).1 = s := by unfold Setup.completeIRCAM; rw [o.h1]; dsimp only; repeat' split
                                                 all_goals rfl
      rw [this]
    case nist =>
      have : (Setup.completeNIST s).1 = s := by unfold Setup.completeNIST; rw [o.h1]; dsimp only; repeat' split
                                                all_goals rfl
      rw [this]

/-- The calls on the setup, then `n` files. -/
def batch (ops : List Setup.Op) (n : Nat) : List Use := ops.map .call ++ List.replicate n .file

theorem uses_calls (flac : Bool) (h : Endian) (l : List Use) (ops : List Setup.Op) (s : Setup.Setup) :
    uses flac h s (ops.map .call ++ l) = uses flac h (Setup.run s ops) l := by
  induction ops generalizing s with
  | nil => rfl
  | cons op ops ih => exact ih (Setup.step s op)

theorem uses_files (flac : Bool) (h : Endian) (n : Nat) (s : Setup.Setup) (hc : complete flac h (used flac h s) = complete flac h s)
    (hf : (used flac h s).fileFormat = s.fileFormat) :
    uses flac h s (List.replicate (n + 1) .file) = (used flac h s, List.replicate (n + 1) (create flac h s)) := by
  induction n generalizing s with
  | zero => rfl
  | succ n ih =>
    have e : used flac h (used flac h s) = used flac h s := by unfold used at hc ⊢; rw [hc]
    have e' : create flac h (used flac h s) = create flac h s := by unfold create; rw [hc, hf]
    show ((uses flac h (used flac h s) (List.replicate (n + 1) .file)).1,
      create flac h s :: (uses flac h (used flac h s) (List.replicate (n + 1) .file)).2) = _
    rw [ih (used flac h s) (by rw [e]) (by rw [e]), e, e', List.replicate_succ (n := n + 1)]

/-- C74: a setup can be used for any number of files: whatever calls were made on it, if none is made between the files then each of
them is what the first one is, to the last detail of its format, and the setup does not change any more after the first. -/
theorem C74_again (flac : Bool) (h : Endian) (ops : List Setup.Op) (n : Nat) :
    uses flac h (newSetup h) (batch ops (n + 1)) =
      ((uses flac h (newSetup h) (batch ops 1)).1, List.replicate (n + 1) (create flac h (Setup.run (newSetup h) ops))) := by
  obtain ⟨hc, hf⟩ := used_again flac h ops
  unfold batch
  rw [uses_calls, uses_calls, uses_files flac h n _ hc hf, uses_files flac h 0 _ hc hf]

/-- C74: so every file of the batch is as the table of C73 says. -/
theorem C74_batch (flac : Bool) (h : Endian) (ops : List Setup.Op) (n : Nat) :
    ((uses flac h (newSetup h) (batch ops (n + 1))).2.map outcomeOf) = List.replicate (n + 1) (outcome flac h (Request.after h ops)) := by
  rw [C74_again]
  simp only [List.map_replicate, C73_create]

/-! ## What a file leaves behind in the setup -/

/-- C74, negation: after an AIFF file, made with a setup on which nothing was asked for but the format, a raw file made with the same
setup on a little-endian host has big-endian samples; without the AIFF file it would have little-endian ones. -/
theorem C74_negation_byte_order (flac : Bool) :
    (uses flac .little (newSetup .little) [.call (.fileFormat 2), .file, .call (.fileFormat 0), .file]).2.map outcomeOf =
      [.opened { rate := 44100, sampleFormat := 401, sampleWidth := 16, order := 501, channels := 2, compression := 0 },
        .opened { rate := 44100, sampleFormat := 401, sampleWidth := 16, order := 501, channels := 2, compression := 0 }] ∧
    (uses flac .little (newSetup .little) [.call (.fileFormat 2), .call (.fileFormat 0), .file]).2.map outcomeOf =
      [.opened { rate := 44100, sampleFormat := 401, sampleWidth := 16, order := 502, channels := 2, compression := 0 }] := by
  cases flac <;> constructor <;> decide +kernel

/-- C74, negation: after it, u-law is refused. -/
theorem C74_negation_ulaw_after (flac : Bool) :
    (uses flac .little (newSetup .little) [.call (.fileFormat 3), .file, .call (.compression 1001 502), .file]).2.map outcomeOf =
      [.opened { rate := 44100, sampleFormat := 401, sampleWidth := 16, order := 501, channels := 2, compression := 0 }, .refused] ∧
    (uses flac .little (newSetup .little) [.call (.fileFormat 3), .call (.compression 1001 502), .file]).2.map outcomeOf =
      [.opened { rate := 44100, sampleFormat := 401, sampleWidth := 16, order := 502, channels := 2, compression := 502 }] := by
  cases flac <;> constructor <;> decide +kernel

/-- C74, negation: after an IFF/8SVX file, a NeXT file is 8 bits and mono instead of 16 bits and stereo. -/
theorem C74_negation_iff_then_next (flac : Bool) (h : Endian) :
    (uses flac h (newSetup h) [.call (.fileFormat 10), .file, .call (.fileFormat 3), .file]).2.map outcomeOf =
      [.opened { rate := 44100, sampleFormat := 401, sampleWidth := 8, order := 501, channels := 1, compression := 0 },
        .opened { rate := 44100, sampleFormat := 401, sampleWidth := 8, order := 501, channels := 1, compression := 0 }] ∧
    (uses flac h (newSetup h) [.call (.fileFormat 10), .call (.fileFormat 3), .file]).2.map outcomeOf =
      [.opened { rate := 44100, sampleFormat := 401, sampleWidth := 16, order := 501, channels := 2, compression := 0 }] := by
  cases flac <;> cases h <;> constructor <;> decide +kernel

/-- C74, negation: after a FLAC file, an AIFF file is refused although no compression was ever asked for. -/
theorem C74_negation_flac_then_aiff (h : Endian) :
    (uses true h (newSetup h) [.call (.fileFormat 16), .file, .call (.fileFormat 2), .file]).2.map outcomeOf =
      [.opened { rate := 44100, sampleFormat := 401, sampleWidth := 16, order := hostOrder h, channels := 2, compression := 530 }, .refused] ∧
    (uses true h (newSetup h) [.call (.fileFormat 16), .call (.fileFormat 2), .file]).2.map outcomeOf =
      [.opened { rate := 44100, sampleFormat := 401, sampleWidth := 16, order := 501, channels := 2, compression := 0 }] := by
  cases h <;> constructor <;> decide +kernel

/-- Three WAVE files with signed 8-bit samples: the first open makes the setup's samples unsigned, and it goes on working. -/
example : (uses true .little (newSetup .little) (batch [.fileFormat 4, .sampleFormat 1001 401 8] 3)).2.map outcomeOf =
    List.replicate 3 (.opened { rate := 44100, sampleFormat := 402, sampleWidth := 8, order := 502, channels := 2, compression := 0 }) := by
  decide +kernel

end AF.Create
