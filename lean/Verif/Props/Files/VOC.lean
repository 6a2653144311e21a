import Verif.Proof.Files.VOC
import Verif.Props.Files.Simple
/-!
# C36, C38: VOC files
-/
namespace AF.Files
open AF AF.Setup AF.Spec.Files

/-- C36: every VOC file with fewer than 2^24 - 12 bytes of data and fewer than 256 channels reads back as it was written, with the
rate rounded down to a whole number. (Two rounds of the reader's block loop are enough.) -/
theorem C36_voc_roundtrip (h h' : Endian) (ops : List Op) (s' : Setup) (o : Opened) (f : AFmt)
    (hfmt : (run (newSetup h) ops).fileFormat = .voc)
    (ho : openWrite h (run (newSetup h) ops) = (s', some o)) (hf : o.f = [f])
    (hr : f.rate < 2 ^ 32) (hch : f.channels < 256)
    (evs : List Ev) (hn : (dataOf evs).length = framesOf evs * bytesPerFrame f)
    (hsz : (dataOf evs).length + 12 < 2 ^ 24) (fuel : Nat) (hfuel : 2 ≤ fuel) :
    ∃ t p, vocRead h' fuel (session (vocUpdate h) (vocInit h f) evs) 0 = .ok (t, p) ∧
      SameSound (wholeRate f) (dataOf evs) (framesOf evs) (session (vocUpdate h) (vocInit h f) evs) t := by
  obtain ⟨tr, ht, hid, hl, hF, hlf, hc⟩ := opened ho hf
  obtain ⟨h1, h2, h3⟩ := voc_accepted ht hid hF hfmt hc
  obtain ⟨k, rfl⟩ : ∃ k, fuel = k + 2 := ⟨fuel - 2, by omega⟩
  obtain ⟨r, r1, r2⟩ := rate_nat hlf
  exact voc_same h h' hlf h1 h2 h3 hch r r1 r2 (rate_lt r1 (by exact_mod_cast hr)) evs hn hsz k

/-- C36: a larger one never reads back with the size it was written with: the 24-bit size field has wrapped. -/
theorem C36_large_lost (h h' : Endian) (ops : List Op) (s' : Setup) (o : Opened) (f : AFmt)
    (hfmt : (run (newSetup h) ops).fileFormat = .voc)
    (ho : openWrite h (run (newSetup h) ops) = (s', some o)) (hf : o.f = [f])
    (hr : f.rate < 2 ^ 32) (hch : f.channels < 256)
    (evs : List Ev) (hsz : 2 ^ 24 ≤ (dataOf evs).length + 12) (hsz' : (dataOf evs).length < 2 ^ 31)
    (fuel : Nat) (t : Trk) (p : Nat)
    (hread : vocRead h' fuel (session (vocUpdate h) (vocInit h f) evs) 0 = .ok (t, p)) :
    ¬ SameSound (wholeRate f) (dataOf evs) (framesOf evs) (session (vocUpdate h) (vocInit h f) evs) t := by
  obtain ⟨tr, ht, hid, hl, hF, hlf, hc⟩ := opened ho hf
  obtain ⟨h1, h2, h3⟩ := voc_accepted ht hid hF hfmt hc
  intro hss
  obtain ⟨r, r1, r2⟩ := rate_nat hlf
  exact voc_large h h' hlf h1 h2 hch r r1 (rate_lt r1 (by exact_mod_cast hr)) evs hsz hsz' fuel t p hread hss.size

/-- C38: opening a VOC file ends, whatever it contains: a block for every byte is more than enough. -/
theorem C38_voc_terminates (h : Endian) (file : List Byte) (fuel : Nat) (hf : file.length < fuel) :
    vocRead h fuel file 0 ≠ .error .running := (vocRead_ends h file fuel hf).not_running 0

def vocExample : List Op := [.fileFormat 12, .channels 1001 1, .rate 1001 8000, .sampleFormat 1001 402 8]

example : ∃ s' o f, openWrite .little (run (newSetup .little) vocExample) = (s', some o) ∧ o.f = [f] ∧
    (run (newSetup .little) vocExample).fileFormat = .voc ∧ f.rate < 2 ^ 32 ∧ f.channels < 256 ∧
    (dataOf [.data [1, 2, 3] 3, .sync, .data [4] 1]).length =
      framesOf [.data [1, 2, 3] 3, .sync, .data [4] 1] * bytesPerFrame f := by
  refine ⟨_, _, _, rfl, rfl, ?_⟩
  decide +kernel

/-- A large session. -/
example : 2 ^ 24 ≤ (dataOf [.data (List.replicate 16777216 0) 16777216]).length + 12 ∧
    (dataOf [.data (List.replicate 16777216 0) 16777216]).length < 2 ^ 31 := by
  have : (dataOf [.data (List.replicate 16777216 0) 16777216]).length = 16777216 := by
    simp only [dataOf, List.flatMap_cons, List.flatMap_nil, Ev.bytes, List.append_nil, List.length_replicate]
  rw [this]
  omega

end AF.Files
