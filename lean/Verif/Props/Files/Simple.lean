import Verif.Proof.Files.Simple
import Verif.Props.Setup
/-!
# C32, C33, C49: NeXT/Sun, AVR and IRCAM files read back as they were written

A file is written by a program that made any calls `ops` on a new setup, opened a file with it (which gave the track
the format `f`), wrote data and synced in any order (`evs`), and closed the file. It is opened again on a host of
another or the same byte order. `SameSound` (Verif/Spec/Files.lean) says what "the same" means.
-/
namespace AF.Files
open AF AF.Setup AF.Spec.Files

/-- What opening tells about the caller's track. -/
theorem opened {h : Endian} {ops : List Op} {s' : Setup} {o : Opened} {f : AFmt}
    (ho : openWrite h (run (newSetup h) ops) = (s', some o)) (hf : o.f = [f]) :
    ∃ tr, (run (newSetup h) ops).tracks = [tr] ∧ tr.id = DEFAULT_TRACK ∧ Legal tr.f ∧ Flags tr ∧ Legal f ∧
      complete h (run (newSetup h) ops) = (s', some (completed (run (newSetup h) ops) tr f)) := by
  have hi : Inv (run (newSetup h) ops) := foldl_inv (newSetup_inv h)
  have hl : LegalS (run (newSetup h) ops) := run_legal (newSetup_legal h)
  have hF : FlagsS (run (newSetup h) ops) := run_flags (newSetup_flags h)
  obtain ⟨tr, f', ht, hid, hs, -, hf', hc⟩ := openWrite_some hi ho
  rw [hf'] at hf
  obtain rfl : f' = f := by simpa using hf
  refine ⟨tr, ht, hid, hl tr (by rw [ht]; simp), hF tr (by rw [ht]; simp), ?_, hc⟩
  have := complete_pred closed_legal h hi hl
  rw [hc, hs] at this
  exact this { tr with f := f' } (by simp [setF])

/-! ## C32 -/

/-- C32: every NeXT/Sun file with data in it reads back as it was written, with the rate rounded down to a whole number, for rates and
sizes that the 32-bit header fields hold. -/
theorem C32_next_roundtrip (h h' : Endian) (ops : List Op) (s' : Setup) (o : Opened) (f : AFmt)
    (hfmt : (run (newSetup h) ops).fileFormat = .next)
    (ho : openWrite h (run (newSetup h) ops) = (s', some o)) (hf : o.f = [f])
    (hr : f.rate < 2 ^ 32) (hch : f.channels < 2 ^ 31)
    (evs : List Ev) (hn : (dataOf evs).length = framesOf evs * bytesPerFrame f) (hd : dataOf evs ≠ [])
    (hsz : (dataOf evs).length < 2 ^ 32 - 1) :
    ∃ t p, nextRead h' (session (nextUpdate h) (nextInit h f) evs) 0 = .ok (t, p) ∧
      SameSound (wholeRate f) (dataOf evs) (framesOf evs) (session (nextUpdate h) (nextInit h f) evs) t := by
  obtain ⟨tr, ht, hid, hl, -, hlf, hc⟩ := opened ho hf
  obtain ⟨r, r1, r2⟩ := rate_nat hlf
  obtain ⟨h1, h2, h3, h4, -⟩ := next_accepted ht hid hl hfmt hc
  exact next_same h h' hlf h1 h2 h3 h4 r r1 r2 (rate_lt r1 (by exact_mod_cast hr)) hch evs hn hd hsz

/-- C32: a NeXT/Sun file without data does not: opening it reports 2^32 - 4 bytes of data, whatever the setup. -/
theorem C32_empty_file (h h' : Endian) (ops : List Op) (s' : Setup) (o : Opened) (f : AFmt)
    (hfmt : (run (newSetup h) ops).fileFormat = .next)
    (ho : openWrite h (run (newSetup h) ops) = (s', some o)) (hf : o.f = [f]) (hch : f.channels < 2 ^ 31)
    (evs : List Ev) (hd : dataOf evs = []) :
    ∃ t p, nextRead h' (session (nextUpdate h) (nextInit h f) evs) 0 = .ok (t, p) ∧ t.dataSize = 2 ^ 32 - 4 := by
  obtain ⟨tr, ht, hid, hl, -, hlf, hc⟩ := opened ho hf
  obtain ⟨h1, h2, h3, h4, -⟩ := next_accepted ht hid hl hfmt hc
  obtain ⟨t, d, he, hf, hfirst, hds, hh, hz⟩ := next_file h f evs
  have hch0 := hlf.channels
  rw [hz hd] at he
  rw [he, nextRead_eq h h' t [] (by rw [hf]; omega), hf, hfirst, hds, hd]
  obtain ⟨g, hg, -⟩ := next_encoding h' (F := AFmt.mk ((toUnsigned f.rate % 2 ^ 32).toNat : Rat) 0 0 BIG ⟨0, 0, 0, 0⟩
    (wrapS 32 (f.channels % 2 ^ 32).toNat) NONE) hlf h1 h2 h3 h4 rfl rfl
  dsimp only
  rw [hg]
  refine ⟨_, _, rfl, ?_⟩
  rw [(computeTotalFileFrames_rest _).2.2]
  dsimp only
  decide

/-- A fresh setup made to write a NeXT file is accepted, and there is such a file with data. -/
def nextExample : List Op := [.fileFormat 3, .channels 1001 1, .rate 1001 8000, .sampleFormat 1001 401 8]

example : ∃ s' o f, openWrite .little (run (newSetup .little) nextExample) = (s', some o) ∧ o.f = [f] ∧
    (run (newSetup .little) nextExample).fileFormat = .next ∧ f.rate < 2 ^ 32 ∧ f.channels < 2 ^ 31 ∧
    (dataOf [.data [1, 2, 3] 3, .sync, .data [4] 1]).length =
      framesOf [.data [1, 2, 3] 3, .sync, .data [4] 1] * bytesPerFrame f := by
  refine ⟨_, _, _, rfl, rfl, ?_⟩
  decide +kernel

/-! ## C33 -/

/-- C33: every AVR file with one or two channels and a rate below 2^24 reads back as it was written, with the rate rounded down to a
whole number. -/
theorem C33_avr_roundtrip (h h' : Endian) (name : List Byte) (ops : List Op) (s' : Setup) (o : Opened) (f : AFmt)
    (hfmt : (run (newSetup h) ops).fileFormat = .avr)
    (ho : openWrite h (run (newSetup h) ops) = (s', some o)) (hf : o.f = [f])
    (hr : f.rate < 2 ^ 24) (hch : f.channels ≤ 2)
    (evs : List Ev) (hn : (dataOf evs).length = framesOf evs * bytesPerFrame f) (hsz : framesOf evs < 2 ^ 32) :
    ∃ t p, avrRead h' (session (avrUpdate h) (avrInit h name f) evs) 0 = .ok (t, p) ∧
      SameSound (wholeRate f) (dataOf evs) (framesOf evs) (session (avrUpdate h) (avrInit h name f) evs) t := by
  obtain ⟨tr, ht, hid, hl, -, hlf, hc⟩ := opened ho hf
  obtain ⟨r, r1, r2⟩ := rate_nat hlf
  obtain ⟨h1, h2, h3, h4, -⟩ := avr_accepted ht hid hfmt hc
  exact avr_same h h' name hlf h1 h2 h3 h4 r r1 r2 (rate_lt r1 (by exact_mod_cast hr)) hch evs hn hsz

/-- C33: an accepted setup with more than two channels is written as a file that reads back as stereo, and a rate of
2^24 or more loses its upper bits. -/
theorem C33_lost (h h' : Endian) (name : List Byte) (ops : List Op) (s' : Setup) (o : Opened) (f : AFmt)
    (hfmt : (run (newSetup h) ops).fileFormat = .avr)
    (ho : openWrite h (run (newSetup h) ops) = (s', some o)) (hf : o.f = [f])
    (evs : List Ev) :
    ∃ t p, avrRead h' (session (avrUpdate h) (avrInit h name f) evs) 0 = .ok (t, p) ∧
      (2 < f.channels → t.f.channels = 2) ∧ (2 ^ 24 ≤ f.rate → t.f.rate < 2 ^ 24) := by
  obtain ⟨tr, ht, hid, hl, -, hlf, hc⟩ := opened ho hf
  obtain ⟨h1, h2, h3, h4, -⟩ := avr_accepted ht hid hfmt hc
  obtain ⟨r, r1, r2⟩ := rate_nat hlf
  obtain ⟨R, he, -⟩ := avr_file h name f evs
  rw [he]
  obtain ⟨t, p, h5, h6, h7, -⟩ := avr_read h h' name hlf h1 h2 r r1 (framesOf evs) _ R
  refine ⟨t, p, h5, fun hc => by rw [h7, if_neg (by omega)], fun hr2 => ?_⟩
  rw [h6]
  have : r % 2 ^ 24 < 2 ^ 24 := Nat.mod_lt _ (by decide)
  exact_mod_cast this

def avrExample (channels : Int) : List Op := [.fileFormat 9, .channels 1001 channels]

example : ∃ s' o f, openWrite .little (run (newSetup .little) (avrExample 2)) = (s', some o) ∧ o.f = [f] ∧
    (run (newSetup .little) (avrExample 2)).fileFormat = .avr ∧ f.rate < 2 ^ 24 ∧ f.channels ≤ 2 ∧
    (dataOf [.data [1, 2, 3, 4] 1, .sync, .data [4, 5, 6, 7] 1]).length =
      framesOf [.data [1, 2, 3, 4] 1, .sync, .data [4, 5, 6, 7] 1] * bytesPerFrame f := by
  refine ⟨_, _, _, rfl, rfl, ?_⟩
  decide +kernel

/-- Six channels are accepted. -/
example : ∃ s' o f, openWrite .little (run (newSetup .little) (avrExample 6)) = (s', some o) ∧ o.f = [f] ∧
    f.rate = (44100 : Nat) ∧ 2 < f.channels := by
  refine ⟨_, _, _, rfl, rfl, ?_⟩
  decide +kernel

/-! ## C49 -/

/-- C49: every IRCAM file reads back as it was written, on any host, with the rate rounded to a `float` (`F` is the conversion
between `double` and `float`) and with the writing host's byte order in place of the one that was asked for. -/
theorem C49_ircam_roundtrip (F : Float32) (h h' : Endian) (ops : List Op) (s' : Setup) (o : Opened) (f : AFmt)
    (hfmt : (run (newSetup h) ops).fileFormat = .ircam)
    (ho : openWrite h (run (newSetup h) ops) = (s', some o)) (hf : o.f = [f])
    (evs : List Ev) (hn : (dataOf evs).length = framesOf evs * bytesPerFrame f) (hsz : (dataOf evs).length < 2 ^ 63) :
    ∃ s t p, ircamInit F h f = some s ∧ ircamRead F h' (session ircamUpdate s evs) 0 = .ok (t, p) ∧
      SameSound { f with byteOrder := native h, rate := F.dec (F.enc f.rate) }
        (dataOf evs) (framesOf evs) (session ircamUpdate s evs) t := by
  obtain ⟨tr, ht, hid, hl, hF, hlf, hc⟩ := opened ho hf
  obtain ⟨-, h1, h2, h3, h4⟩ := ircam_accepted ht hid hF hfmt hc
  exact ircam_read F h h' hlf h1 h2 h4 h3 evs hn hsz

/-- C49: with the other byte order, which is accepted, a file of wider samples is read back with its bytes swapped:
the reported byte order is not the one the data was written in. -/
theorem C49_foreign_order_lost (F : Float32) (h h' : Endian) (ops : List Op) (s' : Setup) (o : Opened) (f : AFmt)
    (hfmt : (run (newSetup h) ops).fileFormat = .ircam)
    (ho : openWrite h (run (newSetup h) ops) = (s', some o)) (hf : o.f = [f])
    (hord : f.byteOrder ≠ native h) (hu : f.compression = NONE)
    (hw : 8 < f.sampleWidth)
    (evs : List Ev) (hn : (dataOf evs).length = framesOf evs * bytesPerFrame f) (hsz : (dataOf evs).length < 2 ^ 63) :
    ∃ s t p, ircamInit F h f = some s ∧ ircamRead F h' (session ircamUpdate s evs) 0 = .ok (t, p) ∧
      audio (session ircamUpdate s evs) t = dataOf evs ∧ t.f.byteOrder ≠ f.byteOrder := by
  obtain ⟨tr, ht, hid, hl, hF, hlf, hc⟩ := opened ho hf
  obtain ⟨-, h1, h2, h3, h4⟩ := ircam_accepted ht hid hF hfmt hc
  obtain ⟨s, t, p, a, b, c⟩ := ircam_read F h h' hlf h1 h2 h4 h3 evs hn hsz
  refine ⟨s, t, p, a, b, c.audio, ?_⟩
  rw [(c.sample hu).2.2 hw]
  exact fun e => hord e.symm

def ircamExample (order : Int) : List Op := [.fileFormat 5, .byteOrder 1001 order]

example (order : Int) (ho : order = LITTLE ∨ order = BIG) :
    ∃ s' o f, openWrite .little (run (newSetup .little) (ircamExample order)) = (s', some o) ∧ o.f = [f] ∧
    (run (newSetup .little) (ircamExample order)).fileFormat = .ircam ∧ f.byteOrder = order ∧ f.compression = NONE ∧
    8 < f.sampleWidth ∧ (dataOf [.data [1, 2, 3, 4] 1, .sync]).length =
      framesOf [.data [1, 2, 3, 4] 1, .sync] * bytesPerFrame f := by
  rcases ho with rfl | rfl <;>
  · refine ⟨_, _, _, rfl, rfl, ?_⟩
    decide +kernel

end AF.Files
