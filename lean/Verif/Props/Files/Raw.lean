import Verif.Proof.Files.Raw
import Verif.Props.Setup
import Verif.Props.Files.Formats
/-!
# C63: raw files

A raw file is opened for reading with a setup that says what is in it. A program that made any calls `ops` on a new setup wrote the
file with it, and opens it again with the same setup.
-/
namespace AF.Files
open AF AF.Setup AF.Spec.Files

/-- What completing a setup for a raw file gives. -/
theorem completeRaw_some {h : Endian} {ops : List Op} {tr : TrackSetup} (ht : (run (newSetup h) ops).tracks = [tr]) {c : Setup}
    (hc : (completeRaw (run (newSetup h) ops)).2 = some c) : c.tracks.head? = some { tr with markers := [] } := by
  unfold completeRaw at hc
  split at hc
  · cases hc
  · split at hc
    · cases hc
    · cases hc
      rw [ht]
      rfl

/-- The tracks of setups. -/
theorem raw_track (h : Endian) (ops : List Op) : ∃ tr, (run (newSetup h) ops).tracks = [tr] ∧ Legal tr.f ∧ 0 ≤ rawFirst tr ∧ 0 ≤ tr.frameCount := by
  have hi : Inv (run (newSetup h) ops) := foldl_inv (newSetup_inv h)
  have hl : LegalS (run (newSetup h) ops) := run_legal (newSetup_legal h)
  have ho : Offsets (run (newSetup h) ops) := run_offsets (newSetup_offsets h)
  obtain ⟨tr, ht, hid⟩ := hi.track
  have h1 := ho tr (by rw [ht]; simp)
  refine ⟨tr, ht, hl tr (by rw [ht]; simp), ?_, h1.2⟩
  unfold rawFirst
  split
  · exact h1.1
  · exact Int.le_refl _

/-- What opening for writing tells. -/
theorem rawOpenWrite_ok {h : Endian} {ops : List Op} {tr : TrackSetup} (ht : (run (newSetup h) ops).tracks = [tr]) {st : Disk × Trk × Unit}
    (how : rawOpenWrite h (run (newSetup h) ops) = .ok st) :
    (∃ c, (completeRaw (run (newSetup h) ops)).2 = some c) ∧ st = rawInit tr ∧ codecCheck h tr.f = some tr.f ∧
      (tr.f.compression = NONE ∨ tr.f.compression = ULAW ∨ tr.f.compression = ALAW) := by
  unfold rawOpenWrite at how
  cases hc : (completeRaw (run (newSetup h) ops)).2 with
  | none => rw [hc] at how; cases how
  | some c =>
    rw [hc] at how
    dsimp only at how
    rw [completeRaw_some ht hc] at how
    dsimp only at how
    cases hk : codecCheck h tr.f with
    | none => rw [hk] at how; cases how
    | some f =>
      rw [hk] at how
      dsimp only at how
      obtain ⟨hf, -⟩ := codecCheck_some hk
      split at how
      · rename_i hp
        have : f = tr.f := by
          rcases hf with hf | ⟨hf, rfl⟩
          · exact hf
          · dsimp only at hp
            simp only [hf, NONE, ULAW, ALAW, ALAC] at hp
            omega
        subst this
        refine ⟨⟨c, rfl⟩, ?_, rfl, hp⟩
        cases how
        rfl
      · cases how

/-- `rawOpen` with the parts that always go well done. -/
theorem rawOpen_eq {h h' : Endian} {ops : List Op} {tr : TrackSetup} (ht : (run (newSetup h) ops).tracks = [tr]) {c : Setup}
    (hc : (completeRaw (run (newSetup h) ops)).2 = some c) :
    rawOpen h' (run (newSetup h) ops) = (do
      let t ← rawRead tr
      match codecCheck h' t.f with
      | none => Rd.fail
      | some f =>
        rawCodec f
        return { t with f := f }) := by
  unfold rawOpen
  rw [hc]
  dsimp only
  rw [completeRaw_some ht hc]
  rfl

/-- C63: a raw file reads back as it was written, with the same setup: format, frame count and samples, at the data offset. (The
setup does not fix the frame count. G.711 samples need a setup of the host's byte order, so the host is of the same byte order.) -/
theorem C63_raw_roundtrip (h h' : Endian) (ops : List Op) (st : Disk × Trk × Unit) (how : rawOpenWrite h (run (newSetup h) ops) = .ok st)
    (hh : st.2.1.f.compression ≠ NONE → h' = h) (hfc : ∀ tr ∈ (run (newSetup h) ops).tracks, tr.frameCountSet = false)
    (hsm : (st.2.1.f.sampleWidth + 7) / 8 * st.2.1.f.channels < 2 ^ 31) (evs : List Ev)
    (hn : (dataOf evs).length = framesOf evs * bytesPerFrame st.2.1.f) (hd : dataOf evs ≠ [] ∨ st.2.1.first = 0) :
    ∃ t p, rawOpen h' (run (newSetup h) ops) (session rawUpdate st evs) 0 = .ok (t, p) ∧
      SameSound st.2.1.f (dataOf evs) (framesOf evs) (session rawUpdate st evs) t ∧ t.f = st.2.1.f ∧ t.first = st.2.1.first := by
  obtain ⟨tr, ht, hl, hoff, -⟩ := raw_track h ops
  obtain ⟨⟨c, hc⟩, hst, hk, hcomp⟩ := rawOpenWrite_ok ht how
  have hst1 : st.2.1 = { Trk.ofFormat tr.f with first := rawFirst tr } := by rw [hst]; rfl
  rw [hst1] at hh hsm hn hd ⊢
  rw [hst, rawOpen_eq ht hc, raw_file tr hoff]
  have hfc' := hfc tr (by rw [ht]; simp)
  change (tr.f.compression ≠ NONE → h' = h) at hh
  change (tr.f.sampleWidth + 7) / 8 * tr.f.channels < 2 ^ 31 at hsm
  change (dataOf evs).length = framesOf evs * bytesPerFrame tr.f at hn
  change dataOf evs ≠ [] ∨ rawFirst tr = 0 at hd
  change ∃ t p, _ ∧ SameSound tr.f _ _ _ t ∧ t.f = tr.f ∧ t.first = rawFirst tr
  have hk' : codecCheck h' tr.f = some tr.f := by
    by_cases hz : tr.f.compression = NONE
    · unfold codecCheck; rw [if_pos hz]
    · rw [hh hz]; exact hk
  obtain ⟨-, hcd, -⟩ := codecCheck_some hk
  have h16 : tr.f.compression ≠ NONE → tr.f.sampleFormat = TWOSCOMP ∧ tr.f.sampleWidth = 16 := by
    intro hz
    rcases hcd with hcd | hcd
    · exact absurd hcd hz
    · cases hcd with
      | pcm c o => exact absurd c hz
      | sixteen c s w o => exact ⟨s, w⟩
      | alac c s w o => simp only [NONE, ULAW, ALAW, ALAC] at *; omega
  obtain ⟨hfb, hfp⟩ := rawFrameBytes_eq hl (by
    rcases hcomp with hz | hz
    · exact .inl hz
    · have := h16 (by simp only [NONE, ULAW, ALAW] at *; omega)
      exact .inr ⟨hz, by omega, by omega⟩)
  have hun : frameSizeUncompressed tr.f false = (tr.f.sampleWidth + 7) / 8 * tr.f.channels := by
    unfold frameSizeUncompressed sampleSizeUncompressed
    congr 1
    rcases hl.sample with ⟨h1, h2, h3⟩ | ⟨h1, h2⟩ | ⟨h1, h2⟩
    · rw [if_neg (by simp only [FLOAT]; omega), if_neg (by simp only [DOUBLE]; omega)]
      simp only [Bool.false_eq_true, and_false, if_false]
      rw [Int.tdiv_eq_ediv_of_nonneg (by omega)]
    · rw [if_pos (by simp only [FLOAT]; omega), h2]; rfl
    · rw [if_neg (by simp only [FLOAT]; omega), if_pos (by simp only [DOUBLE]; omega), h2]; rfl
  generalize hfile : (if dataOf evs = [] then [] else List.replicate (rawFirst tr).toNat 0 ++ dataOf evs) = file
  have hlen : (file.length : Int) = rawFirst tr + (dataOf evs).length := by
    subst hfile
    split
    · rename_i he; rw [he] at hd ⊢; simp at hd ⊢; omega
    · simp; omega
  have haud : file.drop (rawFirst tr).toNat = dataOf evs := by
    subst hfile
    split
    · rename_i he; rw [he]; simp
    · rw [List.drop_left' (by simp)]
  have hrd : rawRead tr file 0 = .ok ({ Trk.ofFormat tr.f with first := rawFirst tr, frames := (framesOf evs : Int), dataSize := ((dataOf evs).length : Int) }, 0) := by
    unfold rawRead
    rw [if_neg (by simp [hfc'])]
    dsimp only
    rw [Rd.bind_ok (a := file.length) (p' := 0) rfl, if_neg (by omega), if_neg (by rw [hun]; omega), hfb]
    have e2 : (file.length : Int) - rawFirst tr = ((dataOf evs).length : Int) := by omega
    rw [e2, hn, Int.natCast_mul, Int.mul_tdiv_cancel _ (by omega)]
    rfl
  refine ⟨{ Trk.ofFormat tr.f with first := rawFirst tr, frames := (framesOf evs : Int), dataSize := ((dataOf evs).length : Int) }, 0, ?_, ?_, rfl, rfl⟩
  · rw [Rd.bind_ok hrd]
    dsimp only [Trk.ofFormat]
    rw [hk']
    dsimp only
    have : rawCodec tr.f = pure () := by unfold rawCodec; rw [if_pos hcomp]
    rw [this, Rd.bind_ok (a := ()) (p' := 0) rfl]
    rfl
  · refine ⟨rfl, rfl, rfl, fun _ => ⟨rfl, rfl, fun _ => rfl⟩, fun hz => h16 hz, rfl, hoff, rfl, ?_⟩
    show (file.drop (rawFirst tr).toNat).take _ = _
    rw [haud]
    exact List.take_length ..

/-- C63: a frame count in the setup is taken at its word, whatever the file contains, and the file is said to have no bytes of data. -/
theorem C63_frame_count (h : Endian) (ops : List Op) (st : Disk × Trk × Unit) (how : rawOpenWrite h (run (newSetup h) ops) = .ok st)
    (tr : TrackSetup) (ht : (run (newSetup h) ops).tracks = [tr]) (hfc : tr.frameCountSet = true) (file : List Byte) (p : Nat) :
    ∃ t, rawOpen h (run (newSetup h) ops) file p = .ok (t, p) ∧ t.frames = tr.frameCount ∧ t.dataSize = 0 := by
  obtain ⟨⟨c, hc⟩, hst, hk, hcomp⟩ := rawOpenWrite_ok ht how
  rw [rawOpen_eq ht hc]
  have hrd : rawRead tr file p = .ok ({ Trk.ofFormat tr.f with first := rawFirst tr, frames := tr.frameCount }, p) := by
    unfold rawRead
    rw [if_pos hfc]
    rfl
  refine ⟨{ Trk.ofFormat tr.f with first := rawFirst tr, frames := tr.frameCount }, ?_, rfl, rfl⟩
  rw [Rd.bind_ok hrd]
  dsimp only [Trk.ofFormat]
  rw [hk]
  dsimp only
  have : rawCodec tr.f = pure () := by unfold rawCodec; rw [if_pos hcomp]
  rw [this, Rd.bind_ok (a := ()) (p' := p) rfl]
  rfl

/-- C63: a raw file with a data offset but without data cannot be opened again: the file is empty, not as long as the offset. -/
theorem C63_empty_with_offset (h h' : Endian) (ops : List Op) (st : Disk × Trk × Unit) (how : rawOpenWrite h (run (newSetup h) ops) = .ok st)
    (hfc : ∀ tr ∈ (run (newSetup h) ops).tracks, tr.frameCountSet = false) (evs : List Ev) (hd : dataOf evs = []) (hoff : 0 < st.2.1.first) :
    rawOpen h' (run (newSetup h) ops) (session rawUpdate st evs) 0 = .error .fail := by
  obtain ⟨tr, ht, hl, ho, -⟩ := raw_track h ops
  obtain ⟨⟨c, hc⟩, hst, hk, hcomp⟩ := rawOpenWrite_ok ht how
  have hfc' := hfc tr (by rw [ht]; simp)
  have hp : 0 < rawFirst tr := by rw [hst] at hoff; exact hoff
  rw [hst, rawOpen_eq ht hc, raw_file tr ho, if_pos hd]
  have hrd : rawRead tr [] 0 = .error .fail := by
    unfold rawRead
    rw [if_neg (by simp [hfc'])]
    dsimp only
    rw [Rd.bind_ok (a := 0) (p' := 0) rfl, if_pos (by simpa using hp)]
    rfl
  rw [Rd.bind_error hrd]

/-- C63: a setup for one channel of G.711 with a sample width of at most 8 bits is accepted, and opening any file with it divides by
zero. -/
theorem C63_divides_by_zero (h h' : Endian) (ops : List Op) (tr : TrackSetup) (ht : (run (newSetup h) ops).tracks = [tr]) (c : Setup)
    (hc : (completeRaw (run (newSetup h) ops)).2 = some c) (hfc : tr.frameCountSet = false)
    (hcomp : tr.f.compression = ULAW ∨ tr.f.compression = ALAW) (hw : tr.f.sampleWidth ≤ 8) (hch : tr.f.channels = 1)
    (file : List Byte) (p : Nat) (hf : rawFirst tr ≤ file.length) : rawOpen h' (run (newSetup h) ops) file p = .error .undefined := by
  obtain ⟨tr', ht', hl, ho, -⟩ := raw_track h ops
  obtain rfl : tr = tr' := by rw [ht] at ht'; simpa using ht'
  have hz : rawFrameBytes tr.f = 0 := by
    unfold rawFrameBytes frameSize frameSizeUncompressed sampleSizeUncompressed
    have hs := hl.sample
    rw [if_neg (by simp only [FLOAT]; omega), if_neg (by simp only [DOUBLE]; omega), hch,
      show compressionUnit tr.f.compression = some 2 from by rcases hcomp with hc | hc <;> rw [hc] <;> decide]
    have e : (tr.f.sampleWidth + 7).tdiv 8 = 1 := by rw [Int.tdiv_eq_ediv_of_nonneg (by omega)]; omega
    simp only [e]
    have : ¬ (tr.f.compression = NONE ∧ (1 : Int) = 3 ∧ false = true) := by simp
    rw [if_neg this]
    decide +kernel
  rw [rawOpen_eq ht hc]
  have hrd : rawRead tr file p = .error .undefined := by
    unfold rawRead
    rw [if_neg (by simp [hfc])]
    dsimp only
    rw [Rd.bind_ok (a := file.length) (p' := p) rfl, if_neg (by omega), if_pos (.inl hz)]
    rfl
  rw [Rd.bind_error hrd]

/-- C63: a setup with IMA or Microsoft ADPCM or ALAC compression that passes all checks leads to undefined behaviour, when writing and
when reading any file (that reaches up to the data offset). -/
theorem C63_block_codecs (h : Endian) (ops : List Op) (tr : TrackSetup) (ht : (run (newSetup h) ops).tracks = [tr]) (c : Setup)
    (hc : (completeRaw (run (newSetup h) ops)).2 = some c)
    (hcomp : tr.f.compression = IMA ∨ tr.f.compression = MSADPCM ∨ tr.f.compression = ALAC) (g : AFmt) (hk : codecCheck h tr.f = some g)
    (file : List Byte) (p : Nat) (hf : rawFirst tr ≤ file.length) :
    rawOpenWrite h (run (newSetup h) ops) = .error .undefined ∧ rawOpen h (run (newSetup h) ops) file p = .error .undefined := by
  have hg : ¬ (g.compression = NONE ∨ g.compression = ULAW ∨ g.compression = ALAW) := by
    obtain ⟨h1, -⟩ := codecCheck_some hk
    have : g.compression = tr.f.compression := by rcases h1 with rfl | ⟨-, rfl⟩ <;> rfl
    rw [this]
    simp only [NONE, ULAW, ALAW, IMA, MSADPCM, ALAC] at *
    omega
  constructor
  · unfold rawOpenWrite
    rw [hc]
    dsimp only
    rw [completeRaw_some ht hc]
    dsimp only
    rw [hk]
    dsimp only
    rw [if_neg hg]
  · rw [rawOpen_eq ht hc]
    cases hrd : rawRead tr file p with
    | ok r =>
      obtain ⟨t, q⟩ := r
      have hf : t.f = tr.f := by
        unfold rawRead at hrd
        split at hrd
        · cases hrd; rfl
        · rw [Rd.bind_ok (a := file.length) (p' := p) rfl] at hrd
          split at hrd
          · cases hrd
          · split at hrd
            · cases hrd
            · cases hrd; rfl
      rw [Rd.bind_ok hrd, hf, hk]
      dsimp only
      have : rawCodec g = Rd.undefined := by unfold rawCodec; rw [if_neg hg]
      rw [this]
      rfl
    | error e =>
      rw [Rd.bind_error hrd]
      unfold rawRead at hrd
      split at hrd
      · cases hrd
      · rw [Rd.bind_ok (a := file.length) (p' := p) rfl] at hrd
        rw [if_neg (by dsimp only; omega)] at hrd
        split at hrd
        · exact hrd.symm
        · cases hrd

/-! ## The hypotheses can be met -/

def rawExample : List Op := [.fileFormat 0, .channels 1001 1, .sampleFormat 1001 401 16, .byteOrder 1001 501, .dataOffset 1001 100]

example : ∃ st, rawOpenWrite .little (run (newSetup .little) rawExample) = .ok st ∧ st.2.1.f.compression = NONE ∧ st.2.1.f.byteOrder = BIG ∧ st.2.1.first = 100 ∧
    (∀ tr ∈ (run (newSetup .little) rawExample).tracks, tr.frameCountSet = false) ∧ (st.2.1.f.sampleWidth + 7) / 8 * st.2.1.f.channels < 2 ^ 31 ∧
    (dataOf [.data [1, 2] 1, .sync, .data [4, 5] 1]).length = framesOf [.data [1, 2] 1, .sync, .data [4, 5] 1] * bytesPerFrame st.2.1.f := by
  refine ⟨_, rfl, ?_⟩
  decide +kernel

def rawCrash (c w : Int) : List Op := [.fileFormat 0, .channels 1001 1, .sampleFormat 1001 401 w, .compression 1001 c]

example : ∃ tr c, (run (newSetup .little) (rawCrash ULAW 8)).tracks = [tr] ∧ (completeRaw (run (newSetup .little) (rawCrash ULAW 8))).2 = some c ∧
    tr.frameCountSet = false ∧ tr.f.compression = ULAW ∧ tr.f.sampleWidth ≤ 8 ∧ tr.f.channels = 1 ∧ rawFirst tr = 0 := by
  refine ⟨_, _, rfl, rfl, ?_⟩
  decide +kernel

example : ∃ tr c, (run (newSetup .little) (rawCrash IMA 16)).tracks = [tr] ∧ (completeRaw (run (newSetup .little) (rawCrash IMA 16))).2 = some c ∧
    tr.f.compression = IMA ∧ (codecCheck .little tr.f).isSome ∧ rawFirst tr = 0 := by
  refine ⟨_, _, rfl, rfl, ?_⟩
  decide +kernel

end AF.Files
