import Verif.Props.FLAC
import Mathlib.Logic.Equiv.List
/-! Concrete FLAC tracks that meet the hypotheses of C70 and C71, and a lossless library. -/
namespace AF.FLAC
open AF AF.Spec AF.Spec.FLAC

/-- Stereo, 16 bits, 5 frames in blocks of 3 and 2; the frames delivered as they are. -/
def demo : Cfg Unit (List Byte) where
  host := .little
  width := 16
  channels := 2
  total := 5
  blocks := [⟨2, [[1, -1], [2, -2], [300, -300]]⟩, ⟨2, [[4, -4], [32767, -32768]]⟩]
  brittle := true
  conv := fun _ f => f

theorem demo_good : Good demo where
  width := Or.inl rfl
  blocks := by
    intro b hb
    have : b = ⟨2, [[1, -1], [2, -2], [300, -300]]⟩ ∨ b = ⟨2, [[4, -4], [32767, -32768]]⟩ := by simpa [demo] using hb
    rcases this with rfl | rfl
    · exact ⟨rfl, by simp [demo], by simp⟩
    · exact ⟨rfl, by simp [demo], by simp⟩
  total := rfl

/-- Reads across blocks and seeks; none goes to the very end before the last read. -/
def demoCalls : List (Call Unit) := [.read 2, .seek 4, .read 7, .seek 1, .setFormat (), .read 3, .seek 900, .tell, .count]

theorem demo_calls : (∀ op ∈ demoCalls, InRange (content demo).length op) ∧ LeavesEnd (content demo) ⟨0, ()⟩ demoCalls := by
  constructor
  · intro op h
    simp only [demoCalls, List.mem_cons, List.not_mem_nil, or_false] at h
    rcases h with rfl | rfl | rfl | rfl | rfl | rfl | rfl | rfl | rfl <;> simp [InRange, content, demo, rowsOf]
  · simp [LeavesEnd, demoCalls, content, demo, rowsOf, move, target]

example : observe demo () demoCalls =
    .ok [(2, [some [1, 0, 255, 255], some [2, 0, 254, 255]]), (4, []), (1, [some [255, 127, 0, 128]]), (1, []), (0, []),
      (3, [some [2, 0, 254, 255], some [44, 1, 212, 254], some [4, 0, 252, 255]]), (4, []), (4, []), (5, [])] := by
  rw [C70_cursor demo demo_good () demoCalls demo_calls.1 (fun _ => demo_calls.2)]
  decide +kernel

/-- A header that promises 7 frames. -/
example : observe { demo with total := 7 } () [.read 7, .tell] =
    .ok [(7, [some [1, 0, 255, 255], some [2, 0, 254, 255], some [44, 1, 212, 254], some [4, 0, 252, 255], some [255, 127, 0, 128],
      none, none]), (7, [])] := by
  have := C70_negation_truncated { demo with total := 7 } demo_good.width demo_good.blocks (by decide) ()
  exact this.trans (by decide +kernel)

/-- After a seek to the end frame 3 is frame 0. -/
example : observe demo () [.seek 5, .seek 3, .read 1] = .ok [(5, []), (3, []), (1, [some [1, 0, 255, 255]])] := by
  obtain ⟨f, h, e⟩ := C70_negation_seek_end demo demo_good rfl () 3 (by decide) (by decide)
  have hf : f = [1, 0, 255, 255] := by
    have h' : (content demo)[0]? = some [1, 0, 255, 255] := by decide +kernel
    rw [h'] at h
    exact (Option.some.inj h).symm
  rw [hf] at e
  exact e

/-- Three channels where two were announced. -/
example : observe { demo with blocks := [⟨3, [[1, 2, 3]]⟩] } () [.read 1] = .error .bufferOverflow :=
  C70_negation_more_channels _ ⟨3, [[1, 2, 3]]⟩ [] rfl (by simp) (by decide) () 1 []

/-! ## Writing -/

/-- A lossless library: not FLAC's, but it makes a file of the frames and finds them again, one frame to a block. -/
def toyLib : Lib where
  accepts := fun i => decide (0 < i.rate ∧ i.rate ≤ 655350)
  encode := fun i fs => List.replicate (Encodable.encode ((i.channels, i.rate, i.width), fs)) 0#8
  decode := fun bs =>
    match (Encodable.decode bs.length : Option ((Nat × Nat × Nat) × List (List Int))) with
    | none => none
    | some ((ch, r, w), fs) => some (⟨ch, r, w, fs.length⟩, fs.map fun row => ⟨ch, [row]⟩)

theorem toy_lossless : Lossless toyLib := by
  intro i fs _ _ hr _
  refine ⟨fs.map fun row => ⟨i.channels, [row]⟩, ?_, ?_, ?_⟩
  · simp only [toyLib, List.length_replicate, Encodable.encodek]
  · unfold rowsOf
    rw [List.flatMap_map]
    simp
  · intro b hb
    obtain ⟨row, h1, rfl⟩ := List.mem_map.mp hb
    exact ⟨rfl, by intro r hx; simp at hx; rw [hx]; exact (hr row h1).1, by simp⟩

/-- Mono, 24 bits, big-endian machine; the user's frames are the file's bytes, three of them. -/
def demoW : WCfg Unit (Byte × Byte × Byte) where
  host := .big
  width := 24
  channels := 1
  accepted := true
  takes := fun _ => true
  conv := fun _ x => [x.1, x.2.1, x.2.2]

def demoOps : List (Writing.Op Unit (Byte × Byte × Byte)) :=
  [.write [(1, 2, 3), (255, 0, 7)], .setFormat (), .write [(128, 0, 0)], .sync, .write [], .sync]

example : ∃ f, session demoW () demoOps = .ok f ∧ f.sent = [[66051], [-65529], [-8388608]] ∧ f.results = [2, 0, 1, 0, 0, 0] := by
  refine ⟨_, session_ok rfl (fun _ => rfl) () demoOps ?_, ?_, ?_⟩
  · simp [NoWriteAfterSync, demoOps]
  · decide +kernel
  · decide +kernel

example : ∃ f i bs c, session demoW () demoOps = .ok f ∧ toyLib.decode (toyLib.encode ⟨demoW.channels, 44100, demoW.width, 0⟩ f.sent) = some (i, bs) ∧
    openRead demoW.host true (fun (_ : Unit) f => f) i bs = some c ∧
    observe c () [.seek 1, .read 5] = .ok [(1, []), (2, [some [255, 0, 7], some [128, 0, 0]])] := by
  obtain ⟨f, i, bs, c, h1, h2, h3, h4⟩ := C71_round_trip toyLib toy_lossless 44100 demoW (Or.inr rfl) (by decide) (fun _ _ => rfl) rfl
    (by decide) (fun _ => rfl) () demoOps (by simp [NoWriteAfterSync, demoOps]) (by decide +kernel) true
    (fun (_ : Unit) f => f) () [.seek 1, .read 5] (by
      intro op h
      simp only [List.mem_cons, List.not_mem_nil, or_false] at h
      rcases h with rfl | rfl <;> simp [InRange, demoOps, Writing.handed, demoW])
    (fun _ => by simp [LeavesEnd, demoOps, Writing.handed, demoW])
  exact ⟨f, i, bs, c, h1, h2, h3, h4.trans (by decide +kernel)⟩

example : session demoW () [.write [(1, 2, 3)], .sync, .write [(4, 5, 6)]] = .error .assertFailed :=
  C71_negation_write_after_sync demoW rfl (fun _ => rfl) () [.write [(1, 2, 3)]] [] (by simp [NoWriteAfterSync]) [(4, 5, 6)] (by simp)

end AF.FLAC
