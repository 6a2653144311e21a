import Verif.Props.Reading
/-!
# C82: reading a track whose number of frames is negative
-/
namespace AF.Reading
variable {V α γ : Type}

/-- Where the setup puts a track of uncompressed frames. -/
theorem setup_pcm (c : Cfg V α γ) (hk : c.kind = .pcm) (s : St V α) :
    setup c s = { s with totalv := c.totalf, nextf := s.nextv, dirty := false, happy := true,
                                 fposNext := c.fposFirst + c.bpp * s.nextv, ignore := 0 } := by
  unfold setup
  rw [hk]

/-- C82: a track whose number of frames is negative, and not the −1 that stands for an unknown number, delivers nothing at its
beginning: `afReadFrames` returns 0. -/
theorem C82_negative_read (c : Cfg V α γ) (v : V) (hk : c.kind = .pcm) (ht : c.totalf < -1) (h0 : 0 ≤ c.fposFirst) (n : Int) (hn : 0 ≤ n) :
    ∃ s, step c (init c v) (.read n) = .ok ((0, []), s) ∧ step c s .count = .ok ((c.totalf, []), s) := by
  have e : ∀ s : St V α, readLoop c 0 s = .ok ([], s) := fun s => by unfold readLoop; rfl
  have hr : readFrames c n (init c v) = .ok ((0, []), { setup c (init c v) with filePos := c.fposFirst }) := by
    unfold readFrames
    rw [if_pos (show (init c v).dirty = true from rfl), setup_pcm c hk]
    dsimp only [init]
    rw [if_neg (by omega)]
    by_cases hs : c.seekok = true
    · rw [if_pos hs]
      dsimp only
      rw [if_neg (by simp), if_neg (by omega), if_pos (by omega)]
      have hz : c.totalf.toNat = 0 := by omega
      simp [hz, e, Int.mul_zero]
      rfl
    · rw [if_neg hs]
      dsimp only
      rw [if_neg (by simp), if_neg (by omega), if_pos (by omega)]
      have hz : c.totalf.toNat = 0 := by omega
      simp [hz, e, Int.mul_zero]
      rfl
  refine ⟨{ setup c (init c v) with filePos := c.fposFirst }, ?_, ?_⟩
  · unfold step
    dsimp only
    rw [hr]
    rfl
  · unfold step frameCount
    dsimp only
    rw [setup_pcm c hk]
    dsimp only [init]
    rw [if_neg (by simp)]
    rfl


/-- Seeking forward in such a track. -/
theorem seek_past (c : Cfg V α γ) (v : V) (hk : c.kind = .pcm) (ht : c.totalf < -1) (f : Int) (hf : 0 < f) :
    seekFrame c f (init c v) = (c.totalf - 1,
      { v := v, dirty := false, nextf := c.totalf - 1, ignore := 0, fposNext := c.fposFirst + c.bpp * (c.totalf - 1), totalv := c.totalf, nextv := c.totalf - 1, happy := true, filePos := c.fposFirst, held := [], eof := false, sent := false }) := by
  unfold seekFrame
  rw [if_pos (show (init c v).dirty = true from rfl), setup_pcm c hk]
  dsimp only [init]
  rw [if_neg (by omega), if_neg (by omega), if_pos (by omega), setup_pcm c hk]

/-- Exactly one packet. -/
theorem packets_one {k : Nat} (hk : 0 < k) (bs : List Byte) (h : bs.length = k) : packets k hk bs = [bs] := by
  have e : packets k hk [] = [] := by unfold packets; rw [if_neg (by rw [List.length_nil]; omega)]
  unfold packets
  rw [if_pos (by omega), List.take_of_length_le (by omega), List.drop_of_length_le (by omega), e]

/-- C82: seeking forward in such a track (which C14 and C16 promise to end within the track) goes to a position before the first
frame; and reading a frame there delivers bytes of the header, if there are enough of them, as a frame of sound. -/
theorem C82_negative_seek (c : Cfg V α γ) (v : V) (hk : c.kind = .pcm) (ht : c.totalf < -1) (f : Int) (hf : 0 < f) (pos : Nat) (x : α)
    (hs : c.seekok = true) (hn : c.checks = false) (hc : c.hasConv v = false) (hp : (pos : Int) = c.fposFirst + c.bpp * (c.totalf - 1))
    (hl : pos + c.bpp ≤ c.file.length) (hx : c.decode ((c.file.drop pos).take c.bpp) = [x]) :
    ∃ s, run c (init c v) [.seek f, .read 1] = .ok ([(c.totalf - 1, []), (1, [some (c.conv v x)])], s) := by
  have hb := c.bpp_pos
  have hlen : ((c.file.drop pos).take c.bpp).length = c.bpp := by rw [List.length_take, List.length_drop]; omega
  have hp1 := packets_one c.bpp_pos _ hlen
  have hpull : ∀ s : St V α, s.nextf = c.totalf - 1 → s.v = v → s.filePos = pos → s.happy = true →
      ∃ s', chainPull c 1 s = .ok ([some (c.conv v x)], s') ∧ s'.happy = true := by
    intro s h1 h2 h3 h4
    unfold chainPull sourcePull
    rw [hk]
    dsimp only
    unfold filePull fread cAssert
    rw [hk]
    dsimp only
    have e1 : (if c.totalf ≠ -1 ∧ s.nextf + ((1 : Nat) : Int) > c.totalf then c.totalf - s.nextf else ((1 : Nat) : Int)) = 1 := by
      rw [if_neg (by omega)]; rfl
    rw [e1, if_neg (by omega), h3]
    simp only [Int.toNat_natCast, Int.toNat_one, Nat.mul_one, hp1, hn, h2]
    simp [hx, h4, hc]
    exact ⟨_, rfl, rfl⟩
  have hl : ∀ s : St V α, s.nextf = c.totalf - 1 → s.v = v → s.filePos = pos → s.happy = true →
      ∃ s', readLoop c 1 s = .ok ([some (c.conv v x)], s') := by
    intro s h1 h2 h3 h4
    obtain ⟨s', e1, e2⟩ := hpull s h1 h2 h3 h4
    unfold readLoop
    rw [dif_neg (by decide), if_neg (by rw [h4]; decide)]
    rw [show min 1024 1 = 1 by decide]
    simp only [e1]
    have e0 : readLoop c 0 s' = .ok ([], s') := by unfold readLoop; rfl
    refine ⟨s', ?_⟩
    show (if s'.happy = true then _ else _) = _
    rw [if_pos e2, if_neg (by simp)]
    show (readLoop c 0 s' >>= _) = _
    rw [e0]
    rfl
  obtain ⟨s', hs'⟩ := hl { v := v, dirty := false, nextf := c.totalf - 1, ignore := 0, fposNext := c.fposFirst + c.bpp * (c.totalf - 1), totalv := c.totalf, nextv := c.totalf - 1, happy := true, filePos := c.fposFirst + c.bpp * (c.totalf - 1), held := [], eof := false, sent := false } rfl rfl hp.symm rfl
  have hr : readFrames c 1 { v := v, dirty := false, nextf := c.totalf - 1, ignore := 0, fposNext := c.fposFirst + c.bpp * (c.totalf - 1), totalv := c.totalf, nextv := c.totalf - 1, happy := true, filePos := c.fposFirst, held := [], eof := false, sent := false } =
      .ok ((1, [some (c.conv v x)]), { s' with nextv := s'.nextv + 1 }) := by
    unfold readFrames
    simp only [Bool.false_eq_true, if_false]
    rw [if_neg (by omega), if_pos hs]
    dsimp only
    have ew : (if c.totalf = -1 then (1 : Int) else if 1 > c.totalf - (c.totalf - 1) then c.totalf - (c.totalf - 1) else 1) = 1 := by
      rw [if_neg (by omega), if_neg (by omega)]
    simp only [ew, Int.toNat_one, ne_eq, not_true_eq_false, if_false]
    simp only [pure_bind, Bool.false_eq_true, if_false]
    show (readLoop c 1 _ >>= _) = _
    rw [hs']
    rfl
  refine ⟨{ s' with nextv := s'.nextv + 1 }, ?_⟩
  unfold run step
  dsimp only
  rw [seek_past c v hk ht f hf]
  dsimp only
  unfold run step
  dsimp only
  simp only [pure_bind]
  rw [hr]
  rfl

/-- The NIST file `minusNist` of `Props/Files/Counts.lean` in little: −3 frames behind a header of 10 bytes. -/
def minusDemo : Cfg Nat Nat Nat := { pcmDemo with file := [1, 2, 3, 4, 5, 6, 7, 8, 9, 10], fposFirst := 10, totalf := -3 }

example : ∃ s, step minusDemo (init minusDemo 0) (.read 5) = .ok ((0, []), s) ∧ step minusDemo s .count = .ok ((-3, []), s) :=
  C82_negative_read minusDemo 0 rfl (by decide) (by decide) 5 (by decide)

example : ∃ s, run minusDemo (init minusDemo 0) [.seek 1, .read 1] = .ok ([(-4, []), (1, [some 7])], s) :=
  C82_negative_seek minusDemo 0 rfl (by decide) 1 (by decide) 6 7 rfl rfl rfl (by decide) (by decide) (by decide)

end AF.Reading
