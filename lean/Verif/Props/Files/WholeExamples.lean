import Verif.Props.Files.Whole
import Verif.Props.Files.WholeText
/-!
# Files that have what they announce (hypotheses of C51)
-/
namespace AF.Files
open AF AF.Setup AF.Spec.Walk

/-- An AIFF file with a description, a marker with a name, and audio data that are cut. -/
def aiffWholeExample : List Byte := tag "FORM" ++ [0, 0, 0, 82] ++ tag "AIFF" ++
  tag "COMM" ++ [0, 0, 0, 18, 0, 1, 0, 0, 0, 4, 0, 16, 64, 14, 172, 68, 0, 0, 0, 0, 0, 0] ++
  tag "MARK" ++ [0, 0, 0, 12, 0, 1, 0, 7, 0, 0, 0, 2, 3, 97, 98, 99] ++
  tag "SSND" ++ [0, 0, 0, 16, 0, 0, 0, 0, 0, 0, 0, 0, 1, 2]

example : AiffWhole aiffWholeExample := by
  have l : aiffWholeExample.length = 76 := by decide
  have e0 : be32 aiffWholeExample (12 + 4) = 18 := by decide
  have e1 : be32 aiffWholeExample (38 + 4) = 12 := by decide
  have e2 : be32 aiffWholeExample (58 + 4) = 16 := by decide
  refine ⟨⟨by omega, fun p hp h1 h2 => ?_⟩, 12, .first, by decide, by decide, by unfold Named; decide⟩
  have : p = 12 ∨ p = 38 ∨ p = 58 ∨ p = 82 := by
    clear h1 h2
    induction hp with
    | first => exact .inl rfl
    | next _ hlt ih =>
      rcases ih with rfl | rfl | rfl | rfl
      · rw [e0]; exact .inr (.inl rfl)
      · rw [e1]; exact .inr (.inr (.inl rfl))
      · rw [e2]; exact .inr (.inr (.inr rfl))
      · omega
  rcases this with rfl | rfl | rfl | rfl
  · exact ⟨by rw [e0]; decide, by decide, by decide, by decide, fun h => absurd h (by decide)⟩
  · refine ⟨by rw [e1]; decide, by decide, by decide, by decide, fun _ => ⟨by decide, ?_⟩⟩
    show MarksIn _ 1 _
    exact ⟨by decide, trivial⟩
  · exact ⟨by rw [e2]; decide, by decide, by decide, by decide, fun h => absurd h (by decide)⟩
  · omega

/-- An IFF file. -/
def iffWholeExample : List Byte := tag "FORM" ++ [0, 0, 0, 44] ++ tag "8SVX" ++
  tag "VHDR" ++ [0, 0, 0, 20, 0, 0, 0, 4, 0, 0, 0, 0, 0, 0, 0, 0, 31, 64, 0, 0, 0, 1, 0, 0] ++
  tag "BODY" ++ [0, 0, 0, 4, 1, 2, 3, 4]

example : IffWhole iffWholeExample := by
  have l : iffWholeExample.length = 52 := by decide
  have e0 : be32 iffWholeExample (12 + 4) = 20 := by decide
  have e1 : be32 iffWholeExample (40 + 4) = 4 := by decide
  refine ⟨⟨by omega, fun p hp h1 h2 => ?_⟩, 12, .first, by decide, by decide, by unfold Named; decide⟩
  have : p = 12 ∨ p = 40 ∨ p = 52 := by
    clear h1 h2
    induction hp with
    | first => exact .inl rfl
    | next _ hlt ih =>
      rcases ih with rfl | rfl | rfl
      · rw [e0]; exact .inr (.inl rfl)
      · rw [e1]; exact .inr (.inr rfl)
      · omega
  rcases this with rfl | rfl | rfl
  · exact ⟨by rw [e0]; decide, by unfold IffNeeds; decide⟩
  · exact ⟨by rw [e1]; decide, by unfold IffNeeds; decide⟩
  · omega

/-- A WAVE file with a list of texts, whose audio data are cut. -/
def waveWholeExample : List Byte := tag "RIFF" ++ [66, 0, 0, 0] ++ tag "WAVE" ++
  tag "fmt " ++ [16, 0, 0, 0, 1, 0, 1, 0, 0x40, 0x1f, 0, 0, 0x80, 0x3e, 0, 0, 2, 0, 16, 0] ++
  tag "LIST" ++ [16, 0, 0, 0] ++ tag "INFO" ++ tag "INAM" ++ [3, 0, 0, 0, 97, 98, 0, 0] ++
  tag "data" ++ [8, 0, 0, 0, 1, 2]

example : WaveWhole waveWholeExample := by
  have l : waveWholeExample.length = 70 := by decide
  have es : le32 waveWholeExample 4 = 66 := by decide
  have e0 : le32 waveWholeExample (12 + 4) = 16 := by decide
  have e1 : le32 waveWholeExample (36 + 4) = 16 := by decide
  have e2 : le32 waveWholeExample (60 + 4) = 8 := by decide
  refine ⟨by omega, by omega, fun p hp => ?_⟩
  have : p = 12 ∨ p = 36 ∨ p = 60 ∨ p = 76 := by
    induction hp with
    | first => exact .inl rfl
    | next _ hlt ih =>
      rcases ih with rfl | rfl | rfl | rfl
      · rw [e0]; exact .inr (.inl rfl)
      · rw [e1]; exact .inr (.inr (.inl rfl))
      · rw [e2]; exact .inr (.inr (.inr rfl))
      · omega
  refine ⟨by omega, fun _ => ?_⟩
  rcases this with rfl | rfl | rfl | rfl
  · exact .inr ⟨by omega, fun _ => by unfold FmtIn; decide, by decide, by decide, by decide, fun h => absurd h (by decide)⟩
  · refine .inr ⟨by omega, fun h => absurd h (by decide), by decide, by decide, by decide, fun _ _ => ⟨by decide, fun e he hl => ?_⟩⟩
    rw [e1] at he hl
    have e3 : le32 waveWholeExample (48 + 4) = 3 := by decide
    have : e = 48 ∨ e = 60 := by
      clear hl
      induction he with
      | first => exact .inl rfl
      | next _ hlt ih =>
        rcases ih with rfl | rfl
        · rw [e3]; exact .inr rfl
        · omega
    rcases this with rfl | rfl
    · rw [e3]
      exact ⟨by omega, fun h => absurd h (by unfold Named; decide)⟩
    · omega
  · exact .inr ⟨by omega, fun h => absurd h (by decide), by decide, by decide, by decide, fun h => absurd h (by decide)⟩
  · exact .inl (by omega)

/-- A CAF file whose data chunk reaches to the end. -/
def cafWholeExample : List Byte := tag "caff" ++ [0, 1, 0, 0] ++
  tag "desc" ++ [0, 0, 0, 0, 0, 0, 0, 32, 0x40, 0xe5, 0x88, 0x80, 0, 0, 0, 0] ++ tag "lpcm" ++
    [0, 0, 0, 0, 0, 0, 0, 2, 0, 0, 0, 1, 0, 0, 0, 1, 0, 0, 0, 16] ++
  tag "data" ++ [255, 255, 255, 255, 255, 255, 255, 255, 0, 0, 0, 0, 1, 2]

example : CafWhole cafWholeExample := by
  have l : cafWholeExample.length = 70 := by decide
  have e0 : be64 cafWholeExample (8 + 4) = 32 := by decide
  have ho : OpenEnd cafWholeExample 52 := ⟨by decide, by decide⟩
  have hall : ∀ p, CafChunk cafWholeExample p → p = 8 ∨ p = 52 := by
    intro p hp
    induction hp with
    | first => exact .inl rfl
    | next _ _ hno ih =>
      rcases ih with rfl | rfl
      · rw [e0]; exact .inr rfl
      · exact absurd ho hno
  refine ⟨by omega, fun p hp _ hno => ?_, ⟨8, .first, by omega, by unfold Named; decide⟩, fun p hp _ hn => ?_⟩
  · rcases hall p hp with rfl | rfl
    · rw [e0]; decide
    · exact absurd ho hno
  · rcases hall p hp with rfl | rfl
    · exact absurd hn (by unfold Named; decide)
    · exact ⟨8, by omega, .first, by unfold Named; decide⟩

/-- A VOC file with a text block and a sound block. -/
def vocWholeExample : List Byte := tag "Creative Voice File" ++ [26, 26, 0, 20, 1, 31, 17] ++
  [5, 2, 0, 0, 97, 0] ++ [9, 14, 0, 0, 0x40, 0x1f, 0, 0, 8, 1, 0, 0, 0, 0, 0, 0, 128, 129] ++ [0]

example : VocWhole vocWholeExample := by
  have l : vocWholeExample.length = 51 := by decide
  have e0 : le32 vocWholeExample 26 = 517 := by decide
  have e1 : le32 vocWholeExample 32 = 3593 := by decide
  have h32 : VocBlock vocWholeExample 32 := by
    have := VocBlock.next (file := vocWholeExample) .first (by omega)
    rw [e0] at this
    exact this
  refine ⟨by omega, fun p hp h4 => ?_, 32, h32, by omega, by decide⟩
  have : p = 26 ∨ p = 32 ∨ p = 50 := by
    clear h4
    induction hp with
    | first => exact .inl rfl
    | next _ hlt ih =>
      rcases ih with rfl | rfl | rfl
      · rw [e0]; exact .inr (.inl rfl)
      · rw [e1]; exact .inr (.inr rfl)
      · omega
  rcases this with rfl | rfl | rfl
  · decide
  · decide
  · omega

example : SmpWhole (List.replicate 112 32 ++ [2, 0, 0, 0] ++ List.replicate 211 0) := by
  unfold SmpWhole
  decide +kernel

/-- The beginning of a NIST file. -/
def nistWholeText : List Byte := tag "NIST_1A\n   1024\nchannel_count -i 2\nsample_coding -s3 pcm\n"
def nistWholeExample : List Byte := nistWholeText ++ List.replicate 2000 0

theorem occurs {text key before after : List Byte} (h : text = before ++ (key ++ after)) :
    before.length < text.length + 1 ∧ (text.drop before.length).take key.length = key ∧ after = text.drop (before.length + key.length) := by
  refine ⟨by rw [h, List.length_append]; omega, ?_, ?_⟩
  · rw [h, List.drop_left, List.take_left]
  · rw [← List.drop_drop, h, List.drop_left, List.drop_left]

example : NistWhole nistWholeExample := by
  have ht : (nistWholeExample.take 1024).takeWhile (· ≠ 0) = nistWholeText := by
    unfold nistWholeExample
    have hl : nistWholeText.length = 57 := by decide
    rw [List.take_append, List.take_of_length_le (by omega), hl, List.take_replicate]
    rw [List.takeWhile_append_of_pos (by decide)]
    show _ ++ List.takeWhile _ (List.replicate (966 + 1) 0) = _
    rw [List.replicate_succ, List.takeWhile_cons_of_neg (by decide), List.append_nil]
  have none : ∀ name : String, (∀ n < 58, (nistWholeText.drop n).take (ascii ("\n" ++ name)).length ≠ ascii ("\n" ++ name)) → ∀ k,
      NumberField nistWholeText name k := by
    intro name hn k before after h
    obtain ⟨h1, h2, _⟩ := occurs h
    exact absurd h2 (hn _ h1)
  have nonew : ∀ name : String, (∀ n < 58, (nistWholeText.drop n).take (ascii ("\n" ++ name)).length ≠ ascii ("\n" ++ name)) → ∀ k,
      WordField nistWholeText name k := by
    intro name hn k before after h
    obtain ⟨h1, h2, _⟩ := occurs h
    exact absurd h2 (hn _ h1)
  refine ⟨?_, ?_, ?_, ?_, ?_, ?_, ?_⟩
  all_goals rw [ht]
  · intro before after h
    obtain ⟨h1, h2, h3⟩ := occurs h
    have hb : ∀ n < 58, (nistWholeText.drop n).take (ascii ("\n" ++ "channel_count -i")).length = ascii ("\n" ++ "channel_count -i") → n = 15 := by decide
    rw [hb _ h1 h2] at h3
    refine ⟨tag "\nsample_coding -s3 pcm\n", [32], [], [50], h3, ?_, .inl rfl, by decide, by decide, ?_, ?_⟩
    · unfold Blank; decide
    · unfold Digit; decide
    · intro b hb
      cases hb
      unfold Digit
      decide
  · exact none _ (by decide) _
  · intro before after h
    obtain ⟨h1, h2, h3⟩ := occurs h
    have hb : ∀ n < 58, (nistWholeText.drop n).take (ascii ("\n" ++ "sample_coding -s")).length = ascii ("\n" ++ "sample_coding -s") → n = 34 := by decide
    rw [hb _ h1 h2] at h3
    refine ⟨tag " pcm\n", ⟨[], [], [51], h3, by simp, .inl rfl, by decide, by decide, ?_, ?_⟩, 112, by decide, by unfold Blank; decide⟩
    · unfold Digit; decide
    · intro b hb
      cases hb
      unfold Digit
      decide
  · exact nonew _ (by decide) _
  · exact none _ (by decide) _
  · exact none _ (by decide) _
  · exact none _ (by decide) _

end AF.Files
