import Verif.Model.Fields
/-!
# Specification: how IMA ADPCM is decoded

After the recommendation of the Interactive Multimedia Association, and the layouts of blocks in WAVE files ("DVI ADPCM") and in QuickTime
("ima4"). Written by positions: which four bits of a block belong to which sample.
-/
namespace AF.Spec.Ima
open AF

/-- The 89 step sizes. -/
def stepSizes : List Int :=
  [7, 8, 9, 10, 11, 12, 13, 14, 16, 17, 19, 21, 23, 25, 28, 31, 34, 37, 41, 45, 50, 55, 60, 66, 73, 80, 88, 97, 107, 118, 130, 143, 157, 173,
   190, 209, 230, 253, 279, 307, 337, 371, 408, 449, 494, 544, 598, 658, 724, 796, 876, 963, 1060, 1166, 1282, 1411, 1552, 1707, 1878, 2066,
   2272, 2499, 2749, 3024, 3327, 3660, 4026, 4428, 4871, 5358, 5894, 6484, 7132, 7845, 8630, 9493, 10442, 11487, 12635, 13899, 15289, 16818,
   18500, 20350, 22385, 24623, 27086, 29794, 32767]

def limit (low high x : Int) : Int := max low (min high x)

/-- What the lower three bits of a code stand for: quarters of the step size, and an eighth, each rounded down. -/
def difference (step : Int) (code : Nat) : Int :=
  step / 8 + (if code / 4 % 2 = 1 then step else 0) + (if code / 2 % 2 = 1 then step / 2 else 0) + (if code % 2 = 1 then step / 4 else 0)

/-- How a code changes the index of the step size. -/
def adjustment (code : Nat) : Int := if code % 8 < 4 then -1 else 2 * (code % 8 : Nat) - 6

/-- A decoder's state: the last sample and the index of the step size. -/
structure State where
  sample : Int
  index : Int

def next (s : State) (code : Nat) : State where
  sample := limit (-32768) 32767 (if code < 8 then s.sample + difference (stepSizes.getD s.index.toNat 0) code
    else s.sample - difference (stepSizes.getD s.index.toNat 0) code)
  index := limit 0 88 (s.index + adjustment code)

/-- The samples of a sequence of codes. -/
def samples (s : State) : List Nat → List Int
  | [] => []
  | c :: cs => (next s c).sample :: samples (next s c) cs

/-- The `i`th group of four bits from byte `p` on, the lower ones of a byte first. -/
def nibble (block : List Byte) (p i : Nat) : Nat :=
  let b := (block.getD (p + i / 2) 0).toNat
  if i % 2 = 0 then b % 16 else b / 16

def byteAt (block : List Byte) (p : Nat) : Nat := (block.getD p 0).toNat

/-- A 16-bit number in two's complement. -/
def signed16 (x : Nat) : Int := if x < 32768 then x else x - 65536

/-! WAVE: a header of four bytes for each channel - the first sample, the index, a byte of no meaning - then eight samples of the first
channel, eight of the second, and so on. -/

def waveStart (block : List Byte) (c : Nat) : State :=
  ⟨signed16 (byteAt block (4 * c + 1) * 256 + byteAt block (4 * c)), byteAt block (4 * c + 2)⟩

def waveCode (ch : Nat) (block : List Byte) (c i : Nat) : Nat := nibble block (4 * ch + i / 8 * (4 * ch) + 4 * c) (i % 8)

/-- The samples of channel `c` in a block of `8 * k + 1` frames. -/
def waveChannel (ch k : Nat) (block : List Byte) (c : Nat) : List Int :=
  (waveStart block c).sample :: samples (waveStart block c) ((List.range (8 * k)).map (waveCode ch block c))

/-! QuickTime: for each channel a header of two bytes - nine bits of the sample before the first, seven of the index - and the codes. -/

def qtStart (n : Nat) (block : List Byte) (c : Nat) : State :=
  let x := byteAt block ((2 + n) * c) * 256 + byteAt block ((2 + n) * c + 1)
  ⟨signed16 (x / 128 * 128), (x % 128 : Nat)⟩

/-- The samples of channel `c` in a block of `2 * n` frames. -/
def qtChannel (n : Nat) (block : List Byte) (c : Nat) : List Int :=
  samples (qtStart n block c) ((List.range (2 * n)).map (nibble block ((2 + n) * c + 2)))

end AF.Spec.Ima
