import Verif.Spec.ImaDecoder
/-!
# Specification: how Microsoft ADPCM is decoded

After Microsoft's description of WAVE_FORMAT_ADPCM, by positions in a block.
-/
namespace AF.Spec.Ms
open AF AF.Spec.Ima

/-- By how many 256ths a code changes the step size. -/
def adaptation : List Int := [230, 230, 230, 230, 307, 409, 512, 614, 768, 614, 512, 409, 307, 230, 230, 230]

/-- The step size and the last two samples. -/
structure State where
  delta : Int
  last : Int
  beforeLast : Int

/-- Four bits as a number in two's complement. -/
def signed4 (code : Nat) : Int := if code < 8 then code else (code : Int) - 16

/-- The next sample: the prediction from the last two, rounded down, and the code times the step size, within 16 bits. -/
def next (co : Int × Int) (s : State) (code : Nat) : State where
  delta := max 16 (s.delta * adaptation.getD code 0 / 256)
  last := limit (-32768) 32767 ((s.last * co.1 + s.beforeLast * co.2) / 256 + signed4 code * s.delta)
  beforeLast := s.last

def samples (co : Int × Int) (s : State) : List Nat → List Int
  | [] => []
  | c :: cs => (next co s c).last :: samples co (next co s c) cs

/-- The `i`th group of four bits from byte `p` on, the higher ones of a byte first. -/
def nibble (block : List Byte) (p i : Nat) : Nat := if i % 2 = 0 then byteAt block (p + i / 2) / 16 else byteAt block (p + i / 2) % 16

def word (block : List Byte) (p : Nat) : Nat := byteAt block (p + 1) * 256 + byteAt block p

/-- The header of a block: for all channels the number of the coefficients, for all the step size, the second sample, the first sample. -/
def start (ch : Nat) (block : List Byte) (c : Nat) : State :=
  ⟨word block (ch + 2 * c), signed16 (word block (3 * ch + 2 * c)), signed16 (word block (5 * ch + 2 * c))⟩

/-- The samples of channel `c` in a block of `n + 2` frames; the codes of a frame's channels follow each other. -/
def channel (coefs : List (Int × Int)) (ch n : Nat) (block : List Byte) (c : Nat) : List Int :=
  (start ch block c).beforeLast :: (start ch block c).last ::
    samples (coefs.getD (byteAt block c) (0, 0)) (start ch block c) ((List.range n).map fun i => nibble block (7 * ch) (i * ch + c))

/-- No step size met on the way is so large that its products leave 32 bits. -/
def Steady (co : Int × Int) (s : State) : List Nat → Prop
  | [] => True
  | c :: cs => s.delta ≤ 2796202 ∧ Steady co (next co s c) cs

/-- Every channel of a block is steady. -/
def SteadyBlock (coefs : List (Int × Int)) (ch n : Nat) (block : List Byte) : Prop :=
  ∀ c, c < ch → Steady (coefs.getD (byteAt block c) (0, 0)) (start ch block c) ((List.range n).map fun i => nibble block (7 * ch) (i * ch + c))

end AF.Spec.Ms
