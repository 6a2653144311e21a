/-!
# C integer arithmetic used by the model

Platform assumptions (see DESIGN.md): `int` is 32 bits, `short` 16, LP64; `>>` on a negative
signed value is arithmetic; conversion to a narrower signed type wraps modulo `2^n`.
-/
namespace AF

/-- Conversion of a mathematical integer to an `n`-bit two's-complement C integer
(`int8_t`, `int16_t`, `int32_t`, …): wrap modulo `2^n` into `[-2^(n-1), 2^(n-1))`. -/
def wrapS (n : Nat) (x : Int) : Int := Int.bmod x (2 ^ n)

/-- Conversion of a mathematical integer to an `n`-bit unsigned C integer. -/
def wrapU (n : Nat) (x : Int) : Int := x % (2 ^ n : Nat)

/-- Arithmetic right shift `x >> k` of a C signed integer. -/
def sar (x : Int) (k : Nat) : Int := x / (2 ^ k : Nat)

/-- `x & (2^k - 1)` on a two's-complement integer. -/
def lowBits (x : Int) (k : Nat) : Nat := (x % (2 ^ k : Nat)).toNat

end AF
