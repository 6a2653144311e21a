import Verif.Model.CInt
/-!
# Model of the stereo matrixing of the ALAC codec

`alac/matrix_enc.c` and `alac/matrix_dec.c`, one pair of samples (or one sample) at a time: the loops apply this to every
pair, `stride` samples apart. A sample in memory is the integer its bytes stand for; 20- and 24-bit samples occupy three
bytes.
-/
namespace AF.ALAC

/-- Fetching a sample: matrix_enc.c:76-77 (16 bits), 108-114 and 319-323 (20 bits: `(x << 8) >> 12` of the three bytes),
167-173 and 337-341 (24 bits: `(x << 8) >> 8`), 263-264 (32 bits). -/
def fetch (depth : Nat) (x : Int) : Int :=
  if depth = 20 then sar (wrapS 32 (wrapU 24 x * 256)) 12
  else if depth = 24 then sar (wrapS 32 (wrapU 24 x * 256)) 8
  else x

/-- matrix_enc.c:64-91, 116-118, 182-183, 270-271, 284-305: the mixing. -/
def mix (mixbits : Nat) (mixres l r : Int) : Int × Int :=
  if mixres ≠ 0 then
    let m2 := (2 ^ mixbits : Nat) - mixres
    (sar (wrapS 32 (mixres * l + m2 * r)) mixbits, wrapS 32 (l - r))
  else (l, r)

/-- matrix_enc.c:175-180, 266-270; ALACEncoder.cpp:860-881: the lower `shift` bits that go to the shift buffer. -/
def shiftedOff (shift : Nat) (x : Int) : Nat := lowBits x shift

/-- matrix_dec.c:69-70, 103-104, 159-160, 269-270: the inverse of the mixing. -/
def unmix (mixbits : Nat) (mixres u v : Int) : Int × Int :=
  if mixres ≠ 0 then
    let l := wrapS 32 (u + v - sar (wrapS 32 (mixres * v)) mixbits)
    (l, wrapS 32 (l - v))
  else (u, v)

/-- Storing a sample: matrix_dec.c:72-73 and ALACDecoder.cpp:307 (16 bits), 106-117 and 359-368 (20 bits, moved up by
four), 162-171, 318-350 (24 bits, with the bits shifted off put back), 272-273, 371-390 (32 bits). The value stored is the
integer the bytes stand for. `(x << shift) | s` is a sum because `s < 2^shift`. -/
def store (depth shift : Nat) (x : Int) (s : Nat) : Int :=
  if depth = 16 then wrapS 16 x
  else if depth = 20 then wrapS 24 (x * 16)
  else if depth = 24 then wrapS 24 (x * (2 ^ shift : Nat) + s)
  else wrapS 32 (x * (2 ^ shift : Nat) + s)

end AF.ALAC
