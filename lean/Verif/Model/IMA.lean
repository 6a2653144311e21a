import Verif.Model.Reading
import Verif.Model.CInt
/-!
# Model of `libaudiofile/modules/IMA.cpp`

Samples are `Int`, codes are `Nat` (0..15), blocks are byte lists, decoded blocks are lists of frames (one sample per
channel); the interleaved `int16_t` arrays of the C++ are these frames one after the other.
Reading outside a table, reading beyond the end of a block or of the input, and storing beyond the frames of a block are
`Abort.bufferOverflow` (in C++: undefined behaviour).
-/
namespace AF.IMA

/-- IMA.cpp:42-52 `adpcmState`. -/
structure St where
  prev : Int
  index : Int
  deriving DecidableEq, Repr

/-- IMA.cpp:116-120 `indexTable`. -/
def indexTable : List Int := [-1, -1, -1, -1, 2, 4, 6, 8, -1, -1, -1, -1, 2, 4, 6, 8]

/-- IMA.cpp:122-133 `stepTable`. -/
def stepTable : List Int :=
  [7, 8, 9, 10, 11, 12, 13, 14, 16, 17,
   19, 21, 23, 25, 28, 31, 34, 37, 41, 45,
   50, 55, 60, 66, 73, 80, 88, 97, 107, 118,
   130, 143, 157, 173, 190, 209, 230, 253, 279, 307,
   337, 371, 408, 449, 494, 544, 598, 658, 724, 796,
   876, 963, 1060, 1166, 1282, 1411, 1552, 1707, 1878, 2066,
   2272, 2499, 2749, 3024, 3327, 3660, 4026, 4428, 4871, 5358,
   5894, 6484, 7132, 7845, 8630, 9493, 10442, 11487, 12635, 13899,
   15289, 16818, 18500, 20350, 22385, 24623, 27086, 29794, 32767]

/-- IMA.cpp:135-140 `clamp`. -/
def clamp (x low high : Int) : Int := if x < low then low else if x > high then high else x

/-- `table[i]`. -/
def tableAt (t : List Int) (i : Int) : Except Abort Int :=
  if i < 0 then .error .bufferOverflow
  else match t[i.toNat]? with
    | some x => .ok x
    | none => .error .bufferOverflow

/-- IMA.cpp:142-160 `decodeSample`. -/
def decodeSample (s : St) (code : Nat) : Except Abort (Int × St) := do
  let step ← tableAt stepTable s.index
  let diff := sar step 3
  let diff := if code &&& 4 ≠ 0 then diff + step else diff
  let diff := if code &&& 2 ≠ 0 then diff + sar step 1 else diff
  let diff := if code &&& 1 ≠ 0 then diff + sar step 2 else diff
  let predictor := if code &&& 8 ≠ 0 then s.prev - diff else s.prev + diff
  let prev := clamp predictor (-32768) 32767
  let di ← tableAt indexTable code
  return (prev, ⟨prev, clamp (s.index + di) 0 88⟩)

/-- IMA.cpp:237-275 `encodeSample`. -/
def encodeSample (s : St) (sample : Int) : Except Abort (Nat × St) := do
  let step ← tableAt stepTable s.index
  let diff := sample - s.prev
  let vpdiff := sar step 3
  let (code, diff) : Nat × Int := if diff < 0 then (8, -diff) else (0, diff)
  let (code, diff, vpdiff) := if diff ≥ step then (code ||| 4, diff - step, vpdiff + step) else (code, diff, vpdiff)
  let step := sar step 1
  let (code, diff, vpdiff) := if diff ≥ step then (code ||| 2, diff - step, vpdiff + step) else (code, diff, vpdiff)
  let step := sar step 1
  let (code, vpdiff) := if diff ≥ step then (code ||| 1, vpdiff + step) else (code, vpdiff)
  let vpdiff := if code &&& 8 ≠ 0 then -vpdiff else vpdiff
  let prev := clamp (s.prev + vpdiff) (-32768) 32767
  let di ← tableAt indexTable code
  return (code &&& 0xf, ⟨prev, clamp (s.index + di) 0 88⟩)

/-- Body of the loops IMA.cpp:184-191 and 216-222, `k` times: one byte gives two samples, low nibble first. Returns the
samples, the state and the bytes that follow. -/
def decodePairs : Nat → St → List Byte → Except Abort (List Int × St × List Byte)
  | 0, s, bs => .ok ([], s, bs)
  | _ + 1, _, [] => .error .bufferOverflow
  | k + 1, s, b :: bs => do
    let (x, s) ← decodeSample s (b.toNat &&& 0xf)
    let (y, s) ← decodeSample s (b.toNat >>> 4)
    let (xs, s, bs) ← decodePairs k s bs
    return (x :: y :: xs, s, bs)

/-- Body of the loops IMA.cpp:296-303 and 326-331, `k` times: two samples of a channel give one byte. -/
def encodePairs : Nat → St → List Int → Except Abort (List Byte × St)
  | 0, s, _ => .ok ([], s)
  | k + 1, s, x :: y :: xs => do
    let (a, s) ← encodeSample s x
    let (b, s) ← encodeSample s y
    let (bs, s) ← encodePairs k s xs
    return (BitVec.ofNat 8 (a ||| (b <<< 4)) :: bs, s)
  | _ + 1, _, _ => .error .bufferOverflow

/-- Samples of channel `c` of a list of frames: the accesses `input[c + channelCount * n]`, `n = 0, 1, …`. -/
def column (c : Nat) (frames : List (List Int)) : List Int := frames.filterMap (·[c]?)

/-- `n` frames from the channels' sample lists: the stores `decoded[c + channelCount * k]`, `k < n`. -/
def interleave (n : Nat) (cols : List (List Int)) : List (List Int) :=
  (List.range n).map fun k => cols.map fun col => col.getD k 0

/-- IMA.cpp:166-177: the per-channel headers of a block, `ch` of them. Byte 3 of each is skipped. -/
def waveHeaders : Nat → List Byte → Except Abort (List St × List Byte)
  | 0, bs => .ok ([], bs)
  | ch + 1, b0 :: b1 :: b2 :: bs => do
    let v : Int := b1.toNat * 256 + b0.toNat
    let v := if b1.toNat &&& 0x80 ≠ 0 then v - 0x10000 else v
    let (sts, bs) ← waveHeaders ch (bs.drop 1)
    return (⟨v, b2.toNat⟩ :: sts, bs)
  | _ + 1, _ => .error .bufferOverflow

/-- IMA.cpp:181-192: one round of the channel loop for all channels. -/
def waveGroup : List St → List Byte → Except Abort (List (List Int) × List St × List Byte)
  | [], bs => .ok ([], [], bs)
  | s :: sts, bs => do
    let (xs, s, bs) ← decodePairs 4 s bs
    let (cols, sts, bs) ← waveGroup sts bs
    return (xs :: cols, s :: sts, bs)

/-- IMA.cpp:179-195: the loop over groups of eight frames, `k` rounds. -/
def waveGroups : Nat → List St → List Byte → Except Abort (List (List Int))
  | 0, _, _ => .ok []
  | k + 1, sts, bs => do
    let (cols, sts, bs) ← waveGroup sts bs
    let frames ← waveGroups k sts bs
    return interleave 8 cols ++ frames

/-- IMA.cpp:162-198 `decodeBlockWAVE`. `n = 0, 8, … < fpp - 1` makes `(fpp - 1 + 7) / 8` rounds of eight frames; if they do
not fit into the block the last round stores beyond it. -/
def decodeBlockWAVE (ch fpp : Nat) (encoded : List Byte) : Except Abort (List (List Int)) := do
  let (sts, rest) ← waveHeaders ch encoded
  let frames ← waveGroups ((fpp - 1 + 7) / 8) sts rest
  if 1 + frames.length > fpp then throw .bufferOverflow
  return sts.map (·.prev) :: frames

/-- IMA.cpp:201-226 `decodeBlockQT`, the loop over channels: the samples of each channel. -/
def qtChannels (fpp : Nat) : Nat → List Byte → Except Abort (List (List Int))
  | 0, _ => .ok []
  | ch + 1, b0 :: b1 :: bs => do
    let predictor : Int := b0.toNat * 256 + (b1.toNat &&& 0x80 : Nat)
    let predictor := if predictor ≥ 0x8000 then predictor - 0x10000 else predictor
    let (xs, _, bs) ← decodePairs ((fpp + 1) / 2) ⟨clamp predictor (-32768) 32767, (b1.toNat &&& 0x7f : Nat)⟩ bs
    let cols ← qtChannels fpp ch bs
    return xs :: cols
  | _ + 1, _ => .error .bufferOverflow

/-- IMA.cpp:201-226 `decodeBlockQT`. `n = 0, 2, … < fpp`: for an odd `fpp` the last round stores beyond the block. -/
def decodeBlockQT (ch fpp : Nat) (encoded : List Byte) : Except Abort (List (List Int)) := do
  let cols ← qtChannels fpp ch encoded
  if fpp % 2 ≠ 0 then throw .bufferOverflow
  return interleave fpp cols

/-- IMA.cpp:281-289: the header of one channel. -/
def waveHeader (s : St) : List Byte :=
  [BitVec.ofInt 8 s.prev, BitVec.ofInt 8 (sar s.prev 8), BitVec.ofInt 8 s.index, 0]

/-- IMA.cpp:293-304: one round of the channel loop, from channel `c` on. -/
def encodeGroup (frames : List (List Int)) : Nat → List St → Except Abort (List Byte × List St)
  | _, [] => .ok ([], [])
  | c, s :: sts => do
    let (b, s) ← encodePairs 4 s (column c frames)
    let (bs, sts) ← encodeGroup frames (c + 1) sts
    return (b ++ bs, s :: sts)

/-- IMA.cpp:291-307: the loop over groups of eight frames. -/
def encodeGroups : Nat → List St → List (List Int) → Except Abort (List Byte × List St)
  | 0, sts, _ => .ok ([], sts)
  | k + 1, sts, frames => do
    let (b, sts) ← encodeGroup (frames.take 8) 0 sts
    let (bs, sts) ← encodeGroups k sts (frames.drop 8)
    return (b ++ bs, sts)

/-- IMA.cpp:277-310 `encodeBlockWAVE`; `sts` is `m_adpcmState`. -/
def encodeBlockWAVE (fpp : Nat) (sts : List St) (input : List (List Int)) : Except Abort (List Byte × List St) := do
  let (bs, sts') ← encodeGroups ((fpp - 1 + 7) / 8) sts input
  return (sts.flatMap waveHeader ++ bs, sts')

/-- IMA.cpp:320: `previousValue &= ~0x7f`. -/
def qtRound (s : St) : St := ⟨s.prev - s.prev % 128, s.index⟩

/-- IMA.cpp:322-324: the header of one channel (of the rounded state). -/
def qtHeader (s : St) : List Byte :=
  [BitVec.ofInt 8 (sar s.prev 8), BitVec.ofNat 8 ((lowBits s.prev 8 &&& 0x80) ||| lowBits s.index 7)]

/-- IMA.cpp:312-337 `encodeBlockQT`, the loop over channels from channel `c` on. -/
def encodeQTFrom (fpp : Nat) (input : List (List Int)) : Nat → List St → Except Abort (List Byte × List St)
  | _, [] => .ok ([], [])
  | c, s :: sts => do
    let (b, s') ← encodePairs ((fpp + 1) / 2) (qtRound s) (column c input)
    let (bs, sts) ← encodeQTFrom fpp input (c + 1) sts
    return (qtHeader (qtRound s) ++ b ++ bs, s' :: sts)

def encodeBlockQT (fpp : Nat) (sts : List St) (input : List (List Int)) : Except Abort (List Byte × List St) :=
  encodeQTFrom fpp input 0 sts

/-- IMA.cpp:48-52, 99: the states a new file module starts with. -/
def initial (ch : Nat) : List St := List.replicate ch ⟨0, 0⟩

end AF.IMA
