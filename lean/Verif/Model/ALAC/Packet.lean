import Verif.Model.ALAC.Golomb
import Verif.Model.ALAC.Predictor
import Verif.Model.ALAC.Matrix
/-!
# Model of the packets of the ALAC codec

`alac/ALACEncoder.cpp` (`Encode`, `EncodeMono`, `EncodeStereo`, `EncodeStereoEscape`) and `alac/ALACDecoder.cpp`
(`Decode`). A buffer of samples is the list (or function) of the integers its bytes stand for, interleaved.

What the encoder finds out by trial (the mixing parameter, the number of coefficients, the coefficients themselves, which
persist from packet to packet, and whether a first estimate already asks for an uncompressed packet) is a parameter
`Choice` of the model, one per element: everything stated holds whatever the search comes up with. The trial runs write
only to the encoder's own buffers. `mFastMode` is never set by the library, so `EncodeStereoFast` is left out.
-/
namespace AF.ALAC

/-! ## Encoder -/

/-- What the search of `EncodeMono` (ALACEncoder.cpp:883-920) and `EncodeStereo` (322-451) decides: `escape` is the first
value of `doEscape` (932, 460), `mixRes` is `mLastMixRes` (378, 382), `numU`, `numV` the numbers of coefficients (424, 433,
914), the coefficients are `coefsU[numU - 1]`, `coefsV[numV - 1]` when the header is written. -/
structure Choice where
  escape : Bool
  mixRes : Nat
  numU : Nat
  numV : Nat
  coefsU : List Int
  coefsV : List Int

/-- ALACEncoder.cpp:45-56 and the searches: `mixRes` runs from 0 to `kMaxRes = 4`, the numbers of coefficients are
`kMinUV = 4` and `kMaxUV = 8`, coefficients are of type `int16_t`. -/
structure Choice.OK (c : Choice) : Prop where
  mixRes : c.mixRes ≤ 4
  numU : c.numU = 4 ∨ c.numU = 8
  numV : c.numV = 4 ∨ c.numV = 8
  lenU : c.coefsU.length = c.numU
  lenV : c.coefsV.length = c.numV
  rangeU : ∀ a ∈ c.coefsU, -32768 ≤ a ∧ a < 32768
  rangeV : ∀ a ∈ c.coefsV, -32768 ≤ a ∧ a < 32768

/-- Several `BitBufferWrite`s in a row: pairs of a value and its number of bits. -/
def putAll : Mem → Nat → List (Int × Nat) → Except Stop (Mem × Nat)
  | m, pos, [] => .ok (m, pos)
  | m, pos, (v, n) :: rest => do
    let m ← bbWrite m pos (BitVec.ofInt 32 v) n
    putAll m (pos + n) rest

/-- ALACEncoder.cpp:301-306, 834-840: the bytes taken off the bottom of a sample. -/
def shiftBytes (depth : Nat) : Nat := if depth = 32 then 2 else if 24 ≤ depth then 1 else 0

/-- ALACEncoder.cpp:311, 845: `partialFrame`. -/
def partialFlag (frameSize n : Nat) : Nat := if n = frameSize then 0 else 1

/-- ALACEncoder.cpp:465-468, 743-746, 937-940, 973-976: the fields at the start of an element. -/
def headerFields (frameSize n bytesShifted escape : Nat) : List (Int × Nat) :=
  [(0, 12), (((partialFlag frameSize n * 8 + bytesShifted * 2 + escape : Nat) : Int), 4)] ++
    (if n = frameSize then [] else [((n : Int), 32)])

/-- ALACEncoder.cpp:476-484, 944-948: the parameters of a predictor, `(mode << 4) | DENSHIFT_DEFAULT` with mode 0 and
`DENSHIFT_DEFAULT = 9` (dplib.h:37), `(pbFactor << 5) | num` with `pbFactor = 4`, and the coefficients. -/
def predFields (num : Nat) (coefs : List Int) : List (Int × Nat) :=
  [(9, 8), (((4 * 32 + num : Nat) : Int), 8)] ++ coefs.map fun a => (a, 16)

/-- ag_dec.c:60-63, ALACEncoder.cpp:504, 955: the parameters of the Golomb coder, `MB0 = 10`, `PB0 = 40`, `KB0 = 14`
(aglib.h:38-40). -/
def encParams : Params := ⟨10, 40, 14⟩

/-- ALACEncoder.cpp:970-1004: an uncompressed mono element. -/
def monoEscape (depth frameSize : Nat) (xs : List Int) (m : Mem) (pos : Nat) : Except Stop (Mem × Nat) :=
  putAll m pos (headerFields frameSize xs.length 0 1 ++ xs.map fun x => (fetch depth x, depth))

/-- ALACEncoder.cpp:935-958: a compressed mono element. -/
def monoCompressed (depth frameSize : Nat) (c : Choice) (xs : List Int) (m : Mem) (pos : Nat) : Except Stop (Mem × Nat) := do
  let shift := 8 * shiftBytes depth
  let vals := xs.map (fetch depth)
  let (m, pos) ← putAll m pos (headerFields frameSize xs.length (shiftBytes depth) 0 ++ [(0, 16)] ++
    predFields c.numU c.coefsU ++ (if shift = 0 then [] else vals.map fun x => ((shiftedOff shift x : Int), shift)))
  let res := (pcBlock c.numU (depth - shift) 9 c.coefsU (vals.map (sar · shift))).1
  dynComp encParams res (depth - shift) m pos

/-- ALACEncoder.cpp:796-1010 `EncodeMono`, one channel of samples `xs`. Going back to the start of the element does not
undo what was written. -/
def encodeMono (depth frameSize : Nat) (c : Choice) (xs : List Int) (m : Mem) (pos : Nat) : Except Stop (Mem × Nat) := do
  if depth ≠ 16 ∧ depth ≠ 20 ∧ depth ≠ 24 ∧ depth ≠ 32 then throw .param
  let escapeBits := (xs.length * depth + (if xs.length = frameSize then 0 else 32) + 16) % 2 ^ 32
  if c.escape then monoEscape depth frameSize xs m pos
  else
    let (m, pos') ← monoCompressed depth frameSize c xs m pos
    if escapeBits ≤ (pos' - pos) % 2 ^ 32 then monoEscape depth frameSize xs m pos
    else return (m, pos')

/-- ALACEncoder.cpp:729-789 `EncodeStereoEscape`. -/
def stereoEscape (depth frameSize : Nat) (xs : List (Int × Int)) (m : Mem) (pos : Nat) : Except Stop (Mem × Nat) :=
  putAll m pos (headerFields frameSize xs.length 0 1 ++
    xs.flatMap fun x => [(fetch depth x.1, depth), (fetch depth x.2, depth)])

/-- matrix_enc.c, a pair of samples: what goes to the mixing buffers. -/
def mixPair (depth mixRes : Nat) (x : Int × Int) : Int × Int :=
  mix 2 mixRes (sar (fetch depth x.1) (8 * shiftBytes depth)) (sar (fetch depth x.2) (8 * shiftBytes depth))

/-- ALACEncoder.cpp:491-501: the interleaved bits shifted off. -/
def shiftFields (depth : Nat) (xs : List (Int × Int)) : List (Int × Nat) :=
  let shift := 8 * shiftBytes depth
  if shift = 0 then []
  else xs.map fun x =>
    (((shiftedOff shift (fetch depth x.1) * 2 ^ shift + shiftedOff shift (fetch depth x.2) : Nat) : Int), shift * 2)

/-- ALACEncoder.cpp:462-528: a compressed channel pair. `kDefaultMixBits = 2`. -/
def stereoCompressed (depth frameSize : Nat) (c : Choice) (xs : List (Int × Int)) (m : Mem) (pos : Nat) :
    Except Stop (Mem × Nat) := do
  let chanBits := depth - 8 * shiftBytes depth + 1
  let (m, pos) ← putAll m pos (headerFields frameSize xs.length (shiftBytes depth) 0 ++
    [(2, 8), ((c.mixRes : Int), 8)] ++ predFields c.numU c.coefsU ++ predFields c.numV c.coefsV ++ shiftFields depth xs)
  let uv := xs.map (mixPair depth c.mixRes)
  let (m, pos) ← dynComp encParams (pcBlock c.numU chanBits 9 c.coefsU (uv.map Prod.fst)).1 chanBits m pos
  dynComp encParams (pcBlock c.numV chanBits 9 c.coefsV (uv.map Prod.snd)).1 chanBits m pos

/-- ALACEncoder.cpp:266-545 `EncodeStereo`. -/
def encodeStereo (depth frameSize : Nat) (c : Choice) (xs : List (Int × Int)) (m : Mem) (pos : Nat) :
    Except Stop (Mem × Nat) := do
  if depth ≠ 16 ∧ depth ≠ 20 ∧ depth ≠ 24 ∧ depth ≠ 32 then throw .param
  let escapeBits := (xs.length * depth * 2 + (if xs.length = frameSize then 0 else 32) + 16) % 2 ^ 32
  if c.escape then stereoEscape depth frameSize xs m pos
  else
    let (m, pos') ← stereoCompressed depth frameSize c xs m pos
    if escapeBits ≤ (pos' - pos) % 2 ^ 32 then stereoEscape depth frameSize xs m pos
    else return (m, pos')

/-- ALACBitUtilities.h:58-67: the element tags `ID_SCE`, `ID_CPE`, `ID_LFE`, `ID_DSE`, `ID_FIL`, `ID_END`. -/
abbrev SCE : Nat := 0
abbrev CPE : Nat := 1
abbrev LFE : Nat := 3
abbrev DSE : Nat := 4
abbrev FIL : Nat := 6
abbrev END : Nat := 7

/-- ALACEncoder.cpp:83-93 `sChannelMaps`. -/
def channelMaps : List Nat :=
  [SCE, CPE, CPE <<< 3 ||| SCE, SCE <<< 9 ||| CPE <<< 3 ||| SCE, CPE <<< 9 ||| CPE <<< 3 ||| SCE,
    SCE <<< 15 ||| CPE <<< 9 ||| CPE <<< 3 ||| SCE, SCE <<< 18 ||| SCE <<< 15 ||| CPE <<< 9 ||| CPE <<< 3 ||| SCE,
    SCE <<< 21 ||| CPE <<< 15 ||| CPE <<< 9 ||| CPE <<< 3 ||| SCE]

/-- ALACEncoder.cpp:1075: the tag of the element that starts at a channel. -/
def tagOf (channels channelIndex : Nat) : Nat := (channelMaps.getD (channels - 1) 0 >>> (channelIndex * 3)) &&& 7

/-- The samples of one channel of an interleaved buffer of `n` frames. -/
def channel (buf : Nat → Int) (channels n c : Nat) : List Int := (List.range n).map fun i => buf (i * channels + c)

/-- The samples of two neighbouring channels. -/
def channelPair (buf : Nat → Int) (channels n c : Nat) : List (Int × Int) :=
  (List.range n).map fun i => (buf (i * channels + c), buf (i * channels + c + 1))

/-- ALACEncoder.cpp:1034-1121: the elements from channel `channelIndex` on; the first argument is the number of rounds
left. The branches for one and two channels (1034-1056) do what the loop does for the maps `ID_SCE` and `ID_CPE`. -/
def encodeLoop (depth frameSize channels n : Nat) (choice : Nat → Choice) (buf : Nat → Int) :
    Nat → (channelIndex mono stereo lfe : Nat) → Mem → Nat → Except Stop (Mem × Nat)
  | 0, _, _, _, _, m, pos => .ok (m, pos)
  | r + 1, ci, mono, stereo, lfe, m, pos => do
    if channels ≤ ci then return (m, pos)
    let tag := tagOf channels ci
    if tag = SCE then
      let (m, pos) ← putAll m pos [((tag : Int), 3), ((mono : Int), 4)]
      let (m, pos) ← encodeMono depth frameSize (choice ci) (channel buf channels n ci) m pos
      encodeLoop depth frameSize channels n choice buf r (ci + 1) (mono + 1) stereo lfe m pos
    else if tag = CPE then
      let (m, pos) ← putAll m pos [((tag : Int), 3), ((stereo : Int), 4)]
      let (m, pos) ← encodeStereo depth frameSize (choice ci) (channelPair buf channels n ci) m pos
      encodeLoop depth frameSize channels n choice buf r (ci + 2) mono (stereo + 1) lfe m pos
    else if tag = LFE then
      let (m, pos) ← putAll m pos [((tag : Int), 3), ((lfe : Int), 4)]
      let (m, pos) ← encodeMono depth frameSize (choice ci) (channel buf channels n ci) m pos
      encodeLoop depth frameSize channels n choice buf r (ci + 1) mono stereo (lfe + 1) m pos
    else throw .param

/-- ALACEncoder.cpp:1017-1160 `Encode`: a packet of `n` frames into the buffer `m`; the result is the buffer and the
number of bytes of the packet. -/
def encode (depth frameSize channels n : Nat) (choice : Nat → Choice) (buf : Nat → Int) (m : Mem) : Except Stop (Mem × Nat) := do
  let (m, pos) ← encodeLoop depth frameSize channels n choice buf channels 0 0 0 0 m 0
  let (m, pos) ← putAll m pos ([((END : Int), 3)] ++ (if (pos + 3) % 8 = 0 then [] else [((0 : Int), 8 - (pos + 3) % 8)]))
  return (m, pos / 8)

/-! ## Decoder -/

/-- ALACAudioTypes.h:165-178 `ALACSpecificConfig`, the fields the decoder uses; they come from the file. -/
structure Config where
  frameLength : Nat
  bitDepth : Nat
  pb : Nat
  mb : Nat
  kb : Nat
  deriving DecidableEq, Repr

/-- ALACEncoder.cpp:1192-1205 `GetConfig`: the configuration an encoder of the given frame size and depth announces. -/
def configOf (frameSize depth : Nat) : Config := ⟨frameSize, depth, 40, 10, 14⟩

/-- `BitBufferRead` as a number. -/
def rd (mem : Mem) (pos n : Nat) : Nat := (bbRead mem pos n).toNat

/-- The fields at the start of an element, ALACDecoder.cpp:221-248, 348-375: the number of samples, `bytesShifted`, the
escape flag and the position behind them. `pos` is the position of the instance tag. -/
def decHeader (mem : Mem) (pos requested : Nat) : Except Stop (Nat × Nat × Nat × Nat) := do
  if rd mem (pos + 4) 12 ≠ 0 then throw .param
  let hb := rd mem (pos + 16) 4
  let bytesShifted := hb / 2 % 4
  if bytesShifted = 3 then throw .param
  if hb / 8 ≠ 0 then return (rd mem (pos + 20) 16 * 2 ^ 16 + rd mem (pos + 36) 16, bytesShifted, hb % 2, pos + 52)
  else return (requested, bytesShifted, hb % 2, pos + 20)

/-- The parameters of a predictor. -/
structure Pred where
  mode : Nat
  denShift : Nat
  pbFactor : Nat
  num : Nat
  coefs : List Int

/-- ALACDecoder.cpp:257-266, 384-404: the parameters of a predictor and the position behind them. -/
def decPred (mem : Mem) (p : Nat) : Pred × Nat :=
  let h1 := rd mem p 8
  let h2 := rd mem (p + 8) 8
  let num := h2 % 32
  (⟨h1 / 16, h1 % 16, h2 / 32, num, (List.range num).map fun (i : Nat) => wrapS 16 (rd mem (p + 16 + 16 * i) 16)⟩,
    p + 16 + 16 * num)

/-- ALACDecoder.cpp:276-291, 415-446: one channel is decompressed. Not defined are shifts by a negative number or by more
than 31, and a warm-up of the predictor that goes past its buffers. -/
def decChannel (cfg : Config) (byteSize : Nat) (mem : Mem) (n chanBits : Nat) (pr : Pred) (p : Nat) :
    Except Stop (List Int × Nat) := do
  if chanBits = 0 ∨ 32 < chanBits ∨ 32 ≤ cfg.kb then throw .undefined
  if pr.num ≠ 0 ∧ pr.num ≠ 31 ∧ (pr.denShift = 0 ∨ cfg.frameLength ≤ pr.num) then throw .undefined
  let (res, p) ← dynDecomp ⟨cfg.mb, cfg.pb * pr.pbFactor / 4, cfg.kb⟩ n chanBits byteSize mem p
  let res := if pr.mode = 0 then res else (unpcBlock 31 chanBits 0 [] res).1
  return ((unpcBlock pr.num chanBits pr.denShift pr.coefs res).1, p)

/-- ALACDecoder.cpp:300-316, 460-490: a sample of an uncompressed element, `chanBits` bits at `p`. `val | extra` is a sum
because the lower bits of `val` are zero. -/
def decRaw (mem : Mem) (p chanBits : Nat) : Int :=
  if chanBits ≤ 16 then chop chanBits (rd mem p chanBits)
  else sar (wrapS 32 ((rd mem p 16 : Int) * 2 ^ 16)) (32 - chanBits) + rd mem (p + 16) (chanBits - 16)

/-- ALACBitUtilities.c:161-169 `BitBufferAdvance` (`numBits` and `bitIndex` are of type `uint32_t`). -/
def advance (pos numBits : Nat) : Nat := 8 * (pos / 8) + (pos % 8 + numBits) % 2 ^ 32

/-- ALACDecoder.cpp:215-346: a mono element (its tag is behind us). The result is the number of samples, the samples as
they are stored, and the position. Not defined are writes past the mixing buffers (`frameLength` samples) or past the
output buffer (`capacity` frames). -/
def decodeMono (cfg : Config) (byteSize : Nat) (mem : Mem) (pos requested capacity : Nat) :
    Except Stop (Nat × List Int × Nat) := do
  let (n, bytesShifted, escape, p) ← decHeader mem pos requested
  if cfg.frameLength < n ∨ capacity < n then throw .undefined
  let shift := 8 * bytesShifted
  if cfg.bitDepth ≤ shift then throw .undefined
  let chanBits := cfg.bitDepth - shift
  if escape = 0 then
    let (pr, p) := decPred mem (p + 16)
    let (us, p') ← decChannel cfg byteSize mem n chanBits pr (if bytesShifted = 0 then p else advance p (shift * n % 2 ^ 32))
    let out := (us.zipIdx).map fun (x : Int × Nat) =>
      store cfg.bitDepth shift x.1 (if bytesShifted = 0 then 0 else rd mem (p + shift * x.2) shift)
    return (n, out, p')
  else
    if 32 < chanBits then throw .undefined
    let out := (List.range n).map fun i => store cfg.bitDepth 0 (decRaw mem (p + chanBits * i) chanBits) 0
    return (n, out, p + chanBits * n)

/-- ALACDecoder.cpp:337-543: a channel pair. (A 32-bit pair mixed without shift would be or'ed with stale data, matrix_dec.c:
262-278; the encoder never writes one.) -/
def decodeStereo (cfg : Config) (byteSize : Nat) (mem : Mem) (pos requested capacity : Nat) :
    Except Stop (Nat × List (Int × Int) × Nat) := do
  let (n, bytesShifted, escape, p) ← decHeader mem pos requested
  if cfg.frameLength < n ∨ capacity < n then throw .undefined
  let shift := 8 * bytesShifted
  if cfg.bitDepth < shift then throw .undefined
  let chanBits := cfg.bitDepth - shift + 1
  if escape = 0 then
    let mixBits := rd mem p 8
    let mixRes := wrapS 8 (rd mem (p + 8) 8)
    if mixRes ≠ 0 ∧ (32 ≤ mixBits ∨ (cfg.bitDepth = 32 ∧ bytesShifted = 0)) then throw .undefined
    let (pu, p) := decPred mem (p + 16)
    let (pv, p) := decPred mem p
    let (us, p') ← decChannel cfg byteSize mem n chanBits pu
      (if bytesShifted = 0 then p else advance p (shift * 2 * n % 2 ^ 32))
    let (vs, p') ← decChannel cfg byteSize mem n chanBits pv p'
    let out := ((us.zip vs).zipIdx).map fun (x : (Int × Int) × Nat) =>
      let lr := unmix mixBits mixRes x.1.1 x.1.2
      let s1 := if bytesShifted = 0 then 0 else rd mem (p + shift * 2 * x.2) shift
      let s2 := if bytesShifted = 0 then 0 else rd mem (p + shift * 2 * x.2 + shift) shift
      (store cfg.bitDepth shift lr.1 s1, store cfg.bitDepth shift lr.2 s2)
    return (n, out, p')
  else
    let chanBits := cfg.bitDepth
    if chanBits = 0 ∨ 32 < chanBits then throw .undefined
    let out := (List.range n).map fun i =>
      (store cfg.bitDepth 0 (decRaw mem (p + chanBits * 2 * i) chanBits) 0,
        store cfg.bitDepth 0 (decRaw mem (p + chanBits * 2 * i + chanBits) chanBits) 0)
    return (n, out, p + chanBits * 2 * n)

/-- ALACDecoder.cpp:628-645 `FillElement`: the position behind it. -/
def fillElement (byteSize : Nat) (mem : Mem) (pos : Nat) : Except Stop Nat := do
  let count := (bbReadSmall mem pos 4).toNat
  let p := if count = 15 then advance (pos + 12) ((15 + (bbReadSmall mem (pos + 4) 8).toNat - 1) * 8)
    else advance (pos + 4) (count * 8)
  if byteSize < p / 8 then throw .param
  return p

/-- ALACBitUtilities.c:145-157 `BitBufferByteAlign` without zeros. -/
def byteAlign (pos : Nat) : Nat := if pos % 8 = 0 then pos else pos + (8 - pos % 8)

/-- ALACDecoder.cpp:651-680 `DataStreamElement`: the position behind it. -/
def dataStreamElement (byteSize : Nat) (mem : Mem) (pos : Nat) : Except Stop Nat := do
  let align := (bbReadOne mem (pos + 4)).toNat
  let c1 := (bbReadSmall mem (pos + 5) 8).toNat
  let count := if c1 = 255 then c1 + (bbReadSmall mem (pos + 13) 8).toNat else c1
  let p := if c1 = 255 then pos + 21 else pos + 13
  let p := advance (if align = 0 then p else byteAlign p) (count * 8)
  if byteSize < p / 8 then throw .param
  return p

/-- What `Decode` leaves behind: the output buffer, `*outNumSamples`, and whether the status is an error. -/
structure Decoded where
  out : Nat → Int
  frames : Nat
  failed : Bool

/-- One channel of samples goes to the output buffer. -/
def putChannel (channels c : Nat) (xs : List Int) (out : Nat → Int) : Nat → Int := fun k =>
  if k % channels = c ∧ k / channels < xs.length then xs.getD (k / channels) 0 else out k

/-- ALACDecoder.cpp:582-612: the remaining channels are filled with zeros (not for 20 bits). -/
def zeroFill (cfg : Config) (channels ci n : Nat) (out : Nat → Int) : Nat → Int := fun k =>
  if (cfg.bitDepth = 16 ∨ cfg.bitDepth = 24 ∨ cfg.bitDepth = 32) ∧ ci ≤ k % channels ∧ k / channels < n then 0 else out k

/-- ALACDecoder.cpp:198-612: the loop over the elements. The first argument is the number of rounds left; `n` is the local
`numSamples`, `frames` is `*outNumSamples`. -/
def decodeLoop (cfg : Config) (byteSize : Nat) (mem : Mem) (channels capacity : Nat) :
    Nat → (pos ci n : Nat) → (out : Nat → Int) → (frames : Nat) → Except Stop Decoded
  | 0, _, _, _, _, _ => .error .undefined
  | r + 1, pos, ci, n, out, frames =>
    if byteSize ≤ pos / 8 then .ok ⟨out, frames, true⟩
    else
      let tag := (bbReadSmall mem pos 3).toNat
      let pos := pos + 3
      if tag = SCE ∨ tag = LFE then
        match decodeMono cfg byteSize mem pos n capacity with
        | .error .undefined => .error .undefined
        | .error .param => .ok ⟨out, frames, true⟩
        | .ok (n, xs, pos) =>
          let out := putChannel channels ci xs out
          if channels ≤ ci + 1 then .ok ⟨out, n, false⟩
          else decodeLoop cfg byteSize mem channels capacity r pos (ci + 1) n out n
      else if tag = CPE then
        if channels < ci + 2 then .ok ⟨zeroFill cfg channels ci n out, frames, false⟩
        else
          match decodeStereo cfg byteSize mem pos n capacity with
          | .error .undefined => .error .undefined
          | .error .param => .ok ⟨out, frames, true⟩
          | .ok (n, xs, pos) =>
            let out := putChannel channels (ci + 1) (xs.map Prod.snd) (putChannel channels ci (xs.map Prod.fst) out)
            if channels ≤ ci + 2 then .ok ⟨out, n, false⟩
            else decodeLoop cfg byteSize mem channels capacity r pos (ci + 2) n out n
      else if tag = DSE ∨ tag = FIL then
        match (if tag = DSE then dataStreamElement byteSize mem pos else fillElement byteSize mem pos) with
        | .error _ => .ok ⟨zeroFill cfg channels ci n out, frames, true⟩
        | .ok pos => decodeLoop cfg byteSize mem channels capacity r pos ci n out frames
      else if tag = END then .ok ⟨out, frames, false⟩
      else .ok ⟨zeroFill cfg channels ci n out, frames, true⟩

/-- ALACDecoder.cpp:155-615 `Decode`: a packet of `byteSize` bytes at the start of `mem`; `out` is the output buffer before
the call, with room for `requested` frames of `channels` samples. Every element takes at least three bits, so the loop
makes no more than `8 * byteSize` rounds. -/
def decode (cfg : Config) (byteSize : Nat) (mem : Mem) (channels requested : Nat) (out : Nat → Int) : Except Stop Decoded :=
  if channels = 0 then .ok ⟨out, requested, true⟩
  else decodeLoop cfg byteSize mem channels requested (8 * byteSize + 1) 0 0 requested out requested

end AF.ALAC
