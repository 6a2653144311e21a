import Verif.Model.ALAC.Packet
import Verif.Model.PacketTrack
/-!
# ALAC tracks in CAF files

The codec's configuration (its "magic cookie"), and the codec as the packet codec of `Model/PacketTrack.lean`.
A frame is the list of its samples.
-/
namespace AF.ALAC
open AF AF.Files

/-- ALACAudioTypes.h:100-125 `ALACChannelLayoutTags[channels - 1]`. -/
def layoutTag (channels : Nat) : Int :=
  match channels with
  | 1 => 100 * 65536 + 1
  | 2 => 101 * 65536 + 2
  | 3 => 113 * 65536 + 3
  | 4 => 116 * 65536 + 4
  | 5 => 120 * 65536 + 5
  | 6 => 124 * 65536 + 6
  | 7 => 142 * 65536 + 7
  | _ => 127 * 65536 + 8

/-- ALACEncoder.cpp:1192-1205 `GetConfig`, 1217-1252 `GetMagicCookie`; ALACAudioTypes.h:165-178. `mMaxFrameBytes` and
`mAvgBitRate` are 0 when the cookie is made (modules/ALAC.cpp:121-135); `rate` is `mOutputSampleRate`, a `uint32_t`. -/
def magicCookie (h : Endian) (frameSize depth channels : Nat) (rate : Int) : List Byte :=
  fieldBytes h .big .s4 frameSize ++ [0, BitVec.ofNat 8 depth, 40, 10, 14, BitVec.ofNat 8 channels] ++
  fieldBytes h .big .s2 255 ++ fieldBytes h .big .s4 0 ++ fieldBytes h .big .s4 0 ++ fieldBytes h .big .s4 rate ++
  (if channels > 2 then [0, 0, 0, 24] ++ tag "chan" ++ [0, 0, 0, 0] ++ fieldBytes h .big .s4 (layoutTag channels) ++
    List.replicate 8 0 else [])

/-- ALACDecoder.cpp:102-115: whether an atom of this name starts here. -/
def isAtom (name : String) (c : List Byte) : Bool := (c.drop 4).take 4 == tag name

/-- ALACDecoder.cpp:88-150 `Init`: the configuration, `none` if it fails (the status is ignored, modules/ALAC.cpp:116-119,
and the decoder has no buffers). `theCookieBytesRemaining` is a `uint32_t`. Simplification: a cookie of fewer than 8
bytes, or than 20 behind an atom's header, counts as read beyond its end even if the comparison of names stops earlier. -/
def initDecoder (h : Endian) (c : List Byte) : Except Abort (Option Config) := do
  if c.length < 8 then throw .bufferOverflow
  let left : Int := wrapU 32 c.length
  let (c, left) := if isAtom "frma" c then (c.drop 12, wrapU 32 (left - 12)) else (c, left)
  if c.length < 8 then throw .bufferOverflow
  let (c, left) := if isAtom "alac" c then (c.drop 12, wrapU 32 (left - 12)) else (c, left)
  if left < 24 then return none
  if c.length < 24 then throw .bufferOverflow
  if 0 < (c.getD 4 0).toNat then return none
  return some ⟨((readField h .big .s4 (c.take 4)).map (·.1.toNat)).getD 0, (c.getD 5 0).toNat, (c.getD 6 0).toNat, (c.getD 7 0).toNat, (c.getD 8 0).toNat⟩

/-- The interleaved samples of frames in a buffer. -/
def bufOf (channels : Nat) (fs : List (List Int)) : Nat → Int := fun k => (fs.getD (k / channels) []).getD (k % channels) 0

/-- The first `n` frames in a buffer. -/
def framesIn (channels n : Nat) (buf : Nat → Int) : List (List Int) :=
  (List.range n).map fun i => (List.range channels).map fun j => buf (i * channels + j)

/-- modules/ALAC.cpp:274-297: packet `i`, of the frames `fs`. `choice i` is what the encoder's search settles on, `m i`
what is in the output buffer before. -/
def encodePacket (depth frameSize channels : Nat) (choice : Nat → Nat → Choice) (m : Nat → Mem) (i : Nat) (fs : List (List Int)) :
    Option (List Byte) :=
  match encode depth frameSize channels fs.length (choice i) (bufOf channels fs) (m i) with
  | .ok (m', size) => some ((List.range size).map m')
  | .error _ => none

/-- modules/ALAC.cpp:225-250: the frames in the out chunk after packet `i` was decoded. `rest i` is what is in the input
buffer behind the packet, `old i` what is in the output buffer before. A decoder whose `Init` failed has no buffers
(null pointers). -/
def decodePacket (cfg : Option Config) (frameSize channels : Nat) (rest : Nat → Mem) (old : Nat → Nat → Int) (i : Nat)
    (bs : List Byte) : Except Abort (List (List Int)) :=
  match cfg with
  | none => .error .bufferOverflow
  | some cfg =>
    match decode cfg bs.length (fun k => if k < bs.length then bs.getD k 0 else rest i k) channels frameSize (old i) with
    | .error _ => .error .bufferOverflow
    | .ok r => .ok (framesIn channels r.frames r.out)

/-- modules/ALAC.cpp:343-375 `_af_alac_format_ok`: the formats a track can be opened with for writing. (A byte order
other than the host's is reported and replaced.) -/
def FormatOk (f : Setup.AFmt) : Prop :=
  f.channels ≤ 8 ∧ f.sampleFormat = Setup.TWOSCOMP ∧
    (f.sampleWidth = 16 ∨ f.sampleWidth = 20 ∨ f.sampleWidth = 24 ∨ f.sampleWidth = 32)

variable {V γ : Type}

/-- A track of format `f` opened for writing: CAF.cpp:710-738, modules/ALAC.cpp:121-135. -/
def writer (h : Endian) (f : Setup.AFmt) (choice : Nat → Nat → Choice) (m : Nat → Mem) (conv : V → γ → List Int) :
    Packets.WCfg V (List Int) γ :=
  ⟨h, 4096, by decide, encodePacket f.sampleWidth.toNat 4096 f.channels.toNat choice m, conv⟩

/-- The cookie the writer makes. The conversion of a rate that is not less than 2^32 is undefined. -/
def cookieOf (h : Endian) (f : Setup.AFmt) : List Byte := magicCookie h 4096 f.sampleWidth.toNat f.channels.toNat (toUnsigned f.rate)

/-- modules/ALAC.cpp:268-272 `bufferSize` (an `int`; no overflow for the files written by the library). -/
def bufferSize (fpp channels width : Nat) : Nat := fpp * channels * ((10 + width) / 8) + 1

/-- Opening for reading what was found in a CAF file: openclose.cpp:390-398, modules/ALAC.cpp:165-190. `none`: opening
fails (no cookie: "codec data not set"). Files with 0 frames per packet, which the code does not exclude, are excluded
here. -/
def reader (h : Endian) (file : List Byte) (x : CafRead) (rest : Nat → Mem) (old : Nat → Nat → Int) (stale : List (List Int))
    (conv : V → List Int → γ) (hasConv : V → Bool) : Except Abort (Option (Packets.RCfg V (List Int) γ)) :=
  match x.params with
  | .cookie c => do
    let cfg ← initDecoder h c
    if hp : 0 < x.t.fpp.toNat then
      return some { fpp := x.t.fpp.toNat, fpp_pos := hp, sizes := x.table.map PacketTable.sizes,
                    capacity := bufferSize x.t.fpp.toNat x.t.f.channels.toNat x.t.f.sampleWidth.toNat
                    decode := decodePacket cfg x.t.fpp.toNat x.t.f.channels.toNat rest old
                    stale := stale, conv := conv, hasConv := hasConv, file := file, fposFirst := x.t.first.toNat, totalf := x.t.frames }
    else return none
  | _ => return none

end AF.ALAC
