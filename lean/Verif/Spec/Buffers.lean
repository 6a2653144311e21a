import Verif.Model.Buffers
/-!
# When buffers are large enough

Conditions on tracks and calls, in terms of formats only.
-/
namespace AF.Spec.Buffers
open AF.Convert AF.Buffers

/-- The codec and the format of the track go together (what `afOpenFile` guarantees: C62). -/
structure Coded (c : Cfg) : Prop where
  pcm : c.codec = .pcm → c.f.compressed = false
  others : c.codec ≠ .pcm → c.f.compressed = true
  g711 : c.codec = .g711 → c.f.sampleFormat = .twos ∧ c.f.width = 16
  block : c.codec = .block → c.f.sampleFormat = .twos ∧ c.f.width = 16
  alac : c.codec = .alac → c.f.sampleFormat = .twos ∧ c.f.width ≤ 32

/-- Fewer than 2^18 channels. -/
def Few (f : Fmt) : Prop := f.channels < 2 ^ 18

/-- No chunk between the conversion modules has larger frames than the codec delivers. -/
def NoWider (c : Cfg) (v : Fmt) : Prop :=
  ∀ ch, arrange c.h true c.f v = some ch →
    ∀ g ∈ chunkFormats c.decoded ch.mods, bytesPerFrame g true ≤ bytesPerFrame c.decoded true

/-- A virtual format a track may be read in: uncompressed, few channels, and if packets have more than 1024 frames, no wider than the
file's own samples at any stage of the conversion. -/
structure ReadAs (c : Cfg) (v : Fmt) : Prop where
  unc : v.compressed = false
  few : Few v
  long : c.codec.rebuffers = true → c.fpp ≤ 1024 ∨ NoWider c v

/-- A track that may be read. -/
structure Readable (c : Cfg) : Prop where
  coded : Coded c
  few : Few c.f
  /-- a decoded packet has fewer than 2^30 bytes -/
  packet : c.codec.rebuffers = true → c.fpp * (8 * c.f.channels) < 2 ^ 31
  /-- a packet is not larger than what it decodes to, or than 1024 decoded frames -/
  block : c.codec = .block → 0 < c.bpp ∧ c.bpp ≤ 2 * c.f.channels * max 1024 c.fpp
  /-- the packets in the table fit the buffer the codec asks for (C59), and no packet decodes to more than `fpp` frames (C57) -/
  sizes : c.codec = .alac → ∀ p ∈ c.sizes, p ≤ c.fpp * c.f.channels * ((10 + c.f.width) / 8) + 1
  frames : c.codec = .alac → ∀ i, c.frames i ≤ c.fpp
  frame : c.codec = .pcm → 0 < bytesPerFrame c.f false
  channels : c.codec = .g711 → 0 < c.f.channels

/-- A call that may be made while reading: seeks beyond the end of an empty track are excluded (C16). -/
def MayRead (c : Cfg) : ROp → Prop
  | .read _ => True
  | .seek f => c.total = some 0 → f = 0
  | .setFormat v => ReadAs c v

/-- A track that may be written. -/
structure Writable (c : Cfg) : Prop where
  coded : Coded c
  few : Few c.f
  packet : c.codec.rebuffers = true → c.fpp * (8 * c.f.channels) < 2 ^ 31
  block : c.codec = .block → 0 < c.bpp ∧ c.bpp ≤ 2 * c.f.channels * max 1024 c.fpp
  frame : c.codec = .pcm → 0 < bytesPerFrame c.f false
  channels : c.codec = .g711 → 0 < c.f.channels

/-- The packets the ALAC encoder makes fit the buffer the codec asks for (C56). -/
def Packed (c : Cfg) (l : List Nat) : Prop := ∀ p ∈ l, p ≤ c.fpp * c.f.channels * ((10 + c.f.width) / 8) + 1

/-- A call that may be made while writing. -/
def MayWrite : WOp → Prop
  | .setFormat v => v.compressed = false ∧ Few v
  | _ => True

/-- The virtual format of a track right after `afOpenFile`: that of the file, uncompressed, in the byte order of the machine
(openclose.cpp:375-396). -/
def asOpened (c : Cfg) : Fmt := { c.f with compressed := false, byteOrder := c.h }

end AF.Spec.Buffers
