import Verif.Model.Reading
/-! What the frames of a track are, independent of how the library reads them. -/
namespace AF.Reading
variable {V α γ : Type}

/-- A track whose header tells the truth: the file is seekable and holds at least
`totalf` frames in whole packets, and the codec makes `fpp` frames of a packet. -/
structure Intact (c : Cfg V α γ) : Prop where
  decode_len : ∀ p : List Byte, p.length = c.bpp → (c.decode p).length = c.fpp
  one : c.kind ≠ .block → c.fpp = 1
  first : 0 ≤ c.fposFirst
  total : 0 ≤ c.totalf
  enough : c.totalf ≤ ((c.file.length - c.fposFirst.toNat) / c.bpp * c.fpp : Nat)
  seek : c.seekok = true

/-- Frame `i`: frame `i mod fpp` of the decoding of packet `i / fpp`, which occupies the `bpp` bytes at
offset `first + bpp * (i / fpp)` of the file. -/
def trackFrame (c : Cfg V α γ) (i : Nat) : Option α :=
  (c.decode ((c.file.drop (c.fposFirst.toNat + c.bpp * (i / c.fpp))).take c.bpp))[i % c.fpp]?

/-- The frames `0 … totalf - 1` of the track. -/
def trackFrames (c : Cfg V α γ) : List α := (List.range c.totalf.toNat).filterMap (trackFrame c)

end AF.Reading
