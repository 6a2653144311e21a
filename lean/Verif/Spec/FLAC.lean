import Verif.Model.FLAC
import Verif.Spec.Samples
import Verif.Spec.WriteCalls
/-!
# FLAC: what the stream holds, and what the library is expected to do with it
-/
namespace AF.Spec.FLAC
open AF AF.FLAC AF.Spec

variable {V γ : Type}

/-- The frames of a stream: those of its blocks, in order, however they are divided into blocks. -/
def rowsOf (bs : List Block) : List (List Int) := bs.flatMap (·.rows)

/-- A frame as the decoder delivers it: its samples of `width` bits, packed, in the machine's byte order. -/
def frameBytes (h : Endian) (width : Nat) (row : List Int) : List Byte := packedBytes h (width / 8) row

/-- A block libFLAC can hand over, with the number of channels the header announced. -/
structure GoodBlock (channels : Nat) (b : Block) : Prop where
  chans : b.channels = channels
  rows : ∀ r ∈ b.rows, r.length = channels
  small : b.rows.length ≤ 65535

/-- A stream that agrees with its header. -/
structure Good (c : Cfg V γ) : Prop where
  width : c.width = 16 ∨ c.width = 24
  blocks : ∀ b ∈ c.blocks, GoodBlock c.channels b
  total : c.total = (rowsOf c.blocks).length

/-- The frames a reader should see. -/
def content (c : Cfg V γ) : List (List Byte) := (rowsOf c.blocks).map (frameBytes c.host c.width)

/-- Calls that never make the library seek to the very end of the track (of `n` frames): no seek to frame `n` from elsewhere, and no
change of the virtual format there. -/
def LeavesEnd (F : List (List Byte)) : Cursor V → List (Call V) → Prop
  | _, [] => True
  | cur, op :: ops =>
    (match op with
      | .seek f => f = F.length → cur.pos = F.length
      | .setFormat _ => cur.pos < F.length ∨ F = []
      | _ => True) ∧ LeavesEnd F (move F cur op) ops

/-- No frame is written after the file was synchronised. -/
def NoWriteAfterSync : Bool → List (Writing.Op V γ) → Prop
  | _, [] => True
  | b, .write xs :: ops => (b = true → xs = []) ∧ NoWriteAfterSync b ops
  | _, .sync :: ops => NoWriteAfterSync true ops
  | b, .setFormat _ :: ops => NoWriteAfterSync b ops

/-- Every frame handed over has the size of a frame of the file. -/
def Sized (c : WCfg V γ) : Prop := ∀ v x, (c.conv v x).length = c.channels * (c.width / 8)

/-- The results of the calls: the number of frames for a write. -/
def resultOf : Writing.Op V γ → Int
  | .write xs => xs.length
  | _ => 0

/-- libFLAC as a pair of functions on files: what the encoder leaves in the file for given parameters and frames (`finish` fills in the
total), and what the decoder makes of a file. -/
structure Lib where
  accepts : Info → Bool
  encode : Info → List (List Int) → List Byte
  decode : List Byte → Option (Info × List Block)

/-- A frame the encoder can take. -/
def Encodable (i : Info) (r : List Int) : Prop := r.length = i.channels ∧ ∀ x ∈ r, SampleRange (i.width / 8) false x

/-- FLAC is lossless: the header comes back with the total, the frames come back, in blocks of the encoder's choice. -/
def Lossless (lib : Lib) : Prop :=
  ∀ i fs, lib.accepts i = true → i.total = 0 → (∀ r ∈ fs, Encodable i r) → fs.length < 2 ^ 36 →
    ∃ bs, lib.decode (lib.encode i fs) = some ({ i with total := fs.length }, bs) ∧ rowsOf bs = fs ∧
      ∀ b ∈ bs, GoodBlock i.channels b

end AF.Spec.FLAC
