import Verif.Model.PacketTrack
/-! # What it means that a file with a packet table holds given frames -/
namespace AF.Packets
open AF AF.Files
variable {V α γ : Type}

/-- The data of the file starts with the packets `P`, the table lists their sizes, packet `i` decodes to the frames
`i * fpp … (i + 1) * fpp - 1` of `F` (the last one to what is left), and the table tells how many frames there are. -/
structure Carries (c : RCfg V α γ) (F : List α) (P : List (List Byte)) : Prop where
  sizes : c.sizes = some (P.map List.length)
  bytes : ∃ rest, c.file.drop c.fposFirst = P.flatten ++ rest
  count : P.length = F.length / c.fpp + 1
  decode : ∀ i (hi : i < P.length), c.decode i P[i] = .ok ((F.drop (i * c.fpp)).take c.fpp)
  capacity : ∀ p ∈ P, p.length ≤ c.capacity
  total : c.totalf = F.length
  small : F.length / c.fpp < 2 ^ 31 ∧ F.length < 2 ^ 63

/-- Conditions on a file under which reading stays within its buffers: there is a table, no packet is larger than the
buffer for packets, the number of frames is not more than the packets can hold, and the codec delivers at most
`fpp` frames for each packet that is completely in the file. -/
structure Sound (c : RCfg V α γ) (S : List Nat) : Prop where
  sizes : c.sizes = some S
  count : S.length < 2 ^ 31
  capacity : ∀ n ∈ S, n ≤ c.capacity
  total : 0 ≤ c.totalf ∧ c.totalf ≤ S.length * c.fpp ∧ c.totalf < 2 ^ 63
  decode : ∀ i (hi : i < S.length), ((c.file.drop (c.fposFirst + (S.take i).sum)).take S[i]).length = S[i] →
    ∃ fs, c.decode i ((c.file.drop (c.fposFirst + (S.take i).sum)).take S[i]) = .ok fs ∧ fs.length ≤ c.fpp
  stale : c.stale.length ≤ c.fpp

/-- The answer to a call stays within the client's buffer: a call that reads `n` frames stores as many frames as it says,
and not more than `n`; the other calls store nothing. -/
def Within (op : Spec.Call V) (o : Int × List (Option γ)) : Prop :=
  match op with
  | .read n => o.1 = o.2.length ∧ o.2.length ≤ n.toNat
  | _ => o.2 = []

end AF.Packets
