/-!
# Specification of what a finished file contains

Independent of the library's buffering: cut the frame sequence into packets of `fpp` frames, encode them in
order, threading the codec's state; an incomplete last packet is completed with `pad`.
-/
namespace AF.Spec
variable {α β ε : Type}

/-- Encode the first `k` packets of `fs`. -/
def packets (fpp : Nat) (encode : ε → List α → List β × ε) : Nat → ε → List α → List β × ε
  | 0, e, _ => ([], e)
  | k + 1, e, fs =>
    ((encode e (fs.take fpp)).1 ++ (packets fpp encode k (encode e (fs.take fpp)).2 (fs.drop fpp)).1,
     (packets fpp encode k (encode e (fs.take fpp)).2 (fs.drop fpp)).2)

/-- The data section for the frames `fs`: all whole packets, then the rest completed with the tail of `pad`. -/
def fileData (fpp : Nat) (encode : ε → List α → List β × ε) (e : ε) (pad : List α) (fs : List α) : List β :=
  let k := fs.length / fpp
  let whole := packets fpp encode k e fs
  let rest := fs.drop (k * fpp)
  if rest = [] then whole.1 else whole.1 ++ (encode whole.2 (rest ++ pad.drop rest.length)).1

/-- The packet before the incomplete last one, or `junk` if there is none. -/
def lastPacket (fpp : Nat) (junk : List α) (fs : List α) : List α :=
  if fs.length / fpp = 0 then junk else (fs.drop ((fs.length / fpp - 1) * fpp)).take fpp

end AF.Spec
