import Verif.Model.CInt
/-!
# Model of the adaptive predictor of the ALAC codec

`alac/dp_enc.c` (`pc_block`) and `alac/dp_dec.c` (`unpc_block`). Samples and residuals are `int32_t`, coefficients
`int16_t`. Signed overflow is taken to wrap, as it does on every compiler the library is built with.

The samples before position `j` are kept as a list with the newest first: `hist[k]` is `in[j - 1 - k]`.
-/
namespace AF.ALAC

/-- dp_enc.c:66-72, dp_dec.c:47-53 `sign_of_int`. -/
def signOf (i : Int) : Int := if i < 0 then -1 else if 0 < i then 1 else 0

/-- `(del << chanshift) >> chanshift` with `chanshift = 32 - chanbits`, on an `int32_t`. -/
def chop (chanbits : Nat) (del : Int) : Int := sar (wrapS 32 (wrapS 32 del * (2 ^ (32 - chanbits) : Nat))) (32 - chanbits)

/-- `top - pin[-k]` for `k = 0 … numactive - 1`. -/
def differences (numactive : Nat) (hist : List Int) : List Int :=
  (List.range numactive).map fun k => wrapS 32 (hist.getD numactive 0 - hist.getD k 0)

/-- `Σ aₖ bₖ` -/
def dot : List Int → List Int → Int
  | a :: as, b :: bs => a * b + dot as bs
  | _, _ => 0

/-! ## Encoder -/

/-- dp_enc.c:122, 222-223, 340-344: `(denhalf - Σ aₖ bₖ) >> denshift`. -/
def encSum (denshift : Nat) (coefs b : List Int) : Int :=
  sar (wrapS 32 ((2 ^ (denshift - 1) : Nat) - dot coefs b)) denshift

/-- dp_enc.c:129-177, 230-315, 350-377: the coefficients are adapted, the last one first, until the residual is used up.
`ps` are the pairs of coefficient and difference, the last pair first; `w` is the weight `numactive - k` of the first
of them; `pos` says that the residual is positive. The result is in the same order. The branches for four and eight
coefficients are the same loop unrolled. -/
def encAdapt (denshift : Nat) (pos : Bool) : (w : Int) → (del0 : Int) → List (Int × Int) → List Int
  | _, _, [] => []
  | w, del0, (a, b) :: ps =>
    let sgn := if pos then signOf b else - signOf b
    let a := wrapS 16 (a - sgn)
    let del0 := wrapS 32 (del0 - w * sar (wrapS 32 (sgn * b)) denshift)
    if (if pos then del0 ≤ 0 else 0 ≤ del0) then a :: ps.map Prod.fst
    else a :: encAdapt denshift pos (w + 1) del0 ps

/-- dp_enc.c:125-178 and its two variants: the coefficients after the residual `del`. -/
def encUpdate (denshift : Nat) (coefs b : List Int) (del : Int) : List Int :=
  if 0 < signOf del then (encAdapt denshift true 1 del (coefs.zip b).reverse).reverse
  else if signOf del < 0 then (encAdapt denshift false 1 del (coefs.zip b).reverse).reverse
  else coefs

/-- dp_enc.c:119-178, 210-316, 334-378: the loop from sample `numactive + 1` on. -/
def encLoop (numactive chanbits denshift : Nat) : (coefs hist : List Int) → List Int → List Int × List Int
  | coefs, _, [] => ([], coefs)
  | coefs, hist, x :: xs =>
    let top := hist.getD numactive 0
    let b := differences numactive hist
    let del := chop chanbits (x - top - encSum denshift coefs b)
    let (out, coefs') := encLoop numactive chanbits denshift (encUpdate denshift coefs b del) (x :: hist) xs
    (del :: out, coefs')

/-- dp_enc.c:93-110: first differences, for `numactive = 31` and for the first `numactive` samples. -/
def firstDiffs (chanbits : Nat) : Int → List Int → List Int
  | _, [] => []
  | prev, x :: xs => chop chanbits (x - prev) :: firstDiffs chanbits x xs

/-- dp_enc.c:74-386 `pc_block`: the residuals and the coefficients afterwards. (The warm-up loop reads and writes up to
`numactive` elements even when there are fewer samples; what it computes there is never used.) -/
def pcBlock (numactive chanbits denshift : Nat) (coefs : List Int) : List Int → List Int × List Int
  | [] => ([], coefs)
  | x :: xs =>
    if numactive = 0 then (x :: xs, coefs)
    else if numactive = 31 then (x :: firstDiffs chanbits x xs, coefs)
    else
      let warm := xs.take numactive
      let (out, coefs') := encLoop numactive chanbits denshift coefs (x :: warm).reverse (xs.drop numactive)
      (x :: (firstDiffs chanbits x warm ++ out), coefs')

/-! ## Decoder -/

/-- dp_dec.c:126, 222-223: `(denhalf - Σ aₖ bₖ) >> denshift` for four and eight coefficients; dp_dec.c:344-352:
`(Σ aₖ (pout[-k] - top) + denhalf) >> denshift` otherwise. -/
def decSum (numactive denshift : Nat) (coefs b : List Int) : Int :=
  if numactive = 4 ∨ numactive = 8 then sar (wrapS 32 ((2 ^ (denshift - 1) : Nat) - dot coefs b)) denshift
  else sar (wrapS 32 (wrapS 32 (dot coefs (b.map (- ·))) + (2 ^ (denshift - 1) : Nat))) denshift

/-- dp_dec.c:134-182, 234-318, 354-378: like `encAdapt`. -/
def decAdapt (denshift : Nat) (pos : Bool) : (w : Int) → (del0 : Int) → List (Int × Int) → List Int
  | _, _, [] => []
  | w, del0, (a, b) :: ps =>
    let sgn := if pos then signOf b else - signOf b
    let a := wrapS 16 (a - sgn)
    let del0 := wrapS 32 (del0 - w * sar (wrapS 32 (sgn * b)) denshift)
    if (if pos then del0 ≤ 0 else 0 ≤ del0) then a :: ps.map Prod.fst
    else a :: decAdapt denshift pos (w + 1) del0 ps

/-- dp_dec.c:132-183 and its two variants: the coefficients after the residual `del`. -/
def decUpdate (denshift : Nat) (coefs b : List Int) (del : Int) : List Int :=
  if 0 < signOf del then (decAdapt denshift true 1 del (coefs.zip b).reverse).reverse
  else if signOf del < 0 then (decAdapt denshift false 1 del (coefs.zip b).reverse).reverse
  else coefs

/-- dp_dec.c:112-184, 205-320, 338-379: the loop from sample `numactive + 1` on. -/
def decLoop (numactive chanbits denshift : Nat) : (coefs hist : List Int) → List Int → List Int × List Int
  | coefs, _, [] => ([], coefs)
  | coefs, hist, del :: ds =>
    let top := hist.getD numactive 0
    let b := differences numactive hist
    let x := chop chanbits (del + (top + decSum numactive denshift coefs b))
    let (out, coefs') := decLoop numactive chanbits denshift (decUpdate denshift coefs b del) (x :: hist) ds
    (x :: out, coefs')

/-- dp_dec.c:75-101: running sums. -/
def runningSums (chanbits : Nat) : Int → List Int → List Int
  | _, [] => []
  | prev, d :: ds =>
    let x := chop chanbits (d + prev)
    x :: runningSums chanbits x ds

/-- dp_dec.c:55-381 `unpc_block`: the samples and the coefficients afterwards. -/
def unpcBlock (numactive chanbits denshift : Nat) (coefs : List Int) : List Int → List Int × List Int
  | [] => ([], coefs)
  | d :: ds =>
    if numactive = 0 then (d :: ds, coefs)
    else if numactive = 31 then (d :: runningSums chanbits d ds, coefs)
    else
      let warm := runningSums chanbits d (ds.take numactive)
      let (out, coefs') := decLoop numactive chanbits denshift coefs (d :: warm).reverse (ds.drop numactive)
      (d :: (warm ++ out), coefs')

end AF.ALAC
