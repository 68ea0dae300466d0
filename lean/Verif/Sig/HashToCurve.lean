import Verif.Util.Conversion
import Mathlib.Data.ZMod.Basic

/-!
# Model of `hash_to_curve`, `signature/src/bls_over_bn254.rs:454-486`

* The base field is `ZMod p`. `hash_to_field` (arkworks, over Keccak) and `sqrt` (arkworks) are
  parameters; nothing is assumed about which of the two square roots `sqrt` returns.
* The `while` loop becomes a loop with fuel; `none` means that the fuel is used up. The theorems
  show that `p` rounds of fuel always suffice, so `none` stands for an endless loop.
* `BigInt::mul2` works on 256 bits and drops the carry.
-/

namespace Verif.HashToCurve

open Conv

variable {p : ℕ}

/-- `Y = x * x * x + coeff_b`, lines 466-467 and 472 -/
def curveY (x : ZMod p) : ZMod p := x * x * x + 3

/-- the loop condition `Y.legendre().is_qnr()`, line 469, for a given Legendre symbol -/
def findX (isQnr : ZMod p → Bool) : ℕ → ZMod p → Option (ZMod p)
  | 0, _ => none
  | n + 1, x => if isQnr (curveY x) then findX isQnr n (x + 1) else some x

/-- lines 476-483: the root whose double does not exceed the modulus -/
def normalizeRoot (y : ZMod p) : ZMod p :=
  let yMul2 := 2 * y.val % 2 ^ 256
  if yMul2 > p then -y else y

/-- `hash_to_curve`, lines 454-486; the result is the pair of affine coordinates -/
def hashToCurve (isQnr : ZMod p → Bool) (sqrt : ZMod p → ZMod p)
    (hashToField : List Byte → ZMod p) (fuel : ℕ) (msg : List Byte) : Option (ZMod p × ZMod p) :=
  match findX isQnr fuel (hashToField msg) with
  | none => none
  | some x => some (x, normalizeRoot (sqrt (curveY x)))

end Verif.HashToCurve
