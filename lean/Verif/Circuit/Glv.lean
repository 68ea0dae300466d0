import Verif.Circuit.Msm
import Verif.Util.Conversion

/-!
# Model of `relation/src/gadgets/ecc/glv.rs`

and of `variable_base_scalar_mul`, `relation/src/gadgets/ecc/mod.rs:470-490`.

* The field constants are given as bytes in the source, little endian, and read with `from_le_bytes_mod_order`.
* `BigUint` is `ℕ` (subtraction below zero panics), `BigInt` is `ℤ` with division rounding towards zero (`Int.tdiv`).
* `int_to_fq!` (`glv.rs:250-254`) drops the sign: `to_bytes_le().1` are the bytes of the absolute value.
* `Projective::new(X, Y, T, Z)` of arkworks converts to affine coordinates (which panics for `Z = 0`, since `T = 1` is
  not the coordinate of the neutral element) and asserts that the point is on the curve and has order dividing `r`.
* The statements under `#[cfg(test)]` (`glv.rs:383-453`) are not part of the library and are left out.
* `glv_mul` takes the field of the scalars from the curve, `K.r` is its order.
-/

namespace Verif.Circuit.Glv

open Verif.Conv Verif.Circuit

variable {p : ℕ}

/-! ## Constants -/

/-- `COEFF_B`, `glv.rs:24-27` -/
def coeffB : List Byte :=
  [180, 16, 37, 23, 77, 1, 15, 238, 214, 244, 154, 13, 119, 18, 167, 46, 136, 26, 81, 99, 58, 13, 240, 97, 165, 38,
    132, 130, 139, 242, 201, 82]

/-- `COEFF_C`, `glv.rs:29-32` -/
def coeffC : List Byte :=
  [61, 11, 101, 223, 108, 128, 92, 81, 233, 244, 54, 255, 207, 171, 86, 132, 7, 209, 23, 108, 253, 110, 124, 169,
    195, 87, 84, 134, 207, 36, 198, 108]

/-- `LAMBDA`, `glv.rs:34-37` -/
def lambdaB : List Byte :=
  [5, 223, 131, 135, 64, 33, 61, 209, 110, 5, 165, 112, 185, 157, 196, 207, 43, 199, 56, 43, 86, 73, 248, 237, 147,
    164, 57, 74, 220, 243, 180, 19]

/-- `LAMBDA_1`, `glv.rs:39-42` -/
def lambda1B : List Byte :=
  [5, 223, 131, 135, 64, 33, 61, 209, 110, 5, 165, 112, 185, 157, 196, 207, 0, 0, 0, 0, 0, 0, 0, 0, 0, 0, 0, 0, 0, 0,
    0, 0]

/-- `LAMBDA_2`, `glv.rs:45-48` -/
def lambda2B : List Byte :=
  [43, 199, 56, 43, 86, 73, 248, 237, 147, 164, 57, 74, 220, 243, 180, 19, 0, 0, 0, 0, 0, 0, 0, 0, 0, 0, 0, 0, 0, 0,
    0, 0]

/-- `R1`, `glv.rs:51-54` -/
def r1B : List Byte :=
  [225, 231, 118, 40, 181, 6, 253, 116, 113, 4, 25, 116, 0, 135, 143, 255, 0, 0, 0, 0, 0, 0, 0, 0, 0, 0, 0, 0, 0, 0,
    0, 0]

/-- `R2`, `glv.rs:57-60` -/
def r2B : List Byte :=
  [0, 118, 104, 2, 2, 118, 206, 12, 82, 95, 103, 202, 212, 105, 251, 28, 0, 0, 0, 0, 0, 0, 0, 0, 0, 0, 0, 0, 0, 0, 0,
    0]

/-- `COEFF_N11`, `glv.rs:62-65` -/
def n11B : List Byte :=
  [31, 24, 137, 151, 74, 249, 2, 75, 142, 146, 230, 75, 0, 226, 95, 85, 0, 0, 0, 0, 0, 0, 0, 0, 0, 0, 0, 0, 0, 0, 0,
    0]

/-- `COEFF_N12`, `glv.rs:67-70` -/
def n12B : List Byte :=
  [68, 31, 214, 35, 26, 89, 226, 248, 93, 143, 94, 229, 238, 179, 20, 8, 0, 0, 0, 0, 0, 0, 0, 0, 0, 0, 0, 0, 0, 0, 0,
    0]

/-- `COEFF_N21`, `glv.rs:72-75` -/
def n21B : List Byte :=
  [136, 62, 172, 71, 52, 178, 196, 241, 187, 30, 189, 202, 221, 103, 41, 16, 0, 0, 0, 0, 0, 0, 0, 0, 0, 0, 0, 0, 0,
    0, 0, 0]

/-- `COEFF_N22`, `glv.rs:76-79` -/
def n22B : List Byte :=
  [194, 207, 237, 144, 106, 13, 250, 41, 227, 113, 50, 40, 0, 165, 47, 170, 0, 118, 104, 2, 2, 118, 206, 12, 82, 95,
    103, 202, 212, 105, 251, 28]

/-! ## Decomposition of a scalar -/

/-- `scalar_decomposition`, `glv.rs:207-242`, for the field of order `r`: `(k1, k2, k2 positive)` -/
def scalarDecomposition (r s : ℕ) : Except CErr (ℕ × ℕ × Bool) :=
  let n11 := leNat n11B % r
  let n12 := leNat n12B % r
  let n21 := leNat n21B % r
  let n22 := leNat n22B % r
  let beta1 := s * n11 / r
  let beta2 := s * n12 / r
  let b1 := beta1 * n11 + beta2 * n21
  let b2 := (beta1 * n12 + beta2 * n22) % r
  if s < b1 then .error .panic
  else
    let pos := decide (b2 < r / 2)
    .ok ((s - b1) % r, if pos then b2 else (r - b2) % r, pos)

/-- the values of the variables created by `scalar_decomposition_gate` -/
structure Wit (p : ℕ) where
  k1 : ZMod p
  k2 : ZMod p
  pos : Bool
  t : ZMod p
  tmp : ZMod p
  tmp2 : ZMod p

/-- the integers computed by `scalar_decomposition_gate`, `glv.rs:337-381`: `(k1, k2, k2 positive, t, tmp, tmp2)`, for the
fields of order `p` and `r` -/
def integers (p r s : ℕ) : Except CErr (ℕ × ℕ × Bool × ℤ × ℤ × ℤ) :=
  match scalarDecomposition r (s % r) with
  | .error e => .error e
  | .ok (k1, k2, pos) =>
    let k2s : ℤ := if pos then k2 else -k2
    let t : ℤ := Int.tdiv ((leNat lambdaB % p : ℕ) * k2s + s - k1) r
    let tmp : ℤ := (leNat lambda1B % p : ℕ) * k2s + s - t * (leNat r1B % p : ℕ) - k1
    .ok (k1, k2, pos, t, tmp, Int.tdiv tmp (2 ^ 128))

/-- the values of the variables, `glv.rs:337-381,460-468` -/
def values (r : ℕ) (s : ZMod p) : Except CErr (Wit p) :=
  match fieldSwitching r s with
  | .error _ => .error .panic
  | .ok _ =>
    match integers p r s.val with
    | .error e => .error e
    | .ok (k1, k2, pos, t, tmp, tmp2) =>
      .ok ⟨(k1 : ZMod p), (k2 : ZMod p), pos, (t.natAbs : ZMod p), (tmp.natAbs : ZMod p), (tmp2.natAbs : ZMod p)⟩

/-- the variables of the decomposition, `glv.rs:460-468`: `(k1, k2, sign, t, tmp, tmp2)` -/
def createVarsOf (x : Wit p) : Build p (ℕ × ℕ × ℕ × ℕ × ℕ × ℕ) := do
  let k1 ← createVariable x.k1
  let k2 ← createVariable x.k2
  let sign ← createBooleanVariable x.pos
  let t ← createVariable x.t
  let tmp ← createVariable x.tmp
  let tmp2 ← createVariable x.tmp2
  pure (k1, k2, sign, t, tmp, tmp2)

/-- the range checks, `glv.rs:475-482` -/
def rangeChecks (k1 k2 tmp tmp2 : ℕ) : Build p Unit := do
  enforceInRange k1 128
  enforceInRange k2 128
  mulConstantGate tmp2 ((2 ^ 128 : ℕ) : ZMod p) tmp
  enforceInRange tmp2 128

/-- equation (f), `glv.rs:487-519` -/
def checkLow (s k1 k2 sign t tmp : ℕ) : Build p Unit := do
  let lambda1 := fromLeBytesModOrder p lambda1B
  let r1 := fromLeBytesModOrder p r1B
  let l ← lc tmp t k1 0 1 r1 1 0
  let r ← lc k2 s 0 0 lambda1 1 0 0
  let posSat ← isEqual l r
  let l' ← lc k2 tmp k1 0 lambda1 1 1 0
  let r' ← lc s t 0 0 1 r1 0 0
  let negSat ← isEqual l' r'
  let sat ← conditionalSelect sign negSat posSat
  enforceTrue sat

/-- equation (g), `glv.rs:521-550` -/
def checkHigh (k2 sign t tmp2 : ℕ) : Build p Unit := do
  let lambda2 := fromLeBytesModOrder p lambda2B
  let r2 := fromLeBytesModOrder p r2B
  let l ← lc tmp2 k2 0 0 1 lambda2 0 0
  let r ← mulConstant t r2
  let posSat ← isEqual l r
  let l' ← lc tmp2 t 0 0 1 r2 0 0
  let r' ← mulConstant k2 lambda2
  let negSat ← isEqual l' r'
  let sat ← conditionalSelect sign negSat posSat
  enforceTrue sat

/-- `scalar_decomposition_gate` for given values of the variables, `glv.rs:455-554`; `(k1, k2, sign)` -/
def decompositionGateOf (s : ℕ) (x : Wit p) : Build p (ℕ × ℕ × ℕ) := do
  let (k1, k2, sign, t, tmp, tmp2) ← createVarsOf x
  rangeChecks k1 k2 tmp tmp2
  checkLow s k1 k2 sign t tmp
  checkHigh k2 sign t tmp2
  pure (k1, k2, sign)

/-- `scalar_decomposition_gate`, `glv.rs:267-554`, with the values computed by `f` (`values K.r` in the source) -/
def scalarDecompositionGate (f : ZMod p → Except CErr (Wit p)) (s : ℕ) : Build p (ℕ × ℕ × ℕ) := do
  let v ← witness s
  let x ← liftE (f v)
  decompositionGateOf s x

/-! ## The endomorphism -/

/-- `endomorphism`, `glv.rs:128-149` -/
def endomorphism [Fact p.Prime] (K : TE p) (P : ZMod p × ZMod p) : Except CErr (ZMod p × ZMod p) :=
  let b := fromLeBytesModOrder p coeffB
  let c := fromLeBytesModOrder p coeffC
  let xy := P.1 * P.2
  let y2 := P.2 * P.2
  let f := c * (1 - y2)
  let g := b * (y2 + b)
  let h := y2 - b
  let z := h * xy
  if z = 0 then .error .panic
  else
    let Q := (f * h * z⁻¹, g * xy * z⁻¹)
    if K.a * Q.1 ^ 2 + Q.2 ^ 2 = 1 + K.d * Q.1 ^ 2 * Q.2 ^ 2 ∧ edSmul K K.r Q = (0, 1) then .ok Q
    else .error .panic

/-- `endomorphism_circuit`, `glv.rs:151-197`, with the point computed by `f` (`endomorphism K` in the source) -/
def endomorphismCircuit (f : ZMod p × ZMod p → Except CErr (ZMod p × ZMod p)) (P : ℕ × ℕ) : Build p (ℕ × ℕ) := do
  let base ← pointWitness P
  let endo ← liftE (f base)
  let Q ← createPointVariable endo
  let b := fromLeBytesModOrder p coeffB
  let c := fromLeBytesModOrder p coeffC
  let xy ← mul P.1 P.2
  let fy ← genQuadPoly P.2 P.2 0 0 0 0 0 0 (-c) 0 c
  let gy ← genQuadPoly P.2 P.2 0 0 0 0 0 0 b 0 (b * b)
  let hy ← genQuadPoly P.2 P.2 0 0 0 0 0 0 1 0 (-b)
  mulGate Q.1 xy fy
  mulGate Q.2 hy gy
  pure Q

/-! ## Scalar multiplication -/

/-- `multi_scalar_mul_circuit`, `glv.rs:104-126` -/
def multiScalarMulCircuit [Fact p.Prime] (K : TE p) (base : ℕ × ℕ) (s1 : ℕ) (endo : ℕ × ℕ) (s2 sign : ℕ) :
    Build p (ℕ × ℕ) := do
  let neg ← inversePoint endo
  let e ← binaryPointVarsSelect sign endo neg
  msmWithLength K [base, e] [s1, s2] 128

/-- `glv_mul`, `glv.rs:86-100`, with the values of the decomposition and the endomorphism computed by `f` and `g` -/
def glvMulOf [Fact p.Prime] (K : TE p) (f : ZMod p → Except CErr (Wit p))
    (g : ZMod p × ZMod p → Except CErr (ZMod p × ZMod p)) (s : ℕ) (base : ℕ × ℕ) : Build p (ℕ × ℕ) := do
  checkVar s
  checkPoint base
  let (k1, k2, sign) ← scalarDecompositionGate f s
  let endo ← endomorphismCircuit g base
  multiScalarMulCircuit K base k1 endo k2 sign

/-- `glv_mul`, `glv.rs:86-100` -/
def glvMul [Fact p.Prime] (K : TE p) (s : ℕ) (base : ℕ × ℕ) : Build p (ℕ × ℕ) :=
  glvMulOf K (values K.r) (endomorphism K) s base

/-- `variable_base_scalar_mul`, `ecc/mod.rs:470-490` -/
def variableBaseScalarMul [Fact p.Prime] (K : TE p) (s : ℕ) (base : ℕ × ℕ) : Build p (ℕ × ℕ) := do
  checkVar s
  checkPoint base
  let l ← supportLookup
  if l && Nat.size K.r == 253 && Nat.size p == 255 then glvMul K s base else msm K [base] [s]

end Verif.Circuit.Glv
