import Verif.Circuit.Gadgets
import Verif.Util.Edwards

/-!
# Model of `relation/src/gadgets/ecc/mod.rs` and `relation/src/gates/ecc.rs`

* A `TEPoint<F>` is a pair of field elements, a `PointVariable` a pair of variables.
* The curve `P: TECurveConfig` is given by `TE`: the coefficients and the order `r` of the
  scalar field (`ScalarField::MODULUS_BIT_SIZE` is `Nat.size r`).
* Division of field elements is `a * b.inverse().unwrap()` in arkworks, it panics on zero.
* The group operations of arkworks on projective points (used by `compute_base_points` on
  constants) are represented by the affine addition law `Verif.edAdd`. The `rayon` branch of
  `compute_base_points` computes the same three vectors.
* `create_public_point_variable` is two calls of `create_public_variable` and is not modelled
  separately. The serialization of emulated points is not modelled here.
-/

namespace Verif.Circuit

variable {p : ℕ}

/-- the curve parameters of `P: TECurveConfig` -/
structure TE (p : ℕ) where
  /-- `P::COEFF_A` -/
  a : ZMod p
  /-- `P::COEFF_D` -/
  d : ZMod p
  /-- the modulus of `P::ScalarField` -/
  r : ℕ

/-! ## Gates, `gates/ecc.rs` -/

/-- `EdwardsCurveEquationGate`, `gates/ecc.rs:24-50` -/
def curveEqGate (K : TE p) : Sel p := { mul0 := -K.a, mul1 := -1, c := 1, ecc := K.d }

/-- `CurvePointXAdditionGate`, `gates/ecc.rs:52-76` -/
def xAddGate (K : TE p) : Sel p := { mul0 := 1, mul1 := 1, o := 1, ecc := -K.d }

/-- `CurvePointYAdditionGate`, `gates/ecc.rs:78-101` -/
def yAddGate (K : TE p) : Sel p := { mul0 := -K.a, mul1 := 1, o := 1, ecc := K.d }

/-- `QuaternaryPointSelectXGate`, `gates/ecc.rs:103-129` -/
def quatXGate (x1 x2 x3 : ZMod p) : Sel p := { lc0 := x1, lc1 := x2, mul0 := x3 - x2 - x1, o := 1 }

/-- `QuaternaryPointSelectYGate`, `gates/ecc.rs:131-160` -/
def quatYGate (y1 y2 y3 : ZMod p) : Sel p :=
  { lc0 := y1 - 1, lc1 := y2 - 1, mul0 := y3 - y2 - y1 + 1, c := 1, o := 1 }

/-! ## Points -/

/-- `check_point_var_bound`, `ecc/mod.rs:519-523` -/
def checkPoint (P : ℕ × ℕ) : Build p Unit := do
  checkVar P.1
  checkVar P.2

/-- `point_witness`, `ecc/mod.rs:136-141` -/
def pointWitness (P : ℕ × ℕ) : Build p (ZMod p × ZMod p) := do
  checkPoint P
  let x ← witness P.1
  let y ← witness P.2
  pure (x, y)

/-- `create_point_variable`, `ecc/mod.rs:144-151` -/
def createPointVariable (P : ZMod p × ZMod p) : Build p (ℕ × ℕ) := do
  let x ← createVariable P.1
  let y ← createVariable P.2
  pure (x, y)

/-- `create_constant_point_variable`, `ecc/mod.rs:154-161` -/
def createConstantPointVariable (P : ZMod p × ZMod p) : Build p (ℕ × ℕ) := do
  let x ← createConstantVariable P.1
  let y ← createConstantVariable P.2
  pure (x, y)

/-- `quaternary_point_select`, `ecc/mod.rs:179-223` -/
def quaternaryPointSelect (b0 b1 : ℕ) (P1 P2 P3 : ZMod p × ZMod p) : Build p (ℕ × ℕ) := do
  checkVar b0
  checkVar b1
  let v0 ← witness b0
  let v1 ← witness b1
  let sel := if v0 = 1 then (if v1 = 1 then P3 else P1) else (if v1 = 1 then P2 else (0, 1))
  let S ← createPointVariable sel
  insertGate b0 b1 0 0 S.1 (quatXGate P1.1 P2.1 P3.1)
  insertGate b0 b1 0 0 S.2 (quatYGate P1.2 P2.2 P3.2)
  pure S

/-- `binary_point_vars_select`, `ecc/mod.rs:229-242` -/
def binaryPointVarsSelect (b : ℕ) (P0 P1 : ℕ × ℕ) : Build p (ℕ × ℕ) := do
  checkVar b
  checkPoint P0
  checkPoint P1
  let x ← conditionalSelect b P0.1 P1.1
  let y ← conditionalSelect b P0.2 P1.2
  pure (x, y)

/-- `enforce_point_equal`, `ecc/mod.rs:246-256` -/
def enforcePointEqual (P0 P1 : ℕ × ℕ) : Build p Unit := do
  checkPoint P0
  checkPoint P1
  enforceEqual P0.1 P1.1
  enforceEqual P0.2 P1.2

/-- `is_point_equal`, `ecc/mod.rs:260-270` -/
def isPointEqual (P0 P1 : ℕ × ℕ) : Build p ℕ := do
  checkPoint P0
  checkPoint P1
  let x ← isEqual P0.1 P1.1
  let y ← isEqual P0.2 P1.2
  logicAnd x y

/-- `inverse_point`, `ecc/mod.rs:275-281` (variable `0` is the constant zero) -/
def inversePoint (P : ℕ × ℕ) : Build p (ℕ × ℕ) := do
  let x ← sub 0 P.1
  pure (x, P.2)

/-- `neutral_point_variable`, `ecc/mod.rs:285-287` -/
def neutralPoint : ℕ × ℕ := (0, 1)

/-- `neutral_point_gate`, `ecc/mod.rs:294-309` -/
def neutralPointGate (P : ℕ × ℕ) (b : ℕ) : Build p Unit := do
  checkPoint P
  checkVar b
  let bx ← isEqual P.1 0
  let by' ← isEqual P.2 1
  mulGate bx by' b

/-- `is_neutral_point`, `ecc/mod.rs:314-333` -/
def isNeutralPoint (P : ℕ × ℕ) : Build p ℕ := do
  checkPoint P
  let v ← pointWitness P
  let b ← createBooleanVariable (decide (v = (0, 1)))
  neutralPointGate P b
  pure b

/-- `enforce_on_curve`, `ecc/mod.rs:340-355` -/
def enforceOnCurve (K : TE p) (P : ℕ × ℕ) : Build p Unit := do
  checkPoint P
  insertGate P.1 P.1 P.2 P.2 1 (curveEqGate K)

/-- `ecc_add_gate`, `ecc/mod.rs:362-391` -/
def eccAddGate (K : TE p) (A B C : ℕ × ℕ) : Build p Unit := do
  checkPoint A
  checkPoint B
  checkPoint C
  insertGate A.1 B.2 B.1 A.2 C.1 (xAddGate K)
  insertGate A.1 B.1 A.2 B.2 C.2 (yAddGate K)

/-- `ecc_add`, `ecc/mod.rs:398-417` -/
def eccAdd (K : TE p) (A B : ℕ × ℕ) : Build p (ℕ × ℕ) := do
  let x1 ← witness A.1
  let y1 ← witness A.2
  let x2 ← witness B.1
  let y2 ← witness B.2
  let z := K.d * x1 * y1 * x2 * y2
  if 1 + z = 0 ∨ 1 - z = 0 then Build.fail .panic
  else do
    let C ← createPointVariable
      ((x1 * y2 + x2 * y1) * (1 + z)⁻¹, (-K.a * x1 * x2 + y2 * y1) * (1 - z)⁻¹)
    eccAddGate K A B C
    pure C

/-! ## Scalar multiplication -/

/-- `last.double().double()`, `ecc/mod.rs:546` -/
def nextBase [Fact p.Prime] (K : TE p) (P : ZMod p × ZMod p) : ZMod p × ZMod p :=
  let P2 := edAdd K.a K.d P P
  edAdd K.a K.d P2 P2

/-- `fill_bases`, `ecc/mod.rs:548-553`: `n` further points (an error on an empty vector is
dropped by the caller) -/
def fillBases [Fact p.Prime] (K : TE p) : ℕ → List (ZMod p × ZMod p) → List (ZMod p × ZMod p)
  | 0, bs => bs
  | n + 1, bs =>
    match bs.getLast? with
    | none => bs
    | some l => fillBases K n (bs ++ [nextBase K l])

/-- `compute_base_points`, `ecc/mod.rs:534-595` -/
def computeBasePoints [Fact p.Prime] (K : TE p) (base : ZMod p × ZMod p) (len : ℕ) :
    Except CErr (List (ZMod p × ZMod p) × List (ZMod p × ZMod p) × List (ZMod p × ZMod p)) :=
  if len = 0 then .error .internal
  else
    let b2 := edAdd K.a K.d base base
    let b3 := edAdd K.a K.d b2 base
    .ok (fillBases K (len - 1) [base], fillBases K (len - 1) [b2], fillBases K (len - 1) [b3])

/-- the loop of `fixed_base_scalar_mul`, `ecc/mod.rs:434-462`: `n` iterations from index `i` -/
def fixedLoop (K : TE p) (bits : List ℕ) (f1 f2 f3 : List (ZMod p × ZMod p)) :
    (n i : ℕ) → ℕ × ℕ → Build p (ℕ × ℕ)
  | 0, _, acc => pure acc
  | n + 1, i, acc =>
    match bits[2 * i]?, bits[2 * i + 1]?, f1[i]?, f2[i]?, f3[i]? with
    | some b0, some b1, some P1, some P2, some P3 => do
      let S ← quaternaryPointSelect b0 b1 P1 P2 P3
      let acc' ← eccAdd K acc S
      fixedLoop K bits f1 f2 f3 n (i + 1) acc'
    | _, _, _, _, _ => Build.fail .internal

/-- the number of bits used by `fixed_base_scalar_mul`, `ecc/mod.rs:428-430` -/
def fixedBits (K : TE p) : ℕ := Nat.size K.r + Nat.size K.r % 2

/-- `fixed_base_scalar_mul`, `ecc/mod.rs:421-464` -/
def fixedBaseScalarMul [Fact p.Prime] (K : TE p) (s : ℕ) (base : ZMod p × ZMod p) :
    Build p (ℕ × ℕ) := do
  checkVar s
  let bits ← unpack s (fixedBits K)
  let fb ← liftE (computeBasePoints K base (fixedBits K / 2))
  fixedLoop K bits fb.1 fb.2.1 fb.2.2 (fixedBits K / 2) 0 neutralPoint

/-- the loop of `variable_base_binary_scalar_mul`, `ecc/mod.rs:508-512`, over the bits from the
most significant one -/
def binMulLoop (K : TE p) (base : ℕ × ℕ) : List ℕ → ℕ × ℕ → Build p (ℕ × ℕ)
  | [], acc => pure acc
  | b :: bs, acc => do
    let z ← binaryPointVarsSelect b neutralPoint base
    let acc1 ← eccAdd K acc acc
    let acc2 ← eccAdd K acc1 z
    binMulLoop K base bs acc2

/-- `variable_base_binary_scalar_mul`, `ecc/mod.rs:496-514` -/
def variableBaseBinaryScalarMul (K : TE p) (bits : List ℕ) (base : ℕ × ℕ) : Build p (ℕ × ℕ) := do
  checkVars bits
  checkPoint base
  binMulLoop K base bits.reverse neutralPoint

end Verif.Circuit
