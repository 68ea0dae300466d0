import Verif.Circuit.Gadgets

/-!
# Model of `relation/src/gadgets/ultraplonk/mod_arith.rs`

Native modulus `p`. A `BigUint` is a natural number; a field element becomes the number `ZMod.val`.
Values that the prover chooses freely (quotients, carries, results) are arguments of the `...With` definitions.
-/

namespace Verif.Circuit

variable {p : ℕ}

/-- `FpElem`, `mod_arith.rs:25-37` -/
structure FpElem (p : ℕ) where
  p0 : ZMod p
  p1 : ZMod p
  m : ℕ
  tpm : ZMod p

/-- `FpElemVar`, `mod_arith.rs:86-95` -/
structure FpElemVar (p : ℕ) where
  v0 : ℕ
  v1 : ℕ
  m : ℕ
  tpm : ZMod p

/-- `int_div`, `mod_arith.rs:871-876`; `BigUint` division by zero panics -/
def intDiv (a b : ZMod p) : Except CErr (ZMod p) :=
  if b.val = 0 then .error .panic else .ok ((a.val / b.val : ℕ) : ZMod p)

/-- `div_rem`, `mod_arith.rs:878-884` -/
def divRem (a b : ZMod p) : Except CErr (ZMod p × ZMod p) := do
  let d ← intDiv a b
  pure (d, a - b * d)

/-- `FpElem::new`, `mod_arith.rs:45-63` -/
def FpElem.new (x : ZMod p) (m : ℕ) (tpm : Option (ZMod p)) : Except CErr (FpElem p) :=
  if modulusBits p / 2 < m then .error .parameter
  else do
    let t := tpm.getD (2 ^ m)
    let r ← divRem x t
    pure ⟨r.2, r.1, m, t⟩

/-- `FpElem::field_elem`, `mod_arith.rs:65-68` -/
def FpElem.fieldElem (x : FpElem p) : ZMod p := x.p0 + x.tpm * x.p1

/-- the variables and the gate of `FpElemVar::new_unchecked`, `mod_arith.rs:110-121`, with the two components
given -/
def splitWith (var m : ℕ) (tpm e0 e1 : ZMod p) : Build p (FpElemVar p) := do
  let v0 ← createVariable e0
  let v1 ← createVariable e1
  lcGate v0 v1 0 0 var 1 tpm 0 0
  pure ⟨v0, v1, m, tpm⟩

/-- `FpElemVar::new_unchecked`, `mod_arith.rs:103-122` -/
def newUnchecked (var m : ℕ) (tpm : Option (ZMod p)) : Build p (FpElemVar p) := do
  let x ← witness var
  let e ← liftE (FpElem.new x m tpm)
  splitWith var m e.tpm e.p0 e.p1

/-- `FpElemVar::convert_to_var`, `mod_arith.rs:126-131` -/
def FpElemVar.toVar (x : FpElemVar p) : Build p ℕ := lc x.v0 x.v1 0 0 1 x.tpm 0 0

/-- `FpElemVar::new_from_fp_elem`, `mod_arith.rs:149-169` -/
def newFromFpElem (e : FpElem p) (m : ℕ) (tpm : Option (ZMod p)) : Build p (FpElemVar p) := do
  let v0 ← createVariable e.p0
  let v1 ← createVariable e.p1
  rangeGateWithLookup v0 m
  rangeGateWithLookup v1 m
  pure ⟨v0, v1, m, tpm.getD (2 ^ m)⟩

/-- `FpElemVar::new_from_field_element`, `mod_arith.rs:136-144` -/
def newFromFieldElement (f : ZMod p) (m : ℕ) (tpm : Option (ZMod p)) : Build p (FpElemVar p) := do
  let e ← liftE (FpElem.new f m tpm)
  newFromFpElem e m tpm

/-- `FpElemVar::enforce_equal`, `mod_arith.rs:225-237` -/
def FpElemVar.enforceEqual (x y : FpElemVar p) : Build p Unit :=
  if x.m ≠ y.m ∨ x.tpm ≠ y.tpm then Build.fail .parameter
  else do
    Verif.Circuit.enforceEqual x.v0 y.v0
    Verif.Circuit.enforceEqual x.v1 y.v1

/-! ## Addition -/

/-- the loop of `mod_add_internal`, `mod_arith.rs:286-296`; `L1 = padded_len - 1`, `n` further turns from `i` on -/
def modAddLoop (padded : List ℕ) (L1 : ℕ) : (n i acc : ℕ) → Build p ℕ
  | 0, _, acc => pure acc
  | n + 1, i, acc => do
    let acc' ← lc acc (padded.getD (L1 - 3 * i + 2) 0) (padded.getD (L1 - 3 * i + 1) 0)
      (padded.getD (L1 - 3 * i) 0) 1 1 1 1
    modAddLoop padded L1 n (i + 1) acc'

/-- `mod_add_internal`, `mod_arith.rs:269-302`: the variables and gates, with quotient `z` and remainder `y`
given; `k` is `range_bit_len`. -/
def modAddWith (vars : List ℕ) (q : ZMod p) (k lp : ℕ) (z y : ZMod p) : Build p ℕ := do
  let zv ← createVariable z
  rangeGateWithLookup zv k
  let yv ← createVariable y
  rangeGateWithLookup yv (k * lp)
  let n ← liftE (nextMultiple vars.length 3)
  let len := n + 1
  let padded := resizeZero (zv :: vars) len
  let acc ← modAddLoop padded (len - 1) (len / 3 - 1) 1 (padded.getD (len - 1) 0)
  lcGate acc (padded.getD 2 0) (padded.getD 1 0) (padded.getD 0 0) yv 1 1 1 (-q)
  pure yv

/-- `mod_add_internal`, `mod_arith.rs:248-303`. The bound on `z` is `F::from(range_size as u32)`. -/
def modAddInternal (vars : List ℕ) (q : ZMod p) (lp : ℕ) : Build p ℕ := do
  let k ← rangeBitLen
  let xs ← witnesses vars
  let zy ← liftE (divRem xs.sum q)
  if rangeBound p k ≤ zy.1.val then Build.fail .parameter
  else modAddWith vars q k lp zy.1 zy.2

/-- `num_range_blocks`, `ultraplonk/range.rs:60-62` -/
def numRangeBlocks (p k : ℕ) : ℕ := modulusBits p / k + 1

/-- `mod_add`, `mod_arith.rs:307-346` -/
def modAdd (x y : FpElemVar p) (q : FpElem p) : Build p (FpElemVar p) := do
  let k ← rangeBitLen
  checkVars [x.v0, x.v1, y.v0, y.v1]
  if x.m ≠ q.m ∨ y.m ≠ q.m then Build.fail .parameter
  else if x.tpm ≠ q.tpm ∨ y.tpm ≠ q.tpm then Build.fail .parameter
  else if k = 0 then Build.fail .panic
  else if q.m % k ≠ 0 then Build.fail .parameter
  else do
    let xv ← x.toVar
    let yv ← y.toVar
    let res ← modAddInternal [xv, yv] q.fieldElem (numRangeBlocks p k)
    newUnchecked res x.m (some q.tpm)

/-- the variables and gates of `mod_add_constant`, `mod_arith.rs:416-433`, with quotient and remainder given -/
def modAddConstWith (xv : ℕ) (yf q : ZMod p) (k : ℕ) (d r : ZMod p) : Build p ℕ := do
  let dv ← createVariable d
  rangeGateWithLookup dv k
  let rv ← createVariable r
  rangeGateWithLookup rv (k * numRangeBlocks p k)
  quadPolyGateB xv rv dv 0 0 1 (-1) (-q) 0 0 0 0 yf
  pure rv

/-- `mod_add_constant`, `mod_arith.rs:355-436` -/
def modAddConstant (x : FpElemVar p) (y q : FpElem p) : Build p (FpElemVar p) := do
  let k ← rangeBitLen
  checkVars [x.v0, x.v1]
  if x.m ≠ q.m ∨ y.m ≠ q.m then Build.fail .parameter
  else if x.tpm ≠ q.tpm ∨ y.tpm ≠ q.tpm then Build.fail .parameter
  else if k = 0 then Build.fail .panic
  else if q.m % k ≠ 0 then Build.fail .parameter
  else do
    let xv ← x.toVar
    let xw ← witness xv
    let dr ← liftE (divRem (xw + y.fieldElem) q.fieldElem)
    if rangeBound p k ≤ dr.1.val then Build.fail .parameter
    else do
      let rv ← modAddConstWith xv y.fieldElem q.fieldElem k dr.1 dr.2
      newUnchecked rv x.m (some q.tpm)

/-- `convert_to_var` for every element, `mod_arith.rs:469-472` -/
def toVars : List (FpElemVar p) → Build p (List ℕ)
  | [] => pure []
  | x :: xs => do
    let v ← x.toVar
    let vs ← toVars xs
    pure (v :: vs)

/-- `mod_add_vec`, `mod_arith.rs:440-478` -/
def modAddVec (xs : List (FpElemVar p)) (q : FpElem p) : Build p (FpElemVar p) := do
  let k ← rangeBitLen
  if ∃ e ∈ xs, e.m ≠ q.m ∨ e.tpm ≠ q.tpm then Build.fail .parameter
  else if k = 0 then Build.fail .panic
  else if q.m % k ≠ 0 then Build.fail .parameter
  else do
    let vs ← toVars xs
    let res ← modAddInternal vs q.fieldElem (numRangeBlocks p k)
    newUnchecked res q.m (some q.tpm)

/-! ## Multiplication -/

/-- what the prover chooses in `mod_mul` -/
structure MulHints (p : ℕ) where
  w0 : ZMod p
  w1 : ZMod p
  z0 : ZMod p
  z1 : ZMod p
  c0 : ZMod p
  c1 : ZMod p

/-- the carry `off + (b - a) / t`, rounded towards zero, `mod_arith.rs:551-557`, `:563-569`: `off` is `t` or `t + t`;
`BigUint` subtraction panics below zero -/
def modMulCarry (t off a b : ℕ) : Except CErr ℕ :=
  if a ≤ b then .ok (off + (b - a) / t)
  else if off < (a - b) / t then .error .panic
  else .ok (off - (a - b) / t)

/-- witness computation of `mod_mul`, `mod_arith.rs:509-569`, and of `mod_mul_constant`, `:691-751`.
`BigUint` division by zero panics; `F::from(BigUint)` reduces modulo `p`. -/
def mulWitness (q : FpElem p) (x0 x1 y0 y1 : ℕ) : Except CErr (MulHints p) := do
  let t := q.tpm.val
  let P := q.p0.val + t * q.p1.val
  let xy := (x0 + t * x1) * (y0 + t * y1)
  if P = 0 then .error .panic
  else do
    let w ← FpElem.new ((xy / P : ℕ) : ZMod p) q.m (some q.tpm)
    let z ← FpElem.new ((xy - xy / P * P : ℕ) : ZMod p) q.m (some q.tpm)
    let c0 ← modMulCarry t t (x0 * y0) (z.p0.val + q.p0.val * w.p0.val)
    let c1 ← modMulCarry t (t + t) (x0 * y1 + x1 * y0 + t)
      (z.p1.val + q.p0.val * w.p1.val + q.p1.val * w.p0.val + c0)
    pure ⟨w.p0, w.p1, z.p0, z.p1, (c0 : ZMod p), (c1 : ZMod p)⟩

/-- the new variables and their range checks, `mod_arith.rs:581-593`, `:763-775` -/
def mulVars (m k : ℕ) (h : MulHints p) : Build p (ℕ × ℕ × ℕ × ℕ × ℕ × ℕ) := do
  let w0 ← createVariable h.w0
  let w1 ← createVariable h.w1
  let z0 ← createVariable h.z0
  let z1 ← createVariable h.z1
  let c0 ← createVariable h.c0
  let c1 ← createVariable h.c1
  rangeGateWithLookup w0 m
  rangeGateWithLookup w1 m
  rangeGateWithLookup z0 m
  rangeGateWithLookup z1 m
  rangeGateWithLookup c0 (m + k)
  rangeGateWithLookup c1 (m + k)
  pure (w0, w1, z0, z1, c0, c1)

/-- the rest of `mod_mul`, `mod_arith.rs:581-654`, with the hints given -/
def modMulWith (x y : FpElemVar p) (q : FpElem p) (k : ℕ) (h : MulHints p) : Build p (FpElemVar p) := do
  let (w0, w1, z0, z1, c0, c1) ← mulVars q.m k h
  quadPolyGateB x.v0 y.v0 w0 c0 z0 0 0 (-q.p0) q.tpm 1 0 1 (-(q.tpm * q.tpm))
  let t1 ← mulAdd x.v0 y.v1 x.v1 y.v0 1 1
  let t2 ← lc w1 w0 0 0 q.p0 q.p1 0 0
  quadPolyGateB t1 t2 c0 c1 z1 1 (-1) (-1) q.tpm 0 0 1 (q.tpm - 2 * (q.tpm * q.tpm))
  quadPolyGateB x.v1 y.v1 w1 0 c1 0 0 (-q.p1) 0 1 0 1 (2 * q.tpm)
  pure ⟨z0, z1, q.m, q.tpm⟩

/-- `mod_mul`, `mod_arith.rs:483-655` -/
def modMul (x y : FpElemVar p) (q : FpElem p) : Build p (FpElemVar p) := do
  let k ← rangeBitLen
  if x.m ≠ q.m ∨ y.m ≠ q.m then Build.fail .parameter
  else if x.tpm ≠ q.tpm ∨ y.tpm ≠ q.tpm then Build.fail .parameter
  else if k = 0 then Build.fail .panic
  else if q.m % k ≠ 0 then Build.fail .parameter
  else do
    let x0 ← witness x.v0
    let x1 ← witness x.v1
    let y0 ← witness y.v0
    let y1 ← witness y.v1
    let h ← liftE (mulWitness q x0.val x1.val y0.val y1.val)
    modMulWith x y q k h

/-- the rest of `mod_mul_constant`, `mod_arith.rs:763-832`, with the hints given -/
def modMulConstWith (x : FpElemVar p) (y q : FpElem p) (k : ℕ) (h : MulHints p) : Build p (FpElemVar p) := do
  let (w0, w1, z0, z1, c0, c1) ← mulVars q.m k h
  quadPolyGateB x.v0 w0 c0 z0 0 y.p0 (-q.p0) q.tpm (-1) 0 0 0 (-(q.tpm * q.tpm))
  let t1 ← lc x.v0 x.v1 w1 w0 y.p1 y.p0 (-q.p0) (-q.p1)
  quadPolyGateB t1 z1 c0 c1 0 1 (-1) (-1) q.tpm 0 0 0 (q.tpm - 2 * (q.tpm * q.tpm))
  quadPolyGateB x.v1 w1 c1 0 0 y.p1 (-q.p1) (-1) 0 0 0 0 (2 * q.tpm)
  pure ⟨z0, z1, q.m, q.tpm⟩

/-- `mod_mul_constant`, `mod_arith.rs:665-833` -/
def modMulConstant (x : FpElemVar p) (y q : FpElem p) : Build p (FpElemVar p) := do
  let k ← rangeBitLen
  if x.m ≠ q.m ∨ y.m ≠ q.m then Build.fail .parameter
  else if x.tpm ≠ q.tpm ∨ y.tpm ≠ q.tpm then Build.fail .parameter
  else if k = 0 then Build.fail .panic
  else if q.m % k ≠ 0 then Build.fail .parameter
  else do
    let x0 ← witness x.v0
    let x1 ← witness x.v1
    let h ← liftE (mulWitness q x0.val x1.val y.p0.val y.p1.val)
    modMulConstWith x y q k h

/-! ## Negation -/

/-- `mod_negate`, `mod_arith.rs:837-868`; `x_int >= p_int` is an error -/
def modNegate (x : FpElemVar p) (q : ZMod p) : Build p (FpElemVar p) := do
  let k ← rangeBitLen
  if k = 0 then Build.fail .panic
  else if x.m % k ≠ 0 then Build.fail .parameter
  else do
    let x0 ← witness x.v0
    let x1 ← witness x.v1
    let xi := x0.val + x.tpm.val * x1.val
    if q.val ≤ xi then Build.fail .fieldAlgebra
    else do
      let xv ← x.toVar
      let nv ← createVariable ((q.val - xi : ℕ) : ZMod p)
      lcGate xv nv 1 0 0 1 1 (-q) 0
      newUnchecked nv x.m (some x.tpm)

end Verif.Circuit
