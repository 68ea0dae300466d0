import Verif.Circuit.Model

/-!
# Model of `relation/src/gadgets/{arithmetic,logic,range,cmp}.rs`, `gadgets/utils.rs`,
`gadgets/ultraplonk/{range,lookup_table}.rs`

Fixed-size arrays of wires / coefficients are passed as separate arguments.  Index
expressions into the padded vectors use `List.getD _ _ 0` (the indices are always in
range: `padded_len = 3 m + 1` with `m ≥ 1`).
-/

namespace Verif.Circuit

variable {p : ℕ}

/-! ## gadgets/utils.rs -/

/-- `next_multiple`, `gadgets/utils.rs:13-25`. (The `Greater` branch over-pads exact
multiples.) -/
def nextMultiple (current divisor : ℕ) : Except CErr ℕ :=
  if divisor = 0 ∨ divisor = 1 then .error .internal
  else if current = divisor then .ok current
  else if current < divisor then .ok divisor
  else .ok ((current / divisor + 1) * divisor)

/-- lift a pure `Result` into the builder -/
def liftE {α : Type} (x : Except CErr α) : Build p α := fun c =>
  match x with
  | .ok v => .ok (v, c)
  | .error e => .error e

/-! ## gadgets/arithmetic.rs -/

/-- `quad_poly_gate`, `gadgets/arithmetic.rs:29-49` -/
def quadPolyGateB (a0 a1 a2 a3 y : ℕ) (q0 q1 q2 q3 m0 m1 o c : ZMod p) : Build p Unit := do
  checkVars [a0, a1, a2, a3, y]
  insertGate a0 a1 a2 a3 y (quadPolyGate q0 q1 q2 q3 m0 m1 o c)

/-- `gen_quad_poly`, `gadgets/arithmetic.rs:60-89` -/
def genQuadPoly (a0 a1 a2 a3 : ℕ) (q0 q1 q2 q3 m0 m1 c : ZMod p) : Build p ℕ := do
  checkVars [a0, a1, a2, a3]
  let x0 ← witness a0
  let x1 ← witness a1
  let x2 ← witness a2
  let x3 ← witness a3
  let y ← createVariable (q0 * x0 + q1 * x1 + q2 * x2 + q3 * x3 + m0 * x0 * x1 + m1 * x2 * x3 + c)
  insertGate a0 a1 a2 a3 y (quadPolyGate q0 q1 q2 q3 m0 m1 1 c)
  pure y

/-- `lc_gate`, `gadgets/arithmetic.rs:93-103` -/
def lcGate (a0 a1 a2 a3 y : ℕ) (q0 q1 q2 q3 : ZMod p) : Build p Unit := do
  checkVars [a0, a1, a2, a3, y]
  insertGate a0 a1 a2 a3 y (linCombGate q0 q1 q2 q3)

/-- `lc`, `gadgets/arithmetic.rs:107-130` -/
def lc (a0 a1 a2 a3 : ℕ) (q0 q1 q2 q3 : ZMod p) : Build p ℕ := do
  checkVars [a0, a1, a2, a3]
  let x0 ← witness a0
  let x1 ← witness a1
  let x2 ← witness a2
  let x3 ← witness a3
  let y ← createVariable (x0 * q0 + x1 * q1 + x2 * q2 + x3 * q3)
  lcGate a0 a1 a2 a3 y q0 q1 q2 q3
  pure y

/-- `mul_add_gate`, `gadgets/arithmetic.rs:135-145` -/
def mulAddGate (a0 a1 a2 a3 y : ℕ) (m0 m1 : ZMod p) : Build p Unit := do
  checkVars [a0, a1, a2, a3, y]
  insertGate a0 a1 a2 a3 y (mulAddGateSel m0 m1)

/-- `mul_add`, `gadgets/arithmetic.rs:150-169` -/
def mulAdd (a0 a1 a2 a3 : ℕ) (m0 m1 : ZMod p) : Build p ℕ := do
  checkVars [a0, a1, a2, a3]
  let x0 ← witness a0
  let x1 ← witness a1
  let x2 ← witness a2
  let x3 ← witness a3
  let y ← createVariable (m0 * x0 * x1 + m1 * x2 * x3)
  mulAddGate a0 a1 a2 a3 y m0 m1
  pure y

/-- reading a list of witnesses, `.iter().map(|&v| self.witness(v)).collect()` -/
def witnesses : List ℕ → Build p (List (ZMod p))
  | [] => pure []
  | v :: vs => do
    let x ← witness v
    let xs ← witnesses vs
    pure (x :: xs)

/-- the loop of `sum`, `gadgets/arithmetic.rs:201-211`: `n` further iterations starting at
index `i` -/
def sumLoop (padded : List ℕ) : (n i acc : ℕ) → Build p ℕ
  | 0, _, acc => pure acc
  | n + 1, i, acc => do
    let acc' ← lc acc (padded.getD (3 * i - 2) 0) (padded.getD (3 * i - 1) 0)
      (padded.getD (3 * i) 0) 1 1 1 1
    sumLoop padded n (i + 1) acc'

/-- `Vec::resize(len, zero)` for growing vectors of variables -/
def resizeZero (l : List ℕ) (len : ℕ) : List ℕ := l ++ List.replicate (len - l.length) 0

/-- `sum`, `gadgets/arithmetic.rs:173-223` -/
def sum (elems : List ℕ) : Build p ℕ :=
  if elems = [] then Build.fail .parameter
  else do
    checkVars elems
    let xs ← witnesses elems
    let s ← createVariable xs.sum
    let m ← liftE (nextMultiple (elems.length - 1) 3)
    let len := m + 1
    let padded := resizeZero elems len
    let acc ← sumLoop padded (len / 3 - 1) 1 (padded.getD 0 0)
    lcGate acc (padded.getD (len - 3) 0) (padded.getD (len - 2) 0) (padded.getD (len - 1) 0) s
      1 1 1 1
    pure s

/-- `add_constant_gate`, `gadgets/arithmetic.rs:227-239` -/
def addConstantGate (x : ℕ) (c : ZMod p) (y : ℕ) : Build p Unit := do
  checkVar x
  checkVar y
  insertGate x 1 0 0 y (constantAdditionGate c)

/-- `add_constant`, `gadgets/arithmetic.rs:243-257` -/
def addConstant (x : ℕ) (c : ZMod p) : Build p ℕ := do
  checkVar x
  let v ← witness x
  let y ← createVariable (c + v)
  addConstantGate x c y
  pure y

/-- `mul_constant_gate`, `gadgets/arithmetic.rs:261-273` -/
def mulConstantGate (x : ℕ) (c : ZMod p) (y : ℕ) : Build p Unit := do
  checkVar x
  checkVar y
  insertGate x 0 0 0 y (constantMultiplicationGate c)

/-- `mul_constant`, `gadgets/arithmetic.rs:277-291` -/
def mulConstant (x : ℕ) (c : ZMod p) : Build p ℕ := do
  checkVar x
  let v ← witness x
  let y ← createVariable (c * v)
  mulConstantGate x c y
  pure y

/-- `power_11_gen`, `gadgets/arithmetic.rs:295-307` -/
def power11Gen (x : ℕ) : Build p ℕ := do
  checkVar x
  let v ← witness x
  let x5 ← createVariable (v ^ 5)
  insertGate x 0 0 0 x5 fifthRootGate
  let x10 ← mul x5 x5
  mul x10 x

/-- `power_11_gate`, `gadgets/arithmetic.rs:311-324` -/
def power11Gate (x x11 : ℕ) : Build p Unit := do
  checkVar x
  checkVar x11
  let v ← witness x
  let x5 ← createVariable (v ^ 5)
  insertGate x 0 0 0 x5 fifthRootGate
  let x10 ← mul x5 x5
  mulGate x10 x x11

/-! ## gadgets/logic.rs -/

/-- `logic_or_gate`, `gadgets/logic.rs:18-24` -/
def logicOrGate (a b : ℕ) : Build p Unit := do
  checkVar a
  checkVar b
  insertGate a b 0 0 0 logicOrGateSel

/-- `is_zero`, `gadgets/logic.rs:38-66`. (`inverse()` of a non-zero element never fails.) -/
def isZero (a : ℕ) : Build p ℕ := do
  checkVar a
  let x ← witness a
  let y ← createBooleanVariableUnchecked (if x = 0 then 1 else 0)
  let inv ← createVariable (if x = 0 then 0 else x⁻¹)
  mulAddGate a inv 1 y 1 1 1
  mulGate y a 0
  pure y

/-- `is_equal`, `gadgets/logic.rs:28-33` -/
def isEqual (a b : ℕ) : Build p ℕ := do
  checkVar a
  checkVar b
  let d ← sub a b
  isZero d

/-- `non_zero_gate`, `gadgets/logic.rs:70-75` -/
def nonZeroGate (v : ℕ) : Build p Unit := do
  let x ← witness v
  let inv ← createVariable (if x = 0 then 0 else x⁻¹)
  mulGate v inv 1

/-- `logic_neg`, `gadgets/logic.rs:80-82` -/
def logicNeg (a : ℕ) : Build p ℕ := isZero a

/-- `logic_and`, `gadgets/logic.rs:87-92` -/
def logicAnd (a b : ℕ) : Build p ℕ := do
  let x ← witness a
  let y ← witness b
  let c ← createBooleanVariableUnchecked (x * y)
  mulGate a b c
  pure c

/-- the loop of `logic_and_all` -/
def logicAndLoop : List ℕ → ℕ → Build p ℕ
  | [], res => pure res
  | v :: vs, res => do
    let r ← logicAnd res v
    logicAndLoop vs r

/-- `logic_and_all`, `gadgets/logic.rs:97-108` -/
def logicAndAll : List ℕ → Build p ℕ
  | [] => Build.fail .parameter
  | v :: vs => logicAndLoop vs v

/-- `logic_or`, `gadgets/logic.rs:113-126` -/
def logicOr (a b : ℕ) : Build p ℕ := do
  checkVar a
  checkVar b
  let x ← witness a
  let y ← witness b
  let c ← createBooleanVariableUnchecked (x + y - x * y)
  insertGate a b 0 0 c logicOrOutputGate
  pure c

/-- `enforce_true`, `gadgets/logic.rs:130-132` -/
def enforceTrue (a : ℕ) : Build p Unit := enforceConstant a 1

/-- `enforce_false`, `gadgets/logic.rs:136-138` -/
def enforceFalse (a : ℕ) : Build p Unit := enforceConstant a 0

/-- `conditional_select`, `gadgets/logic.rs:142-166` -/
def conditionalSelect (b x0 x1 : ℕ) : Build p ℕ := do
  checkVar b
  checkVar x0
  checkVar x1
  let bv ← witness b
  let y ← (if bv = 0 then do
      let v ← witness x0
      createVariable v
    else if bv = 1 then do
      let v ← witness x1
      createVariable v
    else Build.fail .parameter)
  insertGate b x0 b x1 y condSelectGate
  pure y

/-! ## gadgets/range.rs -/

/-- `F::MODULUS_BIT_SIZE` -/
def modulusBits (p : ℕ) : ℕ := Nat.size p

/-- number of bits of the big-integer representation, `64 * NUM_LIMBS` with the minimal
number of limbs -/
def bigintBits (p : ℕ) : ℕ := 64 * ((Nat.size p + 63) / 64)

/-- `BigInteger::to_bits_le` of a number, `len` bits -/
def bitsLE (len n : ℕ) : List Bool := (List.range len).map n.testBit

/-- the loop of `decomposition_gate`, `gadgets/range.rs:76-86`; `L1 = padded_len - 1` -/
def decompLoop (padded : List ℕ) (L1 : ℕ) (r : ZMod p) : (n i acc : ℕ) → Build p ℕ
  | 0, _, acc => pure acc
  | n + 1, i, acc => do
    let acc' ← lc acc (padded.getD (L1 - 3 * i + 2) 0) (padded.getD (L1 - 3 * i + 1) 0)
      (padded.getD (L1 - 3 * i) 0) (r * (r * r)) (r * r) r 1
    decompLoop padded L1 r n (i + 1) acc'

/-- `decomposition_gate`, `gadgets/range.rs:57-93` (`len - 1` underflows for an empty
vector: panic) -/
def decompositionGate (chunks : List ℕ) (a : ℕ) (r : ZMod p) : Build p Unit :=
  if chunks = [] then Build.fail .panic
  else do
    let m ← liftE (nextMultiple (chunks.length - 1) 3)
    let len := m + 1
    let padded := resizeZero chunks len
    let acc ← decompLoop padded (len - 1) r (len / 3 - 1) 1 (padded.getD (len - 1) 0)
    lcGate acc (padded.getD 2 0) (padded.getD 1 0) (padded.getD 0 0) a (r * (r * r)) (r * r) r 1

/-- creating one boolean variable per bit, `gadgets/range.rs:118-124` -/
def createBits : List Bool → Build p (List ℕ)
  | [] => pure []
  | b :: bs => do
    let v ← createBooleanVariable b
    let vs ← createBits bs
    pure (v :: vs)

/-- the fold of the canonical check, `gadgets/range.rs:150-160`: the bits of `a` padded
with `false`, zipped with the bits of the modulus -/
def canonLoop : List (ℕ × Bool) → ℕ → Build p ℕ
  | [], cur => pure cur
  | (aBit, pBit) :: rest, cur => do
    let na ← logicNeg aBit
    let cur' ← (if pBit then logicOr cur na else logicAnd cur na)
    canonLoop rest cur'

/-- `binary_decomposition_gate`, `gadgets/range.rs:165-173` -/
def binaryDecompositionGate (bits : List ℕ) (a : ℕ) : Build p Unit :=
  decompositionGate bits a 2

/-- `iter().chain(repeat(false_var)).zip(modulus_bits)` -/
def zipPad (bits : List ℕ) (pb : List Bool) : List (ℕ × Bool) :=
  (bits ++ List.replicate (pb.length - bits.length) 0).zip pb

/-- `binary_decomposition_gate_with_canonical_check`, `gadgets/range.rs:140-163` -/
def binaryDecompositionGateCanonical (bits : List ℕ) (a : ℕ) : Build p Unit := do
  binaryDecompositionGate bits a
  let lt ← canonLoop (zipPad bits (bitsLE (bigintBits p) p)) 0
  enforceConstant lt 1

/-- `range_gate_internal`, `gadgets/range.rs:98-138` -/
def rangeGateInternal (a bitLen : ℕ) : Build p (List ℕ) := do
  checkVar a
  if bitLen = 0 then Build.fail .parameter
  else do
    let x ← witness a
    if bigintBits p < bitLen then Build.fail .parameter
    else do
      let bits ← createBits ((bitsLE (bigintBits p) x.val).take bitLen)
      if bitLen = modulusBits p then
        binaryDecompositionGateCanonical bits a
      else
        binaryDecompositionGate bits a
      pure bits

/-- `unpack`, `gadgets/range.rs:42-52` -/
def unpack (a bitLen : ℕ) : Build p (List ℕ) :=
  if bitLen < modulusBits p then do
    let x ← witness a
    if ((2 : ZMod p) ^ bitLen).val ≤ x.val then Build.fail .parameter
    else rangeGateInternal a bitLen
  else rangeGateInternal a bitLen

/-- `is_in_range`, `gadgets/range.rs:29-38` (slicing beyond the end panics) -/
def isInRange (a bitLen : ℕ) : Build p ℕ := do
  let bits ← unpack a (modulusBits p)
  if bits.length < bitLen then Build.fail .panic
  else do
    let s ← sum (bits.drop bitLen)
    isZero s

/-! ## gadgets/ultraplonk/range.rs -/

/-- `decompose_le`, `gadgets/ultraplonk/range.rs:66-86`: the chunks of the bit
representation, resized to `len` -/
def decomposeLE (x : ZMod p) (len k : ℕ) : List (ZMod p) :=
  (List.range len).map (fun i =>
    if i < (bigintBits p + k - 1) / k then (((x.val / 2 ^ (k * i)) % 2 ^ k : ℕ) : ZMod p) else 0)

/-- creating a list of variables -/
def createVars : List (ZMod p) → Build p (List ℕ)
  | [] => pure []
  | x :: xs => do
    let v ← createVariable x
    let vs ← createVars xs
    pure (v :: vs)

/-- adding range checks for a list of variables, `gadgets/ultraplonk/range.rs:44-46` -/
def addRangeChecks : List ℕ → Build p Unit
  | [] => pure ()
  | v :: vs => do
    addRangeCheckVariable v
    addRangeChecks vs

/-- `range_gate_with_lookup`, `gadgets/ultraplonk/range.rs:22-56`.
`range_bit_len = 0` panics (remainder by zero). -/
def rangeGateWithLookup (a bitLen : ℕ) : Build p Unit := do
  let k ← rangeBitLen
  if bitLen = 0 then Build.fail .parameter
  else do
    checkVar a
    if k = 0 then Build.fail .panic
    else do
      let leftover := bitLen % k
      let lookupLen := bitLen / k
      let len := lookupLen + (if leftover > 0 then 1 else 0)
      let x ← witness a
      let vars ← createVars (decomposeLE x len k)
      addRangeChecks (vars.take lookupLen)
      if leftover > 0 then do
        let _ ← rangeGateInternal (vars.getD lookupLen 0) leftover
        decompositionGate vars a ((2 ^ k : ℕ) : ZMod p)
      else
        decompositionGate vars a ((2 ^ k : ℕ) : ZMod p)

/-- `enforce_in_range`, `gadgets/range.rs:18-25` -/
def enforceInRange (a bitLen : ℕ) : Build p Unit := do
  let l ← supportLookup
  if l then rangeGateWithLookup a bitLen
  else do
    let _ ← rangeGateInternal a bitLen
    pure ()

/-! ## gadgets/cmp.rs -/

/-- the fold in `is_gt_constant_internal`, `gadgets/cmp.rs:243-249` -/
def gtLoop : List (Bool × ℕ) → ℕ → Build p ℕ
  | [], cur => pure cur
  | (b, a) :: rest, cur => do
    let cur' ← (if b then logicAnd a cur else logicOr a cur)
    gtLoop rest cur'

/-- `is_gt_constant_internal`, `gadgets/cmp.rs:224-254` -/
def isGtConstantInternal (a : ℕ) (k : ZMod p) : Build p ℕ := do
  let bits ← unpack a (modulusBits p)
  let zipped := ((bitsLE (modulusBits p) k.val).zip bits).dropWhile (fun x => x.1)
  match zipped with
  | [] => pure 0
  | (_, v) :: rest => gtLoop rest v

/-- `F::from(F::MODULUS_MINUS_ONE_DIV_TWO)` -/
def halfF (p : ℕ) : ZMod p := (((p - 1) / 2 : ℕ) : ZMod p)

/-- `msb_check_internal`, `gadgets/cmp.rs:183-198` -/
def msbCheckInternal (a b : ℕ) : Build p (ℕ × ℕ) := do
  let aGt ← isGtConstantInternal a (halfF p)
  let bGt ← isGtConstantInternal b (halfF p)
  let aLeq ← logicNeg aGt
  let msbCheck ← logicAnd aLeq bGt
  let msbEq ← isEqual aGt bGt
  pure (msbCheck, msbEq)

/-- `is_lt_internal`, `gadgets/cmp.rs:201-209` -/
def isLtInternal (a b : ℕ) : Build p ℕ := do
  let (msbCheck, msbEq) ← msbCheckInternal a b
  let c ← sub a b
  let r ← isGtConstantInternal c (halfF p)
  let r' ← logicAnd msbEq r
  logicOr msbCheck r'

/-- `enforce_lt_internal`, `gadgets/cmp.rs:212-220` -/
def enforceLtInternal (a b : ℕ) : Build p Unit := do
  let (msbCheck, msbEq) ← msbCheckInternal a b
  let c ← sub a b
  let r ← isGtConstantInternal c (halfF p)
  let r' ← logicAnd msbEq r
  logicOrGate msbCheck r'

/-- `is_lt`, `gadgets/cmp.rs:50-57` -/
def isLt (a b : ℕ) : Build p ℕ := do
  checkVar a
  checkVar b
  isLtInternal a b

/-- `is_gt`, `gadgets/cmp.rs:60-65` -/
def isGt (a b : ℕ) : Build p ℕ := isLt b a

/-- `is_leq`, `gadgets/cmp.rs:68-76` -/
def isLeq (a b : ℕ) : Build p ℕ := do
  checkVar a
  checkVar b
  let c ← isLtInternal b a
  logicNeg c

/-- `is_geq`, `gadgets/cmp.rs:79-87` -/
def isGeq (a b : ℕ) : Build p ℕ := do
  checkVar a
  checkVar b
  let c ← isLtInternal a b
  logicNeg c

/-- `enforce_lt`, `gadgets/cmp.rs:14-21` -/
def enforceLt (a b : ℕ) : Build p Unit := do
  checkVar a
  checkVar b
  enforceLtInternal a b

/-- `enforce_leq`, `gadgets/cmp.rs:24-30` -/
def enforceLeq (a b : ℕ) : Build p Unit := do
  let c ← isLt b a
  enforceConstant c 0

/-- `enforce_gt`, `gadgets/cmp.rs:33-38` -/
def enforceGt (a b : ℕ) : Build p Unit := enforceLt b a

/-- `enforce_geq`, `gadgets/cmp.rs:41-47` -/
def enforceGeq (a b : ℕ) : Build p Unit := do
  let c ← isLt a b
  enforceConstant c 0

/-- `is_lt_constant`, `gadgets/cmp.rs:91-98` -/
def isLtConstant (a : ℕ) (k : ZMod p) : Build p ℕ := do
  checkVar a
  let b ← createConstantVariable k
  isLt a b

/-- `is_leq_constant`, `gadgets/cmp.rs:102-109` -/
def isLeqConstant (a : ℕ) (k : ZMod p) : Build p ℕ := do
  checkVar a
  let b ← createConstantVariable k
  isLeq a b

/-- `is_gt_constant`, `gadgets/cmp.rs:113-119` -/
def isGtConstant (a : ℕ) (k : ZMod p) : Build p ℕ := do
  checkVar a
  isGtConstantInternal a k

/-- `is_geq_constant`, `gadgets/cmp.rs:123-130` -/
def isGeqConstant (a : ℕ) (k : ZMod p) : Build p ℕ := do
  checkVar a
  let b ← createConstantVariable k
  isGeq a b

/-- `enforce_lt_constant`, `gadgets/cmp.rs:134-141` -/
def enforceLtConstant (a : ℕ) (k : ZMod p) : Build p Unit := do
  checkVar a
  let b ← createConstantVariable k
  enforceLt a b

/-- `enforce_leq_constant`, `gadgets/cmp.rs:145-152` -/
def enforceLeqConstant (a : ℕ) (k : ZMod p) : Build p Unit := do
  checkVar a
  let b ← createConstantVariable k
  enforceLeq a b

/-- `enforce_gt_constant`, `gadgets/cmp.rs:156-163` -/
def enforceGtConstant (a : ℕ) (k : ZMod p) : Build p Unit := do
  checkVar a
  let b ← createConstantVariable k
  enforceGt a b

/-- `enforce_geq_constant`, `gadgets/cmp.rs:167-174` -/
def enforceGeqConstant (a : ℕ) (k : ZMod p) : Build p Unit := do
  checkVar a
  let b ← createConstantVariable k
  enforceGeq a b

/-! ## truncation, gadgets/arithmetic.rs -/

/-- conditionally add a constraint (`if n != 0 { … }`) -/
def whenNonzero (n : ℕ) (m : Build p Unit) : Build p Unit := if n ≠ 0 then m else pure ()

/-- step 4 of `truncate_gate`, `gadgets/arithmetic.rs:448-496` -/
def truncateConstraints (a b b1 b2 z1 z2 : ℕ) (bitLength lkB nlkB lkD nlkD : ℕ) :
    Build p Unit := do
  lcGate b1 b2 0 0 b 1 ((2 : ZMod p) ^ lkB) 0 0
  lcGate b z1 z2 0 a 1 ((2 : ZMod p) ^ bitLength)
    (((((2 : ZMod p) ^ lkD).val * ((2 : ZMod p) ^ bitLength).val : ℕ)) : ZMod p) 0
  whenNonzero lkB (rangeGateWithLookup b1 lkB)
  whenNonzero nlkB (enforceInRange b2 nlkB)
  whenNonzero lkD (rangeGateWithLookup z1 lkD)
  whenNonzero nlkD (enforceInRange z2 nlkD)

/-- `truncate_gate`, `gadgets/arithmetic.rs:344-499`. The subtraction `a_uint - b_uint`
of `BigUint`s panics when negative. -/
def truncateGate (a b bitLength : ℕ) : Build p Unit := do
  let l ← supportLookup
  if !l then Build.fail .parameter
  else do
    checkVar a
    checkVar b
    let av ← witness a
    let bv ← witness b
    let m : ZMod p := 2 ^ bitLength
    if m.val ≤ bv.val then Build.fail .parameter
    else if modulusBits p ≤ bitLength then Build.fail .parameter
    else do
      let k ← rangeBitLen
      if k = 0 then Build.fail .panic
      else do
        let nlkB := bitLength % k
        let lkB := bitLength - nlkB
        let delta := modulusBits p - bitLength
        let nlkD := delta % k
        let lkD := delta - nlkD
        let tb := ((2 : ZMod p) ^ lkB).val
        let td := ((2 : ZMod p) ^ lkD).val
        if av.val < bv.val then Build.fail .panic
        else do
          let z := (av.val - bv.val) / m.val
          let b1 ← createVariable ((bv.val % tb : ℕ) : ZMod p)
          let b2 ← createVariable ((bv.val / tb : ℕ) : ZMod p)
          let z1 ← createVariable ((z % td : ℕ) : ZMod p)
          let z2 ← createVariable ((z / td : ℕ) : ZMod p)
          truncateConstraints a b b1 b2 z1 z2 bitLength lkB nlkB lkD nlkD

/-- `truncate`, `gadgets/arithmetic.rs:329-339` (`a_uint % modulus_uint` panics when the
reduced modulus is zero, which `2 ^ bit_length` never is for odd `p`) -/
def truncate (a bitLength : ℕ) : Build p ℕ := do
  checkVar a
  let av ← witness a
  let m : ZMod p := 2 ^ bitLength
  let b ← createVariable ((av.val % m.val : ℕ) : ZMod p)
  truncateGate a b bitLength
  pure b

/-! ## Key-value lookup tables, `gadgets/ultraplonk/lookup_table.rs` -/

/-- the gate inserted in iteration `i`, `lookup_table.rs:38-66` (`F::from(x as u64)` is the
cast of naturals) -/
def lookupRow (ctr : ℕ) (lookups : List (ℕ × ℕ × ℕ)) (table : List (ℕ × ℕ)) (i : ℕ) : Row p :=
  let (q, key, v0, v1) := match lookups[i]? with
    | some (k, a, b) => ((ctr : ZMod p), k, a, b)
    | none => (0, 0, 0, 0)
  let (d, tkey, t0, t1) := match table[i]? with
    | some (a, b) => ((ctr : ZMod p), (i : ZMod p), a, b)
    | none => (0, 0, 0, 0)
  ⟨lookupGate q d tkey, key, v0, v1, t0, t1⟩

/-- insert the gates one by one -/
def insertRows : List (Row p) → Build p Unit
  | [] => pure ()
  | r :: rs => do
    insertGate r.w0 r.w1 r.w2 r.w3 r.w4 r.sel
    insertRows rs

/-- `self.table_gate_ids_mut().push((n_gate, n))`, `lookup_table.rs:36` -/
def pushTableId (n : ℕ) : Build p Unit := fun c =>
  .ok ((), { c with tableGateIds := c.tableGateIds ++ [(c.rows.length, n)] })

/-- `*self.num_table_elems_mut() += n`, `lookup_table.rs:69` -/
def bumpTableElems (n : ℕ) : Build p Unit := fun c =>
  .ok ((), { c with numTableElems := c.numTableElems + n })

/-- `create_table_and_lookup_variables`, `lookup_table.rs:21-72`.  The plonk type is not
checked. -/
def createTableAndLookupVariables (lookups : List (ℕ × ℕ × ℕ)) (table : List (ℕ × ℕ)) :
    Build p Unit := do
  checkVars (lookups.flatMap (fun x => [x.1, x.2.1, x.2.2]))
  checkVars (table.flatMap (fun x => [x.1, x.2]))
  let n := max lookups.length table.length
  pushTableId n
  let c ← Build.get
  insertRows ((List.range n).map (lookupRow c.tableGateIds.length lookups table))
  bumpTableElems n

end Verif.Circuit
