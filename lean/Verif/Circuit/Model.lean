import Mathlib.Data.ZMod.Basic
import Mathlib.Algebra.Field.ZMod
import Mathlib.Data.Nat.Size

/-!
# Model of `relation/src/constraint_system.rs` (circuit construction) and `relation/src/gates`

* The field is `ZMod p` with `p` prime (`F: PrimeField`); canonical integers
  (`into_bigint`, the order on `F`) are `ZMod.val`.
* `gates` and the first five `wire_variables` vectors always have the same length
  (`insert_gate` pushes to all of them), they are one list of rows here.
  `wire_variables[5]` (range wires) is `rangeVars`.
* `eval_domain` is represented by its size (`1` = not finalized).
* A `&mut self` method returning `Result<T, CircuitError>` is a `Build p T`: a function
  from a circuit to an error or a result and the new circuit.  (The circuit left behind
  by a failing call is not modelled; callers propagate the error.)
* Rust `usize` is `ℕ`.
-/

namespace Verif.Circuit

/-- `CircuitError` (`relation/src/errors.rs`), payloads dropped; `panic` = Rust panic. -/
inductive CErr
  | varIndexOutOfBound
  | pubInputLenMismatch
  | gateCheckFailure
  | indexError
  | wrongPlonkType
  | modifyFinalized
  | unfinalized
  | lookupUnsupported
  | domainCreation
  | fieldAlgebra
  | parameter
  | internal
  | notSupported
  | panic
  deriving DecidableEq, Repr

/-- The selectors of a gate: the getters of `trait Gate` with their default value zero
(`gates/mod.rs:26-69`). `io` records whether the gate is an `IoGate` (`is_io_gate`). -/
structure Sel (p : ℕ) where
  lc0 : ZMod p := 0
  lc1 : ZMod p := 0
  lc2 : ZMod p := 0
  lc3 : ZMod p := 0
  mul0 : ZMod p := 0
  mul1 : ZMod p := 0
  hash0 : ZMod p := 0
  hash1 : ZMod p := 0
  hash2 : ZMod p := 0
  hash3 : ZMod p := 0
  o : ZMod p := 0
  c : ZMod p := 0
  ecc : ZMod p := 0
  lookup : ZMod p := 0
  domSep : ZMod p := 0
  tableKey : ZMod p := 0
  tableDomSep : ZMod p := 0
  io : Bool := false

/-- A gate with its five wire variables. -/
structure Row (p : ℕ) where
  sel : Sel p
  w0 : ℕ
  w1 : ℕ
  w2 : ℕ
  w3 : ℕ
  w4 : ℕ

/-- `PlonkCircuit`, `constraint_system.rs:347-397` (construction-time fields).
`ultra = some k` is `PlonkType::UltraPlonk` with `range_bit_len = k`. -/
structure Circ (p : ℕ) where
  numVars : ℕ
  rows : List (Row p)
  rangeVars : List ℕ
  pubIds : List ℕ
  witness : List (ZMod p)
  domSize : ℕ
  ultra : Option ℕ
  numTableElems : ℕ
  tableGateIds : List (ℕ × ℕ)

variable {p : ℕ}

/-- The value stored for a variable. -/
def Circ.val (c : Circ p) (i : ℕ) : ZMod p := c.witness.getD i 0

/-! ## The builder monad -/

/-- `&mut PlonkCircuit<F> -> Result<α, CircuitError>` -/
def Build (p : ℕ) (α : Type) : Type := Circ p → Except CErr (α × Circ p)

/-- success without change -/
def Build.pure {α : Type} (v : α) : Build p α := fun c => .ok (v, c)

/-- sequencing with `?` -/
def Build.bind {α β : Type} (m : Build p α) (f : α → Build p β) : Build p β := fun c =>
  match m c with
  | .ok (v, c') => f v c'
  | .error e => .error e

instance : Monad (Build p) where
  pure := Build.pure
  bind := Build.bind

/-- return an error -/
def Build.fail {α : Type} (e : CErr) : Build p α := fun _ => .error e

/-- read the circuit -/
def Build.get : Build p (Circ p) := fun c => .ok (c, c)

/-! ## Gates -/

/-- `ConstantGate`, `gates/arithmetic.rs:19-35` -/
def constantGate (c : ZMod p) : Sel p := { c := c, o := 1 }
/-- `AdditionGate`, `gates/arithmetic.rs:37-54` -/
def additionGate : Sel p := { lc0 := 1, lc1 := 1, o := 1 }
/-- `ConstantAdditionGate`, `gates/arithmetic.rs` -/
def constantAdditionGate (c : ZMod p) : Sel p := { lc0 := 1, c := c, o := 1 }
/-- `SubtractionGate`, `gates/arithmetic.rs` -/
def subtractionGate : Sel p := { lc0 := 1, lc1 := -1, o := 1 }
/-- `MultiplicationGate`, `gates/arithmetic.rs` -/
def multiplicationGate : Sel p := { mul0 := 1, o := 1 }
/-- `ConstantMultiplicationGate`, `gates/arithmetic.rs` -/
def constantMultiplicationGate (c : ZMod p) : Sel p := { lc0 := c, o := 1 }
/-- `BoolGate`, `gates/arithmetic.rs` -/
def boolGate : Sel p := { mul0 := 1, o := 1 }
/-- `EqualityGate`, `gates/arithmetic.rs` -/
def equalityGate : Sel p := { lc0 := 1, lc1 := -1, o := 1 }
/-- `IoGate`, `gates/arithmetic.rs` -/
def ioGate : Sel p := { o := 1, io := true }
/-- `FifthRootGate`, `gates/arithmetic.rs` -/
def fifthRootGate : Sel p := { hash0 := 1, o := 1 }
/-- `QuadPolyGate`, `gates/arithmetic.rs` -/
def quadPolyGate (q0 q1 q2 q3 m0 m1 o c : ZMod p) : Sel p :=
  { lc0 := q0, lc1 := q1, lc2 := q2, lc3 := q3, mul0 := m0, mul1 := m1, o := o, c := c }
/-- `LinCombGate`, `gates/arithmetic.rs` -/
def linCombGate (q0 q1 q2 q3 : ZMod p) : Sel p :=
  { lc0 := q0, lc1 := q1, lc2 := q2, lc3 := q3, o := 1 }
/-- `MulAddGate`, `gates/arithmetic.rs` -/
def mulAddGateSel (m0 m1 : ZMod p) : Sel p := { mul0 := m0, mul1 := m1, o := 1 }
/-- `CondSelectGate`, `gates/logic.rs` -/
def condSelectGate : Sel p := { lc1 := 1, mul0 := -1, mul1 := 1, o := 1 }
/-- `LogicOrGate`, `gates/logic.rs:13-33` -/
def logicOrGateSel : Sel p := { lc0 := 1, lc1 := 1, mul0 := -1, c := -1 }
/-- `LogicOrOutputGate`, `gates/logic.rs:35-55` -/
def logicOrOutputGate : Sel p := { lc0 := 1, lc1 := 1, mul0 := -1, o := 1 }
/-- `PaddingGate`, `gates/mod.rs` -/
def paddingGate : Sel p := {}
/-- `LookupGate`, `gates/lookup.rs` -/
def lookupGate (domSep tableDomSep tableKey : ZMod p) : Sel p :=
  { lookup := 1, domSep := domSep, tableDomSep := tableDomSep, tableKey := tableKey }

/-! ## Circuit checks -/

/-- `expected_gate_output`, `check_gate`, `constraint_system.rs:908-920` -/
def Sel.output (s : Sel p) (pi x0 x1 x2 x3 x4 : ZMod p) : ZMod p :=
  pi + s.lc0 * x0 + s.lc1 * x1 + s.lc2 * x2 + s.lc3 * x3
    + s.mul0 * x0 * x1 + s.mul1 * x2 * x3
    + s.ecc * x0 * x1 * x2 * x3 * x4
    + s.hash0 * x0 ^ 5 + s.hash1 * x1 ^ 5 + s.hash2 * x2 ^ 5 + s.hash3 * x3 ^ 5
    + s.c

/-- The gate equation for a row under an assignment of all variables and a public input
value: `q_o * w_o = expected_gate_output`, `check_gate`, `constraint_system.rs:894-938`. -/
def Row.Holds (r : Row p) (pi : ZMod p) (w : ℕ → ZMod p) : Prop :=
  r.sel.output pi (w r.w0) (w r.w1) (w r.w2) (w r.w3) (w r.w4) = r.sel.o * w r.w4

instance (r : Row p) (pi : ZMod p) (w : ℕ → ZMod p) : Decidable (r.Holds pi w) := by
  unfold Row.Holds; infer_instance

/-- `F::from(range_size as u32)` as a canonical integer, `check_range_gate` `:810`
(`range_size = 1 << range_bit_len`). -/
def rangeBound (p k : ℕ) : ℕ := (((2 ^ k % 2 ^ 32 : ℕ)) : ZMod p).val

/-- table entry of a lookup row, `constraint_system.rs:617-621` -/
def Row.tableTuple (r : Row p) (w : ℕ → ZMod p) : ZMod p × ZMod p × ZMod p × ZMod p :=
  (r.sel.tableDomSep, r.sel.tableKey, w r.w3, w r.w4)

/-- looked-up tuple of a lookup row, `constraint_system.rs:628-631` -/
def Row.lookupTuple (r : Row p) (w : ℕ → ZMod p) : ZMod p × ZMod p × ZMod p × ZMod p :=
  (r.sel.domSep, w r.w0, w r.w1, w r.w2)

/-- `key_val_table`, `constraint_system.rs:602-622` -/
def Circ.keyValTable (c : Circ p) (w : ℕ → ZMod p) : List (ZMod p × ZMod p × ZMod p × ZMod p) :=
  (0, 0, 0, 0) :: (c.rows.filter (fun r => r.sel.lookup ≠ 0)).map (fun r => r.tableTuple w)

/-- What a satisfying assignment is: every gate equation holds (public-input gates with
their public input value, the others with zero), range variables are below the range
size, and every looked-up tuple is in the table.  Declarative reading of
`check_circuit_satisfiability`, `constraint_system.rs:585-650`. -/
structure Sat (c : Circ p) (pi : List (ZMod p)) (w : ℕ → ZMod p) : Prop where
  len : pi.length = c.pubIds.length
  io : ∀ (i g : ℕ) (x : ZMod p) (r : Row p),
    c.pubIds[i]? = some g → pi[i]? = some x → c.rows[g]? = some r → r.Holds x w
  plain : ∀ r ∈ c.rows, r.sel.io = false → r.Holds 0 w
  range : ∀ k, c.ultra = some k → ∀ v ∈ c.rangeVars, (w v).val < rangeBound p k
  lookup : ∀ k, c.ultra = some k → ∀ r ∈ c.rows, r.sel.lookup ≠ 0 →
    r.lookupTuple w ∈ c.keyValTable w

/-- `check_gate`, `constraint_system.rs:894-938` -/
def checkGate (c : Circ p) (g : ℕ) (pi : ZMod p) : Except CErr Unit :=
  match c.rows[g]? with
  | none => .error .panic
  | some r => if r.Holds pi c.val then .ok () else .error .gateCheckFailure

/-- `check_range_gate`, `constraint_system.rs:803-821` -/
def checkRangeGate (c : Circ p) (idx : ℕ) : Except CErr Unit :=
  match c.ultra with
  | none => .error .wrongPlonkType
  | some k =>
    match c.rangeVars[idx]? with
    | none => .error .indexError
    | some v => if rangeBound p k ≤ (c.val v).val then .error .gateCheckFailure else .ok ()

/-- check the public-input gates, `constraint_system.rs:592-596` -/
def checkIo (c : Circ p) (pi : List (ZMod p)) : Except CErr Unit :=
  (c.pubIds.zip pi).forM (fun gx => checkGate c gx.1 gx.2)

/-- check the other gates, `constraint_system.rs:597-603` -/
def checkPlain (c : Circ p) : Except CErr Unit :=
  (List.range c.rows.length).forM (fun g =>
    match c.rows[g]? with
    | none => .error .panic
    | some r => if r.sel.io then .ok () else checkGate c g 0)

/-- check range gates, `constraint_system.rs:605-609` -/
def checkRanges (c : Circ p) : Except CErr Unit :=
  (List.range c.rangeVars.length).forM (checkRangeGate c)

/-- check lookups, `constraint_system.rs:610-647` -/
def checkLookups (c : Circ p) : Except CErr Unit :=
  c.rows.forM (fun r =>
    if r.sel.lookup ≠ 0 then
      if r.lookupTuple c.val ∈ c.keyValTable c.val then .ok () else .error .gateCheckFailure
    else .ok ())

/-- `check_circuit_satisfiability`, `constraint_system.rs:585-650` -/
def checkSat (c : Circ p) (pi : List (ZMod p)) : Except CErr Unit := do
  if pi.length ≠ c.pubIds.length then .error .pubInputLenMismatch
  else
    checkIo c pi
    checkPlain c
    match c.ultra with
    | none => .ok ()
    | some _ =>
      checkRanges c
      checkLookups c

/-- the closure in `public_input`: the witness of the last wire of a gate,
`constraint_system.rs:578-581` -/
def ioValue (c : Circ p) (g : ℕ) : Except CErr (ZMod p) :=
  match c.rows[g]? with
  | none => .error .panic
  | some r => if c.numVars ≤ r.w4 then .error .varIndexOutOfBound else .ok (c.val r.w4)

/-- `public_input`, `constraint_system.rs:575-583` -/
def publicInput (c : Circ p) : Except CErr (List (ZMod p)) := c.pubIds.mapM (ioValue c)

/-! ## Builder primitives -/

/-- `check_finalize_flag(false)`, `constraint_system.rs:985-994` -/
def checkOpen : Build p Unit := fun c =>
  if c.domSize ≠ 1 then .error .modifyFinalized else .ok ((), c)

/-- `insert_gate`, `constraint_system.rs:454-470`. No bound check on the wires. -/
def insertGate (w0 w1 w2 w3 w4 : ℕ) (g : Sel p) : Build p Unit := fun c =>
  if c.domSize ≠ 1 then .error .modifyFinalized
  else .ok ((), { c with rows := c.rows ++ [⟨g, w0, w1, w2, w3, w4⟩] })

/-- `check_var_bound`, `constraint_system.rs:493-498` -/
def checkVar (v : ℕ) : Build p Unit := fun c =>
  if c.numVars ≤ v then .error .varIndexOutOfBound else .ok ((), c)

/-- `check_vars_bound`, `constraint_system.rs:505-510` -/
def checkVars : List ℕ → Build p Unit
  | [] => pure ()
  | v :: vs => do checkVar v; checkVars vs

/-- `add_range_check_variable`, `constraint_system.rs:475-481` -/
def addRangeCheckVariable (v : ℕ) : Build p Unit := fun c =>
  if c.ultra = none then .error .wrongPlonkType
  else if c.domSize ≠ 1 then .error .modifyFinalized
  else if c.numVars ≤ v then .error .varIndexOutOfBound
  else .ok ((), { c with rangeVars := c.rangeVars ++ [v] })

/-- `witness`, `constraint_system.rs:692-695` -/
def witness (v : ℕ) : Build p (ZMod p) := fun c =>
  if c.numVars ≤ v then .error .varIndexOutOfBound else .ok (c.val v, c)

/-- `create_variable`, `constraint_system.rs:658-664` -/
def createVariable (x : ZMod p) : Build p ℕ := fun c =>
  if c.domSize ≠ 1 then .error .modifyFinalized
  else .ok (c.numVars, { c with numVars := c.numVars + 1, witness := c.witness ++ [x] })

/-- `enforce_constant`, `constraint_system.rs:697-703` -/
def enforceConstant (v : ℕ) (x : ZMod p) : Build p Unit := do
  checkVar v
  insertGate 0 0 0 0 v (constantGate x)

/-- `create_constant_variable`, `constraint_system.rs:652-656` -/
def createConstantVariable (x : ZMod p) : Build p ℕ := do
  let v ← createVariable x
  enforceConstant v x
  pure v

/-- `set_variable_public`, `constraint_system.rs:672-680`. No bound check on `v`. -/
def setVariablePublic (v : ℕ) : Build p Unit := fun c =>
  if c.domSize ≠ 1 then .error .modifyFinalized
  else .ok ((), { c with
    pubIds := c.pubIds ++ [c.rows.length],
    rows := c.rows ++ [⟨ioGate, 0, 0, 0, 0, v⟩] })

/-- `create_public_variable`, `constraint_system.rs:666-670` -/
def createPublicVariable (x : ZMod p) : Build p ℕ := do
  let v ← createVariable x
  setVariablePublic v
  pure v

/-- `enforce_bool`, `constraint_system.rs:762-768` -/
def enforceBool (a : ℕ) : Build p Unit := do
  checkVar a
  insertGate a a 0 0 a boolGate

/-- `val_scalar` in `create_boolean_variable` -/
def boolF (b : Bool) : ZMod p := if b then 1 else 0

/-- `create_boolean_variable`, `constraint_system.rs:103-108` -/
def createBooleanVariable (b : Bool) : Build p ℕ := do
  let v ← createVariable (boolF b)
  enforceBool v
  pure v

/-- `create_public_boolean_variable`, `constraint_system.rs:115-119` -/
def createPublicBooleanVariable (b : Bool) : Build p ℕ := do
  let v ← createPublicVariable (boolF b)
  pure v

/-- `create_boolean_variable_unchecked`, `constraint_system.rs:549-555` -/
def createBooleanVariableUnchecked (x : ZMod p) : Build p ℕ := createVariable x

/-- `enforce_equal`, `constraint_system.rs:770-777` -/
def enforceEqual (a b : ℕ) : Build p Unit := do
  checkVar a
  checkVar b
  insertGate a b 0 0 0 equalityGate

/-- `add_gate`, `constraint_system.rs:705-713` -/
def addGate (a b c : ℕ) : Build p Unit := do
  checkVar a
  checkVar b
  checkVar c
  insertGate a b 0 0 c additionGate

/-- `add`, `constraint_system.rs:715-722` -/
def add (a b : ℕ) : Build p ℕ := do
  checkVar a
  checkVar b
  let x ← witness a
  let y ← witness b
  let c ← createVariable (x + y)
  addGate a b c
  pure c

/-- `sub_gate`, `constraint_system.rs:724-732` -/
def subGate (a b c : ℕ) : Build p Unit := do
  checkVar a
  checkVar b
  checkVar c
  insertGate a b 0 0 c subtractionGate

/-- `sub`, `constraint_system.rs:734-741` -/
def sub (a b : ℕ) : Build p ℕ := do
  checkVar a
  checkVar b
  let x ← witness a
  let y ← witness b
  let c ← createVariable (x - y)
  subGate a b c
  pure c

/-- `mul_gate`, `constraint_system.rs:743-751` -/
def mulGate (a b c : ℕ) : Build p Unit := do
  checkVar a
  checkVar b
  checkVar c
  insertGate a b 0 0 c multiplicationGate

/-- `mul`, `constraint_system.rs:753-760` -/
def mul (a b : ℕ) : Build p ℕ := do
  checkVar a
  checkVar b
  let x ← witness a
  let y ← witness b
  let c ← createVariable (x * y)
  mulGate a b c
  pure c

/-- `range_bit_len`, `constraint_system.rs:531-538` -/
def rangeBitLen : Build p ℕ := fun c =>
  match c.ultra with
  | none => .error .parameter
  | some k => .ok (k, c)

/-- `support_lookup`, `constraint_system.rs:793-795` -/
def supportLookup : Build p Bool := fun c => .ok (c.ultra.isSome, c)

/-- `pad_gates`, `constraint_system.rs:779-790` (`unwrap` on failure = panic) -/
def padGates : ℕ → Build p Unit
  | 0 => pure ()
  | n + 1 => do
    insertGate 0 0 0 0 0 equalityGate
    padGates n

/-- `PlonkCircuit::new`, `constraint_system.rs:408-441` -/
def Circ.new (p : ℕ) (ultra : Option ℕ) : Circ p :=
  { numVars := 2
    rows := [⟨constantGate 0, 0, 0, 0, 0, 0⟩, ⟨constantGate 1, 0, 0, 0, 0, 1⟩]
    rangeVars := []
    pubIds := []
    witness := [0, 1]
    domSize := 1
    ultra := ultra
    numTableElems := 0
    tableGateIds := [] }

end Verif.Circuit
