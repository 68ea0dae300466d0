import Verif.Circuit.Gadgets

/-!
# Model of `relation/src/gadgets/emulated.rs`

* `E: EmulationConfig<F>` is given by its modulus `q` and the constants `T`, `B`, `n = NUM_LIMBS`.
  An element of the emulated field is its canonical integer (a number below `q`), `E::from` of a
  `BigUint` reduces modulo `q`.
* An `EmulatedVariable` is the list of its limb variables. Its field is private to the crate and every
  constructor makes `n` limbs; `a.0[i]` is `List.getD`.
* Hints (values stored for variables the gate creates) are computed first and then passed to a function
  `…With` that makes variables and gates. In Rust both are interleaved; the hints do not depend on the
  circuit under construction.
* A `Vec` used as a stack is a list with the top at the head.
-/

namespace Verif.Circuit

/-- `EmulationConfig`, `emulated.rs:22-30`, and `E::MODULUS` -/
structure Emu where
  q : ℕ
  T : ℕ
  B : ℕ
  n : ℕ

variable {p : ℕ}

/-- `biguint_to_limbs`, `emulated.rs:38-49`, as integers -/
def natLimbs (val b : ℕ) : ℕ → List ℕ
  | 0 => []
  | n + 1 => val % 2 ^ b :: natLimbs (val / 2 ^ b) b n

/-- `biguint_to_limbs`, `emulated.rs:38-49` -/
def toLimbs (p val b n : ℕ) : List (ZMod p) := (natLimbs val b n).map fun x : ℕ => (x : ZMod p)

/-- `from_emulated_field`, `emulated.rs:51-58` -/
def fromEmulated (p : ℕ) (E : Emu) (val : ℕ) : List (ZMod p) := toLimbs p val E.B E.n

/-- the fold of `to_emulated_field`: the integer with the given limbs -/
def limbsNat (b : ℕ) : List ℕ → ℕ
  | [] => 0
  | x :: xs => limbsNat b xs * 2 ^ b + x

/-- `to_emulated_field`, `emulated.rs:60-77` -/
def toEmulated (E : Emu) (vals : List (ZMod p)) : Except CErr ℕ :=
  if vals.length ≠ E.n then .error .fieldAlgebra
  else .ok (limbsNat E.B (vals.map ZMod.val) % E.q)

/-- `emulated_witness`, `emulated.rs:91-102` -/
def emulatedWitness (E : Emu) (a : List ℕ) : Build p ℕ := do
  let vals ← witnesses a
  liftE (toEmulated E vals)

/-- `for &v in &var.0 { self.enforce_in_range(v, b)? }` -/
def enforceInRangeAll (b : ℕ) : List ℕ → Build p Unit
  | [] => pure ()
  | v :: vs => do
    enforceInRange v b
    enforceInRangeAll b vs

/-- `create_emulated_variable`, `emulated.rs:104-114`, and `create_emulated_variable_unchecked`,
`:116-128` -/
def createEmulated (E : Emu) (val : ℕ) : Build p (List ℕ) := do
  let vars ← createVars (fromEmulated p E val)
  enforceInRangeAll E.B vars
  pure vars

/-- one constant variable per value -/
def createConstants : List (ZMod p) → Build p (List ℕ)
  | [] => pure []
  | x :: xs => do
    let v ← createConstantVariable x
    let vs ← createConstants xs
    pure (v :: vs)

/-- `create_constant_emulated_variable`, `emulated.rs:129-141` -/
def createConstantEmulated (E : Emu) (val : ℕ) : Build p (List ℕ) :=
  createConstants (fromEmulated p E val)

/-- one public variable per value -/
def createPublics : List (ZMod p) → Build p (List ℕ)
  | [] => pure []
  | x :: xs => do
    let v ← createPublicVariable x
    let vs ← createPublics xs
    pure (v :: vs)

/-- `create_public_emulated_variable`, `emulated.rs:143-155` -/
def createPublicEmulated (E : Emu) (val : ℕ) : Build p (List ℕ) :=
  createPublics (fromEmulated p E val)

/-! ## Linear combinations of a stack of variables -/

/-- `while stack.len() > 4`, `emulated.rs:255-262`; the first argument bounds the number of turns -/
def reduceStack : ℕ → List (ℕ × ZMod p) → Build p (List (ℕ × ZMod p))
  | 0, s => pure s
  | fuel + 1, s =>
    match s with
    | t1 :: t2 :: t3 :: t4 :: t5 :: rest => do
      let t ← lc t1.1 t2.1 t3.1 t4.1 t1.2 t2.2 t3.2 t4.2
      reduceStack fuel ((t, 1) :: t5 :: rest)
    | s => pure s

/-- the linear combination of the stack equals variable `c`, `emulated.rs:254-269`, `:374-389` -/
def stackLc (s : List (ℕ × ZMod p)) (c : ℕ) : Build p Unit := do
  let s ← reduceStack s.length s
  let t1 := s.getD 0 (0, 0)
  let t2 := s.getD 1 (0, 0)
  let t3 := s.getD 2 (0, 0)
  let t4 := s.getD 3 (0, 0)
  lcGate t1.1 t2.1 t3.1 t4.1 c t1.2 t2.2 t3.2 t4.2

/-! ## Reduction modulo the native modulus -/

/-- the loop of `mod_to_native_field`, `emulated.rs:680-689`; `m` further turns -/
def modNativeLoop (a : List ℕ) (r : ZMod p) : (m i : ℕ) → ZMod p → ℕ → Build p ℕ
  | 0, _, _, res => pure res
  | m + 1, i, cur, res => do
    let res ← lc res (a.getD i 0) (a.getD (i + 1) 0) (a.getD (i + 2) 0) 1 cur (cur * r) (cur * (r * r))
    modNativeLoop a r m (i + 3) (cur * (r * r * r)) res

/-- `mod_to_native_field`, `emulated.rs:658-692` -/
def modToNative (E : Emu) (a : List ℕ) : Build p ℕ := do
  let r : ZMod p := 2 ^ E.B
  let res ← lc (a.getD 0 0) (a.getD 1 0) (a.getD 2 0) (a.getD 3 0) 1 r (r * r) (r * r * r)
  if 4 < E.n then
    modNativeLoop a r ((E.n - 4 + 2) / 3) 4 (r * r * r * r) res
  else pure res

/-! ## Multiplication -/

/-- `u64::BITS - num_vals.leading_zeros()` for `num_vals = 2 * i + 2`, `emulated.rs:220-221`, is the
number of bits -/
def carryBits (E : Emu) (i : ℕ) : ℕ := E.B + Nat.size (2 * i + 2)

/-- `sum_{j <= i} x_j * y_{i - j}` -/
def conv {R : Type} [Semiring R] (x y : List R) (i : ℕ) : R :=
  ((List.range (i + 1)).map fun j => x.getD j 0 * y.getD (i - j) 0).sum

/-- `neg_modulus`, `emulated.rs:182-186`, `:327-331`; the subtraction panics when `2^T` is below the modulus -/
def negModulus (p : ℕ) (E : Emu) : Except CErr (List (ZMod p)) :=
  if 2 ^ E.T < E.q then .error .panic else .ok (toLimbs p (2 ^ E.T - E.q) E.B E.n)

/-- the carries `val_carry_out`, `emulated.rs:191-192, 209-214`, for `m` limbs from limb `i` on.
The division by `2^B` is the product with the inverse (`2^B` is not zero for odd `p`) -/
def mulCarries (E : Emu) (a b k neg e : List (ZMod p)) : (m i : ℕ) → ZMod p → List (ZMod p)
  | 0, _, _ => []
  | m + 1, i, carry =>
    let next := (conv k neg i + conv a b i + carry - e.getD i 0) * (2 ^ E.B)⁻¹
    next :: mulCarries E a b k neg e m (i + 1) next

/-- the products of the limbs, `emulated.rs:233-239` -/
def mulPairs (a b : List ℕ) (i : ℕ) : List ℕ → List (ℕ × ZMod p) → Build p (List (ℕ × ZMod p))
  | [], s => pure s
  | j :: js, s => do
    let t ← mulAdd (a.getD j 0) (b.getD (i - j) 0) (a.getD (j + 1) 0) (b.getD (i - j - 1) 0) 1 1
    mulPairs a b i js ((t, 1) :: s)

/-- the last product for even `i`, `emulated.rs:241-252` -/
def mulLast (a b : List ℕ) (i : ℕ) (s : List (ℕ × ZMod p)) : Build p (List (ℕ × ZMod p)) :=
  if i % 2 = 0 then
    match s with
    | t1 :: t2 :: rest => do
      let t ← genQuadPoly (a.getD i 0) (b.getD 0 0) t1.1 t2.1 0 0 t1.2 t2.2 1 0 0
      pure ((t, 1) :: rest)
    | _ => Build.fail .panic
  else pure s

/-- `k * E::MODULUS` part of the stack, `emulated.rs:225-227`: pushed for `j = 0, …, i` -/
def kTerms (k : List ℕ) (neg : List (ZMod p)) (i : ℕ) : List (ℕ × ZMod p) :=
  ((List.range (i + 1)).map fun j => (k.getD j 0, neg.getD (i - j) 0)).reverse

/-- the loop of `emulated_mul_gate` over the limbs from `i` on, `emulated.rs:205-273` -/
def mulLoop (E : Emu) (a b c k : List ℕ) (neg : List (ZMod p)) :
    List (ZMod p) → (i carry : ℕ) → Build p Unit
  | [], _, _ => pure ()
  | x :: xs, i, carry => do
    let next ← createVariable x
    enforceInRange next (carryBits E i)
    let s := (next, -2 ^ E.B) :: (carry, 1) :: kTerms k neg i
    let s ← mulPairs a b i ((List.range ((i + 1) / 2)).map (2 * ·)) s
    let s ← mulLast a b i s
    stackLc s (c.getD i 0)
    mulLoop E a b c k neg xs (i + 1) next

/-- `emulated_mul_gate` with the quotient and the carries given, `emulated.rs:174, 193-287` -/
def mulGateWith (E : Emu) (a b c : List ℕ) (neg : List (ZMod p)) (valK : ℕ)
    (carries : List (ZMod p)) : Build p Unit := do
  let k ← createEmulated E valK
  match carries with
  | [] => Build.fail .panic
  | x :: xs => do
    let carry ← createVariable x
    enforceInRange carry (E.B + 1)
    quadPolyGateB (a.getD 0 0) (b.getD 0 0) (k.getD 0 0) carry (c.getD 0 0)
      0 0 (neg.getD 0 0) (-2 ^ E.B) 1 0 1 0
    mulLoop E a b c k neg xs 1 carry
    let aMod ← modToNative E a
    let bMod ← modToNative E b
    let kMod ← modToNative E k
    let cMod ← modToNative E c
    quadPolyGateB aMod bMod kMod 0 cMod 0 0 (-(E.q : ZMod p)) 0 1 0 1 0

/-- the carries of the honest prover: `val_expected` is the product in the emulated field -/
def mulHints (E : Emu) (neg : List (ZMod p)) (valA valB : ℕ) : List (ZMod p) :=
  mulCarries E (toLimbs p valA E.B E.n) (toLimbs p valB E.B E.n)
    (fromEmulated p E (valA * valB / E.q % E.q)) neg (fromEmulated p E (valA * valB % E.q)) E.n 0 0

/-- `emulated_mul_gate`, `emulated.rs:157-290` -/
def emulatedMulGate (E : Emu) (a b c : List ℕ) : Build p Unit := do
  checkVars a
  checkVars b
  checkVars c
  let valA ← emulatedWitness E a
  let valB ← emulatedWitness E b
  let neg ← liftE (negModulus p E)
  mulGateWith E a b c neg (valA * valB / E.q % E.q) (mulHints E neg valA valB)

/-- `emulated_mul`, `emulated.rs:292-302` -/
def emulatedMul (E : Emu) (a b : List ℕ) : Build p (List ℕ) := do
  let valA ← emulatedWitness E a
  let valB ← emulatedWitness E b
  let c ← createEmulated E (valA * valB % E.q)
  emulatedMulGate E a b c
  pure c

/-- the loop of `emulated_mul_constant_gate`, `emulated.rs:347-393` -/
def mulConstLoop (E : Emu) (a c k : List ℕ) (b neg : List (ZMod p)) :
    List (ZMod p) → (i carry : ℕ) → Build p Unit
  | [], _, _ => pure ()
  | x :: xs, i, carry => do
    let next ← createVariable x
    enforceInRange next (carryBits E i)
    stackLc ((next, -2 ^ E.B) :: (carry, 1) :: (kTerms a b i ++ kTerms k neg i)) (c.getD i 0)
    mulConstLoop E a c k b neg xs (i + 1) next

/-- `emulated_mul_constant_gate` with the hints given, `emulated.rs:319, 338-404` -/
def mulConstGateWith (E : Emu) (a : List ℕ) (valB : ℕ) (c : List ℕ) (neg : List (ZMod p))
    (valK : ℕ) (carries : List (ZMod p)) : Build p Unit := do
  let k ← createEmulated E valK
  let b := toLimbs p valB E.B E.n
  match carries with
  | [] => Build.fail .panic
  | x :: xs => do
    let carry ← createVariable x
    enforceInRange carry (E.B + 1)
    lcGate (a.getD 0 0) (k.getD 0 0) carry 0 (c.getD 0 0) (b.getD 0 0) (neg.getD 0 0) (-2 ^ E.B) 0
    mulConstLoop E a c k b neg xs 1 carry
    let aMod ← modToNative E a
    let kMod ← modToNative E k
    let cMod ← modToNative E c
    lcGate aMod kMod 0 0 cMod (valB : ZMod p) (-(E.q : ZMod p)) 0 0

/-- `emulated_mul_constant_gate`, `emulated.rs:304-407`; `valB` is the constant, below `q` -/
def emulatedMulConstantGate (E : Emu) (a : List ℕ) (valB : ℕ) (c : List ℕ) : Build p Unit := do
  checkVars a
  checkVars c
  let valA ← emulatedWitness E a
  let neg ← liftE (negModulus p E)
  mulConstGateWith E a valB c neg (valA * valB / E.q % E.q) (mulHints E neg valA valB)

/-- `emulated_mul_constant`, `emulated.rs:409-419` -/
def emulatedMulConstant (E : Emu) (a : List ℕ) (valB : ℕ) : Build p (List ℕ) := do
  let valA ← emulatedWitness E a
  let c ← createEmulated E (valA * valB % E.q)
  emulatedMulConstantGate E a valB c
  pure c

/-! ## Addition -/

/-- one limb of the first loop of `emulated_add_gate`, `emulated.rs:452-462`: the variable `hint` is the
next carry -/
def addLimb (E : Emu) (hint : ZMod p) (a b carry s : ℕ) : Build p ℕ := do
  let next ← createVariable hint
  enforceBool next
  lcGate a b carry next s 1 1 1 (-((2 ^ E.B : ℕ) : ZMod p))
  enforceInRange s E.B
  pure next

/-- the first loop, `emulated.rs:450-463` (`izip!` stops at the shortest) -/
def addLoop (E : Emu) : List (ZMod p) → List ℕ → List ℕ → List ℕ → ℕ → Build p Unit
  | h :: hs, a :: as, b :: bs, s :: ss, carry => do
    let next ← addLimb E h a b carry s
    addLoop E hs as bs ss next
  | _, _, _, _, _ => pure ()

/-- the second loop, `emulated.rs:465-477`, `:548-560` -/
def subLoop (E : Emu) (k : ℕ) : List (ZMod p) → List (ZMod p) → List ℕ → List ℕ → ℕ → Build p Unit
  | h :: hs, m :: ms, c :: cs, s :: ss, carry => do
    let next ← createVariable h
    enforceBool next
    lcGate k c carry next s m 1 1 (-((2 ^ E.B : ℕ) : ZMod p))
    subLoop E k hs ms cs ss next
  | _, _, _, _, _ => pure ()

/-- `emulated_add_gate`, `emulated.rs:441-477`, with the hints given: `k`, the sum, and the carries of both
loops -/
def addGateWith (E : Emu) (a b c : List ℕ) (k : Bool) (sum : ℕ) (h1 h2 : List (ZMod p)) :
    Build p Unit := do
  let varK ← createBooleanVariable k
  let s ← createVars (toLimbs p sum E.B E.n)
  addLoop E h1 a b s 0
  subLoop E varK h2 (toLimbs p E.q E.B E.n) c s 0

/-- the carries computed in the first loop, `emulated.rs:452-453`, `:535-536`: without the carry of the limb before -/
def addHints1 (E : Emu) (a b : List (ZMod p)) : List (ZMod p) :=
  List.zipWith (fun x y => (((x + y).val / 2 ^ E.B : ℕ) : ZMod p)) a b

/-- the carries computed in the second loop, `emulated.rs:468-469`, `:551-552` -/
def addHints2 (E : Emu) (k : Bool) (c : List (ZMod p)) : List (ZMod p) :=
  List.zipWith (fun m y => (((m * boolF k + y).val / 2 ^ E.B : ℕ) : ZMod p)) (toLimbs p E.q E.B E.n) c

/-- `emulated_add_gate`, `emulated.rs:421-479` -/
def emulatedAddGate (E : Emu) (a b c : List ℕ) : Build p Unit := do
  checkVars a
  checkVars b
  checkVars c
  let valA ← emulatedWitness E a
  let valB ← emulatedWitness E b
  let va ← witnesses a
  let vb ← witnesses b
  let vc ← witnesses c
  let k := decide (E.q ≤ valA + valB)
  addGateWith E a b c k (valA + valB) (addHints1 E va vb) (addHints2 E k vc)

/-- `emulated_add`, `emulated.rs:481-491` -/
def emulatedAdd (E : Emu) (a b : List ℕ) : Build p (List ℕ) := do
  let valA ← emulatedWitness E a
  let valB ← emulatedWitness E b
  let c ← createEmulated E ((valA + valB) % E.q)
  emulatedAddGate E a b c
  pure c

/-- `emulated_sub`, `emulated.rs:493-503` -/
def emulatedSub (E : Emu) (a b : List ℕ) : Build p (List ℕ) := do
  let valA ← emulatedWitness E a
  let valB ← emulatedWitness E b
  let c ← createEmulated E ((valA + (E.q - valB)) % E.q)
  emulatedAddGate E c b a
  pure c

/-- the first loop of `emulated_add_constant_gate`, `emulated.rs:532-546` -/
def addConstLoop (E : Emu) : List (ZMod p) → List ℕ → List (ZMod p) → List ℕ → ℕ → Build p Unit
  | h :: hs, a :: as, b :: bs, s :: ss, carry => do
    let next ← createVariable h
    enforceBool next
    lcGate a 1 carry next s 1 b 1 (-((2 ^ E.B : ℕ) : ZMod p))
    enforceInRange s E.B
    addConstLoop E hs as bs ss next
  | _, _, _, _, _ => pure ()

/-- `emulated_add_constant_gate`, `emulated.rs:523-560`, with the hints given -/
def addConstGateWith (E : Emu) (a : List ℕ) (valB : ℕ) (c : List ℕ) (k : Bool) (sum : ℕ)
    (h1 h2 : List (ZMod p)) : Build p Unit := do
  let varK ← createBooleanVariable k
  let s ← createVars (toLimbs p sum E.B E.n)
  addConstLoop E h1 a (toLimbs p valB E.B E.n) s 0
  subLoop E varK h2 (toLimbs p E.q E.B E.n) c s 0

/-- `emulated_add_constant_gate`, `emulated.rs:505-562` -/
def emulatedAddConstantGate (E : Emu) (a : List ℕ) (valB : ℕ) (c : List ℕ) : Build p Unit := do
  checkVars a
  checkVars c
  let valA ← emulatedWitness E a
  let va ← witnesses a
  let vc ← witnesses c
  let k := decide (E.q ≤ valA + valB)
  addConstGateWith E a valB c k (valA + valB) (addHints1 E va (toLimbs p valB E.B E.n))
    (addHints2 E k vc)

/-- `emulated_add_constant`, `emulated.rs:564-575` -/
def emulatedAddConstant (E : Emu) (a : List ℕ) (valB : ℕ) : Build p (List ℕ) := do
  let valA ← emulatedWitness E a
  let c ← createEmulated E ((valA + valB) % E.q)
  emulatedAddConstantGate E a valB c
  pure c

/-- `emulated_sub_constant`, `emulated.rs:577-588` -/
def emulatedSubConstant (E : Emu) (a : List ℕ) (valB : ℕ) : Build p (List ℕ) := do
  let valA ← emulatedWitness E a
  let c ← createEmulated E ((valA + (E.q - valB)) % E.q)
  emulatedAddConstantGate E c valB a
  pure c

/-! ## Selection and comparison -/

/-- the loop of `conditional_select_emulated`, `emulated.rs:603-607` -/
def selectLoop (b : ℕ) : List ℕ → List ℕ → Build p (List ℕ)
  | x :: xs, y :: ys => do
    let v ← conditionalSelect b x y
    let vs ← selectLoop b xs ys
    pure (v :: vs)
  | _, _ => pure []

/-- `conditional_select_emulated`, `emulated.rs:589-610` -/
def conditionalSelectEmulated (b : ℕ) (p0 p1 : List ℕ) : Build p (List ℕ) := do
  checkVar b
  checkVars p0
  checkVars p1
  selectLoop b p0 p1

/-- the loop of `enforce_emulated_var_equal`, `emulated.rs:621-623` -/
def equalLoop : List ℕ → List ℕ → Build p Unit
  | x :: xs, y :: ys => do
    enforceEqual x y
    equalLoop xs ys
  | _, _ => pure ()

/-- `enforce_emulated_var_equal`, `emulated.rs:612-625` -/
def enforceEmulatedEqual (a b : List ℕ) : Build p Unit := do
  checkVars a
  checkVars b
  equalLoop a b

/-- `is_equal` for every pair -/
def isEqualLoop : List ℕ → List ℕ → Build p (List ℕ)
  | x :: xs, y :: ys => do
    let v ← isEqual x y
    let vs ← isEqualLoop xs ys
    pure (v :: vs)
  | _, _ => pure []

/-- `is_emulated_var_equal`, `emulated.rs:627-642` -/
def isEmulatedEqual (a b : List ℕ) : Build p ℕ := do
  checkVars a
  checkVars b
  let c ← isEqualLoop a b
  logicAndAll c

/-- `is_zero` for every limb -/
def isZeroLoop : List ℕ → Build p (List ℕ)
  | [] => pure []
  | x :: xs => do
    let v ← isZero x
    let vs ← isZeroLoop xs
    pure (v :: vs)

/-- `is_emulated_var_zero`, `emulated.rs:644-656` -/
def isEmulatedZero (a : List ℕ) : Build p ℕ := do
  checkVars a
  let c ← isZeroLoop a
  logicAndAll c

end Verif.Circuit
