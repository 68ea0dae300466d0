import Verif.Circuit.Ecc

/-!
# Model of `relation/src/gadgets/ecc/msm.rs`

* `ark_std::log2` is the base 2 logarithm rounded up.
* `1 << c` is an `i32`/`u64`/`usize` in the source; the model has no overflow (`c ≤ 6` for all scalar bit lengths
  below `2 ^ 10`).
* The native product `curve_point * scalar` (arkworks) is `edSmul`, repeated affine addition.
-/

namespace Verif.Circuit

variable {p : ℕ}

/-- the native `scalar * point` -/
def edSmul [Fact p.Prime] (K : TE p) : ℕ → ZMod p × ZMod p → ZMod p × ZMod p
  | 0, _ => (0, 1)
  | n + 1, P => edAdd K.a K.d P (edSmul K n P)

/-- `unwrap` of the result of a builder call -/
def orPanic {α : Type} (m : Build p α) : Build p α := fun c =>
  match m c with
  | .ok x => .ok x
  | .error _ => .error .panic

/-- `ln_without_floats`, `msm.rs:362-365` -/
def lnWithoutFloats (a : ℕ) : ℕ := Nat.size (a - 1) * 69 / 100

/-- the window size, `msm.rs:210-214` -/
def msmWindow (bits : ℕ) : ℕ := if bits < 32 then 3 else lnWithoutFloats bits

/-- the number of windows, `msm.rs:320` -/
def windowCount (c bits : ℕ) : ℕ := (bits - 1) / c + 1

/-- the values of the windows, `msm.rs:321-331` -/
def windowValues (c : ℕ) : (m n : ℕ) → List ℕ
  | 0, _ => []
  | m + 1, n => n % 2 ^ c :: windowValues c m (n / 2 ^ c)

/-- `decompose_scalar_var` for given window values, `msm.rs:322-337` -/
def decomposeWith (ds : List (ZMod p)) (s c : ℕ) : Build p (List ℕ) := do
  let ws ← createVars ds
  decompositionGate ws s ((2 ^ c : ℕ) : ZMod p)
  pure ws

/-- `decompose_scalar_var`, `msm.rs:308-338`; `scalar_bit_length - 1` underflows for 0 -/
def decomposeScalarVar (s c bits : ℕ) : Build p (List ℕ) :=
  if bits = 0 then Build.fail .panic
  else do
    let x ← witness s
    decomposeWith ((windowValues c (windowCount c bits) x.val).map (fun n : ℕ => (n : ZMod p))) s c

/-- the loop filling the point table, `msm.rs:230-234`; returns the points added -/
def pointTable (K : TE p) (base : ℕ × ℕ) : ℕ → ℕ × ℕ → Build p (List (ℕ × ℕ))
  | 0, _ => pure []
  | n + 1, last => do
    let q ← eccAdd K base last
    let qs ← pointTable K base n q
    pure (q :: qs)

/-- `compute_scalar_mul_value`, `msm.rs:340-356` -/
def scalarMulValue [Fact p.Prime] (K : TE p) (s : ℕ) (base : ℕ × ℕ) : Build p (ZMod p × ZMod p) := do
  let P ← pointWitness base
  let x ← witness s
  pure (edSmul K (x.val % K.r) P)

/-- the loop creating the lookup points, `msm.rs:237-242` -/
def lookupPoints [Fact p.Prime] (K : TE p) (base : ℕ × ℕ) : List ℕ → Build p (List (ℕ × ℕ))
  | [] => pure []
  | s :: ss => do
    let P ← scalarMulValue K s base
    let v ← createPointVariable P
    let vs ← lookupPoints K base ss
    pure (v :: vs)

/-- `create_point_lookup_gates`, `msm.rs:285-305` -/
def createPointLookupGates (table : List (ℕ × ℕ)) (ss : List ℕ) (ls : List (ℕ × ℕ)) : Build p Unit :=
  createTableAndLookupVariables (List.zipWith (fun s P => (s, P.1, P.2)) ss ls) table

/-- the part of the loop body for one base after the decomposition, `msm.rs:229-249` -/
def windowPoints [Fact p.Prime] (K : TE p) (c : ℕ) (base : ℕ × ℕ) (ws : List ℕ) : Build p (List (ℕ × ℕ)) := do
  let qs ← pointTable K base (2 ^ c - 2) base
  let ls ← lookupPoints K base ws
  createPointLookupGates (neutralPoint :: base :: qs) ws ls
  pure ls

/-- the additions to the window sums, `msm.rs:255-259` -/
def addSums (K : TE p) : List (ℕ × ℕ) → List (ℕ × ℕ) → Build p (List (ℕ × ℕ))
  | a :: as, b :: bs => do
    let v ← eccAdd K a b
    let vs ← addSums K as bs
    pure (v :: vs)
  | as, _ => pure as

/-- update of the window sums, `msm.rs:251-260` -/
def updateSums (K : TE p) (sums ls : List (ℕ × ℕ)) : Build p (List (ℕ × ℕ)) :=
  match sums with
  | [] => pure ls
  | _ => addSums K sums ls

/-- the loop over the bases, `msm.rs:224-261` -/
def windowLoop [Fact p.Prime] (K : TE p) (c bits : ℕ) :
    List ((ℕ × ℕ) × ℕ) → List (ℕ × ℕ) → Build p (List (ℕ × ℕ))
  | [], sums => pure sums
  | (base, s) :: xs, sums => do
    let ws ← decomposeScalarVar s c bits
    let ls ← windowPoints K c base ws
    let sums' ← updateSums K sums ls
    windowLoop K c bits xs sums'

/-- repeated doubling, `msm.rs:276-279` -/
def doublings (K : TE p) : ℕ → ℕ × ℕ → Build p (ℕ × ℕ)
  | 0, t => pure t
  | n + 1, t => do
    let t' ← orPanic (eccAdd K t t)
    doublings K n t'

/-- the fold over the window sums from the highest window, `msm.rs:270-281` -/
def foldWindows (K : TE p) (c : ℕ) : List (ℕ × ℕ) → ℕ × ℕ → Build p (ℕ × ℕ)
  | [], t => pure t
  | s :: ss, t => do
    let t1 ← orPanic (eccAdd K t s)
    let t2 ← doublings K c t1
    foldWindows K c ss t2

/-- the input checks, `msm.rs:202-205` -/
def checkPairs : List ((ℕ × ℕ) × ℕ) → Build p Unit
  | [] => pure ()
  | (base, s) :: xs => do
    checkVar s
    checkPoint base
    checkPairs xs

/-- the final additions, `msm.rs:266-282`; `first().unwrap()` panics without windows -/
def finishSums (K : TE p) (c : ℕ) (sums : List (ℕ × ℕ)) : Build p (ℕ × ℕ) :=
  match sums with
  | [] => Build.fail .panic
  | lowest :: rest => do
    let b ← foldWindows K c rest.reverse neutralPoint
    eccAdd K lowest b

/-- `msm_pippenger`, `msm.rs:189-283` -/
def msmPippenger [Fact p.Prime] (K : TE p) (bases : List (ℕ × ℕ)) (scalars : List ℕ) (bits : ℕ) :
    Build p (ℕ × ℕ) := do
  checkPairs (bases.zip scalars)
  let sums ← windowLoop K (msmWindow bits) bits (bases.zip scalars) []
  finishSums K (msmWindow bits) sums

/-- the loop of `msm_naive`, `msm.rs:143-147` -/
def naiveLoop (K : TE p) (bits : ℕ) : List ((ℕ × ℕ) × ℕ) → ℕ × ℕ → Build p (ℕ × ℕ)
  | [], res => pure res
  | (base, s) :: xs, res => do
    let bs ← unpack s bits
    let t ← variableBaseBinaryScalarMul K bs base
    let res' ← eccAdd K res t
    naiveLoop K bits xs res'

/-- the bound checks for the bases, `msm.rs:136-138` -/
def checkPoints : List (ℕ × ℕ) → Build p Unit
  | [] => pure ()
  | P :: Ps => do
    checkPoint P
    checkPoints Ps

/-- `msm_naive`, `msm.rs:125-150`; `scalars[0]` panics on empty input -/
def msmNaive (K : TE p) (bases : List (ℕ × ℕ)) (scalars : List ℕ) (bits : ℕ) : Build p (ℕ × ℕ) := do
  checkVars scalars
  checkPoints bases
  match bases.zip scalars with
  | [] => Build.fail .panic
  | (base, s) :: xs => do
    let bs ← unpack s bits
    let res ← variableBaseBinaryScalarMul K bs base
    naiveLoop K bits xs res

/-- `msm_with_var_scalar_length`, `msm.rs:64-83` -/
def msmWithLength [Fact p.Prime] (K : TE p) (bases : List (ℕ × ℕ)) (scalars : List ℕ) (bits : ℕ) :
    Build p (ℕ × ℕ) :=
  if bases.length ≠ scalars.length then Build.fail .parameter
  else do
    let l ← supportLookup
    if l then msmPippenger K bases scalars bits else msmNaive K bases scalars bits

/-- `msm`, `msm.rs:50-62` -/
def msm [Fact p.Prime] (K : TE p) (bases : List (ℕ × ℕ)) (scalars : List ℕ) : Build p (ℕ × ℕ) :=
  msmWithLength K bases scalars (Nat.size K.r)

end Verif.Circuit
