import Verif.Circuit.Gadgets
import Verif.Hash.Rescue

/-!
# Model of `rescue/src/gadgets/native.rs`, `gadgets/prf.rs`, `gadgets/commitment.rs`

A `RescueStateVar` is a `Rescue.Vec ℕ` of variables. The constants `F::A`, `F::A_INV` and the
default permutation and PRP of the field are given by `K : Rescue.Consts`. Iterators over the four
entries are written out. `mds.len() != STATE_SIZE` never holds for the array type used.
`create_rescue_state_variable` is not modelled (four calls of `create_variable`).
-/

namespace Verif.Circuit

open Verif.Rescue (Vec Mat Consts PRP)

variable {p : ℕ}

/-- `check_var_bound_rescue_state`, `native.rs:324-332` -/
def checkState (s : Vec ℕ) : Build p Unit := checkVars s.elems

/-- `RescueAffineGate`, `native.rs:54-78` -/
def affineGate (row : Vec (ZMod p)) (k : ZMod p) : Sel p :=
  { lc0 := row.a, lc1 := row.b, lc2 := row.c, lc3 := row.d, c := k, o := 1 }

/-- `Power5NonLinearGate`, `native.rs:80-107` -/
def power5Gate (row : Vec (ZMod p)) (k : ZMod p) : Sel p :=
  { hash0 := row.a, hash1 := row.b, hash2 := row.c, hash3 := row.d, c := k, o := 1 }

/-- `add_constant_state`, `native.rs:334-350` -/
def addConstantState (s : Vec ℕ) (k : Vec (ZMod p)) : Build p (Vec ℕ) := do
  checkState s
  let a ← addConstant s.a k.a
  let b ← addConstant s.b k.b
  let c ← addConstant s.c k.c
  let d ← addConstant s.d k.d
  pure ⟨a, b, c, d⟩

/-- `pow_alpha_inv`, `native.rs:466-484` -/
def powAlphaInv (K : Consts) (x : ℕ) : Build p ℕ := do
  checkVar x
  let v ← witness x
  let y ← createVariable (v ^ Rescue.limbsVal K.aInv)
  if K.A = 5 then do
    insertGate y 0 0 0 x fifthRootGate
    pure y
  else if K.A = 11 then do
    power11Gate y x
    pure y
  else Build.fail .parameter

/-- `pow_alpha_inv_state`, `native.rs:352-366` -/
def powAlphaInvState (K : Consts) (s : Vec ℕ) : Build p (Vec ℕ) := do
  checkState s
  let a ← powAlphaInv K s.a
  let b ← powAlphaInv K s.b
  let c ← powAlphaInv K s.c
  let d ← powAlphaInv K s.d
  pure ⟨a, b, c, d⟩

/-- one turn of the loops in `affine_transform` and `non_linear_transform`,
`native.rs:385-404, 425-444`: a variable with the given value and the gate for it -/
def stateRow (s : Vec ℕ) (g : Sel p) (x : ZMod p) : Build p ℕ := do
  let v ← createVariable x
  insertGate s.a s.b s.c s.d v g
  pure v

/-- `affine_transform`, `native.rs:368-406` -/
def affineTransform (s : Vec ℕ) (m : Mat (ZMod p)) (k : Vec (ZMod p)) : Build p (Vec ℕ) := do
  checkState s
  let x0 ← witness s.a
  let x1 ← witness s.b
  let x2 ← witness s.c
  let x3 ← witness s.d
  let out := Rescue.linear ⟨x0, x1, x2, x3⟩ m k
  let a ← stateRow s (affineGate m.a k.a) out.a
  let b ← stateRow s (affineGate m.b k.b) out.b
  let c ← stateRow s (affineGate m.c k.c) out.c
  let d ← stateRow s (affineGate m.d k.d) out.d
  pure ⟨a, b, c, d⟩

/-- one turn of the loop for the power 11, `native.rs:450-455` -/
def power11Row (x : ℕ) : Build p ℕ := do
  let v ← witness x
  let y ← createVariable (v ^ 11)
  power11Gate x y
  pure y

/-- `non_linear_transform`, `native.rs:408-464` -/
def nonLinearTransform (K : Consts) (s : Vec ℕ) (m : Mat (ZMod p)) (k : Vec (ZMod p)) :
    Build p (Vec ℕ) := do
  checkState s
  let x0 ← witness s.a
  let x1 ← witness s.b
  let x2 ← witness s.c
  let x3 ← witness s.d
  if K.A = 5 then do
    let out := Rescue.nonLinear K ⟨x0, x1, x2, x3⟩ m k
    let a ← stateRow s (power5Gate m.a k.a) out.a
    let b ← stateRow s (power5Gate m.b k.b) out.b
    let c ← stateRow s (power5Gate m.c k.c) out.c
    let d ← stateRow s (power5Gate m.d k.d) out.d
    pure ⟨a, b, c, d⟩
  else if K.A = 11 then do
    let a ← power11Row s.a
    let b ← power11Row s.b
    let c ← power11Row s.c
    let d ← power11Row s.d
    affineTransform ⟨a, b, c, d⟩ m k
  else Build.fail .parameter

/-- `add_state`, `native.rs:486-501` -/
def addState (s t : Vec ℕ) : Build p (Vec ℕ) := do
  let a ← add s.a t.a
  let b ← add s.b t.b
  let c ← add s.c t.c
  let d ← add s.d t.d
  pure ⟨a, b, c, d⟩

/-- one round with a constant key, `native.rs:514-520` and `:262-272` -/
def roundConst (K : Consts) (m : Mat (ZMod p)) (r : ℕ) (s : Vec ℕ) (k : Vec (ZMod p)) :
    Build p (Vec ℕ) :=
  if r % 2 = 0 then do
    let s ← powAlphaInvState K s
    affineTransform s m k
  else nonLinearTransform K s m k

/-- the loop of `permutation_with_const_round_keys`, `native.rs:513-521` -/
def constKeysLoop (K : Consts) (m : Mat (ZMod p)) : ℕ → List (Vec (ZMod p)) → Vec ℕ → Build p (Vec ℕ)
  | _, [], s => pure s
  | r, k :: ks, s => do
    let s ← roundConst K m r s k
    constKeysLoop K m (r + 1) ks s

/-- `permutation_with_const_round_keys`, `native.rs:503-523` -/
def permutationWithConstRoundKeys (K : Consts) (s : Vec ℕ) (m : Mat (ZMod p))
    (keys : List (Vec (ZMod p))) : Build p (Vec ℕ) :=
  if keys.length ≠ 2 * Rescue.rounds + 1 then Build.fail .parameter
  else match keys with
    | [] => Build.fail .panic
    | k0 :: ks => do
      let s ← addConstantState s k0
      constKeysLoop K m 0 ks s

/-- `rescue_permutation`, `native.rs:113-126` -/
def rescuePermutation (K : Consts) (s : Vec ℕ) : Build p (Vec ℕ) :=
  permutationWithConstRoundKeys K s (Rescue.Permutation.default K).rescuePrp.mds
    (Rescue.Permutation.default K).roundKeys

/-- the loop of `prp_with_round_keys`, `native.rs:306-315` -/
def varKeysLoop (K : Consts) (m : Mat (ZMod p)) : ℕ → List (Vec ℕ) → Vec ℕ → Build p (Vec ℕ)
  | _, [], s => pure s
  | r, k :: ks, s => do
    let s ← roundConst K m r s Rescue.zeroVec
    let s ← addState s k
    varKeysLoop K m (r + 1) ks s

/-- `prp_with_round_keys`, `native.rs:294-317` -/
def prpWithRoundKeys (K : Consts) (s : Vec ℕ) (m : Mat (ZMod p)) (keys : List (Vec ℕ)) :
    Build p (Vec ℕ) :=
  if keys.length ≠ 2 * Rescue.rounds + 1 then Build.fail .parameter
  else match keys with
    | [] => Build.fail .panic
    | k0 :: ks => do
      let s ← addState s k0
      varKeysLoop K m 0 ks s

/-- the loop of `key_schedule`, `native.rs:262-273`: the keys pushed -/
def keyScheduleLoop (K : Consts) (m : Mat (ZMod p)) : ℕ → List (Vec (ZMod p)) → Vec ℕ →
    Build p (List (Vec ℕ))
  | _, [], _ => pure []
  | r, k :: ks, s => do
    let s ← roundConst K m r s k
    let rest ← keyScheduleLoop K m (r + 1) ks s
    pure (s :: rest)

/-- `key_schedule`, `native.rs:251-276` -/
def keySchedule (K : Consts) (m : Mat (ZMod p)) (key : Vec ℕ) (P : PRP (ZMod p)) :
    Build p (List (Vec ℕ)) := do
  let s ← addConstantState key P.initVec
  let rest ← keyScheduleLoop K m 0 P.keyInjection s
  pure (s :: rest)

/-- `prp`, `native.rs:128-138` -/
def prp (K : Consts) (key input : Vec ℕ) : Build p (Vec ℕ) := do
  let keys ← keySchedule K (PRP.default K).mds key (PRP.default K)
  prpWithRoundKeys K input (PRP.default K).mds keys

/-- the absorbing loop of `rescue_sponge_no_padding`, `native.rs:155-161` (`chunks_exact(3)` ignores a
shorter rest) -/
def spongeAbsorbLoop (K : Consts) : List ℕ → Vec ℕ → Build p (Vec ℕ)
  | a :: b :: c :: rest, s => do
    let s ← addState s ⟨a, b, c, 0⟩
    let s ← rescuePermutation K s
    spongeAbsorbLoop K rest s
  | _, s => pure s

/-- the squeezing loop, `native.rs:164-176` -/
def spongeSqueezeLoop (K : Consts) : ℕ → Vec ℕ → ℕ → Build p (List ℕ)
  | 0, _, _ => pure []
  | fuel + 1, s, remaining =>
    let extract := min remaining 3
    if remaining - extract = 0 then pure (s.elems.take extract)
    else do
      let t ← rescuePermutation K s
      let rest ← spongeSqueezeLoop K fuel t (remaining - extract)
      pure (s.elems.take extract ++ rest)

/-- `rescue_sponge_no_padding`, `native.rs:140-179`; `zero()` is variable `0` -/
def rescueSpongeNoPadding (K : Consts) (data : List ℕ) (num : ℕ) : Build p (List ℕ) :=
  match data with
  | a :: b :: c :: rest =>
    if rest.length % 3 ≠ 0 then Build.fail .parameter
    else do
      let s ← rescuePermutation K ⟨a, b, c, 0⟩
      let s ← spongeAbsorbLoop K rest s
      spongeSqueezeLoop K (num + 1) s num
  | _ => Build.fail .parameter

/-- `rescue_sponge_with_padding`, `native.rs:181-201`; `one()` is variable `1` -/
def rescueSpongeWithPadding (K : Consts) (data : List ℕ) (num : ℕ) : Build p (List ℕ) :=
  if data = [] then Build.fail .parameter
  else
    let len := Rescue.lenToNextMultiple (data.length + 1) 3
    rescueSpongeNoPadding K (data ++ [1] ++ List.replicate (len - data.length - 1) 0) num

/-- the absorbing loop of `rescue_full_state_keyed_sponge_no_padding`, `native.rs:218-223` -/
def fsksLoop (K : Consts) : List ℕ → Vec ℕ → Build p (Vec ℕ)
  | a :: b :: c :: d :: rest, s => do
    let s ← addState s ⟨a, b, c, d⟩
    let s ← rescuePermutation K s
    fsksLoop K rest s
  | _, s => pure s

/-- `rescue_full_state_keyed_sponge_no_padding`, `native.rs:203-226` -/
def fsksNoPadding (K : Consts) (key : ℕ) (data : List ℕ) : Build p ℕ :=
  if data.length % 4 ≠ 0 then Build.fail .parameter
  else do
    let s ← fsksLoop K data ⟨0, 0, 0, key⟩
    pure s.a

/-- `rescue_full_state_keyed_sponge_with_zero_padding`, `native.rs:228-249` -/
def fsksZeroPadding (K : Consts) (key : ℕ) (data : List ℕ) : Build p ℕ :=
  if data = [] then Build.fail .parameter
  else fsksNoPadding K key
    (data ++ List.replicate (Rescue.lenToNextMultiple data.length 4 - data.length) 0)

/-- `PRFGadget::eval_prf`, `gadgets/prf.rs:26-28` -/
def evalPrf (K : Consts) (key : ℕ) (input : List ℕ) : Build p ℕ := fsksZeroPadding K key input

/-- `pad_with`, `gadgets/commitment.rs:40-48` -/
def padWith (l : List ℕ) (multiple var : ℕ) : List ℕ :=
  Rescue.resize l (if l.length % multiple = 0 then l.length
    else l.length + multiple - l.length % multiple) var

/-- `CommitmentGadget::commit`, `gadgets/commitment.rs:31-36` -/
def rescueCommit (K : Consts) (input : List ℕ) (blinding : ℕ) : Build p ℕ := do
  let res ← rescueSpongeNoPadding K (padWith (blinding :: input) 3 0) 1
  match res with
  | [] => Build.fail .panic
  | v :: _ => pure v

end Verif.Circuit
