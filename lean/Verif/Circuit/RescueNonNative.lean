import Verif.Circuit.RescueGadget
import Verif.Circuit.VerifierPoly

/-!
# Model of `rescue/src/gadgets/non_native.rs` and `relation/src/gadgets/ultraplonk/non_native_gates.rs`

Rescue over `T`, the field `ZMod Q`, in a circuit over `F`, the field `ZMod p`; an element of `T` is a `FpElemVar` of two
limbs. The constants `T::A`, `T::A_INV` and the default permutation and PRP of `T` are given by `K : Rescue.Consts`.
Iterators over the four entries of a state are `vecM`. `mds.len() != STATE_SIZE` never holds for the array type used.
`prp_with_round_keys` and `prp` here also return, next to the result, the states that enter the rounds with exponent
`A` (the code does not return these); they are sums whose limbs are not range checked. `aux` in `key_schedule` is computed
by the code but never used and is left out.
-/

namespace Verif.Circuit.RescueNN

open Verif.Circuit Verif.Circuit.VerifierPoly
open Verif.Rescue (Vec Mat Consts PRP)

variable {p Q : ℕ} {α β : Type}

/-- `RescueNonNativeStateVar`, `non_native.rs:26-30` -/
structure NState (p : ℕ) where
  s : Vec (FpElemVar p)
  mod : FpElem p

/-- a loop over the four entries -/
def vecM (f : α → Build p β) (v : Vec α) : Build p (Vec β) := do
  let a ← f v.a
  let b ← f v.b
  let c ← f v.c
  let d ← f v.d
  pure ⟨a, b, c, d⟩

/-- `check_var_bound_rescue_state`, `non_native.rs:340-350` -/
def checkNState (s : Vec (FpElemVar p)) : Build p Unit :=
  checkVars [s.a.v0, s.a.v1, s.b.v0, s.b.v1, s.c.v0, s.c.v1, s.d.v0, s.d.v1]

/-- `FpElem::new(x, m, Some(two_power_m))` -/
def elemAt (m : ℕ) (t : ZMod p) (x : ZMod p) : Build p (FpElem p) := liftE (FpElem.new x m (some t))

/-- `FpElem::new(&field_switching::<T, F>(x), m, Some(two_power_m))` -/
def constAt (m : ℕ) (t : ZMod p) (x : ZMod Q) : Build p (FpElem p) := do
  let y ← switch p x
  elemAt m t y

/-- `FpElemVar::new_from_field_element(self, &field_switching::<T, F>(x), m, Some(two_power_m))` -/
def newAt (m : ℕ) (t : ZMod p) (x : ZMod Q) : Build p (FpElemVar p) := do
  let y ← switch p x
  newFromFieldElement y m (some t)

/-! ## `non_native_gates.rs` -/

/-- `non_native_power_11_gen`, `non_native_gates.rs:56-87` -/
def power11Gen (Q : ℕ) (x : FpElemVar p) : Build p (FpElemVar p) := do
  let q ← liftE (FpElem.new (Q : ZMod p) x.m (some x.tpm))
  let x2 ← modMul x x q
  let x3 ← modMul x2 x q
  let x4 ← modMul x2 x2 q
  let x8 ← modMul x4 x4 q
  modMul x3 x8 q

/-- `non_native_power_11_gate`, `non_native_gates.rs:24-47` -/
def power11GateNN (Q : ℕ) (x x11 : FpElemVar p) : Build p Unit := do
  checkVars [x.v0, x.v1, x11.v0, x11.v1]
  if modulusBits p ≤ modulusBits Q then Build.fail .notSupported
  else do
    let y ← power11Gen Q x
    enforceEqual x11.v0 y.v0
    enforceEqual x11.v1 y.v1

/-- the products of `non_native_linear_gen`, `non_native_gates.rs:187-191` -/
def mulConsts (q : FpElem p) : List (FpElemVar p × FpElem p) → Build p (List (FpElemVar p))
  | [] => pure []
  | (x, y) :: l => do
    let v ← modMulConstant x y q
    let vs ← mulConsts q l
    pure (v :: vs)

/-- `non_native_linear_gen`, `non_native_gates.rs:133-194` -/
def linearGen (Q : ℕ) (x : List (FpElemVar p)) (y : List (FpElem p)) (c : FpElem p) : Build p (FpElemVar p) :=
  if modulusBits p ≤ modulusBits Q then Build.fail .notSupported
  else if x.length ≠ y.length then Build.fail .parameter
  else if ∃ e ∈ x, c.m ≠ e.m then Build.fail .parameter
  else if ∃ e ∈ y, c.m ≠ e.m then Build.fail .parameter
  else do
    let q ← liftE (FpElem.new (Q : ZMod p) c.m (some c.tpm))
    let xy ← mulConsts q (x.zip y)
    let sum ← modAddVec xy q
    modAddConstant sum c q

/-! ## The permutation -/

/-- `add_constant_state`, `non_native.rs:352-393` -/
def addConstState (S : NState p) (k : Vec (ZMod Q)) : Build p (NState p) := do
  checkNState S.s
  let f ← vecM (switch p) k
  let e ← vecM (elemAt S.s.a.m S.s.a.tpm) f
  let s ← vecM (fun x => modAddConstant x.1 x.2 S.mod) (Vec.zipWith Prod.mk S.s e)
  pure ⟨s, S.mod⟩

/-- `pow_alpha_inv`, `non_native.rs:564-595` -/
def powAlphaInvNN (Q : ℕ) (K : Consts) (x : FpElemVar p) : Build p (FpElemVar p) := do
  checkVars [x.v0, x.v1]
  if K.A = 11 then do
    let f ← wit x
    let t : ZMod Q ← switch Q f
    let o ← newAt x.m x.tpm (t ^ Rescue.limbsVal K.aInv)
    power11GateNN Q o x
    pure o
  else Build.fail .parameter

/-- `pow_alpha_inv_state`, `non_native.rs:395-413` -/
def powAlphaInvStateNN (Q : ℕ) (K : Consts) (S : NState p) : Build p (NState p) := do
  checkNState S.s
  let s ← vecM (powAlphaInvNN Q K) S.s
  pure ⟨s, S.mod⟩

/-- one turn of the loop of `affine_transform`, `non_native.rs:471-496`: row of the matrix, constant, output -/
def affineRow (s : Vec (FpElemVar p)) (m : ℕ) (t : ZMod p) (x : Vec (ZMod Q) × FpElem p × FpElemVar p) :
    Build p Unit := do
  let r ← vecM (constAt m t) x.1
  let o ← linearGen Q s.elems r.elems x.2.1
  enforceEqual x.2.2.v0 o.v0
  enforceEqual x.2.2.v1 o.v1

/-- `affine_transform`, `non_native.rs:415-501` -/
def affineNN (S : NState p) (M : Mat (ZMod Q)) (k : Vec (ZMod Q)) : Build p (NState p) := do
  checkNState S.s
  let f ← vecM wit S.s
  let x : Vec (ZMod Q) ← vecM (switch Q) f
  let ke ← vecM (constAt S.s.a.m S.s.a.tpm) k
  let o ← vecM (newAt S.s.a.m S.s.a.tpm) (Rescue.linear x M k)
  let _ ← vecM (affineRow S.s S.s.a.m S.s.a.tpm) (Vec.zipWith Prod.mk M (Vec.zipWith Prod.mk ke o))
  pure ⟨o, S.mod⟩

/-- one turn of the loop of `non_linear_transform`, `non_native.rs:535-550` -/
def power11RowNN (A : ℕ) (m : ℕ) (t : ZMod p) (x : FpElemVar p × ZMod Q) : Build p (FpElemVar p) := do
  let y ← newAt m t (x.2 ^ A)
  power11GateNN Q x.1 y
  pure y

/-- `non_linear_transform`, `non_native.rs:503-562` -/
def nonLinearNN (K : Consts) (S : NState p) (M : Mat (ZMod Q)) (k : Vec (ZMod Q)) : Build p (NState p) := do
  checkNState S.s
  let f ← vecM wit S.s
  let x : Vec (ZMod Q) ← vecM (switch Q) f
  if K.A = 11 then do
    let y ← vecM (power11RowNN K.A S.mod.m S.s.a.tpm) (Vec.zipWith Prod.mk S.s x)
    affineNN ⟨y, S.mod⟩ M k
  else Build.fail .parameter

/-- `left_state_var.modulus != right_state_var.modulus` -/
def modNe (a b : FpElem p) : Prop := a.p0 ≠ b.p0 ∨ a.p1 ≠ b.p1 ∨ a.m ≠ b.m ∨ a.tpm ≠ b.tpm

instance (a b : FpElem p) : Decidable (modNe a b) := by unfold modNe; infer_instance

/-- `add_state`, `non_native.rs:597-631` -/
def addStateNN (S T : NState p) : Build p (NState p) := do
  checkNState S.s
  checkNState T.s
  if modNe S.mod T.mod then Build.fail .parameter
  else do
    let s ← vecM (fun x => modAdd x.1 x.2 S.mod) (Vec.zipWith Prod.mk S.s T.s)
    pure ⟨s, S.mod⟩

/-- one round with a constant key, `non_native.rs:645-653` and `:277-286` -/
def roundNN (K : Consts) (M : Mat (ZMod Q)) (r : ℕ) (S : NState p) (k : Vec (ZMod Q)) : Build p (NState p) :=
  if r % 2 = 0 then do
    let S ← powAlphaInvStateNN Q K S
    affineNN S M k
  else nonLinearNN K S M k

/-- the loop of `permutation_with_const_round_keys`, `non_native.rs:644-654` -/
def constKeysNN (K : Consts) (M : Mat (ZMod Q)) : ℕ → List (Vec (ZMod Q)) → NState p → Build p (NState p)
  | _, [], S => pure S
  | r, k :: ks, S => do
    let S ← roundNN K M r S k
    constKeysNN K M (r + 1) ks S

/-- `permutation_with_const_round_keys`, `non_native.rs:633-656` -/
def permWithKeysNN (K : Consts) (S : NState p) (M : Mat (ZMod Q)) (keys : List (Vec (ZMod Q))) : Build p (NState p) :=
  if keys.length ≠ 2 * Rescue.rounds + 1 then Build.fail .parameter
  else match keys with
    | [] => Build.fail .panic
    | k0 :: ks => do
      let S ← addConstState S k0
      constKeysNN K M 0 ks S

/-- `rescue_permutation`, `non_native.rs:46-59` -/
def permNN (Q : ℕ) (K : Consts) (S : NState p) : Build p (NState p) :=
  permWithKeysNN K S (Rescue.Permutation.default K : Rescue.Permutation (ZMod Q)).rescuePrp.mds
    (Rescue.Permutation.default K).roundKeys

/-! ## The cipher -/

/-- the loop of `prp_with_round_keys`, `non_native.rs:316-330`; second component: the states that enter odd rounds -/
def varKeysNN (K : Consts) (M : Mat (ZMod Q)) :
    ℕ → List (NState p) → NState p → Build p (NState p × List (Vec (FpElemVar p)))
  | _, [], S => pure (S, [])
  | r, k :: ks, S => do
    let T ← roundNN K M r S Rescue.zeroVec
    let U ← addStateNN T k
    let R ← varKeysNN K M (r + 1) ks U
    pure (R.1, if r % 2 = 0 then R.2 else S.s :: R.2)

/-- `prp_with_round_keys`, `non_native.rs:300-332` -/
def prpWithKeysNN (K : Consts) (S : NState p) (M : Mat (ZMod Q)) (keys : List (NState p)) :
    Build p (NState p × List (Vec (FpElemVar p))) :=
  if keys.length ≠ 2 * Rescue.rounds + 1 then Build.fail .parameter
  else match keys with
    | [] => Build.fail .panic
    | k0 :: ks => do
      let S ← addStateNN S k0
      varKeysNN K M 0 ks S

/-- the loop of `key_schedule`, `non_native.rs:275-288`: the keys pushed -/
def scheduleNN (K : Consts) (M : Mat (ZMod Q)) : ℕ → List (Vec (ZMod Q)) → NState p → Build p (List (NState p))
  | _, [], _ => pure []
  | r, k :: ks, S => do
    let S ← roundNN K M r S k
    let rest ← scheduleNN K M (r + 1) ks S
    pure (S :: rest)

/-- `key_schedule`, `non_native.rs:263-292` -/
def keyScheduleNN (K : Consts) (M : Mat (ZMod Q)) (key : NState p) (P : PRP (ZMod Q)) : Build p (List (NState p)) := do
  let S ← addConstState key P.initVec
  let rest ← scheduleNN K M 0 P.keyInjection S
  pure (S :: rest)

/-- `prp`, `non_native.rs:61-70` -/
def prpNN (Q : ℕ) (K : Consts) (key S : NState p) : Build p (NState p × List (Vec (FpElemVar p))) := do
  let keys ← keyScheduleNN K (PRP.default K : PRP (ZMod Q)).mds key (PRP.default K)
  prpWithKeysNN K S (PRP.default K : PRP (ZMod Q)).mds keys

/-! ## The sponges -/

/-- `FpElemVar::zero`, `mod_arith.rs:201-210` -/
def zeroAt (m : ℕ) (t : ZMod p) : FpElemVar p := ⟨0, 0, m, t⟩

/-- `FpElemVar::one`, `mod_arith.rs:213-222` -/
def oneAt (m : ℕ) (t : ZMod p) : FpElemVar p := ⟨1, 0, m, t⟩

/-- the absorbing loop of `rescue_sponge_no_padding`, `non_native.rs:129-139` (`chunks_exact(3)` ignores a shorter
rest) -/
def absorbNN (Q : ℕ) (K : Consts) (q : FpElem p) (z : FpElemVar p) : List (FpElemVar p) → NState p → Build p (NState p)
  | a :: b :: c :: rest, S => do
    let S ← addStateNN S ⟨⟨a, b, c, z⟩, q⟩
    let S ← permNN Q K S
    absorbNN Q K q z rest S
  | _, S => pure S

/-- the squeezing loop, `non_native.rs:140-152` -/
def squeezeNN (Q : ℕ) (K : Consts) : ℕ → NState p → ℕ → Build p (List (FpElemVar p))
  | 0, _, _ => pure []
  | fuel + 1, S, remaining =>
    let extract := min remaining 3
    if remaining - extract = 0 then pure (S.s.elems.take extract)
    else do
      let T ← permNN Q K S
      let rest ← squeezeNN Q K fuel T (remaining - extract)
      pure (S.s.elems.take extract ++ rest)

/-- `rescue_sponge_no_padding`, `non_native.rs:99-155` -/
def spongeNN (Q : ℕ) (K : Consts) (data : List (FpElemVar p)) (num : ℕ) : Build p (List (FpElemVar p)) :=
  match data with
  | a :: b :: c :: rest =>
    if rest.length % 3 ≠ 0 then Build.fail .parameter
    else do
      let z := zeroAt a.m a.tpm
      let q ← liftE (FpElem.new (Q : ZMod p) a.m (some a.tpm))
      let S ← permNN Q K ⟨⟨a, b, c, z⟩, q⟩
      let S ← absorbNN Q K q z rest S
      squeezeNN Q K (num + 1) S num
  | _ => Build.fail .parameter

/-- `rescue_sponge_with_padding`, `non_native.rs:72-97` -/
def spongePadNN (Q : ℕ) (K : Consts) (data : List (FpElemVar p)) (num : ℕ) : Build p (List (FpElemVar p)) :=
  match data with
  | [] => Build.fail .parameter
  | a :: _ =>
    let len := Rescue.lenToNextMultiple (data.length + 1) 3
    spongeNN Q K (data ++ [oneAt a.m a.tpm] ++ List.replicate (len - data.length - 1) (zeroAt a.m a.tpm)) num

/-- the absorbing loop of `rescue_full_state_keyed_sponge_no_padding`, `non_native.rs:217-227` -/
def keyedLoopNN (Q : ℕ) (K : Consts) (q : FpElem p) : List (FpElemVar p) → NState p → Build p (NState p)
  | a :: b :: c :: d :: rest, S => do
    let S ← addStateNN S ⟨⟨a, b, c, d⟩, q⟩
    let S ← permNN Q K S
    keyedLoopNN Q K q rest S
  | _, S => pure S

/-- `rescue_full_state_keyed_sponge_no_padding`, `non_native.rs:186-230` -/
def keyedNN (Q : ℕ) (K : Consts) (key : FpElemVar p) (data : List (FpElemVar p)) : Build p (FpElemVar p) :=
  match data with
  | [] => Build.fail .parameter
  | a :: _ =>
    if data.length % 4 ≠ 0 then Build.fail .parameter
    else do
      let z := zeroAt a.m a.tpm
      let q ← liftE (FpElem.new (Q : ZMod p) a.m (some a.tpm))
      let S ← keyedLoopNN Q K q data ⟨⟨z, z, z, key⟩, q⟩
      pure S.s.a

/-- `rescue_full_state_keyed_sponge_with_zero_padding`, `non_native.rs:157-184` -/
def keyedPadNN (Q : ℕ) (K : Consts) (key : FpElemVar p) (data : List (FpElemVar p)) : Build p (FpElemVar p) :=
  match data with
  | [] => Build.fail .parameter
  | a :: _ => keyedNN Q K key
      (data ++ List.replicate (Rescue.lenToNextMultiple data.length 4 - data.length) (zeroAt a.m a.tpm))

/-- `create_rescue_state_variable`, `non_native.rs:232-261`; division by `range_bit_len` zero panics -/
def createStateNN (v : Vec (ZMod Q)) : Build p (NState p) := do
  let k ← rangeBitLen
  if k = 0 then Build.fail .panic
  else do
    let m := (modulusBits Q / 2 / k + 1) * k
    let t ← liftE (FpElem.new (Q : ZMod p) m none)
    let f ← vecM (switch p) v
    let s ← vecM (fun x => newFromFieldElement x m (some t.tpm)) f
    pure ⟨s, t⟩

end Verif.Circuit.RescueNN
