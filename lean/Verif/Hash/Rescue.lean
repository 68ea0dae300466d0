import Mathlib.Algebra.Field.Defs
import Mathlib.Data.ZMod.Basic

/-!
# Model of `rescue/src/lib.rs`, `sponge.rs`, `crhf.rs`, `prf.rs`, `commitment.rs`

* The field is any field `F`; `elem.pow(limbs)` of arkworks is the power with the exponent whose
  little-endian 64-bit limbs are given.
* `[F; STATE_SIZE]` is the structure `Vec`; loops over the four entries are written out.
* The constants of `trait RescueParameter` are byte strings in Rust, read with
  `from_le_bytes_mod_order`; here each byte string is given as the number it denotes, and reading
  it is the cast into the field.
* `Absorb::to_sponge_field_elements_as_vec` (arkworks) of a slice of native field elements is the
  slice itself.
* Fixed-size arrays `[F; N]` are lists; where the Rust type fixes a length, the theorems have it as
  a hypothesis. `Option` results: `none` is a panic.
-/

namespace Verif.Rescue

/-- `STATE_SIZE`, `lib.rs:52` -/
def stateSize : ℕ := 4
/-- `CRHF_RATE`, `lib.rs:54` -/
def crhfRate : ℕ := 3
/-- `ROUNDS`, `lib.rs:97` -/
def rounds : ℕ := 12

/-- `RescueVector`, `lib.rs:117-119` -/
@[ext]
structure Vec (α : Type) where
  a : α
  b : α
  c : α
  d : α
deriving DecidableEq

namespace Vec
variable {α β : Type}

def map (f : α → β) (v : Vec α) : Vec β := ⟨f v.a, f v.b, f v.c, f v.d⟩

def zipWith {γ : Type} (f : α → β → γ) (v : Vec α) (w : Vec β) : Vec γ :=
  ⟨f v.a w.a, f v.b w.b, f v.c w.c, f v.d w.d⟩

/-- `elems`, `lib.rs:132-134` -/
def elems (v : Vec α) : List α := [v.a, v.b, v.c, v.d]

end Vec

/-- `RescueMatrix`: the four rows, `lib.rs:226-228` -/
abbrev Mat (F : Type) := Vec (Vec F)

/-- `trait RescueParameter`, `lib.rs:100-113` -/
structure Consts where
  A : ℕ
  aInv : List ℕ
  mds : Vec (Vec ℕ)
  initVec : Vec ℕ
  keyInjection : List (Vec ℕ)
  permRoundKeys : List (Vec ℕ)

section
variable {F : Type} [CommRing F]

/-- `RescueVector::zero`, `lib.rs:124-128` -/
def zeroVec : Vec F := ⟨0, 0, 0, 0⟩

/-- the exponent denoted by a slice of `u64` -/
def limbsVal : List ℕ → ℕ
  | [] => 0
  | x :: xs => x + 2 ^ 64 * limbsVal xs

/-- `pow`, `lib.rs:158-162` -/
def powVec (v : Vec F) (e : List ℕ) : Vec F := v.map (· ^ limbsVal e)

/-- `add_assign`, `lib.rs:164-168`, and `add`, `lib.rs:170-174` -/
def addVec (v w : Vec F) : Vec F := Vec.zipWith (· + ·) v w

/-- `add_assign_elems`, `lib.rs:176-181` (a shorter slice leaves the rest as it is; further elements
are ignored) -/
def addElems (v : Vec F) : List F → Vec F
  | [] => v
  | [x] => ⟨v.a + x, v.b, v.c, v.d⟩
  | [x, y] => ⟨v.a + x, v.b + y, v.c, v.d⟩
  | [x, y, z] => ⟨v.a + x, v.b + y, v.c + z, v.d⟩
  | x :: y :: z :: t :: _ => ⟨v.a + x, v.b + y, v.c + z, v.d + t⟩

/-- `dot_product`, `lib.rs:183-189` -/
def dotProduct (v w : Vec F) : F := 0 + v.a * w.a + v.b * w.b + v.c * w.c + v.d * w.d

/-- `mul_vec`, `lib.rs:237-244` -/
def mulVec (m : Mat F) (v : Vec F) : Vec F := m.map fun row => dotProduct row v

/-- `linear`, `lib.rs:138-142` -/
def linear (v : Vec F) (m : Mat F) (k : Vec F) : Vec F := addVec (mulVec m v) k

/-- `non_linear`, `lib.rs:195-201` -/
def nonLinear (K : Consts) (v : Vec F) (m : Mat F) (k : Vec F) : Vec F :=
  addVec (mulVec m (powVec v [K.A])) k

/-- `from_elems_le_bytes`, `lib.rs:147-156` -/
def ofBytes (v : Vec ℕ) : Vec F := v.map fun n : ℕ => (n : F)

/-- `PRP`, `lib.rs:275-280` -/
structure PRP (F : Type) where
  mds : Mat F
  initVec : Vec F
  keyInjection : List (Vec F)

/-- `PRP::default`, `lib.rs:283-325` -/
def PRP.default (K : Consts) : PRP F :=
  ⟨K.mds.map ofBytes, ofBytes K.initVec, K.keyInjection.map ofBytes⟩

/-- the exponent of round `i`: `A_INV` for even, `A` for odd rounds, `lib.rs:346-350, 362` -/
def expOf (K : Consts) (i : ℕ) : List ℕ := if i % 2 = 0 then K.aInv else [K.A]

/-- the loop over the round keys, `lib.rs:345-353`; `i` is the round number -/
def roundLoop (K : Consts) (mds : Mat F) : ℕ → List (Vec F) → Vec F → Vec F
  | _, [], s => s
  | i, k :: ks, s => roundLoop K mds (i + 1) ks (linear (powVec s (expOf K i)) mds k)

/-- `prp_with_round_keys`, `lib.rs:338-355`; `none` is the failing assertion -/
def prpWithRoundKeys (K : Consts) (P : PRP F) (keys : List (Vec F)) (input : Vec F) :
    Option (Vec F) :=
  if keys.length ≠ 2 * rounds + 1 then none
  else match keys with
    | [] => none
    | k0 :: ks => some (roundLoop K P.mds 0 ks (addVec input k0))

/-- the loop of `key_schedule`, `lib.rs:361-367`, over the injected keys: the keys pushed -/
def scheduleLoop (K : Consts) (mds : Mat F) : ℕ → List (Vec F) → Vec F → List (Vec F)
  | _, [], _ => []
  | i, k :: ks, aux =>
    let aux := linear (powVec aux (expOf K i)) mds k
    aux :: scheduleLoop K mds (i + 1) ks aux

/-- `key_schedule`, `lib.rs:358-369`; `none` is the out of bounds index of a short
`key_injection` -/
def keySchedule (K : Consts) (P : PRP F) (key : Vec F) : Option (List (Vec F)) :=
  if P.keyInjection.length < 2 * rounds then none
  else
    let aux := addVec key P.initVec
    some (aux :: scheduleLoop K P.mds 0 (P.keyInjection.take (2 * rounds)) aux)

/-- `prp`, `lib.rs:331-334` -/
def prp (K : Consts) (P : PRP F) (key input : Vec F) : Option (Vec F) :=
  match keySchedule K P key with
  | none => none
  | some ks => prpWithRoundKeys K P ks input

/-- `Permutation`, `lib.rs:396-399` -/
structure Permutation (F : Type) where
  rescuePrp : PRP F
  roundKeys : List (Vec F)

/-- `Permutation::default`, `lib.rs:401-420` -/
def Permutation.default (K : Consts) : Permutation F :=
  ⟨PRP.default K, K.permRoundKeys.map ofBytes⟩

/-- `Permutation::eval`, `lib.rs:437-440` -/
def Permutation.eval (K : Consts) (P : Permutation F) (input : Vec F) : Option (Vec F) :=
  prpWithRoundKeys K P.rescuePrp P.roundKeys input

end

/-! ## Sponge -/

section
variable {F : Type} [CommRing F]

/-- `chunks(n)` of a slice -/
def chunksAux {α : Type} (n : ℕ) : ℕ → List α → List (List α)
  | 0, _ => []
  | fuel + 1, l => if l = [] then [] else l.take n :: chunksAux n fuel (l.drop n)

/-- `slice::chunks(n)` for `n > 0` -/
def chunks {α : Type} (n : ℕ) (l : List α) : List (List α) := chunksAux n l.length l

/-- `absorb`, `sponge.rs:56-64`; `eval` is the permutation -/
def absorb (eval : Vec F → Vec F) (rate : ℕ) (s : Vec F) (input : List F) : Vec F :=
  (chunks rate input).foldl (fun s chunk => eval (addElems s chunk)) s

/-- `squeeze_native_field_elements`, `sponge.rs:111-126`: the elements and the state left behind; by
fuel on the number of remaining elements (`0 < rate`) -/
def squeezeAux (eval : Vec F → Vec F) (rate : ℕ) : ℕ → Vec F → ℕ → List F × Vec F
  | 0, s, _ => ([], s)
  | fuel + 1, s, remaining =>
    let extract := min remaining rate
    if remaining - extract = 0 then (s.elems.take extract, s)
    else
      let (rest, t) := squeezeAux eval rate fuel (eval s) (remaining - extract)
      (s.elems.take extract ++ rest, t)

/-- `squeeze_native_field_elements`, `sponge.rs:111-126` -/
def squeeze (eval : Vec F → Vec F) (rate : ℕ) (s : Vec F) (num : ℕ) : List F × Vec F :=
  squeezeAux eval rate (num + 1) s num

/-! ## CRHF -/

/-- `RescueError` -/
inductive Err where
  | parameter
  | panic
deriving DecidableEq

/-- `compute_len_to_next_multiple`, `utilities/src/lib.rs:54-61` -/
def lenToNextMultiple (len multiple : ℕ) : ℕ :=
  if len % multiple = 0 then len else len + multiple - len % multiple

/-- `Vec::resize` -/
def resize {α : Type} (l : List α) (n : ℕ) (x : α) : List α :=
  l.take n ++ List.replicate (n - l.length) x

/-- `pad_with_zeros`, `utilities/src/lib.rs:65-69` -/
def padWithZeros (l : List F) (multiple : ℕ) : List F :=
  resize l (lenToNextMultiple l.length multiple) 0

/-- `sponge_no_padding`, `crhf.rs:58-73` -/
def spongeNoPadding (eval : Vec F → Vec F) (input : List F) (num : ℕ) : Except Err (List F) :=
  if input.length % crhfRate ≠ 0 then .error .parameter
  else .ok (squeeze eval crhfRate (absorb eval crhfRate zeroVec input) num).1

/-- `.expect(...)` -/
def expect {α : Type} : Except Err α → Except Err α
  | .ok x => .ok x
  | .error _ => .error .panic

/-- the padded input of `sponge_with_bit_padding`, `crhf.rs:36-38` -/
def bitPad (input : List F) : List F := padWithZeros (input ++ [1]) crhfRate

/-- `sponge_with_bit_padding`, `crhf.rs:35-41` -/
def spongeWithBitPadding (eval : Vec F → Vec F) (input : List F) (num : ℕ) : Except Err (List F) :=
  expect (spongeNoPadding eval (bitPad input) num)

/-- `sponge_with_zero_padding`, `crhf.rs:48-53` -/
def spongeWithZeroPadding (eval : Vec F → Vec F) (input : List F) (num : ℕ) : Except Err (List F) :=
  expect (spongeNoPadding eval (padWithZeros input crhfRate) num)

/-- `copy_from_slice` into an array of length `n`, after the length check, `crhf.rs:103-111` -/
def checkLen (n : ℕ) (res : List F) : Except Err (List F) :=
  if res.length ≠ n then .error .parameter else .ok res

/-- `FixedLengthRescueCRHF::evaluate`, `crhf.rs:96-112`; `INPUT_LEN = input.length` -/
def fixedEvaluate (eval : Vec F → Vec F) (outLen : ℕ) (input : List F) : Except Err (List F) :=
  match (if input.length % crhfRate = 0 then spongeNoPadding eval input outLen
    else spongeWithZeroPadding eval input outLen) with
  | .error e => .error e
  | .ok res => checkLen outLen res

/-- `VariableLengthRescueCRHF::evaluate`, `crhf.rs:128-138` -/
def variableEvaluate (eval : Vec F → Vec F) (outLen : ℕ) (input : List F) : Except Err (List F) :=
  match spongeWithBitPadding eval input outLen with
  | .error e => .error e
  | .ok res => checkLen outLen res

/-! ## PRF -/

/-- `full_state_keyed_sponge_no_padding`, `prf.rs:42-64` -/
def fsksNoPadding (eval : Vec F → Vec F) (key : F) (input : List F) (num : ℕ) :
    Except Err (List F) :=
  if input.length % stateSize ≠ 0 then .error .parameter
  else .ok (squeeze eval stateSize (absorb eval stateSize ⟨0, 0, 0, key⟩ input) num).1

/-- `full_state_keyed_sponge_with_zero_padding`, `prf.rs:29-37` -/
def fsksZeroPadding (eval : Vec F → Vec F) (key : F) (input : List F) (num : ℕ) :
    Except Err (List F) :=
  fsksNoPadding eval key (padWithZeros input stateSize) num

/-- `RescuePRF::evaluate`, `prf.rs:81-93`; `clone_from_slice` panics for a wrong length -/
def prfEvaluate (eval : Vec F → Vec F) (outLen : ℕ) (seed : F) (input : List F) :
    Except Err (List F) :=
  match fsksZeroPadding eval seed input outLen with
  | .error e => .error e
  | .ok res => if res.length ≠ outLen then .error .panic else .ok res

/-! ## Commitment -/

/-- `FixedLengthRescueCommitment::commit`, `commitment.rs:40-51`; `INPUT_LEN = input.length`,
`n1 = INPUT_LEN_PLUS_ONE` (two independent const parameters in Rust; `copy_from_slice` panics when
they do not fit) -/
def commit (eval : Vec F → Vec F) (n1 : ℕ) (input : List F) (r : Option F) : Except Err F :=
  match r with
  | none => .error .parameter
  | some r =>
    if n1 ≠ input.length + 1 then .error .panic
    else match fixedEvaluate eval 1 (r :: input) with
      | .error e => .error e
      | .ok res => match res with
        | [] => .error .panic
        | x :: _ => .ok x

/-- `FixedLengthRescueCommitment::verify`, `commitment.rs:53-63`; the inner result is a `Bool` -/
def commitVerify [DecidableEq F] (eval : Vec F → Vec F) (n1 : ℕ) (input : List F) (r : Option F)
    (comm : F) : Except Err Bool :=
  match commit eval n1 input r with
  | .error e => .error e
  | .ok c => .ok (decide (c = comm))

end

end Verif.Rescue
