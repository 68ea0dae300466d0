import Mathlib.Algebra.Field.Defs
import Mathlib.Data.ZMod.Basic

/-!
# Model of `poseidon2/src/lib.rs`, `external.rs`, `internal.rs`, `crhf.rs`, `permutation.rs`

`[F; T]` is a list of length `T` (the type `T` is the length of the state); functions with `&mut`
return the new state. The getters of `trait Poseidon2Params` are the fields of a structure. `none` is a
panic.
-/

namespace Verif.Poseidon2

/-- `trait Poseidon2Params`, `lib.rs:40-59` -/
structure Params (F : Type) where
  T : ℕ
  D : ℕ
  extRounds : ℕ
  intRounds : ℕ
  externalRc : List (List F)
  internalRc : List F
  diag : List F

/-- the Rust types of the getters: arrays of `T` elements -/
structure Params.Typed {F : Type} (P : Params F) : Prop where
  ext : ∀ rc ∈ P.externalRc, rc.length = P.T
  diag : P.diag.length = P.T

section
variable {F : Type} [CommRing F]

/-- `sanity_check`, `lib.rs:67-84` -/
def Params.sanityCheck (P : Params F) : Bool :=
  decide (P.T ∈ [2, 3, 4, 8, 12, 16, 20, 24]) && decide (P.D ∈ [3, 5, 7, 11]) &&
    decide (P.externalRc.length = P.extRounds) && decide (P.internalRc.length = P.intRounds) &&
    decide (P.extRounds % 2 = 0)

/-- `add_rcs`, `lib.rs:129-133` -/
def addRcs (s rc : List F) : List F := List.zipWith (· + ·) s rc

/-- `s_box`, `lib.rs:137-147` -/
def sBox (d : ℕ) (x : F) : F := if d = 5 then (x * x) * (x * x) * x else x ^ d

/-- `MDSMat4::matmul`, `external.rs:25-37` -/
def mat4 (x0 x1 x2 x3 : F) : List F :=
  let t01 := x0 + x1
  let t23 := x2 + x3
  let t0123 := t01 + t23
  let t01123 := t0123 + x1
  let t01233 := t0123 + x3
  [t01123 + t01, t01123 + (x2 + x2), t01233 + t23, t01233 + (x0 + x0)]

/-- the loop over `chunks_exact_mut(4)`, `external.rs:66-68` (a shorter rest stays as it is) -/
def chunks4 : List F → List F
  | a :: b :: c :: d :: rest => mat4 a b c d ++ chunks4 rest
  | rest => rest

/-- `sums[k]`, `external.rs:72-73`: entries `k, 4 + k, 8 + k, ...` -/
def sum4 (k : ℕ) (s : List F) : F :=
  ((List.range (s.length / 4)).map fun j => s.getD (4 * j + k) 0).sum

/-- `matmul_external`, `external.rs:43-87` -/
def matmulExternal (s : List F) : Option (List F) :=
  match s with
  | [a, b] =>
    let sum := a + b
    some [a + sum, b + sum]
  | [a, b, c] =>
    let sum := a + b + c
    some [a + sum, b + sum, c + sum]
  | s =>
    if s.length ∈ [4, 8, 12, 16, 20, 24] then
      let t := chunks4 s
      let sums := [sum4 0 t, sum4 1 t, sum4 2 t, sum4 3 t]
      some (t.mapIdx fun i x => x + sums.getD (i % 4) 0)
    else none

/-- `external::permute_state`, `external.rs:92-102` -/
def permuteExternal (d : ℕ) (s rc : List F) : Option (List F) :=
  matmulExternal ((addRcs s rc).map (sBox d))

/-- `matmul_internal`, `internal.rs:12-46` -/
def matmulInternal (diag : List F) (s : List F) : List F :=
  match s with
  | [a, b] =>
    let sum := a + b
    [a + sum, (b + b) + sum]
  | [a, b, c] =>
    let sum := a + b + c
    [a + sum, b + sum, (c + c) + sum]
  | s => List.zipWith (fun x v => x * v + s.sum) s diag

/-- `internal::permute_state`, `internal.rs:51-60` -/
def permuteInternal (d : ℕ) (diag : List F) (s : List F) (rc : F) : List F :=
  match s with
  | [] => []
  | x :: rest => matmulInternal diag (sBox d (x + rc) :: rest)

/-- a loop of external rounds -/
def externalLoop (d : ℕ) : List (List F) → List F → Option (List F)
  | [], s => some s
  | rc :: rcs, s => match permuteExternal d s rc with
    | none => none
    | some t => externalLoop d rcs t

/-- the loop of internal rounds, `lib.rs:114-116` -/
def internalLoop (d : ℕ) (diag : List F) : List F → List F → List F
  | [], s => s
  | rc :: rcs, s => internalLoop d diag rcs (permuteInternal d diag s rc)

/-- `permute_mut`, `lib.rs:97-124` -/
def permute (P : Params F) (s : List F) : Option (List F) :=
  if P.sanityCheck then
    match matmulExternal s with
    | none => none
    | some s1 => match externalLoop P.D (P.externalRc.take (P.extRounds / 2)) s1 with
      | none => none
      | some s2 =>
        externalLoop P.D ((P.externalRc.take P.extRounds).drop (P.extRounds / 2))
          (internalLoop P.D P.diag P.internalRc s2)
  else none

end

/-! ## The shipped parameters -/

/-- the constants as numbers, `constants.rs:12-15` (`from_hex` reads a big endian number and reduces
it) -/
abbrev NatParams := Params ℕ

/-- reading the constants in a field -/
def NatParams.read (F : Type) [CommRing F] (P : NatParams) : Params F :=
  { T := P.T, D := P.D, extRounds := P.extRounds, intRounds := P.intRounds
    externalRc := P.externalRc.map (·.map fun n : ℕ => (n : F))
    internalRc := P.internalRc.map fun n : ℕ => (n : F)
    diag := P.diag.map fun n : ℕ => (n : F) }

/-! ## Hash functions

`spongefish::DuplexSponge` is external; it is given here as a short reference definition in overwrite
mode: `absorb_unchecked` writes the input over the first `R` entries, permuting whenever all of them
are used and more input follows; `squeeze_unchecked` permutes, then reads the first `R` entries, and so
on. -/

section
variable {F : Type} [CommRing F]

/-- `DuplexSponge::absorb_unchecked`: state and position; one element at a time -/
def absorb (perm : List F → List F) (R : ℕ) : List F → List F → ℕ → List F × ℕ
  | [], s, pos => (s, pos)
  | x :: xs, s, pos =>
    if pos = R then absorb perm R xs ((perm s).set 0 x) 1
    else absorb perm R xs (s.set pos x) (pos + 1)

/-- `DuplexSponge::squeeze_unchecked` after absorbing -/
def squeeze (perm : List F → List F) (R : ℕ) : ℕ → List F → ℕ → List F
  | 0, _, _ => []
  | fuel + 1, s, n =>
    if n = 0 then [] else
      let t := perm s
      t.take (min n R) ++ squeeze perm R fuel t (n - min n R)

/-- a fresh sponge absorbing one message -/
def hash (perm : List F → List F) (N R out : ℕ) (msg : List F) : List F :=
  squeeze perm R out (absorb perm R msg (List.replicate N 0) 0).1 out

/-- `usize::next_multiple_of`; `none` is the division by zero -/
def nextMultipleOf (n m : ℕ) : Option ℕ :=
  if m = 0 then none else some (if n % m = 0 then n else n + (m - n % m))

/-- `zero_padding`, `crhf.rs:91-93` (`resize` to a larger length) -/
def zeroPadding (data : List F) (multiple : ℕ) : Option (List F) :=
  match nextMultipleOf data.length multiple with
  | none => none
  | some n => some (data ++ List.replicate (n - data.length) 0)

/-- `bit_padding`, `crhf.rs:98-101` -/
def bitPadding (data : List F) (multiple : ℕ) : Option (List F) :=
  zeroPadding (data ++ [1]) multiple

/-- `Poseidon2Error` -/
inductive Err where
  | param
  | panic
deriving DecidableEq

/-- `FixedLenPoseidon2Hash::evaluate`, `crhf.rs:40-54` -/
def fixedEvaluate (perm : List F → List F) (N R IN OUT : ℕ) (input : List F) : Except Err (List F) :=
  if IN < input.length then .error .param
  else match zeroPadding input IN with
    | none => .error .panic
    | some padded => .ok (hash perm N R OUT padded)

/-- `VariableLenPoseidon2Hash::evaluate`, `crhf.rs:78-87` -/
def variableEvaluate (perm : List F → List F) (N R OUT : ℕ) (input : List F) : Except Err (List F) :=
  match bitPadding input R with
  | none => .error .panic
  | some padded => .ok (hash perm N R OUT padded)

end

end Verif.Poseidon2
