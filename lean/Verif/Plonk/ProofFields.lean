import Verif.Plonk.Verifier
import Verif.Util.Conversion

/-!
# Model of the conversions of proofs and keys to lists of field elements

`plonk/src/proof_system/structs.rs:40-75` (`Proof`), `:78-205` (`TryFrom<Vec<BaseField>> for Proof` and back), `:274-286`
(`From<Proof> for BatchProof`), `:407-445` (`ProofEvaluations` and lists), `:675-717` (`From<VerifyingKey> for Vec<BaseField>`).

The base field is `ZMod q`, the scalar field `ZMod r`. Points of the first group are coordinates with a flag, as in arkworks, where
the identity is `(0, 0)` with the flag set. `Affine::new` of arkworks panics unless the coordinates are on the curve and in the
subgroup; membership in the subgroup is a parameter.
-/

namespace Verif.Plonk

open Verif.Conv (frToFq fqToFr)

/-- errors and panics of the conversions -/
inductive FieldsErr where
  /-- `SnarkError::ParameterError` -/
  | parameter
  | panic
deriving DecidableEq

/-- `Affine<P>`, the second group over a quadratic extension is `K × K` -/
structure APoint (K : Type) where
  x : K
  y : K
  inf : Bool
deriving DecidableEq

/-- `Affine::identity` -/
def APoint.identity {K : Type} [Zero K] : APoint K := ⟨0, 0, true⟩

/-- `y² = x³ + a x + b` and the test for the subgroup -/
structure SwCurve (K : Type) where
  a : K
  b : K
  sub : K → K → Bool

/-- what the assertions of `Affine::new` test -/
def SwCurve.on {K : Type} [CommRing K] [DecidableEq K] (C : SwCurve K) (x y : K) : Bool :=
  decide (y ^ 2 = x ^ 3 + C.a * x + C.b) && C.sub x y

/-- `Affine::new` -/
def affineNew {K : Type} [CommRing K] [DecidableEq K] (C : SwCurve K) (x y : K) : Except FieldsErr (APoint K) :=
  if C.on x y then .ok ⟨x, y, false⟩ else .error .panic

/-- `GATE_WIDTH` -/
def gateWidth : ℕ := 4

/-! ## Evaluations -/

section
variable {F : Type}

/-- `TryFrom<Vec<F>> for ProofEvaluations<F>`, `structs.rs:407-433` -/
def evalsTryFrom (value : List F) : Except FieldsErr (Evals F) :=
  if value.length = (gateWidth + 1) * 2 ∨ value.length = (gateWidth + 2) * 2 then
    match value[value.length - 1]? with
    | some e => .ok ⟨value.take (value.length / 2), (value.take (value.length - 1)).drop (value.length / 2), e⟩
    | none => .error .panic
  else .error .parameter

/-- `From<ProofEvaluations<F>> for Vec<F>`, `structs.rs:435-444` -/
def evalsToVec (e : Evals F) : List F := e.wires ++ e.sigmas ++ [e.permNext]

end

/-! ## Proofs -/

/-- `Proof`, `structs.rs:40-75` -/
structure Proof (F G : Type) where
  wires : List G
  prodPerm : G
  quot : List G
  opening : G
  shifted : G
  evals : Evals F
  lookup : Option (LkProof F G)

/-- `From<Proof> for BatchProof`, `structs.rs:274-286` -/
def Proof.toBatch {F G : Type} (p : Proof F G) : BProof F G where
  wires := [p.wires]
  prodPerm := [p.prodPerm]
  evals := [p.evals]
  lookups := [p.lookup]
  quot := p.quot
  opening := p.opening
  shifted := p.shifted

/-- `chunks_exact(2)` -/
def pairs {K : Type} : List K → List (K × K)
  | x :: y :: l => (x, y) :: pairs l
  | _ => []

section
variable {q : ℕ}

/-- `map(|chunk| Commitment(Affine::new(chunk[0], chunk[1])))` -/
def newAll (C : SwCurve (ZMod q)) : List (ZMod q × ZMod q) → Except FieldsErr (List (APoint (ZMod q)))
  | [] => .ok []
  | (x, y) :: l =>
    match affineNew C x y with
    | .error e => .error e
    | .ok p =>
      match newAll C l with
      | .error e => .error e
      | .ok ps => .ok (p :: ps)

/-- `Commitment(Affine::new(value[ptr], value[ptr + 1]))` -/
def newAt (C : SwCurve (ZMod q)) (value : List (ZMod q)) (ptr : ℕ) : Except FieldsErr (APoint (ZMod q)) :=
  match value[ptr]?, value[ptr + 1]? with
  | some x, some y => affineNew C x y
  | _, _ => .error .panic

/-- `TURBO_PLONK_LEN`, `structs.rs:90` -/
def turboPlonkLen : ℕ := (gateWidth + 1) * 2 * 2 + 2 * 3 + (gateWidth + 1) * 2

/-- `TryFrom<Vec<BaseField>> for Proof`, `structs.rs:78-152` -/
def proofTryFrom (C : SwCurve (ZMod q)) (r : ℕ) (value : List (ZMod q)) : Except FieldsErr (Proof (ZMod r) (APoint (ZMod q))) :=
  if value.length = turboPlonkLen then do
    let wires ← newAll C (pairs ((value.drop 0).take ((gateWidth + 1) * 2)))
    let ptr := (gateWidth + 1) * 2
    let quot ← newAll C (pairs ((value.drop ptr).take ((gateWidth + 1) * 2)))
    let ptr := ptr + (gateWidth + 1) * 2
    let prodPerm ← newAt C value ptr
    let ptr := ptr + 2
    let opening ← newAt C value ptr
    let ptr := ptr + 2
    let shifted ← newAt C value ptr
    let ptr := ptr + 2
    let evals ← evalsTryFrom ((value.drop ptr).map (fqToFr r))
    pure ⟨wires, prodPerm, quot, opening, shifted, evals, none⟩
  else .error .parameter

/-- `group1_to_fields`, `structs.rs:155-162` -/
def group1ToFields (p : APoint (ZMod q)) : List (ZMod q) := [p.x, p.y]

/-- `group2_to_fields`, `structs.rs:164-172` -/
def group2ToFields (p : APoint (ZMod q × ZMod q)) : List (ZMod q) := [p.x.1, p.x.2, p.y.1, p.y.2]

/-- `From<Proof> for Vec<BaseField>`, `structs.rs:174-208` -/
def proofToFields {r : ℕ} (p : Proof (ZMod r) (APoint (ZMod q))) : Except FieldsErr (List (ZMod q)) :=
  if p.lookup.isSome then .error .panic
  else .ok (p.wires.flatMap group1ToFields ++ p.quot.flatMap group1ToFields ++ group1ToFields p.prodPerm ++
    group1ToFields p.opening ++ group1ToFields p.shifted ++ (evalsToVec p.evals).map (frToFq q))

/-- `From<VerifyingKey> for Vec<BaseField>`, `structs.rs:675-717` -/
def vkToFields {r : ℕ} (vk : VKey (ZMod r) (APoint (ZMod q)) (APoint (ZMod q × ZMod q))) : Except FieldsErr (List (ZMod q)) :=
  if vk.lookup.isSome then .error .panic
  else .ok ([(vk.domSize : ZMod q)] ++ [(vk.numInputs : ZMod q)] ++ vk.sigmas.flatMap group1ToFields ++
    vk.selectors.flatMap group1ToFields ++ vk.k.map (frToFq q) ++ group1ToFields vk.openKey.g ++ group2ToFields vk.openKey.h ++
    group2ToFields vk.openKey.betaH)

end

end Verif.Plonk
