import Verif.Pcs.Poly
import Mathlib.LinearAlgebra.BilinearMap

/-!
# Model of `pcs/src/univariate_kzg/{mod,srs}.rs`

The pairing groups are modules over the scalar field `F`; the pairing is a bilinear map.  The target
group is written additively, so `.is_one()` is `= 0`.
-/

set_option linter.unusedSectionVars false

namespace Verif.Pcs

variable {F G1 G2 GT : Type} [Field F] [DecidableEq F]
  [AddCommGroup G1] [Module F G1] [DecidableEq G1]
  [AddCommGroup G2] [Module F G2] [DecidableEq G2]
  [AddCommGroup GT] [Module F GT] [DecidableEq GT]

inductive Err where
  | invalidParameters
  | panic
deriving DecidableEq

/-- `UnivariateUniversalParams`, `srs.rs:19-30` -/
structure Srs (G1 G2 : Type) where
  powersOfG : List G1
  h : G2
  betaH : G2
  powersOfH : List G2

/-- `UnivariateProverParam`, `srs.rs:41-44` -/
structure ProverParam (G1 : Type) where
  powersOfG : List G1

/-- `UnivariateVerifierParam`, `srs.rs:50-63` -/
structure VerifierParam (G1 G2 : Type) where
  g : G1
  h : G2
  betaH : G2
  powersOfH : List G2
  powersOfG : List G1

/-- `gen_srs_for_testing`, `srs.rs:175-224`, with the sampled `beta`, `g`, `h` as arguments -/
def genSrs (beta : F) (g : G1) (h : G2) (proverDegree verifierDegree : ℕ) : Srs G1 G2 where
  powersOfG := (List.range (max proverDegree verifierDegree + 1)).map (fun i => beta ^ i • g)
  h := h
  betaH := beta • h
  powersOfH := (List.range (verifierDegree + 1)).map (fun i => beta ^ i • h)

/-- `trim_with_verifier_degree`, `srs.rs:92-127`.  Forming the error message for an empty SRS
underflows (`len() - 1`), and `powers_of_g[..=verifier]` panics when that vector is too short. -/
def trimWithVerifierDegree (srs : Srs G1 G2) (prover verifier : ℕ) :
    Except Err (ProverParam G1 × VerifierParam G1 G2) :=
  if srs.powersOfG.length ≤ prover then
    if srs.powersOfG.length = 0 then .error .panic else .error .invalidParameters
  else if srs.powersOfH.length ≤ verifier then
    if srs.powersOfH.length = 0 then .error .panic else .error .invalidParameters
  else if verifier = 0 then .error .invalidParameters
  else if srs.powersOfG.length ≤ verifier then .error .panic
  else .ok (⟨srs.powersOfG.take (prover + 1)⟩,
    { g := srs.powersOfG.getD 0 0
      h := srs.h
      betaH := srs.betaH
      powersOfH := srs.powersOfH.take (verifier + 1)
      powersOfG := srs.powersOfG.take (verifier + 1) })

/-- `trim`, `srs.rs:133-138` -/
def trim (srs : Srs G1 G2) (supportedDegree : ℕ) :
    Except Err (ProverParam G1 × VerifierParam G1 G2) :=
  trimWithVerifierDegree srs supportedDegree 1

/-- `DensePolynomial::degree`: the coefficient vector has no zero leading coefficient -/
def degree (p : List F) : ℕ := p.length - 1

/-- skip the low zeros, slice the bases and take the MSM (the shared tail of `commit`, `open`,
`multi_point_open`, `multi_point_verify`); the slice panics when it starts behind the end -/
def msmPoly {G : Type} [AddCommGroup G] [Module F G] (bases : List G) (p : List F) :
    Except Err G :=
  let (k, coeffs) := skipLeadingZeros p
  if bases.length < k then .error .panic else .ok (msm (bases.drop k) coeffs)

/-- `commit`, `univariate_kzg/mod.rs:90-124` -/
def commit (pp : ProverParam G1) (p : List F) : Except Err G1 :=
  if pp.powersOfG.length < degree p then .error .invalidParameters
  else msmPoly pp.powersOfG p

/-- `batch_commit`, `univariate_kzg/mod.rs:128-140` -/
def batchCommit (pp : ProverParam G1) (ps : List (List F)) : Except Err (List G1) :=
  ps.mapM (commit pp)

/-- `open`, `univariate_kzg/mod.rs:144-180` -/
def openPoly (pp : ProverParam G1) (p : List F) (z : F) : Except Err (G1 × F) :=
  let divisor := [-z, 1]
  let witness := divPoly p divisor
  match msmPoly pp.powersOfG witness with
  | .error e => .error e
  | .ok proof => .ok (proof, horner p z)

/-- `batch_open`, `univariate_kzg/mod.rs:187-211` -/
def batchOpen (pp : ProverParam G1) (ps : List (List F)) (zs : List F) :
    Except Err (List G1 × List F) :=
  if ps.length ≠ zs.length then .error .invalidParameters
  else
    match (ps.zip zs).mapM (fun pz => openPoly pp pz.1 pz.2) with
    | .error e => .error e
    | .ok l => .ok (l.map Prod.fst, l.map Prod.snd)

/-- `verify`, `univariate_kzg/mod.rs:214-237` -/
def verify (e : G1 →ₗ[F] G2 →ₗ[F] GT) (vp : VerifierParam G1 G2) (comm : G1) (z v : F)
    (proof : G1) : Bool :=
  decide (e (v • vp.g - z • proof - comm) vp.h + e proof vp.betaH = 0)

/-- one claim of a batch: commitment, point, value, proof -/
abbrev Claim (F G1 : Type) := ((G1 × F) × F) × G1

/-- the accumulation loop of `batch_verify`, `univariate_kzg/mod.rs:256-280`; the state is
`(total_c, total_w, g_multiplier, randomizer)`; `rs` are the values drawn from the generator -/
def batchLoop : List (Claim F G1) → List F → G1 × G1 × F × F → G1 × G1 × F × F
  | [], _, s => s
  | (((c, z), v), w) :: cl, rs, (tc, tw, gm, r) =>
    batchLoop cl rs.tail (tc + r • (z • w + c), tw + r • w, gm + r * v, rs.headD 0)

/-- `batch_verify`, `univariate_kzg/mod.rs:244-299`; the four lists are zipped -/
def batchVerify (e : G1 →ₗ[F] G2 →ₗ[F] GT) (vp : VerifierParam G1 G2) (comms : List G1)
    (points values : List F) (proofs : List G1) (rs : List F) : Bool :=
  let (tc, tw, gm, _) := batchLoop (((comms.zip points).zip values).zip proofs) rs (0, 0, 0, 1)
  let tc := tc - gm • vp.g
  decide (e (-tw) vp.betaH + e tc vp.h = 0)

/-- `\prod_i (X - point_i)` as built in `mod.rs:443-447` and `mod.rs:527-536` -/
def vanishPoly (points : List F) : List F :=
  points.tail.foldl (fun acc z => mulPoly acc [-z, 1]) [-(points.headD 0), 1]

/-- `multi_point_open`, `univariate_kzg/mod.rs:416-468` -/
def multiPointOpen (pp : ProverParam G1) (p : List F) (points : List F) :
    Except Err (G1 × List F) :=
  if points = [] then .error .invalidParameters
  else
    let evals := points.map (fun z => horner p z)
    let witness := divPoly p (vanishPoly points)
    match msmPoly pp.powersOfG witness with
    | .error e => .error e
    | .ok proof => .ok (proof, evals)

/-- the loop of `lagrange_poly`, `univariate_kzg/mod.rs:1070-1080`; `inverse().unwrap()` panics on 0 -/
def lagrangeLoop (zi : F) (i : ℕ) : ℕ → List F → List F → Except Err (List F)
  | _, [], res => .ok res
  | j, z :: zs, res =>
    if j ≠ i then
      if zi - z = 0 then .error .panic
      else
        let zinv := (zi - z)⁻¹
        lagrangeLoop zi i (j + 1) zs (mulPoly res [-z * zinv, zinv])
    else lagrangeLoop zi i (j + 1) zs res

/-- `lagrange_poly` -/
def lagrangePoly (points : List F) (i : ℕ) (value : F) : Except Err (List F) :=
  lagrangeLoop (points.getD i 0) i 0 points [value]

/-- the fold computing `I(X)`, `univariate_kzg/mod.rs:507-512` -/
def evalsPolyLoop (points : List F) : ℕ → List F → List F → Except Err (List F)
  | _, [], acc => .ok acc
  | i, v :: vs, acc =>
    match lagrangePoly points i v with
    | .error e => .error e
    | .ok l => evalsPolyLoop points (i + 1) vs (norm (addPoly acc l))

/-- `multi_point_verify`, `univariate_kzg/mod.rs:474-563` -/
def multiPointVerify (e : G1 →ₗ[F] G2 →ₗ[F] GT) (vp : VerifierParam G1 G2) (comm : G1)
    (points values : List F) (proof : G1) : Except Err Bool :=
  if points = [] then .error .invalidParameters
  else if points.length ≠ values.length then .error .invalidParameters
  else if vp.powersOfH.length < points.length + 1 then .error .invalidParameters
  else
    match evalsPolyLoop points 0 values [] with
    | .error e => .error e
    | .ok evalsPoly =>
      match msmPoly vp.powersOfG evalsPoly, msmPoly vp.powersOfH (vanishPoly points) with
      | .error e, _ => .error e
      | _, .error e => .error e
      | .ok evalsCm, .ok vanishCm =>
        .ok (decide (e (evalsCm - comm) vp.h + e proof vanishCm = 0))

end Verif.Pcs
