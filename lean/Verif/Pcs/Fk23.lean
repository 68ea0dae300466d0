import Verif.Pcs.Kzg
import Mathlib.RingTheory.RootsOfUnity.PrimitiveRoots
import Mathlib.Data.Nat.Log

/-!
# Model of the amortized openings: `pcs/src/toeplitz.rs`, `pcs/src/poly.rs`,
`multi_open*` of `pcs/src/univariate_kzg/mod.rs` and `pcs/src/lib.rs`

FFTs (arkworks, external) are evaluation on the powers of the domain generator.  `root` is the
`2^S`-th root of unity of the field, `S` its `TWO_ADICITY`.  Mixed-radix domains are left out:
`GeneralEvaluationDomain::new` is the radix-2 constructor.
-/

set_option linter.unusedSectionVars false

namespace Verif.Pcs

variable {F G : Type} [Field F] [DecidableEq F] [AddCommGroup G] [Module F G] [DecidableEq G]

/-- `next_power_of_two` -/
def nextPow2 (n : ℕ) : ℕ := 2 ^ Nat.clog 2 n

/-- `is_power_of_two` -/
def isPow2 (n : ℕ) : Bool := decide (n ≠ 0 ∧ nextPow2 n = n)

/-- `Radix2EvaluationDomain`: size `2^logSize`, `group_gen` and coset offset -/
structure Domain (F : Type) where
  logSize : ℕ
  gen : F
  offset : F
deriving DecidableEq

def Domain.size (d : Domain F) : ℕ := 2 ^ d.logSize

/-- `Radix2EvaluationDomain::new` (arkworks): none when the field has no such root of unity -/
def newDomain (S : ℕ) (root : F) (n : ℕ) : Option (Domain F) :=
  if S < Nat.clog 2 n then none
  else some ⟨Nat.clog 2 n, root ^ 2 ^ (S - Nat.clog 2 n), 1⟩

/-- `fft`: the values at `offset * gen^k` -/
def Domain.fft (d : Domain F) (l : List G) : List G :=
  (List.range d.size).map (fun k => evalAt l (d.offset * d.gen ^ k))

/-- `ifft` for a domain without offset -/
def Domain.ifft (d : Domain F) (l : List G) : List G :=
  (List.range d.size).map (fun k => (d.size : F)⁻¹ • evalAt l (d.gen⁻¹ ^ k))

/-- `CirculantMatrix::fast_vec_mul`, `toeplitz.rs:43-67` -/
def circulantMul (S : ℕ) (root : F) (col : List F) (m : List G) : Except Err (List G) :=
  if isPow2 m.length = false then .error .invalidParameters
  else if m.length ≠ col.length then .error .invalidParameters
  else
    match newDomain S root m.length with
    | none => .error .panic
    | some dom => .ok (dom.ifft (List.zipWith (fun (c : F) (g : G) => c • g) (dom.fft col) (dom.fft m)))

/-- `ToeplitzMatrix::new`, `toeplitz.rs:87-104` -/
def toeplitzNew (col row : List F) : Except Err (List F × List F) :=
  if col = [] ∨ col.length ≠ row.length then .error .invalidParameters
  else if col.getD 0 0 ≠ row.getD 0 0 then .error .invalidParameters
  else .ok (col, row)

/-- `ToeplitzMatrix::circulant_embedding`, `toeplitz.rs:110-118` -/
def circulantEmbedding (col row : List F) : List F :=
  col ++ (row.rotateLeft 1).reverse

/-- `ToeplitzMatrix::fast_vec_mul`, `toeplitz.rs:124-147` -/
def toeplitzMul (S : ℕ) (root : F) (t : List F × List F) (v : List G) : Except Err (List G) :=
  if isPow2 v.length = false then .error .invalidParameters
  else if v.length ≠ t.1.length then .error .invalidParameters
  else
    match circulantMul S root (circulantEmbedding t.1 t.2)
        (v ++ List.replicate (2 * v.length - v.length) 0) with
    | .error e => .error e
    | .ok res => .ok (res.take v.length)

/-- `compute_h_poly_in_fk23`, `univariate_kzg/mod.rs:606-651` -/
def hPolyFk23 (S : ℕ) (root : F) (pp : ProverParam G) (coeffs : List F) : Except Err (List G) :=
  let paddedDegree := nextPow2 (coeffs.length - 1)
  let padded := coeffs ++ List.replicate (paddedDegree + 1 - coeffs.length) 0
  let col := padded.getLastD 0 :: List.replicate (paddedDegree - 1) 0
  let row := (padded.drop 1).reverse
  match toeplitzNew col row with
  | .error e => .error e
  | .ok t =>
    let srs := (pp.powersOfG.take paddedDegree).reverse
    match toeplitzMul S root t srs with
    | .error e => .error e
    | .ok h => .ok (norm h)

/-- one row of `compute_h_poly_parallel`: slicing behind the end panics, as does unwrapping an MSM
of slices of different lengths -/
def hRow (srs : List G) (d : ℕ) (coeffs : List F) : Except Err G :=
  if srs.length < d - coeffs.length then .error .panic
  else if (srs.drop (d - coeffs.length)).length ≠ coeffs.length then .error .panic
  else .ok (msm (srs.drop (d - coeffs.length)) coeffs)

/-- `compute_h_poly_parallel`, `univariate_kzg/mod.rs:572-604` -/
def hPolyParallel (pp : ProverParam G) (coeffs : List F) : Except Err (List G) :=
  if coeffs = [] then .ok []
  else
    let d := coeffs.length - 1
    let srs := (pp.powersOfG.take d).reverse
    let matrix := (List.range d).map (fun i => coeffs.reverse.take (d - i))
    match matrix.mapM (hRow srs d) with
    | .error e => .error e
    | .ok h => .ok (norm h)

/-- `GeneralDensePolynomial::evaluate`, `poly.rs:106-113` -/
def gEvaluate (p : List G) (x : F) : G :=
  if p.all (fun c => decide (c = 0)) then 0 else if x = 0 then p.getD 0 0 else horner p x

/-- `batch_evaluate`, `poly.rs:122-135`; the last branch is `unimplemented!` -/
def batchEvaluate (S : ℕ) (p : List G) (points : List F) : Except Err (List G) :=
  if points = [] then .ok []
  else if points.length < S ^ 2 then .ok (points.map (gEvaluate p))
  else .error .panic

/-- `batch_evaluate_rou`, `poly.rs:140-155` -/
def batchEvaluateRou (p : List G) (dom : Domain F) : Except Err (List G) :=
  if p.length > dom.size then .error .invalidParameters
  else .ok (dom.fft (p ++ List.replicate (dom.size - p.length) 0))

/-- `multi_open`, `univariate_kzg/mod.rs:306-324` -/
def multiOpen (S : ℕ) (root : F) (pp : ProverParam G) (p : List F) (points : List F) :
    Except Err (List G × List F) :=
  match hPolyFk23 S root pp p with
  | .error e => .error e
  | .ok h =>
    match batchEvaluate S h points, batchEvaluate S (norm p) points with
    | .error e, _ => .error e
    | _, .error e => .error e
    | .ok proofs, .ok evals => .ok (proofs, evals)

/-- `multi_open_rou_proofs` (default features), `univariate_kzg/mod.rs:328-374`; `get_coset`
replaces the offset -/
def multiOpenRouProofs (S : ℕ) (root : F) (pp : ProverParam G) (p : List F) (numPoints : ℕ)
    (dom : Domain F) : Except Err (List G) :=
  match hPolyParallel pp p with
  | .error e => .error e
  | .ok h =>
    match newDomain S root ((h.length - 1) + 1) with
    | none => .error .invalidParameters
    | some small =>
      let pf := dom.size / small.size
      let offsets := (1 : F) :: (List.range (pf - 1)).map (fun t => dom.gen ^ (t + 1))
      let proofs := offsets.map (fun o => (Domain.mk small.logSize small.gen o).fft h)
      let res := (List.range small.size).flatMap (fun j => proofs.map (fun pr => pr.getD j 0))
      .ok (res.take numPoints)

/-- `multi_open_rou_proofs` with the feature `seq-fk-23`, `univariate_kzg/mod.rs:376-394` -/
def multiOpenRouProofsSeq (S : ℕ) (root : F) (pp : ProverParam G) (p : List F) (numPoints : ℕ)
    (dom : Domain F) : Except Err (List G) :=
  match hPolyFk23 S root pp p with
  | .error e => .error e
  | .ok h =>
    match batchEvaluateRou h dom with
    | .error e => .error e
    | .ok l => .ok (l.take numPoints)

/-- `multi_open_rou_evals`, `univariate_kzg/mod.rs:398-409` -/
def multiOpenRouEvals (p : List F) (numPoints : ℕ) (dom : Domain F) : Except Err (List F) :=
  match batchEvaluateRou (norm p) dom with
  | .error e => .error e
  | .ok l => .ok (l.take numPoints)

/-- `multi_open_rou`, `lib.rs:346-355` -/
def multiOpenRou (S : ℕ) (root : F) (pp : ProverParam G) (p : List F) (numPoints : ℕ)
    (dom : Domain F) : Except Err (List G × List F) :=
  match multiOpenRouEvals p numPoints dom with
  | .error e => .error e
  | .ok evals =>
    match multiOpenRouProofs S root pp p numPoints dom with
    | .error e => .error e
    | .ok proofs => .ok (proofs, evals)

/-- `checked_fft_size`, `lib.rs:394-406`; `usize` overflow reports an error -/
def checkedFftSize (degree : ℕ) : Except Err ℕ :=
  if isPow2 degree then
    if degree * 2 < 2 ^ 64 then .ok (degree * 2) else .error .invalidParameters
  else if nextPow2 degree < 2 ^ 64 then .ok (nextPow2 degree) else .error .invalidParameters

/-- `multi_open_rou_eval_domain`, `lib.rs:324-340` -/
def evalDomain (S : ℕ) (root : F) (degree numPoints : ℕ) : Except Err (Domain F) :=
  match checkedFftSize degree with
  | .error e => .error e
  | .ok padded =>
    match newDomain S root (max (padded + 1) numPoints) with
    | none => .error .invalidParameters
    | some d => .ok d

/-- `trim_fft_size`, `lib.rs:301-319` -/
def trimFftSize {G2 : Type} [AddCommGroup G2] (srs : Srs G G2) (supported : ℕ) :
    Except Err (ProverParam G × VerifierParam G G2) :=
  match checkedFftSize supported with
  | .error e => .error e
  | .ok d => trim srs d

end Verif.Pcs
