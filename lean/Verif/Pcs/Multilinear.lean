import Verif.Pcs.Kzg
import Verif.Pcs.Fk23

/-!
# Model of `pcs/src/multilinear_kzg/{mod,srs,util,batching}.rs`

Multilinear extensions are given by their evaluations on the cube, the first variable being the
lowest bit of the index.  Groups, pairing, domains and univariate openings are those of
`Verif.Pcs.Kzg` and `Verif.Pcs.Fk23`.  The Fiat-Shamir challenge is an arbitrary function of what
is put into the transcript.
-/

set_option linter.unusedSectionVars false

namespace Verif.Pcs

variable {F G1 G2 GT : Type} [Field F] [DecidableEq F]
  [AddCommGroup G1] [Module F G1] [DecidableEq G1]
  [AddCommGroup G2] [Module F G2] [DecidableEq G2]
  [AddCommGroup GT] [Module F GT] [DecidableEq GT]

/-- the errors (`PCSError`) that occur, and panics -/
inductive MErr where
  | uni (e : Err)
  | invalidProver
deriving DecidableEq

/-- `PCSError::InvalidParameters` -/
abbrev MErr.invalidParameters : MErr := .uni .invalidParameters

/-- a panic -/
abbrev MErr.panic : MErr := .uni .panic

/-- `DenseMultilinearExtension` (arkworks) -/
structure Mle (F : Type) where
  numVars : ℕ
  evals : List F
deriving DecidableEq

/-- what `from_evaluations_vec` asserts -/
def Mle.WF (f : Mle F) : Prop := f.evals.length = 2 ^ f.numVars

/-- fixing the first variable to `x` (one round of arkworks `fix_variables`, and the vector `r` of
`multilinear_kzg/mod.rs:330-336`), `k` variables remaining -/
def foldStep {R : Type} [CommRing R] (k : ℕ) (f : List R) (x : R) : List R :=
  (List.range (2 ^ k)).map
    (fun b => f.getD (2 * b) 0 + (f.getD (2 * b + 1) 0 - f.getD (2 * b) 0) * x)

/-- the vector `q` of `multilinear_kzg/mod.rs:330-332` -/
def quotStep {R : Type} [CommRing R] (k : ℕ) (f : List R) : List R :=
  (List.range (2 ^ k)).map (fun b => f.getD (2 * b + 1) 0 - f.getD (2 * b) 0)

/-- `evaluate` (arkworks): fix one variable after the other -/
def mleEval {R : Type} [CommRing R] : List R → List R → R
  | f, [] => f.headD 0
  | f, x :: xs => mleEval (foldStep xs.length f x) xs

/-! ### parameters (`srs.rs`) -/

/-- `MultilinearProverParam`, `srs.rs:37-48` -/
structure MProverParam (G1 G2 : Type) where
  numVars : ℕ
  powersOfG : List (List G1)
  g : G1
  h : G2
deriving DecidableEq

/-- `MultilinearVerifierParam`, `srs.rs:52-61` -/
structure MVerifierParam (G1 G2 : Type) where
  numVars : ℕ
  g : G1
  h : G2
  hMask : List G2
deriving DecidableEq

/-- `MultilinearUniversalParams`, `srs.rs:28-33` -/
structure MSrs (G1 G2 : Type) where
  proverParam : MProverParam G1 G2
  hMask : List G2
deriving DecidableEq

/-- `trim`, `srs.rs:94-118` -/
def mTrim (srs : MSrs G1 G2) (supported : ℕ) :
    Except MErr (MProverParam G1 G2 × MVerifierParam G1 G2) :=
  if srs.proverParam.numVars < supported then .error .invalidParameters
  else
    let toReduce := srs.proverParam.numVars - supported
    if srs.proverParam.powersOfG.length < toReduce ∨ srs.hMask.length < toReduce then .error .panic
    else .ok (⟨supported, srs.proverParam.powersOfG.drop toReduce, srs.proverParam.g,
        srs.proverParam.h⟩,
      ⟨supported, srs.proverParam.g, srs.proverParam.h, srs.hMask.drop toReduce⟩)

/-- `eq_eval`, `util.rs:21-35` -/
def eqEval (x y : List F) : Except MErr F :=
  if x.length ≠ y.length then .error .invalidParameters
  else .ok ((x.zip y).foldl
    (fun res p => res * (p.1 * p.2 + p.1 * p.2 - p.1 - p.2 + 1)) 1)

/-- `remove_dummy_variable`, `srs.rs:263-275`; `log2` of arkworks rounds up -/
def removeDummy (poly : List F) (pad : ℕ) : Except MErr (List F) :=
  if pad = 0 then .ok poly
  else if isPow2 poly.length = false then .error .invalidParameters
  else if Nat.clog 2 poly.length < pad then .error .panic
  else .ok ((List.range (2 ^ (Nat.clog 2 poly.length - pad))).map (fun x => poly.getD (x * 2 ^ pad) 0))

/-- `eq_extension`, `srs.rs:280-297` -/
def eqExtension (t : List F) : List (List F) :=
  (List.range t.length).map fun i =>
    (List.range (2 ^ t.length)).map fun x =>
      let xi : F := if x.testBit i then 1 else 0
      let tixi := t.getD i 0 * xi
      tixi + tixi - xi - t.getD i 0 + 1

/-- the loop `srs.rs:323-329`; the number of rounds left is `i + 1` in round `i` -/
def eqLoop : ℕ → List (List F) → List F → List (List F) → Except MErr (List (List F))
  | 0, _, _, arr => .ok arr
  | i + 1, eq, base, arr =>
    match removeDummy base i with
    | .error e => .error e
    | .ok v =>
      if i ≠ 0 then
        match eq.getLast? with
        | none => .error .panic
        | some m => eqLoop i eq.dropLast (List.zipWith (· * ·) base m) (v :: arr)
      else eqLoop i eq base (v :: arr)

/-- the loop `srs.rs:340-353` with its assertion.  The code multiplies all vectors with `g` at once
and cuts the result at the same places; here each vector is multiplied separately. -/
def ppLoop (g : G1) (t : List F) : ℕ → List (List F) → Except MErr (List (List G1))
  | _, [] => .ok []
  | i, v :: vs =>
    match eqEval (List.replicate (t.length - i) 0) (t.drop i) with
    | .error e => .error e
    | .ok e0 =>
      if v.length < 2 ^ (t.length - i) then .error .panic
      else
        let ppk := (v.take (2 ^ (t.length - i))).map (fun s => s • g)
        if e0 • g ≠ ppk.getD 0 0 then .error .panic
        else
          match ppLoop g t (i + 1) vs with
          | .error e => .error e
          | .ok r => .ok (ppk :: r)

/-- `gen_srs_for_testing`, `srs.rs:299-376`, with the sampled `t`, `g`, `h` as arguments -/
def genMSrs (t : List F) (g : G1) (h : G2) : Except MErr (MSrs G1 G2) :=
  if t.length = 0 then .error .invalidParameters
  else
    let eq := eqExtension t
    match eq.getLast? with
    | none => .error .panic
    | some base =>
      match eqLoop t.length eq.dropLast base [] with
      | .error e => .error e
      | .ok eqArr =>
        match ppLoop g t 0 eqArr with
        | .error e => .error e
        | .ok pows => .ok ⟨⟨t.length, pows ++ [[g]], g, h⟩, t.map (fun s => s • h)⟩

/-! ### commit, open, verify (`mod.rs`) -/

/-- `commit`, `mod.rs:123-149` -/
def mCommit (pp : MProverParam G1 G2) (poly : Mle F) : Except MErr G1 :=
  if pp.numVars < poly.numVars then .error .invalidParameters
  else
    let ignored := pp.numVars - poly.numVars
    match pp.powersOfG[ignored]? with
    | none => .error .panic
    | some bases => .ok (msm bases poly.evals)

/-- the loop of `open_internal`, `mod.rs:319-350`: one quotient commitment per variable -/
def openLoop : List F → List (List G1) → List F → List G1
  | x :: xs, gi :: gs, f =>
    msm gi (quotStep xs.length f) :: openLoop xs gs (foldStep xs.length f x)
  | _, _, _ => []

/-- `open_internal`, `mod.rs:294-355` -/
def mOpen (pp : MProverParam G1 G2) (poly : Mle F) (point : List F) :
    Except MErr (List G1 × F) :=
  if pp.numVars < poly.numVars then .error .invalidParameters
  else if poly.numVars ≠ point.length then .error .invalidParameters
  else
    let nv := poly.numVars
    let ignored := pp.numVars - nv + 1
    if pp.powersOfG.length < ignored + nv then .error .panic
    else
      let proofs := openLoop point ((pp.powersOfG.drop ignored).take nv) poly.evals
      .ok (proofs, mleEval poly.evals point)

/-- `multi_pairing` (arkworks, external): the product of the pairings.  The Miller loops of the
shipped pairings combine the two sequences with `zip_eq`, which panics for different lengths. -/
def multiPairing (e : G1 →ₗ[F] G2 →ₗ[F] GT) (l : List G1) (r : List G2) : Except MErr GT :=
  if l.length ≠ r.length then .error .panic
  else .ok ((List.zipWith (fun a b => e a b) l r).sum)

/-- `verify_internal`, `mod.rs:367-418` -/
def mVerify (e : G1 →ₗ[F] G2 →ₗ[F] GT) (vp : MVerifierParam G1 G2) (comm : G1) (point : List F)
    (value : F) (proof : List G1) : Except MErr Bool :=
  let numVar := point.length
  if vp.numVars < numVar then .error .invalidParameters
  else
    let ignored := vp.numVars - numVar
    if vp.hMask.length < ignored + numVar then .error .panic
    else
      let hVec := (List.range numVar).map
        (fun i => vp.hMask.getD (ignored + i) 0 - point.getD i 0 • vp.h)
      match multiPairing e (proof ++ [value • vp.g - comm]) (hVec ++ [vp.h]) with
      | .error e => .error e
      | .ok r => .ok (decide (r = 0))

/-! ### batching (`util.rs`, `batching.rs`) -/

/-- `bit_decompose`, `util.rs:38-46` -/
def bitDecompose (input numVar : ℕ) : List Bool :=
  (List.range numVar).map (fun i => input.testBit i)

/-- `get_batched_nv`, `util.rs:128-130` -/
def batchedNv (numVar len : ℕ) : ℕ := numVar + Nat.clog 2 len

/-- `merge_polynomials`, `util.rs:134-155` -/
def mergePolys (polys : List (Mle F)) : Except MErr (Mle F) :=
  match polys with
  | [] => .error .panic
  | p :: _ =>
    if polys.any (fun q => p.numVars ≠ q.numVars) then .error .invalidParameters
    else
      let mergedNv := batchedNv p.numVars polys.length
      let scalars := polys.flatMap Mle.evals
      if 2 ^ mergedNv < scalars.length then .error .panic
      else .ok ⟨mergedNv, scalars ++ List.replicate (2 ^ mergedNv - scalars.length) 0⟩

/-- `batch_commit`, `mod.rs:155-175` -/
def mBatchCommit (pp : MProverParam G1 G2) (polys : List (Mle F)) : Except MErr G1 :=
  match mergePolys polys with
  | .error e => .error e
  | .ok poly =>
    match pp.powersOfG[0]? with
    | none => .error .panic
    | some bases => .ok (msm bases poly.evals)

/-- `Evaluations::from_vec_and_domain(..).interpolate()` (arkworks) -/
def interpolate (d : Domain F) (evals : List F) : List F := norm (d.ifft evals)

/-- `build_l`, `util.rs:159-188` -/
def buildL (numVar : ℕ) (points : List (List F)) (d : Domain F) : List (List F) :=
  let prefixLen := Nat.clog 2 points.length
  let indexes := (List.range points.length).map (fun x => bitDecompose x prefixLen)
  (List.range prefixLen).map (fun i =>
      interpolate d (indexes.map fun x => if x.getD (prefixLen - i - 1) false then 1 else 0)) ++
    (List.range numVar).map (fun i =>
      let eval := points.map (fun x => x.getD i 0)
      interpolate d (eval ++ List.replicate (d.size - eval.length) 0))

/-- the point `l(x)`: `uni_polys.iter().rev().map(|p| p.evaluate(x))` -/
def lPoint (l : List (List F)) (x : F) : List F := l.reverse.map (fun p => horner p x)

/-- `compute_w_circ_l`, `util.rs:83-123` -/
def wCircL (S : ℕ) (root : F) (w : Mle F) (l : List (List F)) : Except MErr (List F) :=
  if w.numVars ≠ l.length then .error .invalidParameters
  else
    match l with
    | [] => .error .panic
    | l0 :: _ =>
      let uniDegree := (l.length - w.numVars + Nat.clog 2 l.length + 2) * degree l0
      match newDomain S root uniDegree with
      | none => .error .invalidParameters
      | some d =>
        let resEval := (List.range d.size).map (fun k => mleEval w.evals (lPoint l (d.gen ^ k)))
        .ok (interpolate d resEval)

/-- `MultilinearKzgBatchProof`, `mod.rs:64-73` -/
structure MBatchProof (G1 : Type) where
  proof : List G1
  qComm : G1
  qOpens : List G1
deriving DecidableEq

/-- the loop `batching.rs:119-139`: opening of `q` at every `omega^i` with the sanity check -/
def openAtOmegas (pp : ProverParam G1) (w : Mle F) (l : List (List F)) (q : List F) :
    List F → Except MErr (List G1 × List F)
  | [] => .ok ([], [])
  | z :: zs =>
    match openPoly pp q z with
    | .error e => .error (.uni e)
    | .ok (o, v) =>
      if mleEval w.evals (lPoint l z) ≠ v then .error .invalidProver
      else
        match openAtOmegas pp w l q zs with
        | .error e => .error e
        | .ok (os, vs) => .ok (o :: os, v :: vs)

/-- `batch_open_internal`, `batching.rs:57-173`; `chal` is the transcript challenge `r`, a function
of commitment, points and commitment to `q` -/
def mBatchOpen (S : ℕ) (root : F) (chal : G1 → List (List F) → G1 → F) (upp : ProverParam G1)
    (pp : MProverParam G1 G2) (polys : List (Mle F)) (comm : G1) (points : List (List F)) :
    Except MErr (MBatchProof G1 × List F) :=
  if points.length = 0 then .error .invalidParameters
  else if points.length ≠ polys.length then .error .invalidParameters
  else
    let numVar := (polys.getD 0 ⟨0, []⟩).numVars
    if polys.any (fun p => p.numVars ≠ numVar) then .error .invalidParameters
    else if points.any (fun x => x.length ≠ numVar) then .error .invalidParameters
    else
      match newDomain S root points.length with
      | none => .error .invalidParameters
      | some dom =>
        let l := buildL numVar points dom
        match mergePolys polys with
        | .error e => .error e
        | .ok w =>
          match wCircL S root w l with
          | .error e => .error e
          | .ok q =>
            match commit upp q with
            | .error e => .error (.uni e)
            | .ok qComm =>
              let r := chal comm points qComm
              match openAtOmegas upp w l q
                  ((List.range points.length).map (fun i => dom.gen ^ i)) with
              | .error e => .error e
              | .ok (os, vs) =>
                match openPoly upp q r with
                | .error e => .error (.uni e)
                | .ok (o, qr) =>
                  match mOpen pp w (lPoint l r) with
                  | .error e => .error e
                  | .ok (proof, v) =>
                    if v ≠ qr then .error .invalidProver
                    else .ok (⟨proof, qComm, os ++ [o]⟩, vs ++ [qr])

/-- `batch_verify_internal`, `batching.rs:190-303` -/
def mBatchVerify (S : ℕ) (root : F) (chal : G1 → List (List F) → G1 → F)
    (e : G1 →ₗ[F] G2 →ₗ[F] GT) (uvp : VerifierParam G1 G2) (vp : MVerifierParam G1 G2) (comm : G1)
    (points : List (List F)) (values : List F) (bp : MBatchProof G1) : Except MErr Bool :=
  if points.length = 0 then .error .invalidParameters
  else if points.length + 1 ≠ bp.qOpens.length then .error .invalidParameters
  else if points.length + 1 ≠ values.length then .error .invalidParameters
  else
    let numVar := (points.getD 0 []).length
    if points.any (fun x => x.length ≠ numVar) then .error .invalidParameters
    else
      match newDomain S root points.length with
      | none => .error .invalidParameters
      | some dom =>
        let r := chal comm points bp.qComm
        if (List.range points.length).all (fun i =>
            verify e uvp bp.qComm (dom.gen ^ i) (values.getD i 0) (bp.qOpens.getD i 0)) = false
        then .ok false
        else if verify e uvp bp.qComm r (values.getD points.length 0)
            (bp.qOpens.getD points.length 0) = false then .ok false
        else
          let l := buildL numVar points dom
          mVerify e vp comm (lPoint l r) (values.getD points.length 0) bp.proof

end Verif.Pcs
