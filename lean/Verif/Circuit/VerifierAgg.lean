import Verif.Circuit.TranscriptVar
import Verif.Circuit.Msm
import Verif.Plonk.Verifier

/-!
# Model of the PLONK verifier circuit: from the proof to the two group elements

`linearization_scalars_and_bases_circuit` of `plonk/src/circuit/plonk_verifier/poly.rs`, `gadgets.rs` (without the
transcript, which is in `TranscriptVar.lean`), and `mod.rs`. The native field is `ZMod p`, the scalar field of the proofs
that are verified is `ZMod Q`. `ScalarsAndBasesVar` (two vectors filled in step) is a list of pairs. Sums that are used as
factors are returned in a list next to the result, and the challenges next to the group elements; the code does not return
these. `PlonkError` becomes `CircuitError::ParameterError`. A missing entry of `poly_evals_vec`,
`wires_poly_comms_vec` is found before the loops (the code panics in the loops); which error is returned can differ if
there are several reasons to fail.
-/

namespace Verif.Circuit.VerifierAgg

open Verif.Circuit Verif.Circuit.VerifierPoly Verif.Circuit.TranscriptVar

variable {p : ℕ}

/-- the loop of `compute_alpha_basis`, `gadgets.rs:447-454` -/
def alphaLoop (I : Info p) (α3 : FpElemVar p) : ℕ → FpElemVar p → Build p (List (FpElemVar p))
  | 0, _ => pure []
  | n + 1, x => do
    let y ← modMul x α3 I.mod
    let ys ← alphaLoop I α3 n y
    pure (y :: ys)

/-- `compute_alpha_basis`, `gadgets.rs:434-456`; `len - 1` underflows for `0` -/
def alphaBasis (I : Info p) (α3 : FpElemVar p) (len : ℕ) : Build p (List (FpElemVar p)) :=
  if len = 0 then Build.fail .panic
  else do
    let r ← alphaLoop I α3 (len - 1) (oneElem I)
    pure (oneElem I :: r)

/-- `non_native_power_5_gen`, `gadgets/ultraplonk/non_native_gates.rs:96-123` -/
def power5 (Q : ℕ) (x : FpElemVar p) : Build p (FpElemVar p) :=
  if modulusBits p ≤ modulusBits Q then Build.fail .notSupported
  else do
    let q ← liftE (FpElem.new (Q : ZMod p) x.m (some x.tpm))
    let x2 ← modMul x x q
    let x3 ← modMul x2 x q
    modMul x2 x3 q

/-- what belongs to one instance: the key and the parts of the proof with the same number -/
structure InstVar (p Q : ℕ) where
  evals : EvalsVar p
  z : ℕ × ℕ
  wires : List (ℕ × ℕ)
  sigmas : List (ℕ × ℕ)
  selectors : List (ℕ × ℕ)
  k : List (ZMod Q)

/-- the instances: entry `i` of every list -/
def zipInst {Q : ℕ} : List (VkVar Q) → List (EvalsVar p) → List (ℕ × ℕ) → List (List (ℕ × ℕ)) → List (InstVar p Q)
  | vk :: vks, e :: es, z :: zs, w :: ws => ⟨e, z, w, vk.sigmas, vk.selectors, vk.k⟩ :: zipInst vks es zs ws
  | _, _, _, _ => []

/-- the loop over `w_evals.iter().zip(vk.k.iter())`, `poly.rs:541-561`: the product and the sums -/
def coeffLoop {Q : ℕ} (I : Info p) (βζ γ : FpElemVar p) :
    List (FpElemVar p × ZMod Q) → FpElemVar p → Build p (FpElemVar p × List (FpElemVar p))
  | [], prod => pure (prod, [])
  | (x, k) :: l, prod => do
    let kp ← switch p k
    let kE ← const I kp
    let t ← modMulConstant βζ kE I.mod
    let sum ← modAddVec [t, x, γ] I.mod
    let prod ← modMul prod sum I.mod
    let r ← coeffLoop I βζ γ l prod
    pure (r.1, sum :: r.2)

/-- the loop over the sigma evaluations, `poly.rs:589-612`: the product and the sums -/
def sigmaLoop (q : FpElem p) (β γ : FpElemVar p) :
    List (FpElemVar p × FpElemVar p) → FpElemVar p → Build p (FpElemVar p × List (FpElemVar p))
  | [], prod => pure (prod, [])
  | (x, σ) :: l, prod => do
    let bs ← modMul β σ q
    let sum ← modAddVec [x, γ, bs] q
    let prod ← modMul prod sum q
    let r ← sigmaLoop q β γ l prod
    pure (r.1, sum :: r.2)

/-- the selector scalars, `poly.rs:630-671`; with `-w_evals[4]` left positive -/
def qVars (Q : ℕ) (I : Info p) (w : List (FpElemVar p)) : Build p (List (FpElemVar p)) :=
  match w with
  | w0 :: w1 :: w2 :: w3 :: w4 :: _ => do
    let a ← modMul w0 w1 I.mod
    let b ← modMul w2 w3 I.mod
    let p0 ← power5 Q w0
    let p1 ← power5 Q w1
    let p2 ← power5 Q w2
    let p3 ← power5 Q w3
    let t ← modMul w0 w1 I.mod
    let t ← modMul t w2 I.mod
    let t ← modMul t w3 I.mod
    let t ← modMul t w4 I.mod
    pure [w0, w1, w2, w3, a, b, p0, p1, p2, p3, w4, oneElem I, t]
  | _ => Build.fail .panic

/-- the loop over the selectors, `poly.rs:673-693`; `i` counts -/
def selLoop (q : FpElem p) (base : FpElemVar p) :
    ℕ → List (FpElemVar p × (ℕ × ℕ)) → Build p (List (FpElemVar p × (ℕ × ℕ)))
  | _, [] => pure []
  | i, (s, P) :: l => do
    let B ← (if i = 10 then inversePoint P else pure P : Build p (ℕ × ℕ))
    let t ← modMul s base q
    let r ← selLoop q base (i + 1) l
    pure ((t, B) :: r)

/-- scalars with bases, and sums -/
abbrev Out (p : ℕ) := List (FpElemVar p × (ℕ × ℕ)) × List (FpElemVar p)

/-- the body of the loop over the keys of `linearization_scalars_and_bases_circuit`, `poly.rs:538-693`;
`num_wire_types - 1` underflows for `0` -/
def linInst {Q : ℕ} (I : Info p) (ch : ChalVar p) (βζ αβ a2l1 : FpElemVar p) (x : InstVar p Q) (base : FpElemVar p) :
    Build p (Out p) := do
  let r ← coeffLoop I βζ ch.γ (x.evals.wires.zip x.k) ch.α
  let s ← modAdd a2l1 r.1 I.mod
  let cz ← modMul s base I.mod
  let c ← modMul αβ x.evals.permNext I.mod
  if x.wires.length = 0 then Build.fail .panic
  else do
    let t ← sigmaLoop I.mod ch.β ch.γ ((x.evals.wires.take (x.wires.length - 1)).zip x.evals.sigmas) c
    let cs ← modMul t.1 base I.mod
    match x.sigmas.getLast? with
    | none => Build.fail .indexError
    | some σ => do
      let σ ← inversePoint σ
      let qs ← qVars Q I x.evals.wires
      let l ← selLoop I.mod base 0 (qs.zip x.selectors)
      pure ((cz, x.z) :: (cs, σ) :: l, s :: (r.2 ++ t.2))

/-- the loop over the keys, `poly.rs:520-699`: one alpha base for each, none left -/
def linLoop {Q : ℕ} (I : Info p) (ch : ChalVar p) (βζ αβ a2l1 : FpElemVar p) :
    List (InstVar p Q) → List (FpElemVar p) → Build p (Out p)
  | [], [] => pure ([], [])
  | [], _ :: _ => Build.fail .parameter
  | _ :: _, [] => Build.fail .parameter
  | x :: xs, b :: bs => do
    let r ← linInst I ch βζ αβ a2l1 x b
    let s ← linLoop I ch βζ αβ a2l1 xs bs
    pure (r.1 ++ s.1, r.2 ++ s.2)

/-- the split quotient commitments behind the first, `poly.rs:723-732` -/
def quotLoop (q : FpElem p) (step : FpElemVar p) :
    List (ℕ × ℕ) → FpElemVar p → Build p (List (FpElemVar p × (ℕ × ℕ)))
  | [], _ => pure []
  | P :: l, coeff => do
    let coeff ← modMul coeff step q
    let P ← inversePoint P
    let r ← quotLoop q step l coeff
    pure ((coeff, P) :: r)

/-- `linearization_scalars_and_bases_circuit`, `poly.rs:488-735`; `ev` are `zeta^n`, `zeta^n - 1` and `L1` -/
def linSB {Q : ℕ} (I : Info p) (ch : ChalVar p) (ev : FpElemVar p × FpElemVar p × FpElemVar p)
    (xs : List (InstVar p Q)) (quot : List (ℕ × ℕ)) (bases : List (FpElemVar p)) : Build p (Out p) := do
  let βζ ← modMul ch.β ch.ζ I.mod
  let αβ ← modMul ch.α ch.β I.mod
  let a2l1 ← modMul ch.α2 ev.2.2 I.mod
  let r ← linLoop I ch βζ αβ a2l1 xs bases
  let z2 ← modMul ch.ζ ch.ζ I.mod
  let step ← modMul z2 ev.1 I.mod
  match quot with
  | [] => Build.fail .indexError
  | P :: Ps => do
    let P ← inversePoint P
    let l ← quotLoop I.mod step Ps ev.2.1
    pure (r.1 ++ (ev.2.1, P) :: l, r.2)

/-- `add_poly_comm_circuit` for a list of commitments, `gadgets.rs:396-411`: the pairs and the next combiner -/
def addComms (q : FpElem p) (v : FpElemVar p) :
    List (ℕ × ℕ) → FpElemVar p → Build p (List (FpElemVar p × (ℕ × ℕ)) × FpElemVar p)
  | [], b => pure ([], b)
  | P :: l, b => do
    let b' ← modMul b v q
    let r ← addComms q v l b'
    pure ((b, P) :: r.1, r.2)

/-- the loop of `aggregate_poly_commitments_circuit`, `gadgets.rs:91-127`. The combiners in the order in which they are
used (`v_and_uv_basis`) are the scalars of these pairs. `num_wire_types - 1` underflows for `0`. -/
def aggLoop {Q : ℕ} (q : FpElem p) (v : FpElemVar p) :
    List (InstVar p Q) → FpElemVar p → FpElemVar p → Build p (List (FpElemVar p × (ℕ × ℕ)))
  | [], _, _ => pure []
  | x :: xs, vb, ub => do
    let a ← addComms q v x.wires vb
    if x.wires.length = 0 then Build.fail .panic
    else do
      let b ← addComms q v (x.sigmas.take (x.wires.length - 1)) a.2
      let c ← addComms q v [x.z] ub
      let r ← aggLoop q v xs b.2 c.2
      pure (a.1 ++ b.1 ++ c.1 ++ r)

/-- `aggregate_poly_commitments_circuit`, `gadgets.rs:53-130`: the pairs of the linearization polynomial with the sums, and
the other pairs -/
def aggComms {Q : ℕ} (I : Info p) (ch : ChalVar p) (ev : FpElemVar p × FpElemVar p × FpElemVar p)
    (vks : List (VkVar Q)) (b : ProofVar p) (bases : List (FpElemVar p)) :
    Build p (Out p × List (FpElemVar p × (ℕ × ℕ))) :=
  if vks.length ≠ b.prodPerm.length then Build.fail .parameter
  else if b.evals.length < vks.length ∨ b.wires.length < vks.length then Build.fail .panic
  else do
    let xs := zipInst vks b.evals b.prodPerm b.wires
    let r ← linSB I ch ev xs b.quot bases
    let l ← aggLoop I.mod ch.v xs ch.v ch.u
    pure (r, l)

/-- `add_pcs_eval_circuit` with `v_and_uv_basis.next()`, `gadgets.rs:416-431`, for a list of evaluations -/
def addEvals (q : FpElem p) :
    List (FpElemVar p) → List (FpElemVar p) → FpElemVar p → Build p (FpElemVar p)
  | [], [], r => pure r
  | [], _ :: _, _ => Build.fail .parameter
  | _ :: _, [], _ => Build.fail .parameter
  | e :: es, b :: bs, r => do
    let t ← modMul b e q
    let r ← modAdd r t q
    addEvals q es bs r

/-- the evaluations in the order of the loop, `gadgets.rs:151-187` -/
def flatEvals (es : List (EvalsVar p)) : List (FpElemVar p) :=
  es.flatMap fun e => e.wires ++ e.sigmas ++ [e.permNext]

/-- `aggregate_evaluations_circuit`, `gadgets.rs:138-191` -/
def aggEvals (I : Info p) (c : FpElemVar p) (es : List (EvalsVar p)) (buf : List (FpElemVar p)) :
    Build p (FpElemVar p) := do
  let r ← modNegate c I.modF
  addEvals I.mod (flatEvals es) buf r

/-- `PcsInfoVar`, `structs.rs:124-132`, with the challenges; `sums` are the sums used as factors -/
structure PcsVar (p : ℕ) where
  ch : ChalVar p
  draws : Draws
  nextPoint : FpElemVar p
  eval : FpElemVar p
  comm : List (FpElemVar p × (ℕ × ℕ))
  sums : List (FpElemVar p)

/-- the checks of `prepare_pcs_info_var`, `gadgets.rs:283-312` -/
def checkKeys {Q : ℕ} (n : ℕ) : List (VkVar Q × List (FpElemVar p)) → Bool
  | [] => true
  | (vk, pi) :: l => decide (pi.length = vk.numInputs) && decide (vk.domSize = n) && checkKeys n l

/-- `prepare_pcs_info_var`, `gadgets.rs:269-391`, for the same public inputs `pi` with every key; `d` is the domain and
`K` are the constants of the hash -/
def preparePcs {Q : ℕ} (K : Rescue.Consts) (I : Info p) (d : Pcs.Domain (ZMod Q)) (vks : List (VkVar Q))
    (pi : List (FpElemVar p)) (b : ProofVar p) (extra : Option (List ℕ)) : Build p (PcsVar p) :=
  let pis := List.replicate vks.length pi
  if vks.length ≠ b.prodPerm.length then Build.fail .parameter
  else if checkKeys d.size (vks.zip pis) = false then Build.fail .parameter
  else do
    let ch ← challengesVars K I vks pis b extra
    let ab ← alphaBasis I ch.1.α3 vks.length
    let ev ← evalHelper Q I ch.1.ζ d.size
    let c ← linConst I d.size d.gen ch.1 vks.length vks.length b.prodPerm.length pi b.evals ev.2.1 ev.2.2 ab
    let sb ← aggComms I ch.1 ev vks b ab
    let eval ← aggEvals I c.1 b.evals (sb.2.map Prod.fst)
    let gp ← switch p d.gen
    let gE ← const I gp
    let next ← modMulConstant ch.1.ζ gE I.mod
    pure ⟨ch.1, ch.2, next, eval, sb.1.1 ++ sb.2, c.2 ++ sb.1.2⟩

/-- the parameters of the emulated field, `mod.rs:186-203`; `m2 - 1` underflows for `0` and the division by
`range_bit_len` panics for `0` -/
def fieldInfo (p Q k : ℕ) : Except CErr (Info p) :=
  let m2 := (modulusBits Q + 1) / 2
  if m2 = 0 ∨ k = 0 then .error .panic
  else
    let m := (m2 - 1) / k * k + k
    match FpElem.new ((Q : ℕ) : ZMod p) m (some (2 ^ m)) with
    | .error e => .error e
    | .ok q => .ok ⟨m, some (2 ^ m), ((Q : ℕ) : ZMod p), q⟩

/-- the inverse of a point, `TEPoint::inverse` (`ecc/mod.rs`) -/
def negPt (P : ZMod p × ZMod p) : ZMod p × ZMod p := (-P.1, P.2)

/-- the end of `partial_verify_circuit`, `mod.rs:220-261` -/
def combine [Fact p.Prime] (T : TE p) (I : Info p) (βg g : ZMod p × ZMod p) (b : ProofVar p) (blind : ℕ) (x : PcsVar p) :
    Build p ((ℕ × ℕ) × (ℕ × ℕ)) := do
  let gv ← createConstantPointVariable g
  let uv ← x.ch.u.toVar
  let in1 ← msm T [b.opening, b.shifted, gv] [1, uv, blind]
  let t ← modMul x.nextPoint x.ch.u I.mod
  let gn ← createConstantPointVariable (negPt g)
  let l := x.comm ++ [(x.ch.ζ, b.opening), (t, b.shifted), (x.eval, gn)]
  let ss ← toVars (l.map Prod.fst)
  let bv ← createConstantPointVariable βg
  let in2 ← msm T (l.map Prod.snd ++ [bv]) (ss ++ [blind])
  pure (in1, in2)

/-- the checks of the domain sizes, `mod.rs:175-184` -/
def sameDomain {Q : ℕ} (n : ℕ) (vks : List (VkVar Q)) : Bool := vks.all fun vk => decide (vk.domSize = n)

/-- `partial_verify_circuit`, `mod.rs:151-262`: the two points, and the data of the proof of the opening. `newDom` is the
constructor of evaluation domains. -/
def partialVerify [Fact p.Prime] {Q : ℕ} (K : Rescue.Consts) (T : TE p) (newDom : ℕ → Option (Pcs.Domain (ZMod Q)))
    (βg g : ZMod p × ZMod p) (vks : List (VkVar Q)) (pi : List (FpElemVar p)) (b : ProofVar p) (blind : ℕ) :
    Build p (((ℕ × ℕ) × (ℕ × ℕ)) × PcsVar p) :=
  match vks with
  | [] => Build.fail .parameter
  | vk :: rest =>
    if vks.length ≠ b.prodPerm.length then Build.fail .parameter
    else if sameDomain vk.domSize rest = false then Build.fail .parameter
    else do
      let k ← rangeBitLen
      let I ← liftE (fieldInfo p Q k)
      match newDom vk.domSize with
      | none => Build.fail .parameter
      | some d => do
        let x ← preparePcs K I d vks (pi ++ pi) b none
        let r ← combine T I βg g b blind x
        pure (r, x)

/-! ## Keys -/

/-- `ecc_add` for every pair -/
def addAll (T : TE p) : List ((ℕ × ℕ) × (ℕ × ℕ)) → Build p (List (ℕ × ℕ))
  | [] => pure []
  | x :: l => do
    let P ← eccAdd T x.1 x.2
    let r ← addAll T l
    pure (P :: r)

/-- `VerifyingKeyVar::merge`, `mod.rs:101-145` -/
def mergeKeys {Q : ℕ} (T : TE p) (a b : VkVar Q) : Build p (VkVar Q) :=
  if a.merged || b.merged then Build.fail .parameter
  else if a.domSize ≠ b.domSize then Build.fail .parameter
  else if a.numInputs ≠ b.numInputs then Build.fail .parameter
  else do
    let σ ← addAll T (a.sigmas.zip b.sigmas)
    let s ← addAll T (a.selectors.zip b.selectors)
    pure ⟨σ, s, true, a.domSize, a.numInputs + b.numInputs, a.k⟩

/-- the loop of `aggregate_verify_keys`, `mod.rs:314-318` -/
def mergeAll {Q : ℕ} (T : TE p) : List (VkVar Q × VkVar Q) → Build p (List (VkVar Q))
  | [] => pure []
  | x :: l => do
    let v ← mergeKeys T x.1 x.2
    let r ← mergeAll T l
    pure (v :: r)

/-- `aggregate_verify_keys`, `mod.rs:298-319` -/
def aggregateKeys {Q : ℕ} (T : TE p) (as bs : List (VkVar Q)) : Build p (List (VkVar Q)) :=
  if as.length ≠ bs.length then Build.fail .parameter else mergeAll T (as.zip bs)

end Verif.Circuit.VerifierAgg
