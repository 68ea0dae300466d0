import Verif.Plonk.Lagrange
import Verif.Pcs.Kzg

/-!
# Model of `plonk/src/proof_system/verifier.rs`

The verifier from the challenges on: `prepare_pcs_info`, `compute_lin_poly_constant_term`,
`linearization_scalars_and_bases`, `aggregate_poly_commitments`, `aggregate_evaluations`,
`batch_verify_opening_proofs`, and `verify_batch_proof` and `batch_verify` of `snark.rs`.  The transcript is
a parameter: `prepare` gets the challenges, `batchVerifyOpening` the function computing the combiner from
the challenges `u`.  The groups are modules over the scalar field; the target group is written
additively.  Indexing out of bounds, unwrapping `None`, `usize` underflow and failing assertions panic.  The
entries of a hash map are listed in the order of their insertion.
-/

set_option linter.unusedSectionVars false

namespace Verif.Plonk

open Verif.Circuit Verif.Pcs

/-- `ProofEvaluations`, `structs.rs:395-405` -/
structure Evals (F : Type) where
  wires : List F
  sigmas : List F
  permNext : F

/-- `PlookupEvaluations`, `structs.rs:462-507` -/
structure LkEvals (F : Type) where
  range : F
  key : F
  tableDomSep : F
  qDomSep : F
  h1 : F
  qLookup : F
  prodNext : F
  rangeNext : F
  keyNext : F
  tableDomSepNext : F
  h1Next : F
  h2Next : F
  qLookupNext : F
  w3Next : F
  w4Next : F

/-- `evals_vec`, `structs.rs:511-520` -/
def LkEvals.evals {F : Type} (e : LkEvals F) : List F :=
  [e.range, e.key, e.h1, e.qLookup, e.tableDomSep, e.qDomSep]

/-- `next_evals_vec`, `structs.rs:523-535` -/
def LkEvals.nextEvals {F : Type} (e : LkEvals F) : List F :=
  [e.prodNext, e.rangeNext, e.keyNext, e.h1Next, e.h2Next, e.qLookupNext, e.w3Next, e.w4Next,
    e.tableDomSepNext]

/-- `PlookupProof`, `structs.rs:211-221` -/
structure LkProof (F G : Type) where
  h : List G
  prod : G
  evals : LkEvals F

/-- `BatchProof`, `structs.rs:227-249` -/
structure BProof (F G : Type) where
  wires : List (List G)
  prodPerm : List G
  evals : List (Evals F)
  lookups : List (Option (LkProof F G))
  quot : List G
  opening : G
  shifted : G

/-- `BatchProof::len`, `structs.rs:253-255` -/
def BProof.len {F G : Type} (b : BProof F G) : ℕ := b.prodPerm.length

/-- `PlookupVerifyingKey`, `structs.rs:739-753` -/
structure LkVk (G : Type) where
  range : G
  key : G
  tableDomSep : G
  qDomSep : G

/-- `VerifyingKey`, `structs.rs:648-673` -/
structure VKey (F G G2 : Type) where
  domSize : ℕ
  numInputs : ℕ
  sigmas : List G
  selectors : List G
  k : List F
  openKey : VerifierParam G G2
  merged : Bool
  lookup : Option (LkVk G)

/-- `Challenges`, `structs.rs:833-841` -/
structure Chal (F : Type) where
  τ : Option F
  α : F
  β : F
  γ : F
  ζ : F
  v : F
  u : F

/-- `ScalarsAndBases`, `structs.rs:861-863` -/
abbrev SB (F G : Type) := List (G × F)

section
variable {F G : Type} [Field F] [DecidableEq G]

/-- `ScalarsAndBases::push`, `structs.rs:872-878` -/
def SB.push : SB F G → F → G → SB F G
  | [], s, b => [(b, 0 + s)]
  | (b', s') :: l, s, b => if b' = b then (b', s' + s) :: l else (b', s') :: SB.push l s b

/-- `ScalarsAndBases::merge`, `structs.rs:882-886` -/
def SB.merge (l : SB F G) (c : F) (m : SB F G) : SB F G :=
  m.foldl (fun l x => l.push (c * x.2) x.1) l

/-- `ScalarsAndBases::multi_scalar_mul`, `structs.rs:888-896` -/
def SB.msm [AddCommGroup G] [Module F G] (l : SB F G) : G :=
  Verif.Pcs.msm (l.map (·.1)) (l.map (·.2))

end

section
variable {R : Type} [CommSemiring R]

/-- the loop over the instances, `verifier.rs:136-139` -/
def basesLoop : ℕ → List R → R → List R
  | 0, acc, _ => acc
  | k + 1, acc, tmp => basesLoop k (acc ++ [tmp]) (tmp * (acc ++ [tmp]).getD 1 0)

/-- `alpha_bases`, `verifier.rs:128-140`: only the first key decides about the step -/
def alphaBases (α : R) (lookup : Bool) (m : ℕ) : List R :=
  let α2 := α * α
  let α3 := α2 * α
  let α4 := α2 * α2
  let α7 := α3 * α4
  basesLoop (m - 1) [1] (if lookup then α7 else α3)

/-- `alpha_powers`, `verifier.rs:121-127` -/
def alphaPowers (α : R) : List R :=
  let α2 := α * α
  let α3 := α2 * α
  let α4 := α2 * α2
  let α5 := α2 * α3
  let α6 := α4 * α2
  [α2, α3, α4, α5, α6]

end

section
variable {F : Type} [Field F]

/-- `eval_merged_table`, `structs.rs:901-914` -/
def evalMergedTable (τ range key qLookup w3 w4 tableDomSep : F) : F :=
  range + qLookup * τ * (tableDomSep + τ * (key + τ * (w3 + τ * w4)))

/-- `eval_merged_lookup_witness`, `structs.rs:918-931` -/
def evalMergedLookup (τ wRange w0 w1 w2 qLookup qDomSep : F) : F :=
  wRange + qLookup * τ * (qDomSep + τ * (w0 + τ * (w1 + τ * w2)))

end

variable {F G G2 GT : Type} [Field F] [DecidableEq F]
  [AddCommGroup G] [Module F G] [DecidableEq G]
  [AddCommGroup G2] [Module F G2] [AddCommGroup GT] [Module F GT] [DecidableEq GT]

/-- the length checks, `verifier.rs:82-93` -/
def checkNumbers (vks : List (VKey F G G2)) (pis : List (List F)) (b : BProof F G) : Bool :=
  decide (vks.length = b.len) && decide (vks.length = pis.length) && !vks.isEmpty

/-- the loop over the instances, `verifier.rs:94-116`; `i` is the number of the first instance in the
list -/
def checkInstances (d : Domain F) (lookups : List (Option (LkProof F G))) :
    ℕ → List (List F × VKey F G G2) → Except VErr Unit
  | _, [] => .ok ()
  | i, (pi, vk) :: l =>
    if pi.length ≠ vk.numInputs then .error .parameter
    else
      match lookups[i]? with
      | none => .error .panic
      | some lk =>
        if vk.lookup.isSome ≠ lk.isSome then .error .parameter
        else if vk.domSize ≠ d.size then .error .parameter
        else checkInstances d lookups (i + 1) l

/-- the part of `compute_lin_poly_constant_term` for one instance, `verifier.rs:392-430` -/
def constInstance (d : Domain F) (ch : Chal F) (l1 ln : F) (ap : List F) (e : Evals F)
    (lk : Option (LkProof F G)) (pi : List F) (vk : VKey F G G2) : Except VErr F :=
  match evaluatePi d pi ch.ζ vk.merged, ap[0]?, ap[1]? with
  | .error e, _, _ => .error e
  | .ok p, some α2, some α3 =>
    let nw := 5 + if lk.isSome then 1 else 0
    match e.wires[nw - 1]? with
    | none => .error .panic
    | some wLast =>
      let tmp := p - α2 * l1
      let tmp := tmp - ((e.wires.take (nw - 1)).zip e.sigmas).foldl
        (fun acc x => acc * (ch.γ + x.1 + ch.β * x.2)) (ch.α * e.permNext * (ch.γ + wLast))
      match lk with
      | none => .ok tmp
      | some lk =>
        let g1 := ch.γ * (1 + ch.β)
        let le := lk.evals
        let c := ln * (le.h1 - le.h2Next - α2) - ch.α * l1 -
          α3 * (ch.ζ - d.gen⁻¹) * le.prodNext * (g1 + le.h1 + ch.β * le.h1Next) *
            (g1 + ch.β * le.h2Next)
        .ok (tmp + α3 * c)
  | _, _, _ => .error .panic

/-- the loop of `compute_lin_poly_constant_term`, `verifier.rs:383-433` -/
def constLoop (d : Domain F) (ch : Chal F) (l1 ln : F) (ap : List F) :
    List (Evals F × Option (LkProof F G) × List F × VKey F G G2 × F) → F → Except VErr F
  | [], r => .ok r
  | (e, lk, pi, vk, base) :: l, r =>
    match constInstance d ch l1 ln ap e lk pi vk with
    | .error e => .error e
    | .ok tmp => constLoop d ch l1 ln ap l (r + base * tmp)

/-- `compute_lin_poly_constant_term`, `verifier.rs:358-435` -/
def linPolyConst (d : Domain F) (ch : Chal F) (vks : List (VKey F G G2)) (pis : List (List F))
    (b : BProof F G) (l1 ln : F) (ap ab : List F) : Except VErr F :=
  if vks.length ≠ b.len ∨ vks.length ≠ pis.length ∨ vks.length ≠ ab.length then .error .parameter
  else constLoop d ch l1 ln ap (b.evals.zip (b.lookups.zip (pis.zip (vks.zip ab)))) 0

/-- the selector scalars, `verifier.rs:614-629` -/
def qScalars (w : List F) : Except VErr (List F) :=
  match w with
  | w0 :: w1 :: w2 :: w3 :: w4 :: _ =>
    .ok [w0, w1, w2, w3, w0 * w1, w2 * w3, w0 ^ 5, w1 ^ 5, w2 ^ 5, w3 ^ 5, -w4, 1,
      w0 * w1 * w2 * w3 * w4]
  | _ => .error .panic

/-- `for (&s, poly) in q_scalars.iter().zip(vk.selector_comms.iter())`, `verifier.rs:630-632` -/
def pushSelectors (base : F) : SB F G → List (F × G) → SB F G
  | sb, [] => sb
  | sb, (s, c) :: l => pushSelectors base (sb.push (s * base) c) l

/-- the lookup part of `linearization_scalars_and_bases`, `verifier.rs:635-692` -/
def linLookup (d : Domain F) (ch : Chal F) (l1 ln : F) (ap : List F) (base : F) (w : List F)
    (lp : LkProof F G) (sb : SB F G) : Except VErr (SB F G) :=
  let bp1 := 1 + ch.β
  let g1 := bp1 * ch.γ
  let le := lp.evals
  match ch.τ, w[5]?, w[0]?, w[1]?, w[2]?, w[3]?, w[4]?, ap[2]?, ap[3]?, ap[4]?, lp.h[1]? with
  | some τ, some w5, some w0, some w1, some w2, some w3, some w4, some α4, some α5, some α6,
      some h2 =>
    let lkx := evalMergedLookup τ w5 w0 w1 w2 le.qLookup le.qDomSep
    let tx := evalMergedTable τ le.range le.key le.qLookup w3 w4 le.tableDomSep
    let txw := evalMergedTable τ le.rangeNext le.keyNext le.qLookupNext le.w3Next le.w4Next
      le.tableDomSepNext
    let coeff := α4 * l1 + α5 * ln +
      α6 * (ch.ζ - d.gen⁻¹) * bp1 * (ch.γ + lkx) * (g1 + tx + ch.β * txw)
    let sb := sb.push (base * coeff) lp.prod
    let coeff := base * α6 * (d.gen⁻¹ - ch.ζ) * le.prodNext * (g1 + le.h1 + ch.β * le.h1Next)
    .ok (sb.push coeff h2)
  | _, _, _, _, _, _, _, _, _, _, _ => .error .panic

/-- the part of `linearization_scalars_and_bases` for one instance, `verifier.rs:564-693` -/
def linInstance (d : Domain F) (ch : Chal F) (l1 ln : F) (ap : List F) (b : BProof F G) (i : ℕ)
    (vk : VKey F G G2) (base : F) (sb : SB F G) : Except VErr (SB F G) :=
  match ap[0]?, b.evals[i]?, b.prodPerm[i]?, b.wires[i]? with
  | some α2, some e, some z, some ws =>
    let coeff := α2 * l1
    let coeff := coeff + (e.wires.zip vk.k).foldl
      (fun acc x => acc * (ch.β * x.2 * ch.ζ + ch.γ + x.1)) ch.α
    let sb := sb.push (coeff * base) z
    if ws.length = 0 then .error .panic
    else
      let coeff := ((e.wires.take (ws.length - 1)).zip e.sigmas).foldl
        (fun acc x => acc * (ch.β * x.2 + ch.γ + x.1)) (ch.α * ch.β * e.permNext) * base
      match vk.sigmas.getLast? with
      | none => .error .index
      | some σ =>
        let sb := sb.push (-coeff) σ
        match qScalars e.wires with
        | .error e => .error e
        | .ok qs =>
          let sb := pushSelectors base sb (qs.zip vk.selectors)
          match b.lookups[i]? with
          | none => .error .panic
          | some none => .ok sb
          | some (some lp) => linLookup d ch l1 ln ap base e.wires lp sb
  | _, _, _, _ => .error .panic

/-- the loop over the instances, `verifier.rs:564`; `i` is the number of the first instance in the list -/
def linLoop (d : Domain F) (ch : Chal F) (l1 ln : F) (ap : List F) (b : BProof F G) :
    ℕ → List (VKey F G G2 × F) → SB F G → Except VErr (SB F G)
  | _, [], sb => .ok sb
  | i, (vk, base) :: l, sb =>
    match linInstance d ch l1 ln ap b i vk base sb with
    | .error e => .error e
    | .ok sb => linLoop d ch l1 ln ap b (i + 1) l sb

/-- the split quotient commitments behind the first, `verifier.rs:708-711` -/
def pushQuot (step : F) : F → List G → SB F G → SB F G
  | _, [], sb => sb
  | coeff, c :: l, sb => pushQuot step (coeff * step) l (sb.push (coeff * step) c)

/-- `linearization_scalars_and_bases`, `verifier.rs:537-714` -/
def linScalarsAndBases (d : Domain F) (vks : List (VKey F G G2)) (ch : Chal F) (vanish l1 ln : F)
    (b : BProof F G) (ap ab : List F) : Except VErr (SB F G) :=
  if vks.length ≠ b.len ∨ ab.length ≠ vks.length then .error .parameter
  else
    match linLoop d ch l1 ln ap b 0 (vks.zip ab) [] with
    | .error e => .error e
    | .ok sb =>
      match b.quot with
      | [] => .error .index
      | q :: qs => .ok (pushQuot ((1 + vanish) * ch.ζ * ch.ζ) (-vanish) qs (sb.push (-vanish) q))

/-- the variables of the loop of `aggregate_poly_commitments`: `scalars_and_bases`, `v_base`, `uv_base`,
`buffer_v_and_uv_basis` -/
structure AggState (F G : Type) where
  sb : SB F G
  vBase : F
  uvBase : F
  buf : List F

/-- commitments to be opened at `zeta`, one after the other, `verifier.rs:486-494` and `add_poly_comm`,
`verifier.rs:800-808` -/
def addV (v : F) (s : AggState F G) (cs : List G) : AggState F G :=
  cs.foldl (fun s c => { s with
    sb := s.sb.push s.vBase c, vBase := s.vBase * v, buf := s.buf ++ [s.vBase] }) s

/-- commitments to be opened at `zeta * g`, `verifier.rs:508-514` -/
def addUV (v : F) (s : AggState F G) (cs : List G) : AggState F G :=
  cs.foldl (fun s c => { s with
    sb := s.sb.push s.uvBase c, uvBase := s.uvBase * v, buf := s.buf ++ [s.uvBase] }) s

/-- `q_lookup_comm`, `structs.rs:823-828` (the key supports lookups where it is called) -/
def qLookupComm (vk : VKey F G G2) : Except VErr G :=
  match vk.lookup, vk.selectors.getLast? with
  | some _, some c => .ok c
  | _, _ => .error .panic

/-- `plookup_open_poly_comms`, `verifier.rs:832-845` -/
def lookupOpenComms (lp : LkProof F G) (vk : VKey F G G2) : Except VErr (List G) :=
  match vk.lookup, lp.h[0]?, qLookupComm vk with
  | some lv, some h1, .ok q => .ok [lv.range, lv.key, h1, q, lv.tableDomSep, lv.qDomSep]
  | _, _, _ => .error .panic

/-- `plookup_shifted_open_poly_comms`, `verifier.rs:850-866` -/
def lookupShiftedComms (lp : LkProof F G) (vk : VKey F G G2) (ws : List G) : Except VErr (List G) :=
  match vk.lookup, lp.h[0]?, lp.h[1]?, qLookupComm vk, ws[3]?, ws[4]? with
  | some lv, some h1, some h2, .ok q, some w3, some w4 =>
    .ok [lp.prod, lv.range, lv.key, h1, h2, q, w3, w4, lv.tableDomSep]
  | _, _, _, _, _, _ => .error .panic

/-- the part of `aggregate_poly_commitments` for one instance, `verifier.rs:483-529` -/
def aggInstance (ch : Chal F) (b : BProof F G) (i : ℕ) (vk : VKey F G G2) (s : AggState F G) :
    Except VErr (AggState F G) :=
  match b.wires[i]?, b.prodPerm[i]?, b.lookups[i]? with
  | some ws, some z, some lk =>
    let s := addV ch.v s ws
    if ws.length = 0 then .error .panic
    else
      let s := addV ch.v s (vk.sigmas.take (ws.length - 1))
      let s := addUV ch.v s [z]
      match lk with
      | none => .ok s
      | some lp =>
        match lookupOpenComms lp vk with
        | .error e => .error e
        | .ok cs =>
          let s := addV ch.v s cs
          match lookupShiftedComms lp vk ws with
          | .error e => .error e
          | .ok cs => .ok (addUV ch.v s cs)
  | _, _, _ => .error .panic

/-- the loop over the instances, `verifier.rs:483` -/
def aggLoop (ch : Chal F) (b : BProof F G) :
    ℕ → List (VKey F G G2) → AggState F G → Except VErr (AggState F G)
  | _, [], s => .ok s
  | i, vk :: l, s =>
    match aggInstance ch b i vk s with
    | .error e => .error e
    | .ok s => aggLoop ch b (i + 1) l s

/-- `aggregate_poly_commitments`, `verifier.rs:442-532` -/
def aggregateComms (d : Domain F) (vks : List (VKey F G G2)) (ch : Chal F) (vanish l1 ln : F)
    (b : BProof F G) (ap ab : List F) : Except VErr (SB F G × List F) :=
  if vks.length ≠ b.len then .error .parameter
  else
    match linScalarsAndBases d vks ch vanish l1 ln b ap ab with
    | .error e => .error e
    | .ok sb =>
      match aggLoop ch b 0 vks ⟨sb, ch.v, ch.u, []⟩ with
      | .error e => .error e
      | .ok s => .ok (s.sb, s.buf)

/-- a run of `add_pcs_eval` with `v_and_uv_basis.next().ok_or(IteratorOutOfRange)?`,
`verifier.rs:730-737` and `812-819` -/
def addEvals : List F → F × List F → Except VErr (F × List F)
  | [], s => .ok s
  | _ :: _, (_, []) => .error .iteratorOutOfRange
  | e :: es, (r, c :: cs) => addEvals es (r + e * c, cs)

/-- the loop over the instances of `aggregate_evaluations`, `verifier.rs:728-784` -/
def evalLoop : List (Evals F × Option (LkProof F G)) → F × List F → Except VErr (F × List F)
  | [], s => .ok s
  | (e, lk) :: l, s =>
    match addEvals e.wires s with
    | .error e => .error e
    | .ok s =>
      match addEvals e.sigmas s with
      | .error e => .error e
      | .ok s =>
        match addEvals [e.permNext] s with
        | .error e => .error e
        | .ok s =>
          match lk with
          | none => evalLoop l s
          | some lp =>
            match addEvals lp.evals.evals s with
            | .error e => .error e
            | .ok s =>
              match addEvals lp.evals.nextEvals s with
              | .error e => .error e
              | .ok s => evalLoop l s

/-- `aggregate_evaluations`, `verifier.rs:719-790` -/
def aggregateEvals (c : F) (es : List (Evals F)) (lks : List (Option (LkProof F G))) (buf : List F) :
    Except VErr F :=
  if es.length ≠ lks.length then .error .panic
  else
    match evalLoop (es.zip lks) (-c, buf) with
    | .error e => .error e
    | .ok (r, []) => .ok r
    | .ok (_, _ :: _) => .error .iteratorOutOfRange

/-- `PcsInfo`, `verifier.rs:42-50` -/
structure PcsInfo (F G : Type) where
  u : F
  point : F
  nextPoint : F
  eval : F
  comm : SB F G
  opening : G
  shifted : G

/-- `prepare_pcs_info`, `verifier.rs:71-182`, with the challenges as an argument -/
def prepare (d : Domain F) (vks : List (VKey F G G2)) (pis : List (List F)) (b : BProof F G)
    (ch : Chal F) : Except VErr (PcsInfo F G) :=
  if !checkNumbers vks pis b then .error .parameter
  else
    match checkInstances d b.lookups 0 (pis.zip vks), vks with
    | .error e, _ => .error e
    | .ok (), [] => .error .panic
    | .ok (), vk :: _ =>
      let ap := alphaPowers ch.α
      let ab := alphaBases ch.α vk.lookup.isSome vks.length
      let vanish := vanishing d ch.ζ
      match firstAndLast d ch.ζ with
      | .error e => .error e
      | .ok (l1, ln) =>
        match linPolyConst d ch vks pis b l1 ln ap ab with
        | .error e => .error e
        | .ok c =>
          match aggregateComms d vks ch vanish l1 ln b ap ab with
          | .error e => .error e
          | .ok (sb, buf) =>
            match aggregateEvals c b.evals b.lookups buf with
            | .error e => .error e
            | .ok ev => .ok ⟨ch.u, ch.ζ, ch.ζ * d.gen, ev, sb, b.opening, b.shifted⟩

/-- the first loop of `batch_verify_opening_proofs`, `verifier.rs:219-223` -/
def innerA (r : F) : List (PcsInfo F G) → F → SB F G → SB F G
  | [], _, sb => sb
  | i :: l, rb, sb => innerA r l (rb * r) ((sb.push rb i.opening).push (rb * i.u) i.shifted)

/-- the second loop of `batch_verify_opening_proofs`, `verifier.rs:233-243` -/
def innerB (r : F) : List (PcsInfo F G) → F → F → SB F G → F × SB F G
  | [], _, s, sb => (s, sb)
  | i :: l, rb, s, sb =>
    innerB r l (rb * r) (s + rb * i.eval)
      (((sb.merge rb i.comm).push (rb * i.point) i.opening).push (rb * i.u * i.nextPoint) i.shifted)

/-- `batch_verify_opening_proofs`, `verifier.rs:194-252`; `e` is the pairing and `hash` the challenge
computed from the list of the `u` -/
def batchVerifyOpening (e : G →ₗ[F] G2 →ₗ[F] GT) (hash : List F → F) (k : VerifierParam G G2)
    (infos : List (PcsInfo F G)) : Bool :=
  let r := if infos.length = 1 then 1 else hash (infos.map (·.u))
  let a := (innerA r infos 1 []).msm
  let sb := innerB r infos 1 0 []
  let b := (sb.2.push (-sb.1) k.g).msm
  decide (e a k.betaH + e (-b) k.h = 0)

/-- `Verifier::new`, `verifier.rs:63-67`, with the domain constructor as in `Plonk.newDomain` -/
def verifierDomain (newDom : ℕ → Option (Domain F)) (size : ℕ) : Except VErr (Domain F) :=
  match newDom size with
  | none => .error .domainCreation
  | some d => .ok d

/-- `verify_batch_proof`, `snark.rs:77-98`: whether the proof is accepted, or the error.  (`WrongProof` is
`.ok false`.) -/
def verifyBatch (newDom : ℕ → Option (Domain F)) (e : G →ₗ[F] G2 →ₗ[F] GT) (hash : List F → F)
    (chal : List (VKey F G G2) → List (List F) → BProof F G → Chal F)
    (vks : List (VKey F G G2)) (pis : List (List F)) (b : BProof F G) : Except VErr Bool :=
  match vks with
  | [] => .error .parameter
  | vk :: _ =>
    match verifierDomain newDom vk.domSize with
    | .error e => .error e
    | .ok d =>
      match prepare d vks pis b (chal vks pis b) with
      | .error e => .error e
      | .ok info => .ok (batchVerifyOpening e hash vk.openKey [info])

end Verif.Plonk
