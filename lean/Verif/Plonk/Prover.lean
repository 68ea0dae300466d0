import Verif.Plonk.Keys
import Verif.Plonk.Transcript

/-!
# Model of the prover

`plonk/src/proof_system/prover.rs` and `batch_prove_internal` of `plonk/src/proof_system/snark.rs`.
Polynomials are lists of coefficients; arithmetic of arkworks strips zeros at the high end.  The values drawn
from the random generator are an argument, sorted by their use.  The circuit is what the trait `Arithmetization`
shows of it.  The evaluation domains are radix-2 domains.  Indexing out of bounds, unwrapping `None`, failing
assertions and dividing by zero panic.
-/

set_option linter.unusedSectionVars false

namespace Verif.Plonk

open Verif.Circuit Verif.Pcs

/-- the methods of `Circuit` and `Arithmetization` used by the prover,
`relation/src/constraint_system.rs:200-301` -/
structure Arith (F : Type) where
  domSize : Except CErr ℕ
  numInputs : ℕ
  lookup : Bool
  nw : ℕ
  publicInput : Except CErr (List F)
  wirePolys : Except CErr (List (List F))
  inputPoly : Except CErr (List F)
  prodPerm : F → F → Except CErr (List F)
  table : F → Except CErr (List F)
  sorted : F → List F → Except CErr (List F × List F × List F)
  lookupProd : F → F → F → List F → List F → Except CErr (List F)

/-- the circuit, `constraint_system.rs:1348-1623` -/
def FCirc.arith {p : ℕ} [Fact p.Prime] (f : FCirc p) : Arith (ZMod p) where
  domSize := if f.circ.domSize = 1 then .error .unfinalized else .ok f.dom.size
  numInputs := f.circ.pubIds.length
  lookup := f.circ.ultra.isSome
  nw := numWireTypes f.circ
  publicInput := publicInput f.circ
  wirePolys := wirePolys f
  inputPoly := pubInputPoly f
  prodPerm := prodPermPoly f
  table := mergedTable f
  sorted := sortedVecPolys f
  lookupProd := lookupProdPoly f

/-- the random values for an instance: the mask polynomials of the wires have two coefficients, the others
three -/
structure Masks (F : Type) where
  wire : ℕ → F × F
  h1 : F × F × F
  h2 : F × F × F
  z : F × F × F
  prod : F × F × F

/-- the lookup part of an instance while proving: `PlookupOracles`, `structs.rs:852-855`, with the sorted
vector, the merged table and the commitments -/
structure LkRun (F G : Type) where
  table : List F
  sorted : List F
  h1 : List F
  h2 : List F
  hComms : List G
  prod : List F
  prodComm : G

/-- an instance while proving: the circuit, its key, its randomness, and `Oracles`, `structs.rs:843-850`,
with the commitments -/
structure Run (F G G2 : Type) where
  cs : Arith F
  pk : PKey F G G2
  mask : Masks F
  wires : List (List F) := []
  wireComms : List G := []
  pi : List F := []
  z : List F := []
  zComm : G
  lk : Option (LkRun F G) := none

variable {F G G2 : Type} [Field F] [DecidableEq F] [AddCommGroup G] [Module F G]

/-- addition of polynomials (arkworks) -/
def dAdd (p q : List F) : List F := norm (addPoly p q)

/-- `mul_poly`, `prover.rs:1090-1099` -/
def mulScalar (c : F) (p : List F) : List F := norm (p.map (c * ·))

/-- `mul_by_vanishing_poly` (arkworks): the polynomial times `X^n - 1` -/
def mulVanishing (n : ℕ) (p : List F) : List F := norm (addPoly (List.replicate n 0 ++ p) (p.map (-·)))

/-- `mask_polynomial`, `prover.rs:457-466`: `m` are the coefficients of the mask, `p` is stripped of its zeros -/
def maskPoly (n : ℕ) (m p : List F) : List F := dAdd (mulVanishing n (norm m)) (norm p)

/-- `domain_size_ratio`, `constants.rs:18-20` -/
def domainSizeRatio (n nw : ℕ) : ℕ := (nw * (n + 1) + 2) / n + 1

/-- `Prover::new`, `prover.rs:56-68` -/
def proverDomains (newDom : ℕ → Option (Domain F)) (n nw : ℕ) : Except PErr (Domain F × Domain F) :=
  match newDom n with
  | none => .error (.snark .domainCreation)
  | some d =>
    match newDom (n * domainSizeRatio n nw) with
    | none => .error (.snark .domainCreation)
    | some q => .ok (d, q)

/-- `run_1st_round`, `prover.rs:77-91` -/
def round1 (d : Domain F) (r : Run F G G2) : Except PErr (Run F G G2) := do
  let ps ← liftC r.cs.wirePolys
  let ws := ps.mapIdx (fun i p => maskPoly d.size [(r.mask.wire i).1, (r.mask.wire i).2] p)
  let cs ← liftP (batchCommit r.pk.commitKey ws)
  let pi ← liftC r.cs.inputPoly
  .ok { r with wires := ws, wireComms := cs, pi := norm pi }

/-- `run_plookup_1st_round`, `prover.rs:99-124`, and its use, `snark.rs:266-289` -/
def lkRound1 (d : Domain F) (τ : Option F) (r : Run F G G2) : Except PErr (Run F G G2) :=
  if r.cs.lookup then
    match τ with
    | none => .error (.snark .panic)
    | some τ => do
      let t ← liftC (r.cs.table τ)
      let (s, h1, h2) ← liftC (r.cs.sorted τ t)
      let h1 := maskPoly d.size [r.mask.h1.1, r.mask.h1.2.1, r.mask.h1.2.2] h1
      let h2 := maskPoly d.size [r.mask.h2.1, r.mask.h2.2.1, r.mask.h2.2.2] h2
      let cs ← liftP (batchCommit r.pk.commitKey [h1, h2])
      .ok { r with lk := some ⟨t, s, h1, h2, cs, [], 0⟩ }
  else .ok r

/-- `run_2nd_round`, `prover.rs:128-142` -/
def round2 (d : Domain F) (β γ : F) (r : Run F G G2) : Except PErr (Run F G G2) := do
  let z ← liftC (r.cs.prodPerm β γ)
  let z := maskPoly d.size [r.mask.z.1, r.mask.z.2.1, r.mask.z.2.2] z
  let c ← liftP (commit r.pk.commitKey z)
  .ok { r with z := z, zComm := c }

/-- `run_plookup_2nd_round`, `prover.rs:147-178`, and its use, `snark.rs:307-326` -/
def lkRound2 (d : Domain F) (τ : Option F) (β γ : F) (r : Run F G G2) : Except PErr (Run F G G2) :=
  if r.cs.lookup then
    match r.lk, τ with
    | none, _ => .error (.snark .parameter)
    | some _, none => .error (.snark .panic)
    | some l, some τ => do
      let p ← liftC (r.cs.lookupProd τ β γ l.table l.sorted)
      let p := maskPoly d.size [r.mask.prod.1, r.mask.prod.2.1, r.mask.prod.2.2] p
      let c ← liftP (commit r.pk.commitKey p)
      .ok { r with lk := some { l with prod := p, prodComm := c } }
  else .ok r

/-- `compute_quotient_circuit_contribution`, `prover.rs:665-699`: `w` and `q` are the values of the wires and
the selectors at the point, `pi` that of the public inputs -/
def quotCircuit (w q : ℕ → F) (pi : F) : F :=
  q 11 + pi + q 0 * w 0 + q 1 * w 1 + q 2 * w 2 + q 3 * w 3 + q 4 * w 0 * w 1 + q 5 * w 2 * w 3 +
    q 12 * w 0 * w 1 * w 2 * w 3 * w 4 + q 6 * w 0 ^ 5 + q 7 * w 1 ^ 5 + q 8 * w 2 ^ 5 + q 9 * w 3 ^ 5 -
    q 10 * w 4

/-- `compute_quotient_copy_constraint_contribution`, `prover.rs:709-752`.  (Its division is by a value that
is not zero when the vanishing polynomial is not zero at the point.) -/
def quotPerm (n nw : ℕ) (x : F) (k w σ : ℕ → F) (z zw α β γ : F) : F × F :=
  let a := α * (List.range nw).foldl (fun acc j => acc * (w j + k j * x * β + γ)) z
  let b := α * (List.range nw).foldl (fun acc j => acc * (w j + σ j * β + γ)) zw
  (a - b, α ^ 2 * (z - 1) / ((n : F) * (x - 1)))

/-- the values of the polynomials of the lookup argument at a point -/
structure LkVals (F : Type) where
  range : F
  key : F
  tableDomSep : F
  qDomSep : F
  q : F
  h1 : F
  h2 : F
  prod : F

/-- `compute_quotient_plookup_contribution`, `prover.rs:766-882`; `a` are the values at the point `x` and `b`
those at `g x`.  (The vanishing polynomial is not zero at the point.) -/
def quotLookup (d : Domain F) (x : F) (w w' : ℕ → F) (a b : LkVals F) (τ α β γ : F) :
    Except PErr (F × F) :=
  match firstAndLast d x with
  | .error e => .error (.snark e)
  | .ok (l1, ln) =>
    let v := vanishing d x
    let l1 := l1 / v
    let ln := ln / v
    let t := evalMergedTable τ a.range a.key a.q (w 3) (w 4) a.tableDomSep
    let t' := evalMergedTable τ b.range b.key b.q (w' 3) (w' 4) b.tableDomSep
    let m := evalMergedLookup τ (w 5) (w 0) (w 1) (w 2) a.q a.qDomSep
    let α3 := α * α * α
    let α4 := α3 * α
    let α5 := α4 * α
    let α6 := α5 * α
    let r2 := α3 * ((a.h1 - b.h2) * ln) + α4 * ((a.prod - 1) * l1) + α5 * ((a.prod - 1) * ln)
    let b1 := 1 + β
    let g1 := b1 * γ
    let p3 := (x - d.gen⁻¹) * (a.prod * b1 * (γ + m) * (g1 + t + β * t') -
      b.prod * (g1 + a.h1 + β * b.h1) * (g1 + a.h2 + β * b.h2))
    .ok (α6 * p3, r2)

/-- the polynomials of the lookup argument, in one list: range table, keys, separators of the table, separators
of the lookups, `q_lookup`, `h_1`, `h_2`, product -/
def lkPolys (pk : PKey F G G2) (l : LkPk F) (o : LkRun F G) : List (List F) :=
  [l.range, l.key, l.tableDomSep, l.qDomSep, pk.selectors.getLastD [], o.h1, o.h2, o.prod]

/-- the values at the `i`-th point -/
def lkVals (ffts : List (List F)) (i : ℕ) : LkVals F :=
  let v j := (ffts.getD j []).getD i 0
  ⟨v 0, v 1, v 2, v 3, v 4, v 5, v 6, v 7⟩

/-- the lookup part of the value of the quotient at the `i`-th point, `prover.rs:605-633` -/
def quotLookupAt (d : Domain F) (x : F) (w w' : ℕ → F) (lk : Option (List (List F))) (i i' : ℕ)
    (τ : Option F) (α β γ : F) : Except PErr (F × F) :=
  match lk with
  | none => .ok (0, 0)
  | some l =>
    match τ with
    | none => .error (.snark .panic)
    | some τ => quotLookup d x w w' (lkVals l i) (lkVals l i') τ α β γ

/-- the lengths that indexing relies on, `prover.rs:566-633`, `665-699`, `720-740`, `783-784` -/
def shapeOk (nw : ℕ) (r : Run F G G2) : Bool :=
  decide (nw ≤ r.wires.length ∧ 5 ≤ nw ∧ nw ≤ r.pk.sigmas.length ∧ nw ≤ r.pk.vk.k.length ∧
    13 ≤ r.pk.selectors.length) &&
  match r.pk.lookup with
  | none => true
  | some _ => decide (6 ≤ nw) && r.lk.isSome

/-- the values of the quotient of an instance on the coset, `prover.rs:528-643`.  `zhInv` are the inverses of
the vanishing polynomial; `quot` is the quotient domain, `coset` the same with an offset. -/
def quotEvals (d quot coset : Domain F) (zhInv : List F) (nw : ℕ) (τ : Option F) (α β γ : F)
    (r : Run F G G2) : Except PErr (List F) :=
  if !shapeOk nw r then .error (.snark .panic)
  else
    let m := quot.size
    let ratio := m / d.size
    let q := r.pk.selectors.map coset.fft
    let σ := r.pk.sigmas.map coset.fft
    let w := r.wires.map coset.fft
    let z := coset.fft r.z
    let pi := coset.fft r.pi
    let lk : Option (List (List F)) :=
      match r.pk.lookup, r.lk with
      | some l, some o => some ((lkPolys r.pk l o).map coset.fft)
      | _, _ => none
    (List.range m).mapM (fun i =>
      let i' := (i + ratio) % m
      let x := quot.gen ^ i * coset.offset
      let at_ (l : List (List F)) (i j : ℕ) := (l.getD j []).getD i 0
      let c := quotCircuit (at_ w i) (at_ q i) (pi.getD i 0)
      let (p1, p2) := quotPerm r.pk.vk.domSize nw x (fun j => r.pk.vk.k.getD j 0) (at_ w i) (at_ σ i)
        (z.getD i 0) (z.getD i' 0) α β γ
      match quotLookupAt d x (at_ w i) (at_ w i') lk i i' τ α β γ with
      | .error e => .error e
      | .ok (l1, l2) => .ok ((c + p1 + l1) * zhInv.getD (i % ratio) 0 + (p2 + l2)))

/-- the loop over the instances, `prover.rs:526-655`: `acc` is `quot_poly_coset_evals_sum` -/
def quotSum (d quot coset : Domain F) (zhInv : List F) (nw : ℕ) (τ : Option F) (α β γ : F) :
    List (Run F G G2) → F → List F → Except PErr (List F)
  | [], _, acc => .ok acc
  | r :: rs, base, acc =>
    match quotEvals d quot coset zhInv nw τ α β γ r with
    | .error e => .error e
    | .ok l =>
      let α3 := α ^ 2 * α
      let α7 := α3 ^ 2 * α
      quotSum d quot coset zhInv nw τ α β γ rs (base * if r.pk.lookup.isSome then α7 else α3)
        (List.zipWith (fun a b => a + base * b) acc l)

/-- `ifft` of a domain with an offset (arkworks) -/
def cosetIfft (d : Domain F) (l : List F) : List F :=
  (d.ifft l).mapIdx (fun i c => d.offset⁻¹ ^ i * c)

/-- `z_h_inv`, `prover.rs:509-516` -/
def vanishingInverses (n ratio : ℕ) (quot : Domain F) (gen : F) : Except PErr (List F) :=
  (List.range ratio).mapM (fun i =>
    let v := (gen * quot.gen ^ i) ^ n - 1
    if v = 0 then .error (.snark .panic) else .ok v⁻¹)

/-- `compute_quotient_polynomial`, `prover.rs:491-661`; `gen` is the constant `GENERATOR` of the field -/
def quotPoly (gen : F) (d quot : Domain F) (nw : ℕ) (τ : Option F) (α β γ : F) (rs : List (Run F G G2)) :
    Except PErr (List F) :=
  if rs.isEmpty then .error (.snark .parameter)
  else
    match vanishingInverses d.size (quot.size / d.size) quot gen with
    | .error e => .error e
    | .ok zhInv =>
      let coset : Domain F := { quot with offset := gen }
      match quotSum d quot coset zhInv nw τ α β γ rs 1 (List.replicate quot.size 0) with
      | .error e => .error e
      | .ok l => .ok (norm (cosetIfft coset l))

/-- the masks of the parts of the quotient, `prover.rs:925-941`: `last` is `last_randomizer`, `rnd` gives the
following randomizers.  A randomizer that is zero becomes a leading zero coefficient, for which `commit` panics
later. -/
def maskParts (n : ℕ) : (ℕ → F) → F → List (List F) → Except PErr (List (List F))
  | _, _, [] => .ok []
  | _, _, [] :: _ => .error (.snark .panic)
  | _, last, [c :: p] => .ok [(c - last) :: p]
  | rnd, last, (c :: p) :: q :: ps =>
    if p.length ≠ n + 1 ∨ rnd 0 = 0 then .error (.snark .panic)
    else
      match maskParts n (fun i => rnd (i + 1)) (rnd 0) (q :: ps) with
      | .error e => .error e
      | .ok l => .ok (((c - last) :: p ++ [rnd 0]) :: l)

/-- `split_quotient_polynomial`, `prover.rs:894-943` -/
def splitQuot (n nw : ℕ) (rnd : ℕ → F) (t : List F) : Except PErr (List (List F)) :=
  if degree t ≠ nw * (n + 1) + 2 then .error .wrongQuotientDegree
  else if n + 5 < nw then .error (.snark .panic)
  else maskParts n rnd 0 ((List.range nw).map (fun i =>
    norm (if i < nw - 1 then (t.drop (i * (n + 2))).take (n + 2) else t.drop (i * (n + 2)))))

/-- `compute_evaluations`, `prover.rs:205-229` -/
def runEvals (d : Domain F) (nw : ℕ) (ζ : F) (r : Run F G G2) : Evals F where
  wires := r.wires.map (evalAt · ζ)
  sigmas := (r.pk.sigmas.take (nw - 1)).map (evalAt · ζ)
  permNext := evalAt r.z (ζ * d.gen)

/-- `compute_plookup_evaluations`, `prover.rs:233-296`, and its use, `snark.rs:358-372` -/
def runLkEvals (d : Domain F) (ζ : F) (r : Run F G G2) : Except PErr (Option (LkEvals F)) :=
  if r.cs.lookup then
    match r.pk.lookup, r.lk, r.pk.selectors.getLast?, r.wires[3]?, r.wires[4]? with
    | some l, some o, some q, some w3, some w4 =>
      let g := ζ * d.gen
      .ok (some {
        range := evalAt l.range ζ, key := evalAt l.key ζ, h1 := evalAt o.h1 ζ, qLookup := evalAt q ζ
        tableDomSep := evalAt l.tableDomSep ζ, qDomSep := evalAt l.qDomSep ζ
        prodNext := evalAt o.prod g, rangeNext := evalAt l.range g, keyNext := evalAt l.key g
        h1Next := evalAt o.h1 g, h2Next := evalAt o.h2 g, qLookupNext := evalAt q g
        w3Next := evalAt w3 g, w4Next := evalAt w4 g, tableDomSepNext := evalAt l.tableDomSep g })
    | none, _, _, _, _ => .error (.snark .parameter)
    | _, none, _, _, _ => .error (.snark .parameter)
    | _, _, _, _, _ => .error (.snark .panic)
  else .ok none

/-- `compute_quotient_component_for_lin_poly`, `prover.rs:337-352`; the loop adds the parts behind the first -/
def linQuotLoop (step : F) : F → List F → List (List F) → List F
  | _, acc, [] => acc
  | coeff, acc, p :: ps =>
    linQuotLoop step (coeff * step) (dAdd acc (mulScalar (coeff * step) p)) ps

/-- `compute_quotient_component_for_lin_poly`, `prover.rs:337-352` -/
def linQuot (n : ℕ) (ζ : F) (ts : List (List F)) : Except PErr (List F) :=
  let v := ζ ^ n - 1
  match ts with
  | [] => .error (.snark .index)
  | t :: ts => .ok (mulScalar (-v) (linQuotLoop ((v + 1) * ζ * ζ) 1 t ts))

/-- `compute_lin_poly_circuit_contribution`, `prover.rs:946-977` (indices were used in the same way for the
quotient) -/
def linCircuit (pk : PKey F G G2) (w : ℕ → F) : List F :=
  let q i := pk.selectors.getD i []
  [mulScalar (w 1) (q 1), mulScalar (w 2) (q 2), mulScalar (w 3) (q 3),
    mulScalar (w 0 * w 1) (q 4), mulScalar (w 2 * w 3) (q 5), mulScalar (w 0 ^ 5) (q 6),
    mulScalar (w 1 ^ 5) (q 7), mulScalar (w 2 ^ 5) (q 8), mulScalar (w 3 ^ 5) (q 9),
    mulScalar (w 0 * w 1 * w 2 * w 3 * w 4) (q 12), mulScalar (-w 4) (q 10), q 11].foldl dAdd
    (mulScalar (w 0) (q 0))

/-- `compute_lin_poly_copy_constraint_contribution`, `prover.rs:980-1015` -/
def linPerm (d : Domain F) (α β γ ζ : F) (pk : PKey F G G2) (e : Evals F) (z : List F) :
    Except PErr (List F) :=
  match firstLagrange d ζ with
  | .error e => .error (.snark e)
  | .ok l1 =>
    let nw := e.wires.length
    if pk.vk.k.length < nw ∨ nw = 0 then .error (.snark .panic)
    else
      let c := (e.wires.zip pk.vk.k).foldl (fun acc x => acc * (x.1 + β * x.2 * ζ + γ)) α + α ^ 2 * l1
      let c' := -((e.wires.take (nw - 1)).zip e.sigmas).foldl
        (fun acc x => acc * (x.1 + β * x.2 + γ)) (α * β * e.permNext)
      match pk.sigmas[nw - 1]? with
      | none => .error (.snark .panic)
      | some σ => .ok (dAdd (mulScalar c z) (mulScalar c' σ))

/-- `compute_lin_poly_plookup_contribution`, `prover.rs:1018-1087` -/
def linLookupPoly (d : Domain F) (τ : Option F) (α β γ ζ : F) (w : List F) (e : LkEvals F)
    (o : LkRun F G) : Except PErr (List F) :=
  match firstAndLast d ζ, τ, w with
  | .error e, _, _ => .error (.snark e)
  | .ok (l1, ln), some τ, w0 :: w1 :: w2 :: w3 :: w4 :: w5 :: _ =>
    let α2 := α ^ 2
    let α4 := α2 ^ 2
    let α5 := α4 * α
    let α6 := α4 * α2
    let t := evalMergedTable τ e.range e.key e.qLookup w3 w4 e.tableDomSep
    let t' := evalMergedTable τ e.rangeNext e.keyNext e.qLookupNext e.w3Next e.w4Next e.tableDomSepNext
    let m := evalMergedLookup τ w5 w0 w1 w2 e.qLookup e.qDomSep
    let b1 := 1 + β
    let y := ζ - d.gen⁻¹
    let c := α4 * l1 + α5 * ln + α6 * y * b1 * (γ + m) * (γ * b1 + t + β * t')
    let c' := -α6 * y * e.prodNext * (γ * b1 + e.h1 + β * e.h1Next)
    .ok (dAdd (mulScalar c o.prod) (mulScalar c' o.h2))
  | _, _, _ => .error (.snark .panic)

/-- `compute_non_quotient_component_for_lin_poly`, `prover.rs:299-331` -/
def linInstancePoly (d : Domain F) (base : F) (τ : Option F) (α β γ ζ : F) (r : Run F G G2) (e : Evals F)
    (le : Option (LkEvals F)) : Except PErr (List F) := do
  let c := linCircuit r.pk (e.wires.getD · 0)
  let p ← linPerm d α β γ ζ r.pk e r.z
  let l := dAdd c p
  match le, r.lk with
  | none, _ => .ok (mulScalar base l)
  | some _, none => .error (.snark .panic)
  | some le, some o => do
    let k ← linLookupPoly d τ α β γ ζ e.wires le o
    .ok (mulScalar base (dAdd l k))

/-- the loop over the instances, `snark.rs:379-399` -/
def linPolyLoop (d : Domain F) (τ : Option F) (α β γ ζ : F) :
    List (Run F G G2 × Evals F × Option (LkEvals F)) → F → List F → Except PErr (List F)
  | [], _, acc => .ok acc
  | (r, e, le) :: l, base, acc =>
    match linInstancePoly d base τ α β γ ζ r e le with
    | .error e => .error e
    | .ok p =>
      let α3 := α ^ 2 * α
      let α7 := α3 ^ 2 * α
      linPolyLoop d τ α β γ ζ l (base * if le.isSome then α7 else α3) (dAdd acc p)

/-- the polynomials of an instance opened at `zeta`, `prover.rs:375-391` and `plookup_open_polys_ref`,
`prover.rs:421-433`.  (The list of the permutation polynomials is not empty, as used for the quotient.) -/
def openPolys (r : Run F G G2) : List (List F) :=
  r.wires ++ r.pk.sigmas.take (r.pk.sigmas.length - 1) ++
    match r.pk.lookup, r.lk with
    | some l, some o => [l.range, l.key, o.h1, r.pk.selectors.getLastD [], l.tableDomSep, l.qDomSep]
    | _, _ => []

/-- the polynomials of an instance opened at `zeta * g`, `prover.rs:396-403` and
`plookup_shifted_open_polys_ref`, `prover.rs:438-453` -/
def shiftedPolys (r : Run F G G2) : List (List F) :=
  r.z ::
    match r.pk.lookup, r.lk with
    | some l, some o => [o.prod, l.range, l.key, o.h1, o.h2, r.pk.selectors.getLastD [],
        r.wires.getD 3 [], r.wires.getD 4 [], l.tableDomSep]
    | _, _ => []

/-- the fold of `compute_batched_witness_polynomial_commitment`, `prover.rs:477-480` -/
def batchPolys (v : F) : F → List F → List (List F) → List F
  | _, acc, [] => acc
  | c, acc, p :: ps => batchPolys v (c * v) (dAdd acc (mulScalar c p)) ps

/-- `compute_batched_witness_polynomial_commitment`, `prover.rs:470-488` -/
def batchWitness (ck : ProverParam G) (ps : List (List F)) (v x : F) : Except PErr G :=
  liftP (commit ck (divPoly (batchPolys v 1 [] ps) [-x, 1]))

/-- `compute_opening_proofs`, `prover.rs:356-413` -/
def openingProofs (d : Domain F) (ck : ProverParam G) (rs : List (Run F G G2)) (ζ v : F) (lin : List F) :
    Except PErr (G × G) := do
  let a ← batchWitness ck (lin :: (rs.map openPolys).flatten) v ζ
  let b ← batchWitness ck (rs.map shiftedPolys).flatten v (d.gen * ζ)
  .ok (a, b)

/-- the checks of the instances, `snark.rs:191-227` -/
def checkRuns (n nw : ℕ) : List (Arith F × PKey F G G2) → Except PErr Unit
  | [] => .ok ()
  | (c, pk) :: l =>
    match c.domSize with
    | .error e => .error (.circuit e)
    | .ok n' =>
      if n' ≠ n then .error (.snark .parameter)
      else if pk.vk.domSize ≠ n then .error (.snark .parameter)
      else if c.numInputs ≠ pk.vk.numInputs then .error (.snark .parameter)
      else if c.lookup ≠ pk.lookup.isSome then .error (.snark .parameter)
      else if c.nw ≠ nw then .error (.snark .parameter)
      else checkRuns n nw l

/-- the lookup proofs, `snark.rs:412-424` -/
def runLkProof (r : Run F G G2) (le : Option (LkEvals F)) : Except PErr (Option (LkProof F G)) :=
  if r.cs.lookup then
    match r.lk, le with
    | some o, some le => .ok (some ⟨o.hComms, o.prodComm, le⟩)
    | _, _ => .error (.snark .panic)
  else .ok none

/-- `batch_prove_internal`, `snark.rs:163-440`, from the instances on, for a function `split` that splits the
quotient -/
def proveRunsWith (split : List F → Except PErr (List (List F))) (gen : F) (newDom : ℕ → Option (Domain F))
    (oracle : List (Call F G G2) → F) (extra : Option (List ℕ)) (n nw : ℕ) (ck : ProverParam G)
    (rs : List (Run F G G2)) : Except PErr (BProof F G) := do
  let pis ← rs.mapM (fun r => liftC r.cs.publicInput)
  let t : List (Call F G G2) :=
    extraMsg extra ++ ((rs.map (·.pk.vk)).zip pis).map (fun x => .vkAndInput x.1 x.2)
  let (d, quot) ← proverDomains newDom n nw
  -- round 1
  let rs ← rs.mapM (round1 d)
  let t := t ++ rs.map (.commitments "witness_poly_comms" ·.wireComms)
  -- round 1.5
  let (τ, t) := askTau oracle (rs.any (·.cs.lookup)) t
  let rs ← rs.mapM (lkRound1 d τ)
  let t := t ++ rs.filterMap (·.lk.map (fun l => .commitments "h_poly_comms" l.hComms))
  -- round 2
  let (β, t) := ask oracle "beta" t
  let (γ, t) := ask oracle "gamma" t
  let rs ← rs.mapM (round2 d β γ)
  let t := t ++ rs.map (.commitment "perm_poly_comms" ·.zComm)
  -- round 2.5
  let rs ← rs.mapM (lkRound2 d τ β γ)
  let t := t ++ rs.filterMap (·.lk.map (fun l => .commitment "plookup_poly_comms" l.prodComm))
  -- round 3
  let (α, t) := ask oracle "alpha" t
  let q ← quotPoly gen d quot nw τ α β γ rs
  let ts ← split q
  let tComms ← liftP (batchCommit ck ts)
  let t := t ++ [.commitments "quot_poly_comms" tComms]
  -- round 4
  let (ζ, t) := ask oracle "zeta" t
  let es := rs.map (runEvals d nw ζ)
  let t := t ++ es.map (.evals ·)
  -- round 4.5
  let les ← rs.mapM (runLkEvals d ζ)
  let t := t ++ les.filterMap (·.map (.lkEvals ·))
  let lin ← linQuot n ζ ts
  let lin ← linPolyLoop d τ α β γ ζ (rs.zip (es.zip les)) 1 lin
  -- round 5
  let (v, _) := ask oracle "v" t
  let (w, w') ← openingProofs d ck rs ζ v lin
  let lks ← (rs.zip les).mapM (fun x => runLkProof x.1 x.2)
  .ok { wires := rs.map (·.wireComms), prodPerm := rs.map (·.zComm), evals := es, lookups := lks
        quot := tComms, opening := w, shifted := w' }

/-- `batch_prove_internal`, `snark.rs:163-440`, from the instances on -/
def proveRuns (gen : F) (newDom : ℕ → Option (Domain F)) (oracle : List (Call F G G2) → F)
    (extra : Option (List ℕ)) (quotMask : ℕ → F) (n nw : ℕ) (ck : ProverParam G)
    (rs : List (Run F G G2)) : Except PErr (BProof F G) :=
  proveRunsWith (splitQuot n nw quotMask) gen newDom oracle extra n nw ck rs

/-- `batch_prove_internal`, `snark.rs:163-440`.  (The prover's randomness `masks i` is that of the `i`-th
instance.) -/
def batchProve (gen : F) (newDom : ℕ → Option (Domain F)) (oracle : List (Call F G G2) → F)
    (extra : Option (List ℕ)) (masks : ℕ → Masks F) (quotMask : ℕ → F) (cs : List (Arith F))
    (pks : List (PKey F G G2)) : Except PErr (BProof F G) :=
  match cs, pks with
  | [], _ => .error (.snark .parameter)
  | _ :: _, [] => .error (.snark .parameter)
  | c :: cs', pk :: pks' =>
    if cs'.length ≠ pks'.length then .error (.snark .parameter)
    else
      match c.domSize with
      | .error e => .error (.circuit e)
      | .ok n =>
        match checkRuns n c.nw ((c :: cs').zip (pk :: pks')) with
        | .error e => .error e
        | .ok () => proveRuns gen newDom oracle extra quotMask n c.nw pk.commitKey
            (((c :: cs').zip (pk :: pks')).mapIdx (fun i x =>
              { cs := x.1, pk := x.2, mask := masks i, zComm := 0 }))

end Verif.Plonk
