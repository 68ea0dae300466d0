import Verif.Circuit.ModArith
import Verif.Util.Conversion

/-!
# Model of the field arithmetic of the PLONK verifier circuit

`plonk/src/circuit/plonk_verifier/poly.rs` and the parts of `gadgets.rs` and `structs.rs` that compute with scalars.
The native field is `ZMod p`; the scalar field of the proofs that are verified is `ZMod Q`. Point variables and the
transcript are not part of this file. A sum that is used as a factor is returned in a list next to the result; the
code does not return it.
-/

namespace Verif.Circuit.VerifierPoly

open Verif.Circuit Verif.Conv

variable {p : ℕ}

/-- `NonNativeFieldInfo`, `structs.rs:185-190` -/
structure Info (p : ℕ) where
  m : ℕ
  tpm : Option (ZMod p)
  modF : ZMod p
  mod : FpElem p

/-- `FpElemVar::witness`, `mod_arith.rs:179-182` -/
def wit (x : FpElemVar p) : Build p (ZMod p) := do
  let a ← witness x.v0
  let b ← witness x.v1
  pure (a + b * x.tpm)

/-- `field_switching` inside of a builder; it panics -/
def switch {s : ℕ} (t : ℕ) (x : ZMod s) : Build p (ZMod t) :=
  match fieldSwitching t x with
  | .ok y => pure y
  | .error _ => Build.fail .panic

/-- `FpElemVar::one`, `mod_arith.rs:212-221` -/
def oneElem (I : Info p) : FpElemVar p := ⟨1, 0, I.m, I.tpm.getD (2 ^ I.m)⟩

/-- a constant, `FpElem::new(&c, m, two_power_m)` -/
def const (I : Info p) (x : ZMod p) : Build p (FpElem p) := liftE (FpElem.new x I.m I.tpm)

/-- a variable, `FpElemVar::new_from_field_element(circuit, &field_switching(&x), m, two_power_m)` -/
def newElem {Q : ℕ} (I : Info p) (x : ZMod Q) : Build p (FpElemVar p) := do
  let y ← switch p x
  newFromFieldElement y I.m I.tpm

/-- the squarings of `evaluate_poly_helper`, `poly.rs:67-76`; `while ctr < domain_size` with at most `fuel` turns -/
def powLoop (q : FpElem p) (n : ℕ) : ℕ → ℕ → FpElemVar p → Build p (FpElemVar p)
  | 0, _, x => pure x
  | fuel + 1, ctr, x =>
    if ctr < n then do
      let y ← modMul x x q
      powLoop q n fuel (2 * ctr) y
    else pure x

/-- `evaluate_poly_helper`, `poly.rs:41-172`; the counter doubles, so `n` turns are enough -/
def evalHelper (Q : ℕ) (I : Info p) (ζ : FpElemVar p) (n : ℕ) :
    Build p (FpElemVar p × FpElemVar p × FpElemVar p) := do
  let nE ← const I (n : ZMod p)
  let ζw ← wit ζ
  let ζr ← switch Q ζw
  let zn ← powLoop I.mod n n 1 ζ
  let znw ← wit zn
  let znr ← switch Q znw
  let zm1 ← switch p (znr - 1)
  let zm1v ← newFromFieldElement zm1 I.m I.tpm
  let one ← const I 1
  let znRec ← modAddConstant zm1v one I.mod
  zn.enforceEqual znRec
  let zm1r ← switch Q zm1
  if (n : ZMod Q) * (ζr - 1) = 0 then Build.fail .panic
  else do
    let l1v ← newElem I (zm1r * ((n : ZMod Q) * (ζr - 1))⁻¹)
    let zv ← newElem I (ζr - 1)
    let ζRec ← modAddConstant zv one I.mod
    ζ.enforceEqual ζRec
    let left ← modMulConstant l1v nE I.mod
    let left ← modMul left zv I.mod
    left.enforceEqual zm1v
    pure (zn, zm1v, l1v)

/-- the body of the first loop of `evaluate_pi_poly_circuit`, `poly.rs:225-273`, for the domain element `gi` and the
factor `vi` -/
def piStep {Q : ℕ} (I : Info p) (ζ van : FpElemVar p) (ζr vanr gi vi : ZMod Q) : Build p (FpElemVar p) := do
  let vE ← const I (← switch p vi)
  let gE ← const I (← switch p gi)
  if ζr - gi = 0 then Build.fail .panic
  else do
    let dv ← newElem I (ζr - gi)
    let ζRec ← modAddConstant dv gE I.mod
    ζ.enforceEqual ζRec
    let lv ← newElem I (vanr * vi * (ζr - gi)⁻¹)
    let left ← modMul lv dv I.mod
    let right ← modMulConstant van vE I.mod
    left.enforceEqual right
    pure lv

/-- the first loop of `evaluate_pi_poly_circuit`, `poly.rs:224-274`: `g` generates the domain, `n` is its size -/
def piLoop {Q : ℕ} (I : Info p) (n : ℕ) (g : ZMod Q) (ζ van : FpElemVar p) (ζr vanr : ZMod Q) :
    List ℕ → Build p (List (FpElemVar p))
  | [] => pure []
  | i :: is => do
    let l ← piStep I ζ van ζr vanr (g ^ i) (g ^ i * (n : ZMod Q)⁻¹)
    let ls ← piLoop I n g ζ van ζr vanr is
    pure (l :: ls)

/-- the second loop of `evaluate_pi_poly_circuit`, `poly.rs:278-292`: `a` are the first Lagrange values and inputs,
`b` the last ones -/
def piTerms (q : FpElem p) :
    List ((FpElemVar p × FpElemVar p) × (FpElemVar p × FpElemVar p)) → Build p (List (FpElemVar p))
  | [] => pure []
  | (a, b) :: l => do
    let s ← modMul a.1 a.2 q
    let t ← modMul b.1 b.2 q
    let r ← piTerms q l
    pure (s :: t :: r)

/-- `evaluate_pi_poly_circuit`, `poly.rs:186-296`, with `circuit_is_merged = true` as at its only call. The indices
`lagrange[i]`, `lagrange[2 len - i - 1]`, `pub_inputs[i]`, `pub_inputs[len + i]` are always in range; the zips pair
the same entries. `domain_size - len` panics when negative.
`n` is a power of two for which the domain exists; `Radix2EvaluationDomain::new(n).unwrap()` panics otherwise. -/
def evalPi {Q : ℕ} (I : Info p) (n : ℕ) (g : ZMod Q) (pis : List (FpElemVar p)) (ζ van : FpElemVar p) :
    Build p (FpElemVar p) := do
  let len := pis.length / 2
  let ζw ← wit ζ
  let ζr ← switch Q ζw
  let vanw ← wit van
  let vanr ← switch Q vanw
  if (n : ZMod Q) = 0 ∨ n < len then Build.fail .panic
  else do
    let ls ← piLoop I n g ζ van ζr vanr (List.range len ++ List.range' (n - len) len)
    let ts ← piTerms I.mod (((ls.take len).zip (pis.take len)).zip ((ls.reverse.take len).zip ((pis.drop len).take len)))
    modAddVec ts I.mod

/-- `ChallengesFpElemVar`, `structs.rs:30-37` -/
structure ChalVar (p : ℕ) where
  α : FpElemVar p
  α2 : FpElemVar p
  α3 : FpElemVar p
  β : FpElemVar p
  γ : FpElemVar p
  ζ : FpElemVar p
  v : FpElemVar p
  u : FpElemVar p

/-- `ProofEvaluationsVar`, `structs.rs:170-181` -/
structure EvalsVar (p : ℕ) where
  wires : List (FpElemVar p)
  sigmas : List (FpElemVar p)
  permNext : FpElemVar p

/-- the product over the wires, `poly.rs:394-413`; the sums are returned as well -/
def permLoop (q : FpElem p) (β γ : FpElemVar p) :
    List (FpElemVar p × FpElemVar p) → FpElemVar p → Build p (FpElemVar p × List (FpElemVar p))
  | [], prod => pure (prod, [])
  | (w, σ) :: l, prod => do
    let bs ← modMul β σ q
    let sum ← modAddVec [w, bs, γ] q
    let prod ← modMul prod sum q
    let r ← permLoop q β γ l prod
    pure (r.1, sum :: r.2)

/-- the body of the loop of `compute_lin_poly_constant_term_circuit`, `poly.rs:385-454`, without the last
multiplication: `r_plonk_j` and the sums. `pr`, `lr` are the values of the public inputs and of `L1 * alpha^2`;
`GATE_WIDTH = 4`. -/
def constInstance {Q : ℕ} (I : Info p) (ch : ChalVar p) (e : EvalsVar p) (pv l1a2 : FpElemVar p) (pr lr : ZMod Q) :
    Build p (FpElemVar p × List (FpElemVar p)) :=
  match e.wires[4]? with
  | none => Build.fail .panic
  | some w4 => do
    let r ← permLoop I.mod ch.β ch.γ ((e.wires.take 4).zip e.sigmas) (oneElem I)
    let s ← modAdd w4 ch.γ I.mod
    let tmp ← modMul s e.permNext I.mod
    let tmp ← modMul tmp ch.α I.mod
    let tmp ← modMul tmp r.1 I.mod
    let tmpw ← wit tmp
    let tmpr ← switch Q tmpw
    let rv ← newElem I (pr - lr - tmpr)
    let left ← modAdd rv l1a2 I.mod
    let left ← modAdd left tmp I.mod
    left.enforceEqual pv
    pure (rv, s :: r.2)

/-- the loop of `compute_lin_poly_constant_term_circuit`, `poly.rs:385-470`: one alpha base per instance, none left -/
def constLoop {Q : ℕ} (I : Info p) (ch : ChalVar p) (pv l1a2 : FpElemVar p) (pr lr : ZMod Q) :
    List (EvalsVar p) → List (FpElemVar p) → Build p (List (FpElemVar p) × List (FpElemVar p))
  | [], [] => pure ([], [])
  | [], _ :: _ => Build.fail .parameter
  | e :: es, bases => do
    let r ← constInstance I ch e pv l1a2 pr lr
    match bases with
    | [] => Build.fail .parameter
    | b :: bs => do
      let c ← modMul b r.1 I.mod
      let rest ← constLoop I ch pv l1a2 pr lr es bs
      pure (c :: rest.1, r.2 ++ rest.2)

/-- `compute_lin_poly_constant_term_circuit`, `poly.rs:314-479`: the result and the sums. `pis` are the public inputs,
the same for all instances (lists that differ are an error); `nk`, `np`, `nb` are the numbers of keys, of public input
lists and of instances. `public_inputs[0]` panics when there is none. -/
def linConst {Q : ℕ} (I : Info p) (n : ℕ) (g : ZMod Q) (ch : ChalVar p) (nk np nb : ℕ) (pis : List (FpElemVar p))
    (es : List (EvalsVar p)) (van l1 : FpElemVar p) (bases : List (FpElemVar p)) :
    Build p (FpElemVar p × List (FpElemVar p)) :=
  if nk ≠ nb ∨ nk ≠ np then Build.fail .parameter
  else if np = 0 then Build.fail .panic
  else do
    let pv ← evalPi I n g pis ch.ζ van
    let pw ← wit pv
    let pr ← switch Q pw
    let l1a2 ← modMul l1 ch.α2 I.mod
    let lw ← wit l1a2
    let lr ← switch Q lw
    let cs ← constLoop I ch pv l1a2 pr lr es bases
    let r ← modAddVec cs.1 I.mod
    pure (r, cs.2)

end Verif.Circuit.VerifierPoly
