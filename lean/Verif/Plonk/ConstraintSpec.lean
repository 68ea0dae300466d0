import Verif.Plonk.Verifier
import Mathlib.LinearAlgebra.Lagrange
import Mathlib.Algebra.Polynomial.AlgebraMap

/-!
# The constraints of TurboPlonk and UltraPlonk as polynomials

What the verifier is meant to check, written down without the verifier: the polynomials of an instance, the
constraint polynomials, and the key and the proof of a prover that commits to these polynomials and claims
their values.
-/

set_option linter.unusedSectionVars false

namespace Verif.Plonk

open Verif.Pcs Polynomial

/-- the polynomials of the lookup argument of an instance -/
structure LkPolys (F : Type) [Semiring F] where
  range : F[X]
  key : F[X]
  tableDomSep : F[X]
  qDomSep : F[X]
  h1 : F[X]
  h2 : F[X]
  prod : F[X]

/-- the polynomials of an instance: wires, permutation, selectors (linear 0–3, products 4–5, fifth powers
6–9, output 10, constant 11, product of all wires 12, lookup 13), the factors of the cosets, the permutation
product, the public inputs -/
structure Inst (F : Type) [Semiring F] where
  w : ℕ → F[X]
  σ : ℕ → F[X]
  q : ℕ → F[X]
  k : ℕ → F
  z : F[X]
  pi : F[X]
  inputs : List F
  merged : Bool
  lookup : Option (LkPolys F)

variable {F G G2 : Type} [Field F] [DecidableEq F] [AddCommGroup G] [Module F G]

/-- the number of wires -/
def Inst.nw (I : Inst F) : ℕ := if I.lookup.isSome then 6 else 5

/-- the number of selectors -/
def Inst.nq (I : Inst F) : ℕ := if I.lookup.isSome then 14 else 13

/-- `p(gX)` -/
noncomputable def shift (d : Domain F) (p : F[X]) : F[X] := p.comp (C d.gen * X)

/-- the `i`-th Lagrange polynomial of the domain -/
noncomputable def lag (d : Domain F) (i : ℕ) : F[X] :=
  Lagrange.basis (Finset.range d.size) (fun j => d.offset * d.gen ^ j) i

/-- the gate equation -/
noncomputable def Inst.gate (I : Inst F) : F[X] :=
  ∑ i ∈ Finset.range 4, I.q i * I.w i + I.q 4 * (I.w 0 * I.w 1) + I.q 5 * (I.w 2 * I.w 3) +
    ∑ i ∈ Finset.range 4, I.q (6 + i) * I.w i ^ 5 + I.q 12 * (I.w 0 * I.w 1 * I.w 2 * I.w 3 * I.w 4) +
    I.q 11 + I.pi - I.q 10 * I.w 4

/-- the step of the permutation product -/
noncomputable def Inst.perm (I : Inst F) (d : Domain F) (β γ : F) : F[X] :=
  I.z * ∏ i ∈ Finset.range I.nw, (I.w i + C (β * I.k i) * X + C γ) -
    shift d I.z * ∏ i ∈ Finset.range I.nw, (I.w i + C β * I.σ i + C γ)

/-- the permutation product starts with one -/
noncomputable def Inst.start (I : Inst F) (d : Domain F) : F[X] := lag d 0 * (I.z - 1)

/-- the merged lookup table -/
noncomputable def Inst.table (I : Inst F) (l : LkPolys F) (τ : F) : F[X] :=
  l.range + I.q 13 * (C τ * l.tableDomSep + C (τ ^ 2) * l.key + C (τ ^ 3) * I.w 3 + C (τ ^ 4) * I.w 4)

/-- the merged looked-up values -/
noncomputable def Inst.looked (I : Inst F) (l : LkPolys F) (τ : F) : F[X] :=
  I.w 5 + I.q 13 * (C τ * l.qDomSep + C (τ ^ 2) * I.w 0 + C (τ ^ 3) * I.w 1 + C (τ ^ 4) * I.w 2)

/-- the constraints of the lookup argument -/
noncomputable def Inst.lookupConstraints (I : Inst F) (d : Domain F) (l : LkPolys F) (τ β γ : F) :
    List F[X] :=
  let n := d.size
  let g1 := C (γ * (1 + β))
  [ lag d (n - 1) * (l.h1 - shift d l.h2),
    lag d 0 * (l.prod - 1),
    lag d (n - 1) * (l.prod - 1),
    (X - C (d.gen ^ (n - 1))) *
      (l.prod * C (1 + β) * (C γ + I.looked l τ) * (g1 + I.table l τ + C β * shift d (I.table l τ)) -
        shift d l.prod * (g1 + l.h1 + C β * shift d l.h1) * (g1 + l.h2 + C β * shift d l.h2)) ]

/-- all constraints of an instance -/
noncomputable def Inst.constraints (I : Inst F) (d : Domain F) (τ β γ : F) : List F[X] :=
  [I.gate, I.perm d β γ, I.start d] ++
    match I.lookup with
    | none => []
    | some l => I.lookupConstraints d l τ β γ

/-- a list combined with the powers of `α` -/
noncomputable def combine {R : Type} [CommSemiring R] (α : R) : List R → R
  | [] => 0
  | c :: l => c + α * combine α l

/-- the polynomial with the public inputs as values on the domain; the inputs of a merged circuit are those
of the first circuit, on the first points, and those of the second, on the last points backwards -/
def IsInputs (d : Domain F) (merged : Bool) (inputs : List F) (P : F[X]) : Prop :=
  P.degree < d.size ∧
    match merged with
    | false => inputs.length ≤ d.size ∧ ∀ i < d.size, P.eval (d.offset * d.gen ^ i) = inputs.getD i 0
    | true => ∃ a b, inputs = a ++ b ∧ a.length = b.length ∧ a.length ≤ d.size ∧
        ∀ i < d.size, P.eval (d.offset * d.gen ^ i) = a.getD i 0 + b.getD (d.size - 1 - i) 0

/-- the values a prover claims for the polynomials of an instance -/
structure Claims (F : Type) where
  w : ℕ → F
  σ : ℕ → F
  zNext : F
  lk : LkEvals F

/-- the claimed values as they are in the proof -/
def Inst.evals (I : Inst F) (c : Claims F) : Evals F where
  wires := (List.range I.nw).map c.w
  sigmas := (List.range (I.nw - 1)).map c.σ
  permNext := c.zNext

/-- the values of the polynomials of the lookup argument -/
noncomputable def Inst.lkEvals (I : Inst F) (l : LkPolys F) (d : Domain F) (ζ : F) : LkEvals F where
  range := l.range.eval ζ
  key := l.key.eval ζ
  tableDomSep := l.tableDomSep.eval ζ
  qDomSep := l.qDomSep.eval ζ
  h1 := l.h1.eval ζ
  qLookup := (I.q 13).eval ζ
  prodNext := l.prod.eval (ζ * d.gen)
  rangeNext := l.range.eval (ζ * d.gen)
  keyNext := l.key.eval (ζ * d.gen)
  tableDomSepNext := l.tableDomSep.eval (ζ * d.gen)
  h1Next := l.h1.eval (ζ * d.gen)
  h2Next := l.h2.eval (ζ * d.gen)
  qLookupNext := (I.q 13).eval (ζ * d.gen)
  w3Next := (I.w 3).eval (ζ * d.gen)
  w4Next := (I.w 4).eval (ζ * d.gen)

/-- the claims are the values of the polynomials -/
def Inst.True (I : Inst F) (c : Claims F) (d : Domain F) (ζ : F) : Prop :=
  (∀ i < I.nw, c.w i = (I.w i).eval ζ) ∧ (∀ i < I.nw - 1, c.σ i = (I.σ i).eval ζ) ∧
    c.zNext = I.z.eval (ζ * d.gen) ∧ ∀ l, I.lookup = some l → c.lk = I.lkEvals l d ζ

/-- the lookup part of a proof -/
noncomputable def Inst.lkProof (com : F[X] →ₗ[F] G) (l : LkPolys F) (c : Claims F) : LkProof F G where
  h := [com l.h1, com l.h2]
  prod := com l.prod
  evals := c.lk

/-- the verifying key -/
noncomputable def Inst.key (I : Inst F) (com : F[X] →ₗ[F] G) (d : Domain F)
    (openKey : VerifierParam G G2) : VKey F G G2 where
  domSize := d.size
  numInputs := I.inputs.length
  sigmas := (List.range I.nw).map (fun i => com (I.σ i))
  selectors := (List.range I.nq).map (fun i => com (I.q i))
  k := (List.range I.nw).map I.k
  openKey := openKey
  merged := I.merged
  lookup := I.lookup.map (fun l => ⟨com l.range, com l.key, com l.tableDomSep, com l.qDomSep⟩)

/-- a proof for the instances with quotients `ts` and opening proofs `W`, `W'`: the commitments are
commitments to the polynomials, the evaluations are what the prover claims -/
noncomputable def proof (com : F[X] →ₗ[F] G) (Is : List (Inst F × Claims F))
    (ts : List F[X]) (W W' : F[X]) : BProof F G where
  wires := Is.map (fun x => (List.range x.1.nw).map (fun i => com (x.1.w i)))
  prodPerm := Is.map (fun x => com x.1.z)
  evals := Is.map (fun x => x.1.evals x.2)
  lookups := Is.map (fun x => x.1.lookup.map (fun l => Inst.lkProof com l x.2))
  quot := ts.map com
  opening := com W
  shifted := com W'

/-- the quotient split into parts of `n + 2` coefficients -/
noncomputable def joinQuot (d : Domain F) (ts : List F[X]) : F[X] := combine (X ^ (d.size + 2)) ts

/-- whether the first instance has lookups -/
def firstLookup (Is : List (Inst F)) : Bool :=
  match Is with
  | [] => false
  | I :: _ => I.lookup.isSome

/-- the combination of the constraints of all instances, with the given factors of the instances -/
noncomputable def batch (d : Domain F) (τ α β γ : F) (Is : List (Inst F)) (bases : List F) : F[X] :=
  (List.zipWith (fun (I : Inst F) (b : F) => C b * combine (C α) (I.constraints d τ β γ)) Is bases).sum

end Verif.Plonk
