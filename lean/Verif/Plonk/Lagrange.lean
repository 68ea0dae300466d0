import Verif.Plonk.Finalize

/-!
# Model of `plonk/src/lagrange.rs` and of the public input polynomial

`lagrange.rs`, `evaluate_pi_poly` of `plonk/src/proof_system/verifier.rs` and
`compute_pub_input_polynomial` of `relation/src/constraint_system.rs`.  Dividing by zero, unwrapping the
inverse of zero, indexing out of bounds and a range with its end before its start panic.
-/

namespace Verif.Plonk

open Verif.Circuit Verif.Pcs

/-- the errors of `plonk` -/
inductive VErr where
  | parameter
  | domainCreation
  | index
  | iteratorOutOfRange
  | panic
  deriving DecidableEq

variable {F : Type} [Field F] [DecidableEq F]

/-- `evaluate_vanishing_polynomial` (arkworks) -/
def vanishing (d : Domain F) (τ : F) : F := τ ^ d.size - d.offset ^ d.size

/-- a division; dividing by zero panics -/
def divP (a b : F) : Except VErr F := if b = 0 then .error .panic else .ok (a / b)

/-- `first_lagrange_coeff`, `lagrange.rs:45-63` -/
def firstLagrange (d : Domain F) (τ : F) : Except VErr F :=
  if τ = d.offset then .ok 1
  else if vanishing d τ = 0 then .ok 0
  else
    match divP (d.offset ^ d.size) d.offset with
    | .error e => .error e
    | .ok o => divP (vanishing d τ) ((d.size : F) * o * (τ - d.offset))

/-- `last_lagrange_coeff`, `lagrange.rs:67-85` -/
def lastLagrange (d : Domain F) (τ : F) : Except VErr F :=
  if τ = d.gen⁻¹ * d.offset then .ok 1
  else if vanishing d τ = 0 then .ok 0
  else
    match divP (d.offset ^ d.size) d.offset with
    | .error e => .error e
    | .ok o => divP (vanishing d τ * d.gen⁻¹) ((d.size : F) * o * (τ - d.offset * d.gen⁻¹))

/-- `first_and_last_lagrange_coeffs`, `lagrange.rs:89-116` -/
def firstAndLast (d : Domain F) (τ : F) : Except VErr (F × F) :=
  if τ = d.offset then .ok (1, 0)
  else if τ = d.gen⁻¹ * d.offset then .ok (0, 1)
  else if vanishing d τ = 0 then .ok (0, 0)
  else
    match divP (d.offset ^ d.size) d.offset with
    | .error e => .error e
    | .ok o =>
      match divP (vanishing d τ) ((d.size : F) * o * (τ - d.offset)),
          divP (vanishing d τ * d.gen⁻¹) ((d.size : F) * o * (τ - d.offset * d.gen⁻¹)) with
      | .ok a, .ok b => .ok (a, b)
      | .error e, _ => .error e
      | _, .error e => .error e

/-- the search loop of `lagrange_coeffs_for_range`, `lagrange.rs:136-145`: `k` more entries, `w` is
`omega_i` -/
def findPoint (g τ : F) : ℕ → F → List F
  | 0, _ => []
  | k + 1, w => if w = τ then 1 :: List.replicate k 0 else 0 :: findPoint g τ k (w * g)

/-- the loop computing the inverses of the coefficients, `lagrange.rs:163-171`: `k` more entries, `l` is
`l_i` and `c` is `negative_cur_elem` -/
def coeffInverses (g τ : F) : ℕ → F → F → List F
  | 0, _, _ => []
  | k + 1, l, c => l * (τ + c) :: coeffInverses g τ k (l * g⁻¹) (c * g)

/-- `lagrange_coeffs_for_range`, `lagrange.rs:121-175`; `batch_inversion` (arkworks) leaves zeros as they
are -/
def lagrangeRange (d : Domain F) (start stop : ℕ) (τ : F) : Except VErr (List F) :=
  if d.size < stop then .error .panic
  else if stop < start then .error .panic
  else if vanishing d τ = 0 then .ok (findPoint d.gen τ (stop - start) (d.offset * d.gen ^ start))
  else
    match divP ((d.size : F) * d.offset ^ d.size) d.offset with
    | .error e => .error e
    | .ok v0 =>
      .ok ((coeffInverses d.gen τ (stop - start) ((vanishing d τ)⁻¹ * v0 * d.gen⁻¹ ^ start)
        (-d.offset * d.gen ^ start)).map (fun x => x⁻¹))

/-- `evaluate_pi_poly`, `verifier.rs:883-912` -/
def evaluatePi (d : Domain F) (pi : List F) (z : F) (merged : Bool) : Except VErr F :=
  let len := if merged then pi.length / 2 else pi.length
  match lagrangeRange d 0 len z with
  | .error e => .error e
  | .ok l =>
    let r := ((pi.take len).zip l).foldl (fun r x => r + x.2 * x.1) 0
    if merged then
      if d.size < len then .error .panic
      else
        match lagrangeRange d (d.size - len) d.size z with
        | .error e => .error e
        | .ok l => .ok (((pi.drop len).zip l.reverse).foldl (fun r x => r + x.2 * x.1) r)
    else .ok r

variable {p : ℕ} [Fact p.Prime]

/-- the loop of `compute_pub_input_polynomial`, `constraint_system.rs:1450-1453` -/
def writeInputs (c : Circ p) : List ℕ → List (ZMod p) → Except CErr (List (ZMod p))
  | [], v => .ok v
  | g :: gs, v =>
    match c.rows[g]? with
    | none => .error .panic
    | some r =>
      match c.witness[r.w4]? with
      | none => .error .panic
      | some x => if v.length ≤ g then .error .panic else writeInputs c gs (v.set g x)

/-- `compute_pub_input_polynomial`, `constraint_system.rs:1446-1457`.  (The coefficients are kept without
stripping trailing zeros.) -/
def pubInputPoly (f : FCirc p) : Except CErr (List (ZMod p)) :=
  if f.circ.domSize = 1 then .error .unfinalized
  else
    match writeInputs f.circ f.circ.pubIds (List.replicate f.dom.size 0) with
    | .error e => .error e
    | .ok v => .ok (f.dom.ifft v)

end Verif.Plonk
