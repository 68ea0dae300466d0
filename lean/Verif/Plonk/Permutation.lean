import Verif.Plonk.Finalize

/-!
# Model of the permutation argument on the circuit side

`compute_extended_permutation` and `compute_prod_permutation_polynomial` of
`relation/src/constraint_system.rs`.  Indexing out of bounds and dividing by zero panic.
-/

namespace Verif.Plonk

open Verif.Circuit Verif.Pcs

variable {p : ℕ} [Fact p.Prime]

/-- `wire_variable(i, j)`, `constraint_system.rs:1010-1015`, for the first `num_wire_types` vectors: the
zero variable behind the end of a vector -/
def wireAt (c : Circ p) (i j : ℕ) : Option ℕ := (wireVecs c)[i]?.map (fun v => v.getD j 0)

/-- `compute_extended_permutation`, `constraint_system.rs:1135-1161` -/
def extPermutation (f : FCirc p) : Except CErr (List (ZMod p)) :=
  let W := numWireTypes f.circ
  match f.perm.mapM (fun s =>
    if W ≤ s.1 then some 0 else f.ids[s.1 * f.dom.size + s.2]?) with
  | none => .error .panic
  | some l => if l.length ≠ W * f.dom.size then .error .parameter else .ok l

/-- the inner loop of `compute_prod_permutation_polynomial`, `constraint_system.rs:1407-1413`: the
numerator and the denominator of row `j`, from wire `i` on -/
def rowFactors (f : FCirc p) (β γ : ZMod p) (j : ℕ) :
    List ℕ → ZMod p × ZMod p → Except CErr (ZMod p × ZMod p)
  | [], ab => .ok ab
  | i :: is, (a, b) =>
    match wireAt f.circ i j with
    | none => .error .panic
    | some v =>
      match f.circ.witness[v]?, f.ids[i * f.dom.size + j]?, f.perm[i * f.dom.size + j]? with
      | some x, some id, some s =>
        match f.ids[s.1 * f.dom.size + s.2]? with
        | none => .error .panic
        | some id' => rowFactors f β γ j is (a * (x + γ + β * id), b * (x + γ + β * id'))
      | _, _, _ => .error .panic

/-- the outer loop, `constraint_system.rs:1402-1416`: the values behind `prev` -/
def prodLoop (f : FCirc p) (β γ : ZMod p) : List ℕ → ZMod p → Except CErr (List (ZMod p))
  | [], _ => .ok []
  | j :: js, prev =>
    match rowFactors f β γ j (List.range (numWireTypes f.circ)) (1, 1) with
    | .error e => .error e
    | .ok (a, b) =>
      if b = 0 then .error .panic
      else
        match prodLoop f β γ js (prev * a / b) with
        | .error e => .error e
        | .ok l => .ok (prev * a / b :: l)

/-- `compute_prod_permutation_polynomial`, `constraint_system.rs:1394-1420` .  (The coefficients
are kept without stripping trailing zeros.) -/
def prodPermPoly (f : FCirc p) (β γ : ZMod p) : Except CErr (List (ZMod p)) :=
  match prodLoop f β γ (List.range (f.dom.size - 1)) 1 with
  | .error e => .error e
  | .ok l => .ok (f.dom.ifft (1 :: l))

end Verif.Plonk
