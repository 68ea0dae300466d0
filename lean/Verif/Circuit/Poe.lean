import Verif.Circuit.Glv
import Verif.Circuit.Check
import Verif.Util.Conversion

/-!
# The proof of exponent circuit

`plonk/examples/proof_of_exp.rs:88-148`, up to the finalization, and `create_public_point_variable`.
-/

namespace Verif.Circuit

variable {p : ℕ}

/-- `create_public_point_variable`, `ecc/mod.rs:163-171` -/
def createPublicPointVariable (P : ZMod p × ZMod p) : Build p (ℕ × ℕ) := do
  let x ← createPublicVariable P.1
  let y ← createPublicVariable P.2
  pure (x, y)

/-- steps 2 and 3 of `proof_of_exponent_circuit`, `proof_of_exp.rs:118-137`, on the exponent as an element of the base
field -/
def poeGates [Fact p.Prime] (K : TE p) (G : ZMod p × ZMod p) (x : ZMod p) (X : ZMod p × ZMod p) : Build p Unit := do
  let xv ← createVariable x
  let gv ← createConstantPointVariable G
  let Xv ← createPublicPointVariable X
  let y ← Glv.variableBaseScalarMul K xv gv
  enforcePointEqual y Xv

/-- `proof_of_exponent_circuit`, `proof_of_exp.rs:98-143`, up to the finalization; both assertions panic. `G` is the
generator and `GX` the value of `G * x`, computed by arkworks. -/
def proofOfExponent [Fact p.Prime] (K : TE p) (G GX : ZMod p × ZMod p) (x : ZMod K.r) (X : ZMod p × ZMod p) :
    Except CErr (Circ p) :=
  if X ≠ GX then .error .panic
  else
    match poeGates K G (Conv.frToFq p x) X (Circ.new p none) with
    | .error e => .error e
    | .ok (_, c) => if checkSat c [X.1, X.2] = .ok () then .ok c else .error .panic

end Verif.Circuit
