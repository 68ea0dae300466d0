import Verif.Plonk.Keys

/-!
# Model of dummy proofs and verifying keys

`plonk/src/proof_system/structs.rs:259-272, 446-458, 755-770`.  `Commitment::default()` is the neutral element.
-/

namespace Verif.Plonk

open Verif.Circuit

variable {F G G2 : Type} [Zero F] [Zero G] [Zero G2]

/-- `ProofEvaluations::default`, `structs.rs:446-458` -/
def dummyEvals : Evals F := ⟨List.replicate 5 0, List.replicate (5 - 1) 0, 0⟩

/-- `BatchProof::dummy`, `structs.rs:260-272` -/
def dummyProof (n : ℕ) : BProof F G where
  wires := List.replicate n (List.replicate 5 0)
  prodPerm := List.replicate n 0
  evals := List.replicate n dummyEvals
  lookups := List.replicate n none
  quot := List.replicate 5 0
  opening := 0
  shifted := 0

/-- `OpenKey::default()`, `pcs/src/univariate_kzg/srs.rs:48-64` -/
def dummyOpenKey : Pcs.VerifierParam G G2 := ⟨0, 0, 0, [], []⟩

/-- `VerifyingKey::dummy`, `structs.rs:756-770`; `rnd` are the random elements `compute_coset_representatives` draws -/
def dummyKey {p : ℕ} [Fact p.Prime] (rnd : List (ZMod p)) (numInputs domSize : ℕ) : Except CErr (VKey (ZMod p) G G2) :=
  match cosetReps rnd 5 domSize with
  | .error e => .error e
  | .ok k => .ok ⟨domSize, numInputs, List.replicate 5 0, List.replicate 13 0, k, dummyOpenKey, false, none⟩

end Verif.Plonk
