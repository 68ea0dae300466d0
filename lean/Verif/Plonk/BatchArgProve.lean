import Verif.Plonk.BatchArg
import Verif.Plonk.Merge
import Verif.Plonk.Prover

/-!
# Model of the batch argument: setting up instances and proving, `plonk/src/proof_system/batch_arg.rs:37-113`

The randomness of the prover and the transcript are parameters, as in `Prover.lean`.
-/

namespace Verif.Plonk

set_option linter.unusedSectionVars false

open Verif.Circuit Verif.Pcs

variable {p : ℕ} [Fact p.Prime] {G G2 : Type} [AddCommGroup G] [Module (ZMod p) G] [DecidableEq G]

/-- `Instance`, `batch_arg.rs:37-44`; the field `_circuit_type` is never read and left out -/
structure BInstance (p : ℕ) [Fact p.Prime] (G G2 : Type) where
  key : PKey (ZMod p) G G2
  circ : FCirc p

/-- `setup_instance`, `batch_arg.rs:64-78` -/
def setupInstance (S : ℕ) (root : ZMod p) (rnd : List (ZMod p)) (srs : Srs G G2) (c : Circ p) (ty : MergeType) :
    Except PErr (BInstance p G G2) :=
  match finalizeMergeable ty S root rnd c with
  | .error e => .error (.circuit e)
  | .ok f =>
    match preprocess rnd srs f with
    | .error e => .error e
    | .ok k => .ok ⟨k, f⟩

/-- the merging of the keys, `batch_arg.rs:97-101` -/
def mergeKeys : List (BInstance p G G2 × BInstance p G G2) → Except PErr (List (PKey (ZMod p) G G2))
  | [] => .ok []
  | x :: l =>
    match mergePk x.1.key x.2.key with
    | .error e => .error (.snark e)
    | .ok k =>
      match mergeKeys l with
      | .error e => .error e
      | .ok r => .ok (k :: r)

/-- the merging of the circuits, `batch_arg.rs:103-107` -/
def mergeCircs : List (BInstance p G G2 × BInstance p G G2) → Except PErr (List (FCirc p))
  | [] => .ok []
  | x :: l =>
    match merge x.1.circ x.2.circ with
    | .error e => .error (.circuit e)
    | .ok f =>
      match mergeCircs l with
      | .error e => .error e
      | .ok r => .ok (f :: r)

/-- `batch_prove` of the batch argument, `batch_arg.rs:81-112` -/
def argProve (gen : ZMod p) (newDom : ℕ → Option (Domain (ZMod p))) (oracle : List (Call (ZMod p) G G2) → ZMod p)
    (masks : ℕ → Masks (ZMod p)) (quotMask : ℕ → ZMod p) (as bs : List (BInstance p G G2)) :
    Except PErr (BProof (ZMod p) G) :=
  if as.length ≠ bs.length then .error (.snark .parameter)
  else
    match mergeKeys (as.zip bs) with
    | .error e => .error e
    | .ok ks =>
      match mergeCircs (as.zip bs) with
      | .error e => .error e
      | .ok fs => batchProve gen newDom oracle none masks quotMask (fs.map FCirc.arith) ks

end Verif.Plonk
