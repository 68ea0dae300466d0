import Verif.Plonk.Prover
import Verif.Plonk.Transcript
import Verif.Plonk.ProofFields

/-!
# Model of the interface for single proofs: `plonk/src/proof_system/snark.rs`

`prove`, `verify` and `batch_verify`.  A batch of single proofs (`batch_verify`) is not a batch proof
(`verify_batch_proof`): each proof has its own key, public input, message and challenges, and only the openings are
combined.
-/

namespace Verif.Plonk

open Verif.Pcs Verif.Circuit

variable {F G G2 GT : Type} [Field F] [DecidableEq F] [DecidableEq G]
  [AddCommGroup G] [Module F G] [AddCommGroup G2] [Module F G2] [AddCommGroup GT] [Module F GT] [DecidableEq GT]

/-- one proof with what it is checked against: an element of the zipped slices, `snark.rs:130-134` -/
structure Item (F G G2 : Type) where
  vk : VKey F G G2
  proof : Proof F G
  input : List F
  extra : Option (List ℕ)

/-- the four slices zipped, `snark.rs:130-133` -/
def items : List (VKey F G G2) → List (List F) → List (Proof F G) → List (Option (List ℕ)) → List (Item F G G2)
  | vk :: vks, pi :: pis, b :: bs, m :: ms => ⟨vk, b, pi, m⟩ :: items vks pis bs ms
  | _, _, _, _ => []

/-- the closure of `batch_verify`, `snark.rs:134-142` -/
def prepareItem (newDom : ℕ → Option (Domain F)) (oracle : List (Call F G G2) → F) (y : Item F G G2) :
    Except VErr (PcsInfo F G) :=
  match verifierDomain newDom y.vk.domSize with
  | .error e => .error e
  | .ok d => prepare d [y.vk] [y.input] y.proof.toBatch (challenges oracle y.extra [y.vk] [y.input] y.proof.toBatch)

/-- `collect::<Result<Vec<_>, _>>()`, `snark.rs:143`.  (With the feature `parallel` it is not fixed which of several
errors is returned; here it is the first.) -/
def prepareItems (newDom : ℕ → Option (Domain F)) (oracle : List (Call F G G2) → F) :
    List (Item F G G2) → Except VErr (List (PcsInfo F G))
  | [] => .ok []
  | y :: l =>
    match prepareItem newDom oracle y with
    | .error e => .error e
    | .ok i =>
      match prepareItems newDom oracle l with
      | .error e => .error e
      | .ok is => .ok (i :: is)

/-- `batch_verify`, `snark.rs:101-152`: whether the proofs are accepted, or the error.  (`WrongProof` is
`.ok false`.) -/
def batchVerify (newDom : ℕ → Option (Domain F)) (e : G →ₗ[F] G2 →ₗ[F] GT) (hash : List F → F)
    (oracle : List (Call F G G2) → F) (vks : List (VKey F G G2)) (pis : List (List F)) (bs : List (Proof F G))
    (extras : List (Option (List ℕ))) : Except VErr Bool :=
  if pis.length ≠ bs.length ∨ vks.length ≠ bs.length ∨ extras.length ≠ bs.length then .error .parameter
  else
    match vks with
    | [] => .error .parameter
    | vk :: vks' =>
      match prepareItems newDom oracle (items (vk :: vks') pis bs extras) with
      | .error e => .error e
      | .ok infos => .ok (batchVerifyOpening e hash vk.openKey infos)

/-- `verify`, `snark.rs:615-631` -/
def verify (newDom : ℕ → Option (Domain F)) (e : G →ₗ[F] G2 →ₗ[F] GT) (hash : List F → F)
    (oracle : List (Call F G G2) → F) (vk : VKey F G G2) (pi : List F) (b : Proof F G) (extra : Option (List ℕ)) :
    Except VErr Bool :=
  batchVerify newDom e hash oracle [vk] [pi] [b] [extra]

/-- the first entries of a batch proof, `snark.rs:604-612`; an index out of range panics -/
def firstProof (b : BProof F G) : Except PErr (Proof F G) :=
  match b.wires[0]?, b.prodPerm[0]?, b.evals[0]?, b.lookups[0]? with
  | some w, some z, some e, some l => .ok ⟨w, z, b.quot, b.opening, b.shifted, e, l⟩
  | _, _, _, _ => .error (.snark .panic)

/-- `prove`, `snark.rs:587-613` -/
def prove (gen : F) (newDom : ℕ → Option (Domain F)) (oracle : List (Call F G G2) → F) (extra : Option (List ℕ))
    (mask : Masks F) (quotMask : ℕ → F) (c : Arith F) (pk : PKey F G G2) : Except PErr (Proof F G) :=
  match batchProve gen newDom oracle extra (fun _ => mask) quotMask [c] [pk] with
  | .error e => .error e
  | .ok b => firstProof b

end Verif.Plonk
