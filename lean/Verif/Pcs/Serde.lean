import Verif.Pcs.Multilinear
import Verif.Plonk.Serde

/-!
# Model of the serialization of reference strings and openings

The `CanonicalSerialize` and `CanonicalDeserialize` derives of `pcs/src/univariate_kzg/srs.rs`,
`pcs/src/univariate_kzg/mod.rs`, `pcs/src/multilinear_kzg/srs.rs` and `pcs/src/multilinear_kzg/mod.rs`: the fields one
after the other.  The codecs of curve points are parameters.  A struct with one field is its field, as
`UnivariateKzgProof` (`univariate_kzg/mod.rs:49-55`), `MultilinearKzgProof` (`multilinear_kzg/mod.rs:53-59`) and
`Evaluations` (`multilinear_kzg/srs.rs:20-24`).
-/

namespace Verif.Pcs.Serde

open Verif.Merkle.Serde Verif.Plonk.Serde

variable {G G2 : Type}

/-- `UnivariateUniversalParams`, `univariate_kzg/srs.rs:18-31` -/
def srsCodec (cG : Codec G) (cG2 : Codec G2) : Codec (Srs G G2) :=
  structCodec (fun (g, h, bh, ph) => ⟨g, h, bh, ph⟩) (fun s => (s.powersOfG, s.h, s.betaH, s.powersOfH))
    (pairCodec (vecCodec cG) (pairCodec cG2 (pairCodec cG2 (vecCodec cG2))))

/-- `MultilinearProverParam`, `multilinear_kzg/srs.rs:36-48`; a `usize` is written as a `u64` -/
def mProverCodec (cG : Codec G) (cG2 : Codec G2) : Codec (MProverParam G G2) :=
  structCodec (fun (n, p, g, h) => ⟨n, p, g, h⟩) (fun k => (k.numVars, k.powersOfG, k.g, k.h))
    (pairCodec (uintCodec 8) (pairCodec (vecCodec (vecCodec cG)) (pairCodec cG cG2)))

/-- `MultilinearVerifierParam`, `multilinear_kzg/srs.rs:51-61` -/
def mVerifierCodec (cG : Codec G) (cG2 : Codec G2) : Codec (MVerifierParam G G2) :=
  structCodec (fun (n, g, h, m) => ⟨n, g, h, m⟩) (fun k => (k.numVars, k.g, k.h, k.hMask))
    (pairCodec (uintCodec 8) (pairCodec cG (pairCodec cG2 (vecCodec cG2))))

/-- `MultilinearUniversalParams`, `multilinear_kzg/srs.rs:27-33` -/
def mSrsCodec (cG : Codec G) (cG2 : Codec G2) : Codec (MSrs G G2) :=
  structCodec (fun (p, m) => ⟨p, m⟩) (fun s => (s.proverParam, s.hMask))
    (pairCodec (mProverCodec cG cG2) (vecCodec cG2))

/-- `MultilinearKzgBatchProof`, `multilinear_kzg/mod.rs:61-72` -/
def mBatchProofCodec (cG : Codec G) : Codec (MBatchProof G) :=
  structCodec (fun (p, q, o) => ⟨p, q, o⟩) (fun b => (b.proof, b.qComm, b.qOpens))
    (pairCodec (vecCodec cG) (pairCodec cG (vecCodec cG)))

end Verif.Pcs.Serde
