import Verif.Sig.Schnorr
import Verif.Sig.ElGamal
import Verif.Plonk.Serde

/-!
# Model of the serialization of Schnorr signatures, and of ElGamal keys and ciphertexts

The `CanonicalSerialize` and `CanonicalDeserialize` derives of `signature/src/schnorr.rs` and `elgamal/src/lib.rs`: the
fields one after the other.  The codecs of curve points are parameters; a struct with one field is its field, as
`VerKey` (`schnorr.rs:178-182`), `EncKey` and `DecKey` (`elgamal/src/lib.rs:49-56, 84-91`).
-/

namespace Verif.Sig.Serde

open Verif.Merkle.Serde Verif.Plonk.Serde

variable {F A : Type}

/-- `Signature`, `schnorr.rs:258-268` -/
def signatureCodec (r : ℕ) (cA : Codec A) : Codec (Schnorr.Signature r A) :=
  structCodec (fun (s, R) => ⟨s, R⟩) (fun x => (x.s, x.R)) (pairCodec (fieldCodec r) cA)

/-- `KeyPair`, `elgamal/src/lib.rs:103-112` -/
def keyPairCodec (r : ℕ) (cA : Codec A) : Codec (ElGamal.KeyPair r A) :=
  structCodec (fun (e, d) => ⟨e, d⟩) (fun k => (k.enc, k.dec)) (pairCodec cA (fieldCodec r))

/-- `Ciphertext`, `elgamal/src/lib.rs:118-126` -/
def ciphertextCodec (cF : Codec F) (cA : Codec A) : Codec (ElGamal.Ciphertext F A) :=
  structCodec (fun (e, d) => ⟨e, d⟩) (fun c => (c.ephemeral, c.data)) (pairCodec cA (vecCodec cF))

end Verif.Sig.Serde
