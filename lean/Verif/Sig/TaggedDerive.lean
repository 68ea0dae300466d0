import Verif.Sig.Tagged
import Verif.Merkle.Serde

/-!
# Model of the text made by `#[tagged(…)]`

The attribute of the crate `tagged_base64` on verification keys and signatures (`schnorr.rs:177, 258`,
`bls_over_bn254.rs:367, 416`, `bls_over_bls12381.rs:163, 246`), on Plonk proofs (`plonk/src/proof_system/structs.rs:51, 224`),
and on Merkle proofs and node values (`merkle_tree/src/internal.rs:85, 189`, `hasher.rs:175`).  It writes the bytes of
`CanonicalSerialize` with the tag.  The code of the attribute is external; the model follows its documentation.
-/

namespace Verif.Sig.Tagged

open Verif.Conv
open Verif.Merkle.Serde (Codec)

/-- `From<&T> for TaggedBase64`; a tag that is not valid panics, which is the error of `new` here -/
def deriveTo {X : Type} (tag : List Char) (c : Codec X) (x : X) : Except Err TB64 := new tag (c.ser x)

/-- `TryFrom<&TaggedBase64> for T`: `deserialize_compressed` on the bytes; what follows the value is not looked at -/
def deriveFrom {X : Type} (tag : List Char) (c : Codec X) (t : TB64) : Except Err X :=
  if t.tag ≠ tag then .error .invalidTag
  else
    match c.de t.value with
    | none => .error .invalidData
    | some (x, _) => .ok x

/-- `Display for T` -/
def deriveDisplay {X : Type} (crc : List Char → List Byte → Byte) (tag : List Char) (c : Codec X) (x : X) :
    Except Err (List Char) :=
  (deriveTo tag c x).map (display crc)

/-- `FromStr for T` -/
def deriveParse {X : Type} (crc : List Char → List Byte → Byte) (tag : List Char) (c : Codec X) (s : List Char) :
    Except Err X :=
  match parse crc s with
  | .error e => .error e
  | .ok t => deriveFrom tag c t

end Verif.Sig.Tagged
