import Verif.Util.Conversion
import Mathlib.Algebra.Module.LinearMap.Basic
import Mathlib.Algebra.BigOperators.Group.List.Basic

/-!
# Model of `signature/src/bls_over_bn254.rs`, `signature/src/bls_over_bls12381.rs`
and `vrf/src/blsvrf.rs`

* `G1`, `G2`, `GT` are modules over the scalar field `F`; the pairing is a bilinear map with the
  target group written additively.
* `hash_to_curve` is a field of the parameters here; it is modelled in `Verif/Sig/HashToCurve.lean`.
* Values of type `G1Projective`/`G2Projective` can be built without any check in Rust; the two
  predicates `sigOnCurve`, `vkCheck` stand for the checks made by the code.
* The `blst` library used by `bls_over_bls12381.rs` is external. Its signing and verification are
  the textbook ones over the abstract groups.
-/

namespace Verif.Bls

open Conv

inductive SigErr where
  | parameter
  | validity
  | onCurve
  | verification
deriving DecidableEq

/-- groups, hash and validity checks used by the scheme -/
structure Params (F G1 G2 GT : Type) [Field F] [AddCommGroup G1] [AddCommGroup G2]
    [AddCommGroup GT] [Module F G1] [Module F G2] [Module F GT] where
  /-- `Bn254::pairing` -/
  e : G1 →ₗ[F] G2 →ₗ[F] GT
  /-- `G2Projective::generator()` -/
  g2 : G2
  /-- `hash_to_curve::<Keccak256>` -/
  hash : List Byte → G1
  /-- `sig.sigma.into_affine().is_on_curve()` -/
  sigOnCurve : G1 → Bool
  /-- `vk.check().is_ok()` -/
  vkCheck : G2 → Bool
  /-- `CS_ID_BLS_BN254` as bytes -/
  csId : List Byte

variable {F G1 G2 GT : Type} [Field F] [AddCommGroup G1] [AddCommGroup G2]
    [AddCommGroup GT] [Module F G1] [Module F G2] [Module F GT] [DecidableEq GT]

/-- `impl From<&SignKey> for VerKey`, `bls_over_bn254.rs:576-580` -/
def verKeyOf (P : Params F G1 G2 GT) (sk : F) : G2 := sk • P.g2

/-- `KeyPair::sign`, `bls_over_bn254.rs:524-529` -/
def sign (P : Params F G1 G2 GT) (sk : F) (msg csid : List Byte) : G1 :=
  let msgInput := msg ++ csid
  sk • P.hash msgInput

/-- `VerKey::verify_internal`, `bls_over_bn254.rs:589-605` -/
def verifyInternal (P : Params F G1 G2 GT) (vk : G2) (msg : List Byte) (sig : G1)
    (csid : List Byte) : Except SigErr Unit :=
  let groupElem := P.hash (msg ++ csid)
  if P.e sig P.g2 = P.e groupElem vk then .ok () else .error .verification

/-- `VerKey::verify`, `bls_over_bn254.rs:607-619` -/
def verify (P : Params F G1 G2 GT) (vk : G2) (msg : List Byte) (sig : G1) (csid : List Byte) :
    Except SigErr Unit :=
  if P.sigOnCurve sig = false then .error .onCurve else verifyInternal P vk msg sig csid

/-- `VerKey::verify_unchecked`, `bls_over_bn254.rs:627-634` -/
def verifyUnchecked (P : Params F G1 G2 GT) (vk : G2) (msg : List Byte) (sig : G1)
    (csid : List Byte) : Except SigErr Unit := verifyInternal P vk msg sig csid

/-- `SignatureScheme::sign`, `bls_over_bn254.rs:113-121` -/
def schemeSign (P : Params F G1 G2 GT) (sk : F) (msg : List Byte) : G1 := sign P sk msg P.csId

/-- `SignatureScheme::verify`, `bls_over_bn254.rs:124-131` -/
def schemeVerify (P : Params F G1 G2 GT) (vk : G2) (msg : List Byte) (sig : G1) :
    Except SigErr Unit := verify P vk msg sig P.csId

/-- `aggregate`, `bls_over_bn254.rs:137-150` -/
def aggregate (sigs : List G1) : Except SigErr G1 :=
  match sigs with
  | [] => .error .parameter
  | s :: rest => .ok (rest.foldl (· + ·) s)

/-- `Bn254::multi_pairing`: the product (here: sum) of the pairings of the zipped lists -/
def multiPairing (P : Params F G1 G2 GT) (as : List G1) (bs : List G2) : GT :=
  ((as.zip bs).map fun ab => P.e ab.1 ab.2).sum

/-- `aggregate_verify_internal`, `bls_over_bn254.rs:216-242` -/
def aggregateVerifyInternal (P : Params F G1 G2 GT) (vks : List G2) (msgs : List (List Byte))
    (sig : G1) : Except SigErr Unit :=
  let mPoints := msgs.map fun msg => P.hash (msg ++ P.csId)
  let mPoints := mPoints ++ [-sig]
  let vkPoints := vks ++ [P.g2]
  if multiPairing P mPoints vkPoints = 0 then .ok () else .error .verification

/-- `aggregate_verify`, `bls_over_bn254.rs:156-184` -/
def aggregateVerify (P : Params F G1 G2 GT) (vks : List G2) (msgs : List (List Byte)) (sig : G1) :
    Except SigErr Unit :=
  if vks = [] then .error .parameter
  else if vks.length ≠ msgs.length then .error .parameter
  else if vks.all P.vkCheck = false then .error .validity
  else if P.sigOnCurve sig = false then .error .onCurve
  else aggregateVerifyInternal P vks msgs sig

/-- `aggregate_verify_unchecked`, `bls_over_bn254.rs:260-278` -/
def aggregateVerifyUnchecked (P : Params F G1 G2 GT) (vks : List G2) (msgs : List (List Byte))
    (sig : G1) : Except SigErr Unit :=
  if vks = [] then .error .parameter
  else if vks.length ≠ msgs.length then .error .parameter
  else aggregateVerifyInternal P vks msgs sig

/-- `multi_sig_verify_internal`, `bls_over_bn254.rs:245-252` -/
def multiSigVerifyInternal (P : Params F G1 G2 GT) (vks : List G2) (msg : List Byte) (sig : G1) :
    Except SigErr Unit :=
  let aggVk := vks.sum
  verifyInternal P aggVk msg sig P.csId

/-- `multi_sig_verify`, `bls_over_bn254.rs:190-211` -/
def multiSigVerify (P : Params F G1 G2 GT) (vks : List G2) (msg : List Byte) (sig : G1) :
    Except SigErr Unit :=
  if vks = [] then .error .parameter
  else if vks.all P.vkCheck = false then .error .validity
  else if P.sigOnCurve sig = false then .error .onCurve
  else multiSigVerifyInternal P vks msg sig

/-- `multi_sig_verify_unchecked`, `bls_over_bn254.rs:285-296` -/
def multiSigVerifyUnchecked (P : Params F G1 G2 GT) (vks : List G2) (msg : List Byte) (sig : G1) :
    Except SigErr Unit :=
  if vks = [] then .error .parameter else multiSigVerifyInternal P vks msg sig

/-! ## BLS over BLS12-381 (`blst`) and the VRF -/

/-- groups and hash of the `blst` scheme -/
structure Blst (F G1 G2 GT : Type) [Field F] [AddCommGroup G1] [AddCommGroup G2]
    [AddCommGroup GT] [Module F G1] [Module F G2] [Module F GT] where
  e : G1 →ₗ[F] G2 →ₗ[F] GT
  g2 : G2
  /-- hash to `G1` with the ciphersuite id as domain separation tag -/
  hash : List Byte → G1
  /-- `PublicKey::validate` (fails for the point at infinity) -/
  pkValid : G2 → Bool
  /-- `Signature::validate(true)` (fails for the point at infinity) -/
  sigValid : G1 → Bool
  /-- `Signature::serialize` (96 bytes) -/
  sigBytes : G1 → List Byte

/-- `BLSSignatureScheme::sign`, `bls_over_bls12381.rs:371-382` -/
def blsSign (P : Blst F G1 G2 GT) (sk : F) (msg : List Byte) : G1 := sk • P.hash msg

/-- `sk.sk_to_pk()` in `key_gen`, `bls_over_bls12381.rs:358-368` -/
def blsPk (P : Blst F G1 G2 GT) (sk : F) : G2 := sk • P.g2

/-- `BLSSignatureScheme::verify`, `bls_over_bls12381.rs:385-399` -/
def blsVerify (P : Blst F G1 G2 GT) (vk : G2) (msg : List Byte) (sig : G1) : Except SigErr Unit :=
  if P.pkValid vk = false then .error .validity
  else if P.sigValid sig = false then .error .validity
  else if P.e sig P.g2 = P.e (P.hash msg) vk then .ok () else .error .verification

/-- `BLSVRFScheme::prove`, `blsvrf.rs:102-111` -/
def vrfProve (P : Blst F G1 G2 GT) (sk : F) (input : List Byte) : Except SigErr G1 :=
  .ok (blsSign P sk input)

/-- `BLSVRFScheme::proof_to_hash`, `blsvrf.rs:114-124`; `H` is the hasher of the ciphersuite -/
def vrfProofToHash (P : Blst F G1 G2 GT) (H : List Byte → List Byte) (proof : G1) :
    Except SigErr (List Byte) := .ok (H (P.sigBytes proof))

/-- `Vrf::evaluate`, `vrf/src/lib.rs:90-99` -/
def vrfEvaluate (P : Blst F G1 G2 GT) (H : List Byte → List Byte) (sk : F) (input : List Byte) :
    Except SigErr (List Byte) :=
  match vrfProve P sk input with
  | .error e => .error e
  | .ok proof => vrfProofToHash P H proof

/-- `BLSVRFScheme::verify`, `blsvrf.rs:127-139` -/
def vrfVerify (P : Blst F G1 G2 GT) (H : List Byte → List Byte) (proof : G1) (pk : G2)
    (input : List Byte) : Except SigErr (Bool × Option (List Byte)) :=
  match blsVerify P pk input proof with
  | .ok () =>
    match vrfProofToHash P H proof with
    | .ok o => .ok (true, some o)
    | .error e => .error e
  | .error _ => .ok (false, none)

/-! ## Canonical serialization, `bls_over_bls12381.rs:174-310` -/

/-- `ark_serialize::Compress` -/
inductive Compress where
  | yes
  | no
deriving DecidableEq

/-- the encoders of `blst` for one type of group elements, with the sizes declared in
`constants.rs:37-47` -/
structure Codec (T : Type) where
  compressedSize : ℕ
  size : ℕ
  compress : T → List Byte
  serialize : T → List Byte
  uncompress : List Byte → Option T
  deserialize : List Byte → Option T
  /-- `validate` -/
  valid : T → Bool

/-- `serialize_with_mode`, `bls_over_bls12381.rs:176-186, 257-267`; the bytes are written as a
slice, which arkworks prefixes with the length as 8 little endian bytes -/
def serializeWithMode {T : Type} (C : Codec T) (x : T) (m : Compress) : List Byte :=
  match m with
  | .no => toLE 8 (C.serialize x).length ++ C.serialize x
  | .yes => toLE 8 (C.compress x).length ++ C.compress x

/-- `BLSVerKey::serialized_size`, `bls_over_bls12381.rs:188-190` -/
def verKeySerializedSize {T : Type} (C : Codec T) (_m : Compress) : ℕ := C.compressedSize

/-- `BLSSignature::serialized_size`, `bls_over_bls12381.rs:269-275` -/
def sigSerializedSize {T : Type} (C : Codec T) (m : Compress) : ℕ :=
  match m with
  | .yes => C.compressedSize
  | .no => C.size

/-- `deserialize_with_mode`, `bls_over_bls12381.rs:198-234, 280-313`; the result carries the unread
rest of the input -/
def deserializeWithMode {T : Type} (C : Codec T) (bs : List Byte) (m : Compress)
    (validate : Bool) : Option (T × List Byte) :=
  if bs.length < 8 then none
  else
    let len := leNat (bs.take 8)
    let rest := bs.drop 8
    if ¬ ((len = C.compressedSize ∧ m = .yes) ∨ (len = C.size ∧ m = .no)) then none
    else
      let parsed : Option (T × List Byte) :=
        match m with
        | .yes =>
          if rest.length < C.compressedSize then none
          else (C.uncompress (rest.take C.compressedSize)).map fun x =>
            (x, rest.drop C.compressedSize)
        | .no =>
          if rest.length < C.size then none
          else (C.deserialize (rest.take C.size)).map fun x => (x, rest.drop C.size)
      match parsed with
      | none => none
      | some (x, rest) => if validate = true ∧ C.valid x = false then none else some (x, rest)

end Verif.Bls
