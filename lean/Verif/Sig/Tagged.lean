import Verif.Util.Conversion

/-!
# Model of keys as tagged text

`to_tagged_base64` and `TryFrom<TaggedBase64>` of the signing keys and key pairs in `signature/src/schnorr.rs`,
`signature/src/bls_over_bn254.rs` and `signature/src/bls_over_bls12381.rs`, and of the crate `tagged_base64` what they use:
the text is the tag, `~`, and the bytes with a checksum in base 64 (URL alphabet, no padding).  The crate is external; the
model follows its documentation.  The checksum is a parameter.  Texts and tags are lists of characters.
-/

namespace Verif.Sig.Tagged

open Verif.Conv

/-- the URL alphabet of base 64 (RFC 4648, section 5) -/
def alphabet : List Char := "ABCDEFGHIJKLMNOPQRSTUVWXYZabcdefghijklmnopqrstuvwxyz0123456789-_".toList

/-- the character of six bits -/
def encChar (n : ℕ) : Char := alphabet.getD n 'A'

/-- the six bits of a character -/
def decChar (c : Char) : Option ℕ := (List.range 64).find? fun n => encChar n = c

/-- a byte -/
def byte (n : ℕ) : Byte := ⟨n % 256, Nat.mod_lt _ (by norm_num)⟩

/-- base 64 without padding -/
def encode : List Byte → List Char
  | [] => []
  | [a] => [encChar (a.val / 4), encChar (a.val % 4 * 16)]
  | [a, b] => [encChar (a.val / 4), encChar (a.val % 4 * 16 + b.val / 16), encChar (b.val % 16 * 4)]
  | a :: b :: c :: l =>
    encChar (a.val / 4) :: encChar (a.val % 4 * 16 + b.val / 16) :: encChar (b.val % 16 * 4 + c.val / 64) ::
      encChar (c.val % 64) :: encode l

/-- the inverse; trailing bits that are not zero are refused -/
def decode : List Char → Option (List Byte)
  | [] => some []
  | [_] => none
  | [x, y] =>
    match decChar x, decChar y with
    | some x, some y => if y % 16 ≠ 0 then none else some [byte (x * 4 + y / 16)]
    | _, _ => none
  | [x, y, z] =>
    match decChar x, decChar y, decChar z with
    | some x, some y, some z =>
      if z % 4 ≠ 0 then none else some [byte (x * 4 + y / 16), byte (y % 16 * 16 + z / 4)]
    | _, _, _ => none
  | x :: y :: z :: w :: l =>
    match decChar x, decChar y, decChar z, decChar w, decode l with
    | some x, some y, some z, some w, some l =>
      some (byte (x * 4 + y / 16) :: byte (y % 16 * 16 + z / 4) :: byte (z % 4 * 64 + w) :: l)
    | _, _, _, _, _ => none

/-- `TaggedBase64` -/
structure TB64 where
  tag : List Char
  value : List Byte
deriving DecidableEq

/-- `Tb64Error` -/
inductive Err where
  | invalidTag
  | missingDelimiter
  | invalidData
  | missingChecksum
  | badChecksum
deriving DecidableEq

/-- characters of a tag -/
def safeTag (tag : List Char) : Bool := tag.all fun c => alphabet.contains c

/-- `TaggedBase64::new` -/
def new (tag : List Char) (value : List Byte) : Except Err TB64 :=
  if safeTag tag then .ok ⟨tag, value⟩ else .error .invalidTag

/-- `Display` for `TaggedBase64` -/
def display (crc : List Char → List Byte → Byte) (t : TB64) : List Char :=
  t.tag ++ '~' :: encode (t.value ++ [crc t.tag t.value])

/-- `TaggedBase64::parse` -/
def parse (crc : List Char → List Byte → Byte) (s : List Char) : Except Err TB64 :=
  match s.dropWhile (· ≠ '~') with
  | [] => .error .missingDelimiter
  | _ :: b64 =>
    let tag := s.takeWhile (· ≠ '~')
    if safeTag tag then
      match decode b64 with
      | none => .error .invalidData
      | some bytes =>
        match bytes.getLast? with
        | none => .error .missingChecksum
        | some c => if c = crc tag bytes.dropLast then .ok ⟨tag, bytes.dropLast⟩ else .error .badChecksum
    else .error .invalidTag

/-- the tags, `constants.rs:9-27` -/
def blsKeyPair : List Char := "BLS_KEY_PAIR".toList
/-- `BLS_SIGNING_KEY` -/
def blsSigningKey : List Char := "BLS_SIGNING_KEY".toList
/-- `SCHNORR_KEY_PAIR` -/
def schnorrKeyPair : List Char := "SCHNORR_KEY_PAIR".toList
/-- `SCHNORR_SIGNING_KEY` -/
def schnorrSigningKey : List Char := "SCHNORR_SIGNING_KEY".toList

/-- what is written with `from_le_bytes_mod_order` bytes: signing keys and key pairs of the Schnorr scheme and of the BLS
scheme over BN254 -/
inductive Kind where
  | schnorrSign
  | schnorrPair
  | bnSign
  | bnPair
deriving DecidableEq

/-- the tag given to `TaggedBase64::new`, `schnorr.rs:144-146, 377-379`, `bls_over_bn254.rs:335-337, 542-544` -/
def writeTag : Kind → List Char
  | .schnorrSign => schnorrSigningKey
  | .schnorrPair => schnorrKeyPair
  | .bnSign => blsSigningKey
  | .bnPair => blsKeyPair

/-- the tag `try_from` compares with, `schnorr.rs:153, 164, 390, 405`, `bls_over_bn254.rs:344, 355, 551, 562` -/
def readTag : Kind → List Char
  | .schnorrSign => schnorrSigningKey
  | .schnorrPair => schnorrKeyPair
  | .bnSign => blsSigningKey
  | .bnPair => blsKeyPair

/-- `SignKey::to_tagged_base64`, `schnorr.rs:133-146`, `bls_over_bn254.rs:324-337` -/
def toTagged (k : Kind) {r : ℕ} (sk : ZMod r) : Except Err TB64 := new (writeTag k) (toBytesLE sk)

/-- `TryFrom<TaggedBase64>` for `SignKey`, `schnorr.rs:149-169`, `bls_over_bn254.rs:340-360` -/
def tryFrom (k : Kind) (r : ℕ) (t : TB64) : Except Err (ZMod r) :=
  if t.tag ≠ readTag k then .error .invalidTag else .ok (fromLeBytesModOrder r t.value)

/-- `KeyPair::to_tagged_base64`: only the signing key is written, `schnorr.rs:366-379`, `bls_over_bn254.rs:531-544` -/
def pairToTagged (k : Kind) {r : ℕ} {V : Type} (kp : ZMod r × V) : Except Err TB64 := toTagged k kp.1

/-- `TryFrom<TaggedBase64>` for `KeyPair`; `gen` is the verification key of a signing key, `generate_with_sign_key`,
`schnorr.rs:371-374, 382-408`, `bls_over_bn254.rs:536-539, 547-567` -/
def pairTryFrom (k : Kind) (r : ℕ) {V : Type} (gen : ZMod r → V) (t : TB64) : Except Err (ZMod r × V) :=
  (tryFrom k r t).map fun sk => (sk, gen sk)

/-- `blst::SecretKey::to_bytes`: 32 bytes, big endian (external) -/
def blstBytes (sk : ℕ) : List Byte := (toLE 32 sk).reverse

/-- `BLSSignKey::to_tagged_base64`, `bls_over_bls12381.rs:113-126`; a key is an integer from 1 to `r - 1` -/
def blstToTagged (sk : ℕ) : Except Err TB64 := new blsSigningKey (blstBytes sk)

/-- `TryFrom<TaggedBase64>` for `BLSSignKey`, `bls_over_bls12381.rs:129-153`; `blst::SecretKey::from_bytes` (external)
refuses other lengths, zero, and integers from `r` on -/
def blstTryFrom (r : ℕ) (t : TB64) : Except Err ℕ :=
  if t.tag ≠ blsSigningKey then .error .invalidTag
  else if t.value.length ≠ 32 then .error .invalidData
  else
    let n := leNat t.value.reverse
    if n = 0 ∨ r ≤ n then .error .invalidData else .ok n

end Verif.Sig.Tagged
