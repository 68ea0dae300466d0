import Verif.Util.Conversion
import Mathlib.Algebra.Group.Basic
import Mathlib.GroupTheory.OrderOfElement

/-!
# Model of `signature/src/schnorr.rs`

* The base field is `ZMod q`, the scalar field `ZMod r`.
* The whole curve (not only the subgroup generated by the base point) is an additive commutative
  group `A`. `point * scalar` in arkworks is double-and-add with the integer representative of the
  scalar, so it is `scalar.val • point` and in particular makes sense outside of the subgroup.
* `into_affine` (the coordinates of a point) and the Rescue hash with one output are fields of
  the structure `Params`.
* The conversions between the fields are the functions of `Verif/Util/Conversion.lean`, with their
  panics.
-/

namespace Verif.Schnorr

open Conv

/-- The curve configuration and the hash function used by the scheme. -/
structure Params (q r : ℕ) (A : Type) where
  /-- `Projective::<P>::generator()` -/
  gen : A
  /-- `P::COFACTOR[0]`, `curve_cofactor`, `schnorr.rs:513-516` -/
  cofactor : ℕ
  /-- `into_affine()` followed by reading `.x` and `.y` -/
  coords : A → ZMod q × ZMod q
  /-- `VariableLengthRescueCRHF::<F, 1>::evaluate(·).unwrap()[0]` -/
  crhf : List (ZMod q) → ZMod q

/-- `point * scalar` -/
def mul {r : ℕ} {A : Type} [AddCommGroup A] (P : A) (k : ZMod r) : A := k.val • P

/-- `F::from_be_bytes_mod_order` -/
def fromBeBytesModOrder (q : ℕ) (bs : List Byte) : ZMod q := fromLeBytesModOrder q bs.reverse

/-- `SignKey`, `VerKey`, `KeyPair`, `schnorr.rs:113, 180-182, 245-251` -/
structure KeyPair (r : ℕ) (A : Type) where
  sk : ZMod r
  vk : A

/-- `Signature`, `schnorr.rs:262-268` -/
structure Signature (r : ℕ) (A : Type) where
  s : ZMod r
  R : A

inductive SigErr where
  /-- "public key is not valid: not in the correct subgroup" -/
  | smallOrder
  /-- "Signature verification error" -/
  | failed
  | panic (p : Panic)
deriving DecidableEq

variable {q r : ℕ} {A : Type} [AddCommGroup A] [DecidableEq A]

/-- `impl From<&SignKey<F>> for VerKey<P>`, `schnorr.rs:429-437` -/
def verKeyOf (P : Params q r A) (sk : ZMod r) : A := mul P.gen sk

/-- `KeyPair::generate_with_sign_key`, `schnorr.rs:305-309` -/
def generateWithSignKey (P : Params q r A) (sk : ZMod r) : KeyPair r A := ⟨sk, verKeyOf P sk⟩

/-- `VerKey::randomize_with`, `schnorr.rs:186-193` -/
def verKeyRandomize (P : Params q r A) (vk : A) (x : ZMod r) : A := mul P.gen x + vk

/-- `SignKey::randomize_with`, `schnorr.rs:129-131` -/
def signKeyRandomize (sk x : ZMod r) : ZMod r := sk + x

/-- `KeyPair::randomize_with`, `schnorr.rs:357-364` -/
def KeyPair.randomize (P : Params q r A) (kp : KeyPair r A) (x : ZMod r) : KeyPair r A :=
  ⟨signKeyRandomize kp.sk x, verKeyRandomize P kp.vk x⟩

/-- `VerKey::challenge`, `schnorr.rs:489-510` -/
def challenge (P : Params q r A) (vk R : A) (msg : List (ZMod q)) (csid : List Byte) :
    Except Panic (ZMod r) :=
  let inst := fromBeBytesModOrder q csid
  let input := [inst, (P.coords vk).1, (P.coords vk).2, (P.coords R).1, (P.coords R).2] ++ msg
  fqToFrWithMask r (P.crhf input)

/-- the nonce of `KeyPair::sign`, `schnorr.rs:341-347` -/
def nonce (P : Params q r A) (sk : ZMod r) (msg : List (ZMod q)) (csid : List Byte) : ZMod r :=
  fqToFr r (P.crhf ([fromBeBytesModOrder q csid, frToFq q sk] ++ msg))

/-- `KeyPair::sign`, `schnorr.rs:340-353` -/
def sign (P : Params q r A) (kp : KeyPair r A) (msg : List (ZMod q)) (csid : List Byte) :
    Except Panic (Signature r A) :=
  let n := nonce P kp.sk msg csid
  let R := mul P.gen n
  match challenge P kp.vk R msg csid with
  | .error e => .error e
  | .ok c => .ok ⟨c * kp.sk + n, R⟩

/-- `VerKey::verify`, `schnorr.rs:451-480` -/
def verify (P : Params q r A) (vk : A) (msg : List (ZMod q)) (sig : Signature r A)
    (csid : List Byte) : Except SigErr Unit :=
  if mul vk (P.cofactor : ZMod r) = 0 then .error .smallOrder
  else
    match challenge P vk sig.R msg csid with
    | .error e => .error (.panic e)
    | .ok c =>
      let x := mul P.gen sig.s
      let y := sig.R + mul vk c
      if y = x then .ok () else .error .failed

/-- `SignKey::to_bytes` / `KeyPair::to_bytes`, `schnorr.rs:134-136, 367-369` -/
def toBytes (sk : ZMod r) : List Byte := toBytesLE sk

/-- `KeyPair::from_bytes`, `schnorr.rs:372-374` -/
def fromBytes (P : Params q r A) (bs : List Byte) : KeyPair r A :=
  generateWithSignKey P (fromLeBytesModOrder r bs)

end Verif.Schnorr
