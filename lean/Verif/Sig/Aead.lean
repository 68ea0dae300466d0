import Verif.Util.Conversion

/-!
# Model of `aead/src/lib.rs`

The crates `crypto_kx` and `chacha20poly1305` are parameters (`Kx`, `Cipher`). Keys, nonces and messages are lists of bytes.
-/

namespace Verif.Aead

open Verif.Conv

/-- what is used of `crypto_kx`: the public key of a secret key, the Diffie-Hellman function, and the derivation of two
session keys from its value, the public key of the client and that of the server -/
structure Kx (Sh Key : Type) where
  pub : List Byte → List Byte
  dh : List Byte → List Byte → Sh
  kdf : Sh × List Byte × List Byte → Key × Key

/-- what is used of `chacha20poly1305`; `none` is its error -/
structure Cipher (Key : Type) where
  enc : Key → List Byte → List Byte → List Byte → Option (List Byte)
  dec : Key → List Byte → List Byte → List Byte → Option (List Byte)

/-- `SessionKeys` of `crypto_kx` -/
structure Session (Key : Type) where
  rx : Key
  tx : Key

/-- `AEADError`, `lib.rs:70-74` -/
inductive AeadError where
  | aead
deriving DecidableEq

/-- `KeyPair`, `lib.rs:142-149` -/
structure KeyPair where
  enc : List Byte
  dec : List Byte
deriving DecidableEq

/-- `Ciphertext`, `lib.rs:260-276` -/
structure Ciphertext where
  nonce : List Byte
  ct : List Byte
  epk : List Byte
deriving DecidableEq

section
variable {Sh Key : Type}

/-- `Keypair::session_keys_to` of `crypto_kx`, the side of the client -/
def sessionKeysTo (kx : Kx Sh Key) (sk server : List Byte) : Session Key :=
  let k := kx.kdf (kx.dh sk server, kx.pub sk, server)
  ⟨k.1, k.2⟩

/-- `Keypair::session_keys_from` of `crypto_kx`, the side of the server -/
def sessionKeysFrom (kx : Kx Sh Key) (sk client : List Byte) : Session Key :=
  let k := kx.kdf (kx.dh sk client, client, kx.pub sk)
  ⟨k.2, k.1⟩

/-- `From<DecKey> for EncKey`, `lib.rs:50-55` -/
def encKeyOf (kx : Kx Sh Key) (sk : List Byte) : List Byte := kx.pub sk

/-- `EncKey::encrypt`, `lib.rs:85-110`; the ephemeral secret key and the nonce are drawn -/
def encrypt (kx : Kx Sh Key) (ci : Cipher Key) (pk esk nonce msg aad : List Byte) : Except AeadError Ciphertext :=
  let shared := (sessionKeysTo kx esk pk).tx
  match ci.enc shared nonce msg aad with
  | none => .error .aead
  | some ct => .ok ⟨nonce, ct, kx.pub esk⟩

/-- `KeyPair::generate`, `lib.rs:159-165`; the secret key is drawn -/
def KeyPair.generate (kx : Kx Sh Key) (sk : List Byte) : KeyPair := ⟨kx.pub sk, sk⟩

/-- `KeyPair::default`, `lib.rs:56-62`, `lib.rs:129-133` -/
def KeyPair.default : KeyPair := ⟨List.replicate 32 0, List.replicate 32 0⟩

/-- `PartialEq for KeyPair`, `lib.rs:151-155` -/
def KeyPair.eq (a b : KeyPair) : Bool := a.enc == b.enc

/-- `KeyPair::decrypt`, `lib.rs:180-195` -/
def decrypt (kx : Kx Sh Key) (ci : Cipher Key) (kp : KeyPair) (c : Ciphertext) (aad : List Byte) :
    Except AeadError (List Byte) :=
  let shared := (sessionKeysFrom kx kp.dec c.epk).rx
  match ci.dec shared c.nonce c.ct aad with
  | none => .error .aead
  | some m => .ok m

end

/-! ## Canonical serialization -/

/-- `read_exact` into an array of `n` bytes -/
def readExact (n : ℕ) (bs : List Byte) : Option (List Byte × List Byte) :=
  if bs.length < n then none else some (bs.take n, bs.drop n)

/-- derived for `KeyPair`, with `lib.rs:284-293`, `lib.rs:317-326` -/
def KeyPair.ser (k : KeyPair) : List Byte := k.enc ++ k.dec

/-- derived for `KeyPair`, with `lib.rs:299-309`, `lib.rs:332-342` -/
def KeyPair.deser (bs : List Byte) : Option (KeyPair × List Byte) :=
  match readExact 32 bs with
  | none => none
  | some (enc, bs) =>
    match readExact 32 bs with
    | none => none
    | some (dec, bs) => some (⟨enc, dec⟩, bs)

/-- derived for `Ciphertext`, with `lib.rs:349-357`; a vector of bytes is its length in eight bytes and the bytes -/
def Ciphertext.ser (c : Ciphertext) : List Byte := c.nonce ++ (toLE 8 c.ct.length ++ c.ct) ++ c.epk

/-- derived for `Ciphertext`, with `lib.rs:364-374` -/
def Ciphertext.deser (bs : List Byte) : Option (Ciphertext × List Byte) :=
  match readExact 24 bs with
  | none => none
  | some (nonce, bs) =>
    match readExact 8 bs with
    | none => none
    | some (len, bs) =>
      match readExact (leNat len) bs with
      | none => none
      | some (ct, bs) =>
        match readExact 32 bs with
        | none => none
        | some (epk, bs) => some (⟨nonce, ct, epk⟩, bs)

/-- `serialized_size`: `lib.rs:294-296`, `lib.rs:327-329`, `lib.rs:358-361`, derived for the others -/
def KeyPair.size : ℕ := 32 + 32

def Ciphertext.size (c : Ciphertext) : ℕ := 24 + (8 + c.ct.length) + 32

/-! ## serde for nonces -/

/-- values of a self-describing format -/
inductive Val where
  | num (n : ℕ)
  | str (s : List Byte)
  | bytes (l : List Byte)
  | seq (l : List Val)

/-- what a deserializer calls on the visitor -/
inductive Visit where
  | byteBuf (l : List Byte)
  | bytes (l : List Byte)
  | seq (l : List Val)
  | other

/-- outcome of deserializing -/
inductive SerdeErr where
  | error
  | panic
deriving DecidableEq

/-- `XNonce::from_slice`, which asserts the length -/
def fromSlice (l : List Byte) : Except SerdeErr (List Byte) := if l.length = 24 then .ok l else .error .panic

/-- `u8` from a value -/
def Val.u8 : Val → Option Byte
  | .num n => if h : n < 256 then some ⟨n, h⟩ else none
  | _ => none

/-- `Vec<u8>` from a value -/
def Val.vecU8 : Val → Option (List Byte)
  | .seq l => l.mapM Val.u8
  | _ => none

/-- `NonceVisitor`, `lib.rs:217-241`; the methods it does not define return an error -/
def visitNonce : Visit → Except SerdeErr (List Byte)
  | .byteBuf l => fromSlice l
  | .seq [] => .error .error
  | .seq (v :: _) =>
    match v.vecU8 with
    | none => .error .error
    | some l => fromSlice l
  | _ => .error .error

/-- JSON (`serde_json`): `serialize_bytes` writes an array of numbers -/
def jsonBytes (l : List Byte) : Val := .seq (l.map (fun b => .num b.val))

/-- JSON: `deserialize_byte_buf` visits a string as bytes and an array as a sequence; anything else is an error -/
def jsonVisit : Val → Visit
  | .str s => .bytes s
  | .seq l => .seq l
  | _ => .other

/-- `bincode`: `serialize_bytes` writes the length in eight bytes and the bytes -/
def binBytes (l : List Byte) : List Byte := toLE 8 l.length ++ l

/-- `bincode`: `deserialize_byte_buf` reads them and calls `visit_byte_buf` -/
def binNonce (bs : List Byte) : Except SerdeErr (List Byte × List Byte) :=
  match readExact 8 bs with
  | none => .error .error
  | some (len, bs) =>
    match readExact (leNat len) bs with
    | none => .error .error
    | some (l, bs) =>
      match visitNonce (.byteBuf l) with
      | .error e => .error e
      | .ok n => .ok (n, bs)

/-! ## X25519 (RFC 7748), the Diffie-Hellman function of `crypto_kx` -/

def p25519 : ℕ := 2 ^ 255 - 19

/-- the bits of a number, the `n`-th first -/
def bitsDown (k : ℕ) : ℕ → List Bool
  | 0 => []
  | n + 1 => k.testBit n :: bitsDown k n

/-- the scalar of a secret key -/
def clamp (k : ℕ) : ℕ := k % 2 ^ 254 - k % 8 + 2 ^ 254

def powP (b : ℕ) (l : List Bool) : ℕ := l.foldl (fun a c => if c then a * a % p25519 * b % p25519 else a * a % p25519) 1

/-- one step of the ladder for the point with coordinate `u`, on the pair of points `(x2 : z2)`, `(x3 : z3)` -/
def ladderStep (u : ℕ) (s : (ℕ × ℕ) × (ℕ × ℕ)) (c : Bool) : (ℕ × ℕ) × (ℕ × ℕ) :=
  let (P, Q) := if c then (s.2, s.1) else s
  let p := p25519
  let a := (P.1 + P.2) % p
  let b := (P.1 + p - P.2) % p
  let aa := a * a % p
  let bb := b * b % p
  let e := (aa + p - bb) % p
  let da := (Q.1 + p - Q.2) * a % p
  let cb := (Q.1 + Q.2) * b % p
  let x3 := (da + cb) * (da + cb) % p
  let z3 := u * ((da + p - cb) * (da + p - cb) % p) % p
  let x2 := aa * bb % p
  let z2 := e * (aa + 121665 * e % p) % p
  if c then ((x3, z3), (x2, z2)) else ((x2, z2), (x3, z3))

/-- the function X25519 of RFC 7748 on bytes -/
def x25519 (k u : List Byte) : List Byte :=
  let u := leNat u % 2 ^ 255 % p25519
  let s := (bitsDown (clamp (leNat k)) 255).foldl (ladderStep u) ((1, 0), (u, 1))
  toLE 32 (s.1.1 * powP s.1.2 (bitsDown (p25519 - 2) 255) % p25519)

/-- the public key of a secret key -/
def x25519Pub (k : List Byte) : List Byte := x25519 k (toLE 32 9)

end Verif.Aead
