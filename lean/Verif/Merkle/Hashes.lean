import Verif.Merkle.Oracle
import Verif.Hash.Rescue
import Verif.Hash.Poseidon2
import Verif.Hash.SpongeLemmas

/-!
# Model of the tree hashes of `merkle_tree/src/{prelude,hasher,examples}.rs`

Byte-oriented hash functions (`Sha3_256`, `Keccak256`, any `Digest`) are parameters from byte strings to strings of a fixed length;
serializations of positions and elements are parameters. The conversion `F::from(pos)` is a parameter.
-/

namespace Verif.Merkle

open Verif.Rescue (Vec)

abbrev Octet := Fin 256

/-- `hash(..)[0]` for a list result; an empty list panics -/
def first {ε α : Type} (panic : ε) : Except ε (List α) → Except ε α
  | .error e => .error e
  | .ok [] => .error panic
  | .ok (x :: _) => .ok x

section
variable {F : Type} [Field F] {I : Type}

/-- `RescueHash::digest`, `prelude.rs:55-59` -/
def rescueDigest (f : Vec F → Vec F) (data : List F) : Except Rescue.Err F :=
  first .panic (Rescue.spongeWithZeroPadding f (0 :: data) 1)

/-- `RescueHash::digest_leaf`, `prelude.rs:61-64` -/
def rescueLeaf (f : Vec F → Vec F) (emb : I → F) (pos : I) (elem : F) : Except Rescue.Err F :=
  first .panic (Rescue.spongeWithZeroPadding f [1, emb pos, elem] 1)

/-- `RescueHash::digest` for `Interval`, `examples.rs:22-27` -/
def intervalDigest (f : Vec F → Vec F) (data : List F) : Except Rescue.Err F :=
  first .panic (Rescue.spongeNoPadding f (0 :: data) 1)

/-- `RescueHash::digest_leaf` for `Interval`, `examples.rs:29-33` -/
def intervalLeaf (f : Vec F → Vec F) (emb : ℕ → F) (pos : ℕ) (elem : F × F) : Except Rescue.Err F :=
  first .panic (Rescue.spongeNoPadding f [1, emb pos, elem.1, elem.2] 1)

/-- `FixedLenPoseidon2Hash::digest`, `prelude.rs:86-90` -/
def poseidonDigest (perm : List F → List F) (N R IN : ℕ) (data : List F) : Except Poseidon2.Err F :=
  first .panic (Poseidon2.fixedEvaluate perm N R IN 1 (0 :: data))

/-- `FixedLenPoseidon2Hash::digest_leaf`, `prelude.rs:92-104` -/
def poseidonLeaf (perm : List F → List F) (N R IN : ℕ) (emb : I → F) (pos : I) (elem : F) : Except Poseidon2.Err F :=
  if IN < 3 then .error .param
  else first .panic (Poseidon2.fixedEvaluate perm N R IN 1
    ((((List.replicate IN (0 : F)).set 0 1).set (IN - 2) (emb pos)).set (IN - 1) elem))

/-- `RescueHash` as inputs of the sponge without padding -/
def rescueOracle (f : Vec F → Vec F) (emb : I → F) : Oracle F I F (List F) where
  dflt := 0
  hash x := match Rescue.spongeNoPadding f x 1 with
    | .ok (y :: _) => y
    | _ => 0
  node l := Rescue.padWithZeros (0 :: l) 3
  leaf p e := [1, emb p, e]

/-- `FixedLenPoseidon2Hash` as inputs of the sponge -/
def poseidonOracle (perm : List F → List F) (N R IN : ℕ) (emb : I → F) : Oracle F I F (List F) where
  dflt := 0
  hash x := (Poseidon2.hash perm N R 1 x).headD 0
  node l := 0 :: l ++ List.replicate (IN - (l.length + 1)) 0
  leaf p e := 1 :: List.replicate (IN - 3) 0 ++ [emb p, e]

end

section
variable {E I : Type} {n : ℕ}

/-- hash values of `n` bytes: `Sha3Node`, `Keccak256Node` (`n = 32`), `HasherNode` -/
abbrev Bytes (n : ℕ) := { l : List Octet // l.length = n }

/-- `INTERNAL_HASH_DOM_SEP`, `prelude.rs:52` -/
def internalSep : Octet := 48

/-- `LEAF_HASH_DOM_SEP`, `prelude.rs:50` -/
def leafSep : Octet := 49

/-- `digest` of `impl_mt_hash_256!`, `prelude.rs:170-177`, and of `HasherDigestAlgorithm`, `hasher.rs:150-157` -/
def bytesDigest (h : List Octet → Bytes n) (data : List (Bytes n)) : Bytes n :=
  h (data.foldl (fun acc v => acc ++ v.1) [internalSep])

/-- `digest_leaf` of `impl_mt_hash_256!`, `prelude.rs:179-186`: the position is not used -/
def shaLeaf (h : List Octet → Bytes n) (ser : E → List Octet) (_pos : I) (elem : E) : Bytes n := h ([leafSep] ++ ser elem)

/-- `digest_leaf` of `HasherDigestAlgorithm`, `hasher.rs:159-167` -/
def hasherLeaf (h : List Octet → Bytes n) (serI : I → List Octet) (ser : E → List Octet) (pos : I) (elem : E) : Bytes n :=
  h ([leafSep] ++ serI pos ++ ser elem)

/-- `T::default()` -/
def zeroBytes (n : ℕ) : Bytes n := ⟨List.replicate n 0, by simp⟩

/-- the input of an inner node -/
def bytesNode (l : List (Bytes n)) : List Octet := internalSep :: (l.map (·.1)).flatten

/-- `Sha3Digest`, `Keccak256Digest` as inputs of the hash function -/
def shaOracle (h : List Octet → Bytes n) (ser : E → List Octet) : Oracle E I (Bytes n) (List Octet) :=
  ⟨zeroBytes n, h, bytesNode, fun _ e => leafSep :: ser e⟩

/-- `HasherDigestAlgorithm` as inputs of the hash function -/
def hasherOracle (h : List Octet → Bytes n) (serI : I → List Octet) (ser : E → List Octet) :
    Oracle E I (Bytes n) (List Octet) :=
  ⟨zeroBytes n, h, bytesNode, fun p e => leafSep :: (serI p ++ ser e)⟩

end

end Verif.Merkle
