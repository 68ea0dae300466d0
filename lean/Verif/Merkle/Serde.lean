import Verif.Merkle.Model
import Verif.Util.Conversion

/-!
# Model of the serialization of trees and proofs

* Trees: the `serde` derives of `MerkleNode` (`internal.rs:19-51`) and of the tree structs (`macros.rs:14-31`), with
  `jf_utils::canonical` (`utilities/src/serialize.rs:53-87`) for values, positions and elements.  The derives are given
  on the data model of `serde` (`Val`); the formats (`bincode`, JSON) are not modelled, nor the text of tagged base64.
* Proofs: the `CanonicalSerialize` and `CanonicalDeserialize` derives of `MerkleTreeProof` (`internal.rs:80-85`) and
  `MerkleTreeRangeProof` (`internal.rs:177-192`), on bytes.
* Node values: `HasherNode` (`hasher.rs:201-231`) and the nodes of `impl_mt_hash_256!` (`prelude.rs:134-157`).
-/

namespace Verif.Merkle.Serde

open Verif.Conv

/-! ## Bytes -/

/-- `CanonicalSerialize` and `CanonicalDeserialize` of a type: the bytes written, and a reader that returns the value
and what it has not read -/
structure Codec (X : Type) where
  ser : X → List Byte
  de : List Byte → Option (X × List Byte)

/-- `Read::read_exact` -/
def readExact (n : ℕ) (bs : List Byte) : Option (List Byte × List Byte) :=
  if n ≤ bs.length then some (bs.take n, bs.drop n) else none

/-- a node value of `n` bytes: `hasher.rs:201-231` with the output size of the hash, `prelude.rs:134-157` with 32 -/
def bytesCodec (n : ℕ) : Codec (List Byte) where
  ser x := x
  de bs := readExact n bs

/-- an integer of `n` bytes (`u64` for 8), arkworks -/
def uintCodec (n : ℕ) : Codec ℕ where
  ser x := toLE n x
  de bs := (readExact n bs).map fun y => (leNat y.1, y.2)

/-- `n` values one after the other -/
def deMany {X : Type} (c : Codec X) : ℕ → List Byte → Option (List X × List Byte)
  | 0, bs => some ([], bs)
  | n + 1, bs =>
    match c.de bs with
    | none => none
    | some (x, bs) =>
      match deMany c n bs with
      | none => none
      | some (xs, bs) => some (x :: xs, bs)

/-- `Vec<T>` (arkworks): the length as `u64`, then the entries -/
def vecCodec {X : Type} (c : Codec X) : Codec (List X) where
  ser x := toLE 8 x.length ++ x.flatMap c.ser
  de bs :=
    match readExact 8 bs with
    | none => none
    | some (l, bs) => deMany c (leNat l) bs

/-- `MerkleTreeProof`, `internal.rs:80-85` -/
def proofCodec {T : Type} (c : Codec T) : Codec (List (List T)) := vecCodec (vecCodec c)

/-- `MerkleTreeRangeProof`, `internal.rs:177-192`: the fields in order -/
def rangeProofCodec {T : Type} (c : Codec T) : Codec (RangeProof T) where
  ser x := (proofCodec c).ser x.lbound ++ (proofCodec c).ser x.rbound
  de bs :=
    match (proofCodec c).de bs with
    | none => none
    | some (l, bs) =>
      match (proofCodec c).de bs with
      | none => none
      | some (r, bs) => some (⟨l, r⟩, bs)

/-! ## Values of `serde` -/

/-- the names of variants and fields of `MerkleNode` and of the tree structs -/
inductive Name
  | Empty | Branch | Leaf | ForgottenSubtree
  | value | children | pos | elem
  | root | height | numLeaves | phantom
  deriving DecidableEq

/-- the data model of `serde`, as far as it is used here.  A sequence is `nil` or `cons`, the fields of a struct or a
variant are `nil` or `field`. -/
inductive Val
  | num (n : ℕ)
  | unit
  | tagged (tag : String) (bytes : List Byte)
  | nil
  | cons (v rest : Val)
  | field (name : Name) (v rest : Val)
  | variant (name : Name) (fields : Val)
  deriving DecidableEq

/-- outcomes of deserialization other than a value.  `children` stands for a branch whose vector does not have `ARITY`
entries: the code accepts it, but `Node` cannot represent it. -/
inductive DErr
  | type
  | tag
  | invalid
  | children
  deriving DecidableEq

/-- `canonical::serialize`, `utilities/src/serialize.rs:63-71` -/
def canonicalSer {X : Type} (c : Codec X) (x : X) : Val := .tagged "FIELD" (c.ser x)

/-- `canonical::deserialize`, `utilities/src/serialize.rs:73-87`; what the reader leaves unread is ignored -/
def canonicalDe {X : Type} (c : Codec X) : Val → Except DErr X
  | .tagged t bs =>
    if t = "FIELD" then
      match c.de bs with
      | none => .error .invalid
      | some (x, _) => .ok x
    else .error .tag
  | _ => .error .type

/-- a sequence -/
def seq : List Val → Val
  | [] => .nil
  | v :: l => .cons v (seq l)

/-- the codecs of element, index and node value -/
structure Codecs (E I T : Type) where
  elem : Codec E
  index : Codec I
  val : Codec T

variable {a : ℕ} {E I T : Type}

/-- `Serialize for MerkleNode`, `internal.rs:19-51` -/
def serNode (C : Codecs E I T) : Node a E I T → Val
  | .empty => .variant .Empty .nil
  | .branch v c =>
    .variant .Branch (.field .value (canonicalSer C.val v)
      (.field .children (seq (List.ofFn fun i => serNode C (c i))) .nil))
  | .leaf v p e =>
    .variant .Leaf (.field .value (canonicalSer C.val v)
      (.field .pos (canonicalSer C.index p) (.field .elem (canonicalSer C.elem e) .nil)))
  | .forgotten v => .variant .ForgottenSubtree (.field .value (canonicalSer C.val v) .nil)

/-- the children vector of a branch -/
def toChildren (l : List (Node a E I T)) : Option (Fin a → Node a E I T) :=
  if h : l.length = a then some (fun i => l[i.val]'(by rw [h]; exact i.isLt)) else none

mutual

/-- `Deserialize for MerkleNode`, `internal.rs:19-51`.  (Fields come in the order in which they are declared.) -/
def deNode (a : ℕ) (C : Codecs E I T) : Val → Except DErr (Node a E I T)
  | .variant .Empty .nil => .ok .empty
  | .variant .Branch (.field .value v (.field .children cs .nil)) =>
    match canonicalDe C.val v, deNodes a C cs with
    | .error e, _ => .error e
    | .ok _, .error e => .error e
    | .ok v, .ok l =>
      match toChildren l with
      | none => .error .children
      | some c => .ok (.branch v c)
  | .variant .Leaf (.field .value v (.field .pos p (.field .elem e .nil))) =>
    match canonicalDe C.val v, canonicalDe C.index p, canonicalDe C.elem e with
    | .ok v, .ok p, .ok e => .ok (.leaf v p e)
    | .error e, _, _ => .error e
    | .ok _, .error e, _ => .error e
    | .ok _, .ok _, .error e => .error e
  | .variant .ForgottenSubtree (.field .value v .nil) =>
    match canonicalDe C.val v with
    | .error e => .error e
    | .ok v => .ok (.forgotten v)
  | _ => .error .type

/-- the children of a branch, `Vec<Arc<MerkleNode>>` -/
def deNodes (a : ℕ) (C : Codecs E I T) : Val → Except DErr (List (Node a E I T))
  | .nil => .ok []
  | .cons v rest =>
    match deNode a C v, deNodes a C rest with
    | .error e, _ => .error e
    | .ok _, .error e => .error e
    | .ok n, .ok l => .ok (n :: l)
  | _ => .error .type

end

/-- `usize` and `u64` -/
def deNum : Val → Except DErr ℕ
  | .num n => if n < 2 ^ 64 then .ok n else .error .invalid
  | _ => .error .type

/-- `Serialize` of the tree structs, `macros.rs:14-31` -/
def serTree (C : Codecs E I T) (t : Tree a E I T) : Val :=
  .field .root (serNode C t.root) (.field .height (.num t.height) (.field .numLeaves (.num t.numLeaves)
    (.field .phantom .unit .nil)))

/-- `Deserialize` of the tree structs, `macros.rs:14-31` -/
def deTree (a : ℕ) (C : Codecs E I T) : Val → Except DErr (Tree a E I T)
  | .field .root r (.field .height h (.field .numLeaves n (.field .phantom .unit .nil))) =>
    match deNode a C r, deNum h, deNum n with
    | .ok r, .ok h, .ok n => .ok ⟨r, h, n⟩
    | .error e, _, _ => .error e
    | .ok _, .error e, _ => .error e
    | .ok _, .ok _, .error e => .error e
  | _ => .error .type

end Verif.Merkle.Serde
