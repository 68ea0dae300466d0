import Verif.Merkle.Serde

/-!
# Deserialized trees whose branches have any number of children

`children` is a `Vec` (`internal.rs:29-35`), and nothing compares its length to `ARITY` when a tree is deserialized.
`RNode` is `MerkleNode` without the restriction of `Node`.
-/

namespace Verif.Merkle.Serde

open Verif.Conv

/-- `MerkleNode`, `internal.rs:22-51`, with a vector of `n` children -/
inductive RNode (E I T : Type)
  | empty
  | branch (value : T) (n : ℕ) (children : Fin n → RNode E I T)
  | leaf (value : T) (pos : I) (elem : E)
  | forgotten (value : T)

/-- the tree structs, `macros.rs:20-31` -/
structure RTree (E I T : Type) where
  root : RNode E I T
  height : ℕ
  numLeaves : ℕ

variable {a : ℕ} {E I T : Type}

/-- `MerkleNode::value`, `internal.rs:60-71` -/
def RNode.value (H : Hasher E I T) : RNode E I T → T
  | .empty => H.dflt
  | .leaf v _ _ => v
  | .branch v _ _ => v
  | .forgotten v => v

/-- `Serialize for MerkleNode`, `internal.rs:19-51` -/
def serRNode (C : Codecs E I T) : RNode E I T → Val
  | .empty => .variant .Empty .nil
  | .branch v _ c =>
    .variant .Branch (.field .value (canonicalSer C.val v)
      (.field .children (seq (List.ofFn fun i => serRNode C (c i))) .nil))
  | .leaf v p e =>
    .variant .Leaf (.field .value (canonicalSer C.val v)
      (.field .pos (canonicalSer C.index p) (.field .elem (canonicalSer C.elem e) .nil)))
  | .forgotten v => .variant .ForgottenSubtree (.field .value (canonicalSer C.val v) .nil)

mutual

/-- `Deserialize for MerkleNode`, `internal.rs:19-51` -/
def deRNode (C : Codecs E I T) : Val → Except DErr (RNode E I T)
  | .variant .Empty .nil => .ok .empty
  | .variant .Branch (.field .value v (.field .children cs .nil)) =>
    match canonicalDe C.val v, deRNodes C cs with
    | .error e, _ => .error e
    | .ok _, .error e => .error e
    | .ok v, .ok l => .ok (.branch v l.length l.get)
  | .variant .Leaf (.field .value v (.field .pos p (.field .elem e .nil))) =>
    match canonicalDe C.val v, canonicalDe C.index p, canonicalDe C.elem e with
    | .ok v, .ok p, .ok e => .ok (.leaf v p e)
    | .error e, _, _ => .error e
    | .ok _, .error e, _ => .error e
    | .ok _, .ok _, .error e => .error e
  | .variant .ForgottenSubtree (.field .value v .nil) =>
    match canonicalDe C.val v with
    | .error e => .error e
    | .ok v => .ok (.forgotten v)
  | _ => .error .type

/-- the children of a branch, `Vec<Arc<MerkleNode>>` -/
def deRNodes (C : Codecs E I T) : Val → Except DErr (List (RNode E I T))
  | .nil => .ok []
  | .cons v rest =>
    match deRNode C v, deRNodes C rest with
    | .error e, _ => .error e
    | .ok _, .error e => .error e
    | .ok n, .ok l => .ok (n :: l)
  | _ => .error .type

end

/-- `Serialize` of the tree structs, `macros.rs:14-31` -/
def serRTree (C : Codecs E I T) (t : RTree E I T) : Val :=
  .field .root (serRNode C t.root) (.field .height (.num t.height) (.field .numLeaves (.num t.numLeaves)
    (.field .phantom .unit .nil)))

/-- `Deserialize` of the tree structs, `macros.rs:14-31` -/
def deRTree (C : Codecs E I T) : Val → Except DErr (RTree E I T)
  | .field .root r (.field .height h (.field .numLeaves n (.field .phantom .unit .nil))) =>
    match deRNode C r, deNum h, deNum n with
    | .ok r, .ok h, .ok n => .ok ⟨r, h, n⟩
    | .error e, _, _ => .error e
    | .ok _, .error e, _ => .error e
    | .ok _, .ok _, .error e => .error e
  | _ => .error .type

/-- the values of the children other than number `b`, `internal.rs:628-635, 642-648` -/
def rSiblings (H : Hasher E I T) {n : ℕ} (c : Fin n → RNode E I T) (b : ℕ) : List T :=
  ((List.finRange n).filter (·.val ≠ b)).map fun i => (c i).value H

/-- `lookup_internal`, `internal.rs:616-659`; indexing a vector beyond its end panics -/
def lookupRaw (H : Hasher E I T) :
    ℕ → RNode E I T → List ℕ → Except MErr (LookupResult E (List (List T)) (List (List T)))
  | h, .empty, _ => .ok (.notFound (List.replicate h []))
  | h, .branch _ n c, path =>
    match h with
    | 0 => .error .panic
    | h' + 1 =>
      match path[h']? with
      | none => .error .panic
      | some b =>
        if hb : b < n then
          match lookupRaw H h' (c ⟨b, hb⟩) path with
          | .error e => .error e
          | .ok (.ok elem p) => .ok (.ok elem (p ++ [rSiblings H c b]))
          | .ok .notInMemory => .ok .notInMemory
          | .ok (.notFound p) => .ok (.notFound (p ++ [rSiblings H c b]))
        else .error .panic
  | _, .leaf _ _ e, _ => .ok (.ok e [])
  | _, .forgotten _, _ => .ok .notInMemory

/-- `lookup_internal` from the root, as called in `macros.rs:67-81` and `universal_merkle_tree.rs:105-112` -/
def RTree.lookup (a : ℕ) [NeZero a] (H : Hasher E I T) (idx : I → ℕ) (t : RTree E I T) (pos : I) :
    Except MErr (LookupResult E (List (List T)) (List (List T))) :=
  lookupRaw H t.height t.root ((toPath a (idx pos) t.height).map Fin.val)

end Verif.Merkle.Serde
