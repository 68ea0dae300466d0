import Mathlib.Data.List.OfFn
import Mathlib.Data.List.FinRange
import Mathlib.Data.Fin.Basic
import Mathlib.Logic.Function.Basic

/-!
# Model of `merkle_tree/src/internal.rs` and the tree types built on it

A node's children vector (`Vec<Arc<MerkleNode>>`, always `ARITY` entries in a
well-structured tree) is a function `Fin a → Node`.  Recursion is on the height
argument the Rust code carries, so every model function is total and computable.
Array accesses that would panic are the explicit error `MErr.panic`.

Simplifications (all functions in this file):
* the hash functions are total (`DigestAlgorithm` returns `Result`; the
  implementations in `prelude.rs` only fail on lengths fixed by `ARITY`);
* positions and counters are natural numbers, except where a cast matters;
* `Arc` sharing is not modelled (nodes are immutable values in Rust too).
-/

namespace Verif.Merkle

/-- `merkle_tree/src/errors.rs` plus the explicit outcome `panic` (slice index out of
bounds / arithmetic underflow), `diverge` (a loop that does not terminate) and
`illFormed` (a branch node whose children vector does not have `ARITY` entries). -/
inductive MErr
  | inconsistentStructure
  | parameters
  | exceedCapacity
  | existingLeaf
  | forgottenLeaf
  | panic
  | diverge
  | illFormed
  deriving DecidableEq, Repr

/-- `LookupResult`, `merkle_tree/src/lib.rs:47-60`. -/
inductive LookupResult (F P N : Type)
  | ok (value : F) (proof : P)
  | notInMemory
  | notFound (proof : N)
  deriving DecidableEq, Repr

/-- `DigestAlgorithm` + `T::default()`, `merkle_tree/src/lib.rs:113-130`. -/
structure Hasher (E I T : Type) where
  /-- `T::default()`, the value of an empty subtree -/
  dflt : T
  /-- `H::digest` -/
  digest : List T → T
  /-- `H::digest_leaf` -/
  digestLeaf : I → E → T

/-- `MerkleNode`, `internal.rs:22-51`. -/
inductive Node (a : ℕ) (E I T : Type)
  | empty
  | branch (value : T) (children : Fin a → Node a E I T)
  | leaf (value : T) (pos : I) (elem : E)
  | forgotten (value : T)

variable {a : ℕ} {E I T : Type}

namespace Node

/-- `MerkleNode::value`, `internal.rs:61-72`. -/
def value (H : Hasher E I T) : Node a E I T → T
  | .empty => H.dflt
  | .leaf v _ _ => v
  | .branch v _ => v
  | .forgotten v => v

/-- `MerkleNode::is_forgotten`, `internal.rs:74-77`. -/
def isForgotten : Node a E I T → Bool
  | .forgotten _ => true
  | _ => false

/-- `matches!(child, MerkleNode::Empty)`. -/
def isEmpty : Node a E I T → Bool
  | .empty => true
  | _ => false

end Node

/-- `impl_to_traversal_path_primitives!` / `_biguint!`, `macros.rs:270-302`: the `height`
low-order base-`ARITY` digits, least significant first. -/
def toPath (a : ℕ) [NeZero a] : ℕ → ℕ → List (Fin a)
  | _, 0 => []
  | pos, h + 1 => Fin.ofNat a pos :: toPath a (pos / a) h

/-- `digest_branch`, `internal.rs:428-440`. -/
def digestBranch (H : Hasher E I T) (c : Fin a → Node a E I T) : T :=
  H.digest (List.ofFn fun i => (c i).value H)

/-- `children.iter().enumerate().filter(|(id, _)| *id != branch).map(value).collect()`,
`internal.rs:478-484, 634-640`. -/
def siblings (H : Hasher E I T) (c : Fin a → Node a E I T) (b : Fin a) : List T :=
  ((List.finRange a).filter (· ≠ b)).map fun i => (c i).value H

/-- The body of the fold in `verify_merkle_proof`, `internal.rs:158-166`: an empty level
resets the value to the default, otherwise the value is put at slot `branch` among the
sibling values and hashed. -/
def foldStep (H : Hasher E I T) (val : T) (bv : Fin a × List T) : T :=
  if bv.2 = [] then H.dflt
  else H.digest (bv.2.take bv.1 ++ val :: bv.2.drop bv.1)

/-- `verify_merkle_proof`, `internal.rs:107-175`.  `Ok(SUCCESS)` is `.ok true`,
`Ok(FAIL)` is `.ok false`.  Note that the proof length is not compared to any height. -/
def verifyMerkleProof [DecidableEq T] [NeZero a] (H : Hasher E I T) (idx : I → ℕ)
    (commitment : T) (pos : I) (element : Option E) (proof : List (List T)) :
    Except MErr Bool :=
  let init := match element with
    | some e => H.digestLeaf pos e
    | none => H.dflt
  let wellFormed := match element with
    | some _ => proof.all fun v => v.length == a - 1
    | none => proof.all fun v => v.length == a - 1 || v.isEmpty
  if wellFormed then
    let root := ((toPath a (idx pos) proof.length).zip proof).foldl (foldStep H) init
    .ok (root = commitment)
  else .error .inconsistentStructure

/-- Split in consecutive pieces of length `n` (the last one may be shorter):
`slice::chunks` / `Itertools::chunks`.  `fuel` bounds the number of pieces;
`chunks n l` uses `l.length`, enough for every `n ≥ 1`. -/
def chunksAux {α : Type} (n : ℕ) : ℕ → List α → List (List α)
  | 0, _ => []
  | fuel + 1, l => if l.isEmpty then [] else l.take n :: chunksAux n fuel (l.drop n)

/-- `slice::chunks(n)`. -/
def chunks {α : Type} (n : ℕ) (l : List α) : List (List α) := chunksAux n l.length l

/-- `MerkleTreeRangeProof`, `internal.rs:189-192`. -/
structure RangeProof (T : Type) where
  lbound : List (List T)
  rbound : List (List T)

/-- The loop of `verify_merkle_range_proof`, `internal.rs:222-234`. -/
def rangeLoop (a : ℕ) (H : Hasher E I T) : List (List T × List T) → List T → Except MErr (List T)
  | [], values => .ok values
  | (l, r) :: rest, values =>
    let d := l ++ values ++ r
    if d.length % a ≠ 0 then .error .inconsistentStructure
    else rangeLoop a H rest ((chunks a d).map H.digest)

/-- `verify_merkle_range_proof`, `internal.rs:202-246`. -/
def verifyRangeProof [DecidableEq T] (a : ℕ) (H : Hasher E I T)
    (commitment : T) (indices : List I) (elements : List E) (proof : RangeProof T) :
    Except MErr Bool :=
  if indices.length ≠ elements.length then .error .parameters
  else do
    let values ← rangeLoop a H (proof.lbound.zip proof.rbound)
      (List.zipWith H.digestLeaf indices elements)
    match values with
    | [v] => .ok (v = commitment)
    | _ => .error .inconsistentStructure

/-- The height computation shared by `build_tree_internal` and
`build_light_weight_tree_internal`, `internal.rs:260-268`: smallest `h` with
`ARITY^h ≥ num_leaves`.  The loop does not terminate for `ARITY = 1` and more than one
element; `fuel` makes this the explicit outcome `diverge`. -/
def minHeightLoop (a n : ℕ) : ℕ → ℕ → ℕ → Except MErr ℕ
  | 0, _, _ => .error .diverge
  | fuel + 1, height, capacity =>
    if capacity < n then minHeightLoop a n fuel (height + 1) (capacity * a) else .ok height

/-- `height.unwrap_or_else(..)`. -/
def chooseHeight (a : ℕ) (height : Option ℕ) (n : ℕ) : Except MErr ℕ :=
  match height with
  | some h => .ok h
  | none => minHeightLoop a n (n + 1) 0 1

/-- `pad_using(ARITY, Empty)` then index: a chunk of at most `a` nodes as a children vector. -/
def padChildren (a : ℕ) (l : List (Node a E I T)) : Fin a → Node a E I T :=
  fun i => l.getD i .empty

/-- `MerkleNode::Branch { value: digest_branch(&children)?, children }`. -/
def mkBranch (H : Hasher E I T) (c : Fin a → Node a E I T) : Node a E I T :=
  .branch (digestBranch H c) c

/-- One level of grouping, `internal.rs:309-322`. -/
def groupLevel (H : Hasher E I T) (nodes : List (Node a E I T)) : List (Node a E I T) :=
  (chunks a nodes).map fun ch => mkBranch H (padChildren a ch)

/-- A leaf node with its digest. -/
def mkLeaf (H : Hasher E I T) (pos : I) (e : E) : Node a E I T :=
  .leaf (H.digestLeaf pos e) pos e

/-- `build_tree_internal`, `internal.rs:249-327`. -/
def buildTree (a : ℕ) (H : Hasher E ℕ T) (height : Option ℕ) (elems : List E) :
    Except MErr (Node a E ℕ T × ℕ × ℕ) := do
  let numLeaves := elems.length
  let h ← chooseHeight a height numLeaves
  if numLeaves > a ^ h then .error .exceedCapacity
  else if numLeaves = 0 then .ok (.empty, h, 0)
  else
    let leaves := elems.zipIdx.map fun (e, i) => mkLeaf H i e
    match h with
    | 0 => match leaves with
      | l :: _ => .ok (l, 0, 1)
      | [] => .error .panic
    | h' + 1 =>
      let nodes := (groupLevel H)^[h' + 1] leaves
      match nodes with
      | n :: _ => .ok (n, h' + 1, numLeaves)
      | [] => .error .panic

/-- `for i in 1..cur_nodes.len() - 1 { cur_nodes[i] = Forgotten }`, `internal.rs:397-401`. -/
def forgetInner (H : Hasher E I T) (nodes : List (Node a E I T)) : List (Node a E I T) :=
  nodes.mapIdx fun i n => if 1 ≤ i ∧ i < nodes.length - 1 then .forgotten (n.value H) else n

/-- `build_light_weight_tree_internal`, `internal.rs:330-426`. -/
def buildLightWeightTree (a : ℕ) (H : Hasher E ℕ T) (height : Option ℕ) (elems : List E) :
    Except MErr (Node a E ℕ T × ℕ × ℕ) := do
  let numLeaves := elems.length
  let h ← chooseHeight a height numLeaves
  if a ^ h ≥ 2 ^ 64 then .error .parameters
  else if numLeaves > a ^ h then .error .exceedCapacity
  else if numLeaves = 0 then .ok (.empty, h, 0)
  else
    match h with
    | 0 => match elems with
      | e :: _ => .ok (mkLeaf H 0 e, 0, 1)
      | [] => .error .panic
    | h' + 1 =>
      let leaves := elems.zipIdx.map fun (e, i) =>
        if i < numLeaves - 1 then .forgotten (H.digestLeaf i e) else mkLeaf H i e
      let nodes := (fun ns => forgetInner H (groupLevel H ns))^[h' + 1] leaves
      match nodes with
      | n :: _ => .ok (n, h' + 1, numLeaves)
      | [] => .error .panic

/-- `forget_internal`, `internal.rs:452-529`. -/
def forgetInternal (H : Hasher E I T) :
    ℕ → Node a E I T → List (Fin a) →
      Except MErr (Node a E I T × LookupResult E (List (List T)) (List (List T)))
  | _, .empty, _ => .ok (.empty, .notFound [])
  | h, .branch v c, path =>
    match h with
    | 0 => .error .panic
    | h' + 1 =>
      match path[h']? with
      | none => .error .panic
      | some b =>
        match forgetInternal H h' (c b) path with
        | .error e => .error e
        | .ok (newChild, .ok elem p) =>
          let p' := p ++ [siblings H c b]
          let c' := Function.update c b newChild
          if (List.finRange a).all fun i => (c' i).isEmpty || (c' i).isForgotten then
            .ok (.forgotten v, .ok elem p')
          else .ok (.branch v c', .ok elem p')
        | .ok (_, .notInMemory) => .ok (.branch v c, .notInMemory)
        | .ok (_, .notFound p) => .ok (.branch v c, .notFound (p ++ [siblings H c b]))
  | _, .leaf v _ e, _ => .ok (.forgotten v, .ok e [])
  | _, .forgotten v, _ => .ok (.forgotten v, .notInMemory)

/-- `remember_internal`, `internal.rs:533-610`.  In the forgotten case the code inserts the
node's own value as placeholder at `branch` of the proof level (`Vec::insert` panics when
`branch > len`) and makes the siblings forgotten nodes; if the level does not have
`ARITY - 1` entries the children vector has the wrong length (`illFormed`). -/
def rememberInternal (H : Hasher E I T) :
    ℕ → Node a E I T → List (Fin a) → I → Option E → List (List T) →
      Except MErr (Node a E I T)
  | _, .empty, _, _, _, _ => .ok .empty
  | h, .leaf v p e, _, _, _, _ =>
    if h ≠ 0 then .error .inconsistentStructure else .ok (.leaf v p e)
  | h, .branch v c, path, pos, el, proof =>
    match h with
    | 0 => .error .inconsistentStructure
    | h' + 1 =>
      match path[h']? with
      | none => .error .panic
      | some b =>
        match rememberInternal H h' (c b) path pos el proof with
        | .error e => .error e
        | .ok n => .ok (.branch v (Function.update c b n))
  | 0, .forgotten _, _, pos, el, _ =>
    match el with
    | some e => .ok (mkLeaf H pos e)
    | none => .ok .empty
  | h' + 1, .forgotten v, path, pos, el, proof =>
    match path[h']?, proof[h']? with
    | some b, some values =>
      if values.length < b then .error .panic
      else if values.length + 1 ≠ a then .error .illFormed
      else
        let vs := values.insertIdx b v
        let c : Fin a → Node a E I T := fun i => .forgotten (vs.getD i v)
        match rememberInternal H h' (.forgotten v) path pos el proof with
        | .error e => .error e
        | .ok n =>
          let c' := Function.update c b n
          .ok (.branch (H.digest (vs.set b (n.value H))) c')
    | _, _ => .error .panic

/-- `lookup_internal`, `internal.rs:616-659`. -/
def lookupInternal (H : Hasher E I T) :
    ℕ → Node a E I T → List (Fin a) →
      Except MErr (LookupResult E (List (List T)) (List (List T)))
  | h, .empty, _ => .ok (.notFound (List.replicate h []))
  | h, .branch _ c, path =>
    match h with
    | 0 => .error .panic
    | h' + 1 =>
      match path[h']? with
      | none => .error .panic
      | some b =>
        match lookupInternal H h' (c b) path with
        | .error e => .error e
        | .ok (.ok elem p) => .ok (.ok elem (p ++ [siblings H c b]))
        | .ok .notInMemory => .ok .notInMemory
        | .ok (.notFound p) => .ok (.notFound (p ++ [siblings H c b]))
  | _, .leaf _ _ e, _ => .ok (.ok e [])
  | _, .forgotten _, _ => .ok .notInMemory

/-- State of the loop in `range_lookup_internal`. -/
structure RangeAcc (E I T : Type) where
  indices : List I
  elements : List E
  proof : RangeProof T

/-- Body of the `for i in l..=r` loop of `range_lookup_internal`, `internal.rs:683-707`; `rec i lf rf`
is the recursive call on child `i`. -/
def rangeStep (rec : Fin a → Bool → Bool → Except MErr (LookupResult (List I × List E) (RangeProof T) Unit))
    (lOn rOn : Bool) (l r : ℕ) (st : Except MErr (LookupResult (RangeAcc E I T) Unit Unit)) (i : Fin a) :
    Except MErr (LookupResult (RangeAcc E I T) Unit Unit) :=
  match st with
  | .error e => .error e
  | .ok (.ok acc ()) =>
    match rec i (lOn && i.val == l) (rOn && i.val == r) with
    | .error e => .error e
    | .ok (.ok (ids, els) p) =>
      .ok (.ok
        { indices := acc.indices ++ ids
          elements := acc.elements ++ els
          proof :=
            { lbound := if lOn && i.val == l then p.lbound else acc.proof.lbound
              rbound := if rOn && i.val == r then p.rbound else acc.proof.rbound } } ())
    | .ok .notInMemory => .ok .notInMemory
    | .ok (.notFound _) => .ok (.notFound ())
  | .ok .notInMemory => .ok .notInMemory
  | .ok (.notFound _) => .ok (.notFound ())

/-- What `range_lookup_internal` appends to the proof after the loop, `internal.rs:708-722`. -/
def rangeFinish (vals : List T) (lOn rOn : Bool) (l r : ℕ)
    (st : Except MErr (LookupResult (RangeAcc E I T) Unit Unit)) :
    Except MErr (LookupResult (List I × List E) (RangeProof T) Unit) :=
  match st with
  | .error e => .error e
  | .ok .notInMemory => .ok .notInMemory
  | .ok (.notFound _) => .ok (.notFound ())
  | .ok (.ok acc ()) =>
    .ok (.ok (acc.indices, acc.elements)
      { lbound := if lOn then acc.proof.lbound ++ [vals.take l] else acc.proof.lbound
        rbound := if rOn then acc.proof.rbound ++ [vals.drop (r + 1)] else acc.proof.rbound })

/-- `range_lookup_internal`, `internal.rs:664-730`.  The `for i in l..=r` loop is a fold over
the indices between `l` and `r`. -/
def rangeLookupInternal (H : Hasher E I T) :
    ℕ → Node a E I T → List (Fin a) → List (Fin a) → Bool → Bool →
      Except MErr (LookupResult (List I × List E) (RangeProof T) Unit)
  | _, .empty, _, _, _, _ => .ok (.notFound ())
  | h, .branch _ c, lb, rb, lOn, rOn =>
    match h with
    | 0 => .error .panic
    | h' + 1 =>
      let l? : Option ℕ := if lOn then (lb[h']?).map Fin.val else some 0
      let r? : Option ℕ := if rOn then (rb[h']?).map Fin.val else some (a - 1)
      match l?, r? with
      | some l, some r =>
        let loop := ((List.finRange a).filter fun i => l ≤ i.val && i.val ≤ r).foldl
          (rangeStep (fun i lf rf => rangeLookupInternal H h' (c i) lb rb lf rf) lOn rOn l r)
          (.ok (.ok ⟨[], [], ⟨[], []⟩⟩ ()))
        rangeFinish (List.ofFn fun i => (c i).value H) lOn rOn l r loop
      | _, _ => .error .panic
  | _, .leaf _ p e, _, _, _, _ => .ok (.ok ([p], [e]) ⟨[], []⟩)
  | _, .forgotten _, _, _, _, _ => .ok .notInMemory

/-- `update_with_internal`, `internal.rs:738-858`. -/
def updateWithInternal (H : Hasher E I T) :
    ℕ → Node a E I T → I → List (Fin a) → (Option E → Option E) →
      Except MErr (Node a E I T × ℤ × LookupResult E Unit Unit)
  | _, .leaf _ p e, _, _, f =>
    match f (some e) with
    | some e' => .ok (mkLeaf H p e', 0, .ok e ())
    | none => .ok (.empty, -1, .ok e ())
  | h, .branch v c, pos, path, f =>
    match h with
    | 0 => .error .panic
    | h' + 1 =>
      match path[h']? with
      | none => .error .panic
      | some b =>
        match updateWithInternal H h' (c b) pos path f with
        | .error e => .error e
        | .ok (n, delta, res) =>
          let c' := Function.update c b n
          if n.isForgotten then .ok (.branch v c', delta, res)
          else if (List.finRange a).all fun i => (c' i).isEmpty then .ok (.empty, delta, res)
          else .ok (mkBranch H c', delta, res)
  | 0, .empty, pos, _, f =>
    match f none with
    | some e => .ok (mkLeaf H pos e, 1, .notFound ())
    | none => .ok (.empty, 0, .notFound ())
  | h' + 1, .empty, pos, path, f =>
    match path[h']? with
    | none => .error .panic
    | some b =>
      match updateWithInternal H h' .empty pos path f with
      | .error e => .error e
      | .ok (n, delta, res) =>
        let c' : Fin a → Node a E I T := Function.update (fun _ => .empty) b n
        if n.isEmpty then .ok (.empty, 0, res)
        else .ok (mkBranch H c', delta, res)
  | _, .forgotten _, _, _, _ => .error .forgottenLeaf

/-- `collect_all_with_proofs`, `internal.rs:861-885`.  The mutable buffer `current_proof` is
threaded through; the collector is the returned list. -/
def collectAllWithProofs (H : Hasher E I T) :
    ℕ → Node a E I T → List (List T) → Except MErr (List (List T) × List (I × E × List (List T)))
  | h, .branch _ c, buf =>
    match h with
    | 0 => .error .panic
    | h' + 1 =>
      let vals := List.ofFn fun i => (c i).value H
      (List.finRange a).foldl
        (fun (st : Except MErr (List (List T) × List (I × E × List (List T)))) i =>
          match st with
          | .error e => .error e
          | .ok (buf, out) =>
            match buf[h']? with
            | none => .error .panic
            | some lvl =>
              if lvl.length + 1 = a then
                match collectAllWithProofs H h' (c i) (buf.set h' (vals.take i ++ vals.drop (i + 1))) with
                | .error e => .error e
                | .ok (buf', out') => .ok (buf', out ++ out')
              else .error .panic)
        (.ok (buf, []))
  | _, .leaf _ p e, buf => .ok (buf, [(p, e, buf)])
  | _, .empty, buf => .ok (buf, [])
  | _, .forgotten _, buf => .ok (buf, [])

/-- State of the `while data.peek().is_some() && frontier < cap` loop of `extend_internal`:
children, current position, count, remaining data. -/
structure ExtAcc (a : ℕ) (E I T : Type) where
  children : Fin a → Node a E I T
  curPos : ℕ
  cnt : ℕ
  data : List E

/-- `extend_internal`, `internal.rs:894-982`.  `data` is the remaining input (the peekable
iterator); the result contains what is left of it.  The `Branch` and `Empty` arms of the Rust
code are the same loop, started from the node's children or from `ARITY` empty children. -/
def extendInternal (H : Hasher E ℕ T) :
    ℕ → Node a E ℕ T → ℕ → List (Fin a) → Bool → List E →
      Except MErr (Node a E ℕ T × ℕ × List E)
  | h, node, pos, path, atFrontier, data =>
    if data.isEmpty then .ok (node, 0, data)
    else
      match h, node with
      | _, .leaf _ _ _ => .error .existingLeaf
      | _, .forgotten _ => .error .forgottenLeaf
      | 0, .branch _ _ => .error .panic
      | 0, .empty =>
        match data with
        | e :: rest => .ok (mkLeaf H pos e, 1, rest)
        | [] => .error .panic
      | h' + 1, node =>
        let c0 : Fin a → Node a E ℕ T := match node with
          | .branch _ c => c
          | _ => fun _ => .empty
        let start? : Option ℕ := if atFrontier then (path[h']?).map Fin.val else some 0
        match start? with
        | none => .error .panic
        | some start =>
          let loop := ((List.finRange a).filter fun i => start ≤ i.val).foldl
            (fun (st : Except MErr (ExtAcc a E ℕ T)) i =>
              match st with
              | .error e => .error e
              | .ok acc =>
                if acc.data.isEmpty then .ok acc
                else
                  match extendInternal H h' (acc.children i) acc.curPos path
                      (atFrontier && i.val == start) acc.data with
                  | .error e => .error e
                  | .ok (n, inc, rest) =>
                    .ok ⟨Function.update acc.children i n, acc.curPos + inc, acc.cnt + inc, rest⟩)
            (.ok ⟨c0, pos, 0, data⟩)
          match loop with
          | .error e => .error e
          | .ok acc => .ok (mkBranch H acc.children, acc.cnt, acc.data)

/-- `children[frontier - 1] = ForgottenSubtree` before descending in `children[frontier]`,
`internal.rs:1017-1022, 1057-1062`. -/
def forgetPrev (H : Hasher E I T) (c : Fin a → Node a E I T) (i : Fin a) : Fin a → Node a E I T :=
  fun j => if j.val + 1 = i.val ∧ !(c j).isForgotten then .forgotten ((c j).value H) else c j

/-- `extend_and_forget_internal`, `internal.rs:986-1087`. -/
def extendAndForgetInternal (H : Hasher E ℕ T) :
    ℕ → Node a E ℕ T → ℕ → List (Fin a) → Bool → List E →
      Except MErr (Node a E ℕ T × ℕ × List E)
  | h, node, pos, path, atFrontier, data =>
    if data.isEmpty then .ok (node, 0, data)
    else
      match h, node with
      | _, .leaf _ _ _ => .error .existingLeaf
      | _, .forgotten _ => .error .forgottenLeaf
      | 0, .branch _ _ => .error .panic
      | 0, .empty =>
        match data with
        | e :: rest => .ok (mkLeaf H pos e, 1, rest)
        | [] => .error .panic
      | h' + 1, node =>
        let c0 : Fin a → Node a E ℕ T := match node with
          | .branch _ c => c
          | _ => fun _ => .empty
        let start? : Option ℕ := if atFrontier then (path[h']?).map Fin.val else some 0
        match start? with
        | none => .error .panic
        | some start =>
          let loop := ((List.finRange a).filter fun i => start ≤ i.val).foldl
            (fun (st : Except MErr (ExtAcc a E ℕ T)) i =>
              match st with
              | .error e => .error e
              | .ok acc =>
                if acc.data.isEmpty then .ok acc
                else
                  let c := forgetPrev H acc.children i
                  match extendAndForgetInternal H h' (c i) acc.curPos path
                      (atFrontier && i.val == start) acc.data with
                  | .error e => .error e
                  | .ok (n, inc, rest) =>
                    .ok ⟨Function.update c i n, acc.curPos + inc, acc.cnt + inc, rest⟩)
            (.ok ⟨c0, pos, 0, data⟩)
          match loop with
          | .error e => .error e
          | .ok acc => .ok (mkBranch H acc.children, acc.cnt, acc.data)

/-- Complete runs of `MerkleTreeIter` / `MerkleTreeIntoIter`, `internal.rs:1091-1186`:
`IterYields stack out` says that repeatedly calling `next` on an iterator with this stack
(head = top) produces exactly the items `out` and then `None`.  Popping a branch pushes its
branch/leaf children in reverse order, so the first child ends on top. -/
inductive IterYields {a : ℕ} {E I T : Type} : List (Node a E I T) → List (I × E) → Prop
  | nil : IterYields [] []
  | branch (v : T) (c : Fin a → Node a E I T) (st : List (Node a E I T)) (out : List (I × E)) :
      IterYields (((List.ofFn c).filter fun n => !n.isEmpty && !n.isForgotten) ++ st) out →
      IterYields (.branch v c :: st) out
  | leaf (v : T) (p : I) (e : E) (st : List (Node a E I T)) (out : List (I × E)) :
      IterYields st out → IterYields (.leaf v p e :: st) ((p, e) :: out)
  | empty (st : List (Node a E I T)) (out : List (I × E)) :
      IterYields st out → IterYields (.empty :: st) out
  | forgotten (v : T) (st : List (Node a E I T)) (out : List (I × E)) :
      IterYields st out → IterYields (.forgotten v :: st) out

/-- The tree structs generated by `impl_merkle_tree_scheme!`, `macros.rs:20-31`. -/
structure Tree (a : ℕ) (E I T : Type) where
  root : Node a E I T
  height : ℕ
  numLeaves : ℕ

namespace Tree

/-- `new(height)`: `append_only.rs:36-43`, `light_weight.rs:37-44`,
`universal_merkle_tree.rs:34-41`. -/
def new (height : ℕ) : Tree a E I T := ⟨.empty, height, 0⟩

/-- `commitment()`, `macros.rs:63-65`. -/
def commitment (H : Hasher E I T) (t : Tree a E I T) : T := t.root.value H

/-- `universal_lookup`, `universal_merkle_tree.rs:105-112`.
(`lookup` of `macros.rs:67-81` is the same with the non-membership proof dropped.) -/
def universalLookup [NeZero a] (H : Hasher E I T) (idx : I → ℕ) (t : Tree a E I T) (pos : I) :
    Except MErr (LookupResult E (List (List T)) (List (List T))) :=
  lookupInternal H t.height t.root (toPath a (idx pos) t.height)

/-- `lookup`, `macros.rs:67-81`. -/
def lookup [NeZero a] (H : Hasher E I T) (idx : I → ℕ) (t : Tree a E I T) (pos : I) :
    Except MErr (LookupResult E (List (List T)) Unit) :=
  match t.universalLookup H idx pos with
  | .error e => .error e
  | .ok (.ok v p) => .ok (.ok v p)
  | .ok .notInMemory => .ok .notInMemory
  | .ok (.notFound _) => .ok (.notFound ())

/-- `verify`, `macros.rs:83-90`. -/
def verify [DecidableEq T] (a : ℕ) [NeZero a] (H : Hasher E I T) (idx : I → ℕ)
    (commitment : T) (pos : I) (e : E) (proof : List (List T)) : Except MErr Bool :=
  verifyMerkleProof (a := a) H idx commitment pos (some e) proof

/-- `non_membership_verify`, `universal_merkle_tree.rs:92-103`. -/
def nonMembershipVerify [DecidableEq T] (a : ℕ) [NeZero a] (H : Hasher E I T) (idx : I → ℕ)
    (commitment : T) (pos : I) (proof : List (List T)) : Except MErr Bool :=
  verifyMerkleProof (a := a) H idx commitment pos none proof

/-- The cast `(delta + self.num_leaves as i64) as u64`, `universal_merkle_tree.rs:88`
(two's complement, so modulo `2^64`). -/
def addDelta (n : ℕ) (delta : ℤ) : ℕ := ((delta + n) % 2 ^ 64).toNat

/-- `update_with`, `universal_merkle_tree.rs:74-90`; also `persistent_update_with`
(lines 123-143), which returns the same new tree and leaves the old value alone. -/
def updateWith [NeZero a] (H : Hasher E I T) (idx : I → ℕ) (t : Tree a E I T) (pos : I)
    (f : Option E → Option E) : Except MErr (Tree a E I T × LookupResult E Unit Unit) :=
  match updateWithInternal H t.height t.root pos (toPath a (idx pos) t.height) f with
  | .error e => .error e
  | .ok (root, delta, res) => .ok (⟨root, t.height, addDelta t.numLeaves delta⟩, res)

/-- `update`, `lib.rs:316-322`. -/
def update [NeZero a] (H : Hasher E I T) (idx : I → ℕ) (t : Tree a E I T) (pos : I) (e : E) :=
  t.updateWith H idx pos (fun _ => some e)

/-- `remove`, `lib.rs:328-333`. -/
def remove [NeZero a] (H : Hasher E I T) (idx : I → ℕ) (t : Tree a E I T) (pos : I) :=
  t.updateWith H idx pos (fun _ => none)

/-- `from_kv_set`, `universal_merkle_tree.rs:47-61`. -/
def fromKvSet [NeZero a] (H : Hasher E I T) (idx : I → ℕ) (height : ℕ) (data : List (I × E)) :
    Except MErr (Tree a E I T) :=
  data.foldlM (fun t kv => (t.update H idx kv.1 kv.2).map Prod.fst) (new height)

/-- `from_elems` of the append-only tree, `append_only.rs:57-68`. -/
def fromElems (a : ℕ) (H : Hasher E ℕ T) (height : Option ℕ) (elems : List E) :
    Except MErr (Tree a E ℕ T) :=
  (buildTree a H height elems).map fun (r, h, n) => ⟨r, h, n⟩

/-- `from_elems` of the light weight tree, `light_weight.rs:58-70`. -/
def lightFromElems (a : ℕ) (H : Hasher E ℕ T) (height : Option ℕ) (elems : List E) :
    Except MErr (Tree a E ℕ T) :=
  (buildLightWeightTree a H height elems).map fun (r, h, n) => ⟨r, h, n⟩

/-- `extend` of the append-only tree, `append_only.rs:81-102`.  The new tree is returned also
when the call reports `ExceedCapacity`, because the Rust method has already mutated `self`;
on an internal error `self` is unchanged. -/
def extend [NeZero a] (H : Hasher E ℕ T) (t : Tree a E ℕ T) (elems : List E) :
    Tree a E ℕ T × Except MErr Unit :=
  match extendInternal H t.height t.root t.numLeaves (toPath a t.numLeaves t.height) true elems with
  | .error e => (t, .error e)
  | .ok (root, ins, rest) =>
    (⟨root, t.height, t.numLeaves + ins⟩, if rest.isEmpty then .ok () else .error .exceedCapacity)

/-- `push`, `append_only.rs:77-79`. -/
def push [NeZero a] (H : Hasher E ℕ T) (t : Tree a E ℕ T) (e : E) : Tree a E ℕ T × Except MErr Unit :=
  t.extend H [e]

/-- `extend` of the light weight tree, `light_weight.rs:83-104`. -/
def lightExtend [NeZero a] (H : Hasher E ℕ T) (t : Tree a E ℕ T) (elems : List E) :
    Tree a E ℕ T × Except MErr Unit :=
  match extendAndForgetInternal H t.height t.root t.numLeaves
      (toPath a t.numLeaves t.height) true elems with
  | .error e => (t, .error e)
  | .ok (root, ins, rest) =>
    (⟨root, t.height, t.numLeaves + ins⟩, if rest.isEmpty then .ok () else .error .exceedCapacity)

/-- `universal_forget`, `universal_merkle_tree.rs:155-163` (`forget`, `macros.rs:222-235`, is the
same with the non-membership proof dropped). -/
def universalForget [NeZero a] (H : Hasher E I T) (idx : I → ℕ) (t : Tree a E I T) (pos : I) :
    Except MErr (Tree a E I T × LookupResult E (List (List T)) (List (List T))) :=
  match forgetInternal H t.height t.root (toPath a (idx pos) t.height) with
  | .error e => .error e
  | .ok (root, res) => .ok (⟨root, t.height, t.numLeaves⟩, res)

/-- `remember`, `macros.rs:237-262`. -/
def remember [DecidableEq T] [NeZero a] (H : Hasher E I T) (idx : I → ℕ) (t : Tree a E I T)
    (pos : I) (e : E) (proof : List (List T)) : Except MErr (Tree a E I T) :=
  match verify a H idx (t.commitment H) pos e proof with
  | .error e => .error e
  | .ok false => .error .inconsistentStructure
  | .ok true =>
    match rememberInternal H t.height t.root (toPath a (idx pos) t.height) pos (some e) proof with
    | .error e => .error e
    | .ok root => .ok ⟨root, t.height, t.numLeaves⟩

/-- `non_membership_remember`, `universal_merkle_tree.rs:165-187`. -/
def nonMembershipRemember [DecidableEq T] [NeZero a] (H : Hasher E I T) (idx : I → ℕ)
    (t : Tree a E I T) (pos : I) (proof : List (List T)) : Except MErr (Tree a E I T) :=
  match nonMembershipVerify a H idx (t.commitment H) pos proof with
  | .error e => .error e
  | .ok false => .error .inconsistentStructure
  | .ok true =>
    match rememberInternal H t.height t.root (toPath a (idx pos) t.height) pos none proof with
    | .error e => .error e
    | .ok root => .ok ⟨root, t.height, t.numLeaves⟩

/-- `from_commitment`, `macros.rs:208-220`. -/
def fromCommitment (com : T) (height numLeaves : ℕ) : Tree a E I T :=
  ⟨.forgotten com, height, numLeaves⟩

/-- `range_lookup`, `macros.rs:159-177`. -/
def rangeLookup [NeZero a] (H : Hasher E I T) (idx : I → ℕ) (t : Tree a E I T) (s e : I) :
    Except MErr (LookupResult (List I × List E) (RangeProof T) Unit) :=
  rangeLookupInternal H t.height t.root (toPath a (idx s) t.height) (toPath a (idx e) t.height)
    true true

/-- `collect_leaves_with_proofs`, `macros.rs:134-139`. -/
def collectLeavesWithProofs (H : Hasher E I T) (t : Tree a E I T) :
    Except MErr (List (I × E × List (List T))) :=
  (collectAllWithProofs H t.height t.root
    (List.replicate t.height (List.replicate (a - 1) H.dflt))).map Prod.snd

end Tree

/-- The injective demonstration hash used in examples and counterexamples: values are token
lists, nodes are bracketed.  `[0]` is the empty value, `[1, i, e]` a leaf. -/
def demoHasher : Hasher ℕ ℕ (List ℕ) where
  dflt := [0]
  digest l := 2 :: (l.flatten ++ [3])
  digestLeaf i e := [1, i, e]

end Verif.Merkle
