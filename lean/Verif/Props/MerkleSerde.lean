import Verif.Merkle.Serde

/-!
# C93: serialized trees and proofs
-/

namespace Verif.Props.MerkleSerde

open Verif.Conv Verif.Merkle Verif.Merkle.Serde

set_option linter.unusedSectionVars false

/-! ## Specification -/

/-- a value in `V` is read back from its bytes, whatever follows them -/
def Faithful {X : Type} (V : X → Prop) (c : Codec X) : Prop :=
  ∀ x, V x → ∀ r, c.de (c.ser x ++ r) = some (x, r)

/-- what is read is in `V`, and its bytes are those that were read -/
def Exact {X : Type} (V : X → Prop) (c : Codec X) : Prop :=
  ∀ b x r, c.de b = some (x, r) → V x ∧ b = c.ser x ++ r

/-- vectors that fit into memory, with entries in `V` -/
def VecOf {X : Type} (V : X → Prop) (l : List X) : Prop := l.length < 2 ^ 64 ∧ ∀ x ∈ l, V x

/-- range proofs with values in `V` -/
def RangeOf {T : Type} (V : T → Prop) (x : RangeProof T) : Prop :=
  VecOf (VecOf V) x.lbound ∧ VecOf (VecOf V) x.rbound

variable {a : ℕ} {E I T : Type}

/-- elements, indices and values of a subtree are in the given sets -/
def NodeOf (VE : E → Prop) (VI : I → Prop) (VT : T → Prop) : Node a E I T → Prop
  | .empty => True
  | .branch v c => VT v ∧ ∀ i, NodeOf VE VI VT (c i)
  | .leaf v p e => VT v ∧ VI p ∧ VE e
  | .forgotten v => VT v

/-- the same for a tree whose height is a `usize` and whose number of leaves is a `u64` -/
def TreeOf (VE : E → Prop) (VI : I → Prop) (VT : T → Prop) (t : Tree a E I T) : Prop :=
  NodeOf VE VI VT t.root ∧ t.height < 2 ^ 64 ∧ t.numLeaves < 2 ^ 64

/-- the first value is the second with further bytes at the end of some of its tagged values -/
inductive Extends : Val → Val → Prop
  | refl (v : Val) : Extends v v
  | tagged (t : String) (b r : List Byte) : Extends (.tagged t (b ++ r)) (.tagged t b)
  | cons {v v' l l' : Val} : Extends v v' → Extends l l' → Extends (.cons v l) (.cons v' l')
  | field (n : Name) {v v' l l' : Val} : Extends v v' → Extends l l' → Extends (.field n v l) (.field n v' l')
  | variant (n : Name) {l l' : Val} : Extends l l' → Extends (.variant n l) (.variant n l')

/-! ## Bytes -/

theorem readExact_append (l r : List Byte) : readExact l.length (l ++ r) = some (l, r) := by
  simp [readExact]

theorem readExact_some {n : ℕ} {b l r : List Byte} (h : readExact n b = some (l, r)) :
    l.length = n ∧ b = l ++ r := by
  unfold readExact at h
  split at h
  · rename_i hn
    simp only [Option.some.injEq, Prod.mk.injEq] at h
    obtain ⟨rfl, rfl⟩ := h
    exact ⟨by simp [hn], (List.take_append_drop n b).symm⟩
  · cases h

/-- **C93** (node values).  The `n` bytes of a node are read back, and only `n` bytes are read. -/
theorem C93_node_bytes (n : ℕ) :
    Faithful (fun x => x.length = n) (bytesCodec n) ∧ Exact (fun x => x.length = n) (bytesCodec n) := by
  constructor
  · intro x hx r
    subst hx
    exact readExact_append x r
  · intro b x r h
    exact readExact_some h

theorem uint_faithful (n : ℕ) : Faithful (fun x => x < 256 ^ n) (uintCodec n) := by
  intro x hx r
  have h := readExact_append (toLE n x) r
  rw [toLE_length] at h
  simp [uintCodec, h, leNat_toLE, Nat.mod_eq_of_lt hx]

theorem uint_exact (n : ℕ) : Exact (fun x => x < 256 ^ n) (uintCodec n) := by
  intro b x r h
  simp only [uintCodec, Option.map_eq_some_iff, Prod.mk.injEq, Prod.exists] at h
  obtain ⟨l, r', h, rfl, rfl⟩ := h
  obtain ⟨hl, rfl⟩ := readExact_some h
  have h1 := leNat_lt l
  have h2 := toLE_leNat n l hl.le
  rw [hl] at h1
  refine ⟨h1, ?_⟩
  simp only [uintCodec]
  rw [h2]
  simp [hl]

/-- **C93** (integers).  A `u64` index or element is eight bytes. -/
theorem C93_uint (n : ℕ) :
    Faithful (fun x => x < 256 ^ n) (uintCodec n) ∧ Exact (fun x => x < 256 ^ n) (uintCodec n) :=
  ⟨uint_faithful n, uint_exact n⟩

theorem deMany_faithful {X : Type} {V : X → Prop} {c : Codec X} (h : Faithful V c) (l : List X)
    (hl : ∀ x ∈ l, V x) (r : List Byte) : deMany c l.length (l.flatMap c.ser ++ r) = some (l, r) := by
  induction l with
  | nil => rfl
  | cons x l ih =>
    have hx := h x (hl x (by simp)) (l.flatMap c.ser ++ r)
    have ih := ih fun y hy => hl y (by simp [hy])
    simp only [List.length_cons, List.flatMap_cons, List.append_assoc, deMany, hx, ih]

theorem deMany_exact {X : Type} {V : X → Prop} {c : Codec X} (h : Exact V c) (n : ℕ) (b : List Byte)
    (l : List X) (r : List Byte) (hd : deMany c n b = some (l, r)) :
    l.length = n ∧ (∀ x ∈ l, V x) ∧ b = l.flatMap c.ser ++ r := by
  induction n generalizing b l with
  | zero =>
    simp only [deMany, Option.some.injEq, Prod.mk.injEq] at hd
    obtain ⟨rfl, rfl⟩ := hd
    simp
  | succ n ih =>
    cases h1 : c.de b with
    | none => simp [deMany, h1] at hd
    | some y =>
      obtain ⟨x, b'⟩ := y
      cases h2 : deMany c n b' with
      | none => simp [deMany, h1, h2] at hd
      | some z =>
        obtain ⟨xs, b''⟩ := z
        simp only [deMany, h1, h2, Option.some.injEq, Prod.mk.injEq] at hd
        obtain ⟨rfl, rfl⟩ := hd
        obtain ⟨hv, rfl⟩ := h _ _ _ h1
        obtain ⟨hn, hvs, rfl⟩ := ih _ _ h2
        refine ⟨by simp [hn], ?_, by simp⟩
        intro y hy
        rcases List.mem_cons.1 hy with rfl | hy
        · exact hv
        · exact hvs y hy

theorem vec_faithful {X : Type} {V : X → Prop} {c : Codec X} (h : Faithful V c) :
    Faithful (VecOf V) (vecCodec c) := by
  intro l hl r
  have h1 := readExact_append (toLE 8 l.length) (l.flatMap c.ser ++ r)
  rw [toLE_length] at h1
  have h2 : leNat (toLE 8 l.length) = l.length := by
    rw [leNat_toLE]; exact Nat.mod_eq_of_lt (lt_of_lt_of_eq hl.1 (by norm_num))
  simp only [vecCodec, List.append_assoc, h1, h2]
  exact deMany_faithful h l hl.2 r

theorem vec_exact {X : Type} {V : X → Prop} {c : Codec X} (h : Exact V c) :
    Exact (VecOf V) (vecCodec c) := by
  intro b l r hd
  cases h1 : readExact 8 b with
  | none => simp [vecCodec, h1] at hd
  | some y =>
    obtain ⟨n, b'⟩ := y
    simp only [vecCodec, h1] at hd
    obtain ⟨hn, rfl⟩ := readExact_some h1
    obtain ⟨hl, hv, rfl⟩ := deMany_exact h _ _ _ _ hd
    have hlt := leNat_lt n
    rw [hn] at hlt
    refine ⟨⟨by rw [hl]; exact lt_of_lt_of_eq hlt (by norm_num), hv⟩, ?_⟩
    simp only [vecCodec, hl]
    rw [toLE_leNat 8 n hn.le]
    simp [hn]

/-- **C93** (proofs).  A Merkle proof is read back from its bytes, and bytes that are read as a proof are the bytes of
that proof, followed by what was not read. -/
theorem C93_proof {V : T → Prop} {c : Codec T} (h : Faithful V c) (h' : Exact V c) :
    Faithful (VecOf (VecOf V)) (proofCodec c) ∧ Exact (VecOf (VecOf V)) (proofCodec c) :=
  ⟨vec_faithful (vec_faithful h), vec_exact (vec_exact h')⟩

/-- **C93** (range proofs).  The same for range proofs. -/
theorem C93_range_proof {V : T → Prop} {c : Codec T} (h : Faithful V c) (h' : Exact V c) :
    Faithful (RangeOf V) (rangeProofCodec c) ∧ Exact (RangeOf V) (rangeProofCodec c) := by
  obtain ⟨hf, he⟩ := C93_proof h h'
  constructor
  · rintro ⟨l, r⟩ ⟨hl, hr⟩ rest
    have h1 := hf l hl ((proofCodec c).ser r ++ rest)
    have h2 := hf r hr rest
    simp only [rangeProofCodec, List.append_assoc, h1, h2]
  · intro b x rest hd
    cases h1 : (proofCodec c).de b with
    | none => simp [rangeProofCodec, h1] at hd
    | some y =>
      obtain ⟨l, b'⟩ := y
      cases h2 : (proofCodec c).de b' with
      | none => simp [rangeProofCodec, h1, h2] at hd
      | some z =>
        obtain ⟨r, b''⟩ := z
        simp only [rangeProofCodec, h1, h2, Option.some.injEq, Prod.mk.injEq] at hd
        obtain ⟨rfl, rfl⟩ := hd
        obtain ⟨hl, rfl⟩ := he _ _ _ h1
        obtain ⟨hr, rfl⟩ := he _ _ _ h2
        exact ⟨⟨hl, hr⟩, by simp [rangeProofCodec]⟩

/-- **C93** (proofs, no two meanings).  Different proofs have different bytes, and no proof's bytes begin another's. -/
theorem C93_proof_prefix {V : T → Prop} {c : Codec T} (h : Faithful V c) (p q : List (List T)) (r r' : List Byte)
    (hp : VecOf (VecOf V) p) (hq : VecOf (VecOf V) q)
    (he : (proofCodec c).ser p ++ r = (proofCodec c).ser q ++ r') : p = q ∧ r = r' := by
  have h1 := vec_faithful (vec_faithful h) p hp r
  have h2 := vec_faithful (vec_faithful h) q hq r'
  change (proofCodec c).de ((proofCodec c).ser p ++ r) = _ at h1
  change (proofCodec c).de ((proofCodec c).ser q ++ r') = _ at h2
  rw [he, h2] at h1
  simp only [Option.some.injEq, Prod.mk.injEq] at h1
  exact ⟨h1.1.symm, h1.2.symm⟩

/-! ## Trees -/

theorem canonical_round {X : Type} {V : X → Prop} {c : Codec X} (h : Faithful V c) (x : X) (hx : V x) :
    canonicalDe c (canonicalSer c x) = .ok x := by
  have := h x hx []
  rw [List.append_nil] at this
  simp [canonicalDe, canonicalSer, this]

theorem deNodes_seq (C : Codecs E I T) (l : List (Node a E I T))
    (h : ∀ n ∈ l, deNode a C (serNode C n) = .ok n) : deNodes a C (seq (l.map (serNode C))) = .ok l := by
  induction l with
  | nil => simp [seq, deNodes]
  | cons n l ih =>
    have h1 := h n (by simp)
    have h2 := ih fun m hm => h m (by simp [hm])
    simp only [List.map_cons, seq, deNodes, h1, h2]

theorem toChildren_ofFn (c : Fin a → Node a E I T) : toChildren (List.ofFn c) = some c := by
  unfold toChildren
  rw [dif_pos (List.length_ofFn)]
  simp

theorem node_round {VE : E → Prop} {VI : I → Prop} {VT : T → Prop} {C : Codecs E I T}
    (hE : Faithful VE C.elem) (hI : Faithful VI C.index) (hT : Faithful VT C.val) (n : Node a E I T)
    (hn : NodeOf VE VI VT n) : deNode a C (serNode C n) = .ok n := by
  induction n with
  | empty => simp [serNode, deNode]
  | branch v c ih =>
    have h1 := canonical_round hT v hn.1
    have h2 := deNodes_seq C (List.ofFn c) (by
      intro m hm
      obtain ⟨i, rfl⟩ := List.mem_ofFn.1 hm
      exact ih i (hn.2 i))
    rw [List.map_ofFn] at h2
    have h3 : (fun i => serNode C (c i)) = serNode C ∘ c := rfl
    simp only [serNode, deNode, h1, h3, h2, toChildren_ofFn]
  | leaf v p e =>
    simp only [serNode, deNode, canonical_round hT v hn.1, canonical_round hI p hn.2.1,
      canonical_round hE e hn.2.2]
  | forgotten v => simp only [serNode, deNode, canonical_round hT v hn]

/-- **C93** (trees).  A tree, forgotten parts included, is read back from its serialized value. -/
theorem C93_tree {VE : E → Prop} {VI : I → Prop} {VT : T → Prop} {C : Codecs E I T}
    (hE : Faithful VE C.elem) (hI : Faithful VI C.index) (hT : Faithful VT C.val) (t : Tree a E I T)
    (ht : TreeOf VE VI VT t) : deTree a C (serTree C t) = .ok t := by
  simp only [serTree, deTree, node_round hE hI hT t.root ht.1, deNum, ht.2.1, ht.2.2, if_true]

/-- **C93** (trees are distinguished).  Different trees have different serialized values. -/
theorem C93_tree_injective {VE : E → Prop} {VI : I → Prop} {VT : T → Prop} {C : Codecs E I T}
    (hE : Faithful VE C.elem) (hI : Faithful VI C.index) (hT : Faithful VT C.val) (s t : Tree a E I T)
    (hs : TreeOf VE VI VT s) (ht : TreeOf VE VI VT t) (h : serTree C s = serTree C t) : s = t := by
  have h1 := C93_tree hE hI hT s hs
  rw [h, C93_tree hE hI hT t ht] at h1
  exact (Except.ok.inj h1).symm

theorem canonical_ext {X : Type} {V : X → Prop} {c : Codec X} (h : Exact V c) {w : Val} {x : X}
    (hd : canonicalDe c w = .ok x) : V x ∧ Extends w (canonicalSer c x) := by
  cases w with
  | tagged t b =>
    simp only [canonicalDe] at hd
    split at hd
    · rename_i ht
      subst ht
      cases h1 : c.de b with
      | none => simp [h1] at hd
      | some y =>
        obtain ⟨y, r⟩ := y
        simp only [h1, Except.ok.injEq] at hd
        subst hd
        obtain ⟨hv, rfl⟩ := h _ _ _ h1
        exact ⟨hv, .tagged _ _ _⟩
    · cases hd
  | _ => simp [canonicalDe] at hd

theorem toChildren_some {l : List (Node a E I T)} {c : Fin a → Node a E I T} (h : toChildren l = some c) :
    l = List.ofFn c := by
  unfold toChildren at h
  split at h
  · rename_i hl
    simp only [Option.some.injEq] at h
    subst h
    exact List.ext_getElem (by simp [hl]) fun i h1 h2 => by simp
  · cases h

theorem node_ext {VE : E → Prop} {VI : I → Prop} {VT : T → Prop} {C : Codecs E I T}
    (hE : Exact VE C.elem) (hI : Exact VI C.index) (hT : Exact VT C.val) (w : Val) :
    ∀ n : Node a E I T, deNode a C w = .ok n → NodeOf VE VI VT n ∧ Extends w (serNode C n) := by
  induction w using deNode.induct a C
    (motive_2 := fun w => ∀ l : List (Node a E I T), deNodes a C w = .ok l →
      (∀ n ∈ l, NodeOf VE VI VT n) ∧ Extends w (seq (l.map (serNode C)))) with
  | case1 =>
    intro n h
    simp only [deNode, Except.ok.injEq] at h
    subst h
    exact ⟨trivial, .refl _⟩
  | case5 v cs v' l h1 h2 c h3 ih =>
    intro n h
    simp only [deNode, h1, h2, h3, Except.ok.injEq] at h
    subst h
    obtain ⟨hv, hx⟩ := canonical_ext hT h2
    obtain ⟨hl, hy⟩ := ih l h1
    have := toChildren_some h3
    subst this
    rw [List.map_ofFn] at hy
    exact ⟨⟨hv, fun i => hl _ (List.mem_ofFn.2 ⟨i, rfl⟩)⟩,
      .variant _ (.field _ hx (.field _ hy (.refl _)))⟩
  | case6 v p e v' p' e' h1 h2 h3 =>
    intro n h
    simp only [deNode, h1, h2, h3, Except.ok.injEq] at h
    subst h
    obtain ⟨hv, hx⟩ := canonical_ext hT h3
    obtain ⟨hp, hy⟩ := canonical_ext hI h2
    obtain ⟨he, hz⟩ := canonical_ext hE h1
    exact ⟨⟨hv, hp, he⟩, .variant _ (.field _ hx (.field _ hy (.field _ hz (.refl _))))⟩
  | case11 v v' h1 =>
    intro n h
    simp only [deNode, h1, Except.ok.injEq] at h
    subst h
    obtain ⟨hv, hx⟩ := canonical_ext hT h1
    exact ⟨hv, .variant _ (.field _ hx (.refl _))⟩
  | case13 l h =>
    simp only [deNodes, Except.ok.injEq] at h
    subst h
    exact ⟨by simp, .refl _⟩
  | case16 v rest n l h1 h2 ih1 ih2 l' h =>
    simp only [deNodes, h1, h2, Except.ok.injEq] at h
    subst h
    obtain ⟨hn, hx⟩ := ih1 n h2
    obtain ⟨hl, hy⟩ := ih2 l h1
    refine ⟨?_, .cons hx hy⟩
    intro m hm
    rcases List.mem_cons.1 hm with rfl | hm
    · exact hn
    · exact hl m hm
  | case12 t h1 h2 h3 h4 =>
    intro n h
    rw [deNode] at h
    · cases h
    all_goals assumption
  | case17 t h1 h2 l h =>
    rw [deNodes] at h
    · cases h
    all_goals assumption
  | _ => simp_all [deNode, deNodes]

theorem deNum_ok {w : Val} {n : ℕ} (h : deNum w = .ok n) : n < 2 ^ 64 ∧ w = .num n := by
  cases w with
  | num m =>
    simp only [deNum] at h
    split at h
    · rename_i hm
      cases h
      exact ⟨hm, rfl⟩
    · cases h
  | _ => simp [deNum] at h

/-- **C93** (accepted trees).  A value that is read as a tree is the serialized value of that tree, except for bytes
appended to node values, positions and elements. -/
theorem C93_tree_accepted {VE : E → Prop} {VI : I → Prop} {VT : T → Prop} {C : Codecs E I T}
    (hE : Exact VE C.elem) (hI : Exact VI C.index) (hT : Exact VT C.val) (w : Val) (t : Tree a E I T)
    (h : deTree a C w = .ok t) : TreeOf VE VI VT t ∧ Extends w (serTree C t) := by
  unfold deTree at h
  split at h
  · rename_i r hh nn
    cases h1 : deNode a C r with
    | error e => simp [h1] at h
    | ok r' =>
      cases h2 : deNum hh with
      | error e => simp [h1, h2] at h
      | ok h' =>
        cases h3 : deNum nn with
        | error e => simp [h1, h2, h3] at h
        | ok n' =>
          simp only [h1, h2, h3, Except.ok.injEq] at h
          subst h
          obtain ⟨hr, hx⟩ := node_ext hE hI hT r r' h1
          obtain ⟨hlt, rfl⟩ := deNum_ok h2
          obtain ⟨hlt', rfl⟩ := deNum_ok h3
          exact ⟨⟨hr, hlt, hlt'⟩, .field _ hx (.refl _)⟩
  · cases h

/-- **C93** (tags).  A value, position or element with another tag is rejected. -/
theorem C93_tag {X : Type} (c : Codec X) (tag : String) (bytes : List Byte) (h : tag ≠ "FIELD") :
    canonicalDe c (.tagged tag bytes) = .error .tag := by
  simp [canonicalDe, h]

/-- **C93** (refuted: one serialized value per tree).  Bytes behind a node value are ignored: appending any to the
value of a forgotten tree gives another serialized value of the same tree. -/
theorem C93_trailing_counterexample {VT : T → Prop} {C : Codecs E I T} (hT : Faithful VT C.val) (v : T) (hv : VT v)
    (extra : List Byte) (hx : extra ≠ []) (h n : ℕ) (hh : h < 2 ^ 64) (hn : n < 2 ^ 64) :
    ∃ w, w ≠ serTree C (⟨.forgotten v, h, n⟩ : Tree a E I T) ∧ deTree a C w = .ok ⟨.forgotten v, h, n⟩ := by
  refine ⟨.field .root (.variant .ForgottenSubtree (.field .value (.tagged "FIELD" (C.val.ser v ++ extra)) .nil))
    (.field .height (.num h) (.field .numLeaves (.num n) (.field .phantom .unit .nil))), ?_, ?_⟩
  · intro he
    simp [serTree, serNode, canonicalSer, hx] at he
  · simp only [deTree, deNode, canonicalDe, hT v hv extra, deNum, hh, hn, if_true]

/-- **C93** (refuted: a deserialized tree is a tree of its commitment).  Values are not recomputed: for every hash
there is a serialized tree that is accepted and whose lookup returns an element with a proof that its own commitment
rejects. -/
theorem C93_unvalidated_counterexample [DecidableEq T] [NeZero a] {VE : E → Prop} {VI : I → Prop} {VT : T → Prop}
    {C : Codecs E I T} (hE : Faithful VE C.elem) (hI : Faithful VI C.index) (hT : Faithful VT C.val)
    (H : Hasher E I T) (idx : I → ℕ) (p : I) (e : E) (hp : VI p) (he : VE e) (v : T) (hv : VT v)
    (hne : v ≠ H.digestLeaf p e) :
    ∃ w, ∃ t : Tree a E I T, deTree a C w = .ok t ∧ t.commitment H = v ∧ t.lookup H idx p = .ok (.ok e []) ∧
      Tree.verify a H idx (t.commitment H) p e [] = .ok false := by
  refine ⟨serTree C ⟨.leaf v p e, 0, 1⟩, ⟨.leaf v p e, 0, 1⟩,
    C93_tree hE hI hT _ ⟨⟨hv, hp, he⟩, by norm_num, by norm_num⟩, rfl, rfl, ?_⟩
  simp [Tree.verify, verifyMerkleProof, Tree.commitment, Node.value, toPath, Ne.symm hne]

/-- **C93** (refuted: a deserialized tree can be used).  The height is not checked against the nodes: there is a
serialized tree that is accepted and on which every lookup panics. -/
theorem C93_height_counterexample [NeZero a] {VE : E → Prop} {VI : I → Prop} {VT : T → Prop}
    {C : Codecs E I T} (hE : Faithful VE C.elem) (hI : Faithful VI C.index) (hT : Faithful VT C.val)
    (H : Hasher E I T) (idx : I → ℕ) (v : T) (hv : VT v) :
    ∃ w, ∃ t : Tree a E I T, deTree a C w = .ok t ∧ ∀ p, t.lookup H idx p = .error .panic := by
  refine ⟨serTree C ⟨.branch v fun _ => .empty, 0, 0⟩, ⟨.branch v fun _ => .empty, 0, 0⟩,
    C93_tree hE hI hT _ ⟨⟨hv, fun _ => trivial⟩, by norm_num, by norm_num⟩, fun p => ?_⟩
  simp [Tree.lookup, Tree.universalLookup, lookupInternal]

/-! ## Examples -/

/-- `u64` elements and indices, two-byte node values -/
def exC : Codecs ℕ ℕ (List Byte) := ⟨uintCodec 8, uintCodec 8, bytesCodec 2⟩

/-- a tree of height one with a leaf and a forgotten subtree -/
def exT : Tree 2 ℕ ℕ (List Byte) :=
  ⟨.branch [1, 2] fun i => if i = 0 then .leaf [3, 4] 0 300 else .forgotten [5, 6], 1, 2⟩

example : deTree 2 exC (serTree exC exT) = .ok exT :=
  C93_tree (uint_faithful 8) (uint_faithful 8) (C93_node_bytes 2).1 exT (by
    refine ⟨⟨rfl, fun i => ?_⟩, by decide, by decide⟩
    fin_cases i
    · exact ⟨rfl, by decide, by decide⟩
    · exact rfl)

/-- the bytes of a proof with two levels of one sibling -/
example : (proofCodec (bytesCodec 2)).ser [[[1, 2]], [[3, 4]]] =
    [2, 0, 0, 0, 0, 0, 0, 0, 1, 0, 0, 0, 0, 0, 0, 0, 1, 2, 1, 0, 0, 0, 0, 0, 0, 0, 3, 4] := by decide +kernel

example : (proofCodec (bytesCodec 2)).de
    [2, 0, 0, 0, 0, 0, 0, 0, 1, 0, 0, 0, 0, 0, 0, 0, 1, 2, 1, 0, 0, 0, 0, 0, 0, 0, 3, 4, 9] =
    some ([[[1, 2]], [[3, 4]]], [9]) := by decide +kernel

/-- too short -/
example : (proofCodec (bytesCodec 2)).de [1, 0, 0, 0, 0, 0, 0, 0, 1, 0, 0, 0, 0, 0, 0, 0, 1] = none := by
  decide +kernel

/-- the serialized value of a tree with a single leaf -/
example : serTree exC (⟨.leaf [3, 4] 0 300, 0, 1⟩ : Tree 2 ℕ ℕ (List Byte)) =
    .field .root (.variant .Leaf (.field .value (.tagged "FIELD" [3, 4])
      (.field .pos (.tagged "FIELD" [0, 0, 0, 0, 0, 0, 0, 0])
        (.field .elem (.tagged "FIELD" [44, 1, 0, 0, 0, 0, 0, 0]) .nil))))
      (.field .height (.num 0) (.field .numLeaves (.num 1) (.field .phantom .unit .nil))) := by decide +kernel

example : VecOf (VecOf fun x : List Byte => x.length = 2) [[[1, 2]], [[3, 4]]] :=
  ⟨by decide, by simp [VecOf]⟩

example : RangeOf (fun x : List Byte => x.length = 2) ⟨[[[1, 2]]], [[[3, 4]]]⟩ := by
  simp [RangeOf, VecOf]

/-- a value accepted with a byte too many -/
example : ∃ w, w ≠ serTree exC (⟨.forgotten [5, 6], 3, 4⟩ : Tree 2 ℕ ℕ (List Byte)) ∧
    deTree 2 exC w = .ok ⟨.forgotten [5, 6], 3, 4⟩ :=
  C93_trailing_counterexample (VT := fun x => x.length = 2) (C93_node_bytes 2).1 [5, 6] rfl [9] (by decide) 3 4
    (by decide) (by decide)

/-- the hypotheses of `C93_tree_accepted` -/
example : Exact (· < 256 ^ 8) exC.elem ∧ Exact (· < 256 ^ 8) exC.index ∧ Exact (fun x => x.length = 2) exC.val :=
  ⟨uint_exact 8, uint_exact 8, (C93_node_bytes 2).2⟩

/-- a hash for which the hypotheses of the last two theorems hold -/
example : ∃ w, ∃ t : Tree 2 ℕ ℕ (List Byte), deTree 2 exC w = .ok t ∧
    t.commitment ⟨[0, 0], fun _ => [7, 7], fun _ _ => [8, 8]⟩ = [1, 2] ∧
    t.lookup ⟨[0, 0], fun _ => [7, 7], fun _ _ => [8, 8]⟩ id 5 = .ok (.ok 300 []) ∧
    Tree.verify 2 ⟨[0, 0], fun _ => [7, 7], fun _ _ => [8, 8]⟩ id
      (t.commitment ⟨[0, 0], fun _ => [7, 7], fun _ _ => [8, 8]⟩) 5 300 [] = .ok false :=
  C93_unvalidated_counterexample (VE := (· < 256 ^ 8)) (VI := (· < 256 ^ 8)) (VT := fun x => x.length = 2)
    (uint_faithful 8) (uint_faithful 8) (C93_node_bytes 2).1 _ id 5 300 (by decide) (by decide) [1, 2] rfl (by decide)

end Verif.Props.MerkleSerde
