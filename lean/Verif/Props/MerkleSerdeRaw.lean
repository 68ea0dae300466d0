import Verif.Merkle.SerdeRaw
import Verif.Props.MerkleSerde

/-!
# C93: serialized trees whose branches have any number of children
-/

namespace Verif.Props.MerkleSerde

open Verif.Conv Verif.Merkle Verif.Merkle.Serde

set_option linter.unusedSectionVars false

variable {a : ℕ} {E I T : Type}

/-! ## Specification -/

/-- a subtree of the given arity, with its vectors of children -/
def embed : Node a E I T → RNode E I T
  | .empty => .empty
  | .branch v c => .branch v a fun i => embed (c i)
  | .leaf v p e => .leaf v p e
  | .forgotten v => .forgotten v

/-- the same for a tree -/
def embedTree (t : Tree a E I T) : RTree E I T := ⟨embed t.root, t.height, t.numLeaves⟩

/-- elements, indices and values of a subtree are in the given sets -/
def RNodeOf (VE : E → Prop) (VI : I → Prop) (VT : T → Prop) : RNode E I T → Prop
  | .empty => True
  | .branch v _ c => VT v ∧ ∀ i, RNodeOf VE VI VT (c i)
  | .leaf v p e => VT v ∧ VI p ∧ VE e
  | .forgotten v => VT v

/-- the same for a tree whose height is a `usize` and whose number of leaves is a `u64` -/
def RTreeOf (VE : E → Prop) (VI : I → Prop) (VT : T → Prop) (t : RTree E I T) : Prop :=
  RNodeOf VE VI VT t.root ∧ t.height < 2 ^ 64 ∧ t.numLeaves < 2 ^ 64

/-! ## Reading -/

theorem branch_get (v : T) (n : ℕ) (c : Fin n → RNode E I T) (l : List (RNode E I T)) (h : l = List.ofFn c) :
    RNode.branch (E := E) (I := I) v l.length l.get = .branch v n c := by
  subst h
  have hl : (List.ofFn c).length = n := List.length_ofFn
  congr 1
  refine (Fin.heq_fun_iff hl).2 fun i => ?_
  simp

theorem branch_inj {v v' : T} {n n' : ℕ} {c : Fin n → RNode E I T} {c' : Fin n' → RNode E I T}
    (h : RNode.branch v n c = .branch v' n' c') : v = v' ∧ List.ofFn c = List.ofFn c' := by
  cases h
  exact ⟨rfl, rfl⟩

theorem deRNodes_seq (C : Codecs E I T) (l : List (RNode E I T))
    (h : ∀ n ∈ l, deRNode C (serRNode C n) = .ok n) : deRNodes C (seq (l.map (serRNode C))) = .ok l := by
  induction l with
  | nil => simp [seq, deRNodes]
  | cons n l ih =>
    have h1 := h n (by simp)
    have h2 := ih fun m hm => h m (by simp [hm])
    simp only [List.map_cons, seq, deRNodes, h1, h2]

theorem raw_round {VE : E → Prop} {VI : I → Prop} {VT : T → Prop} {C : Codecs E I T}
    (hE : Faithful VE C.elem) (hI : Faithful VI C.index) (hT : Faithful VT C.val) (n : RNode E I T)
    (hn : RNodeOf VE VI VT n) : deRNode C (serRNode C n) = .ok n := by
  induction n with
  | empty => simp [serRNode, deRNode]
  | branch v k c ih =>
    have h1 := canonical_round hT v hn.1
    have h2 := deRNodes_seq C (List.ofFn c) (by
      intro m hm
      obtain ⟨i, rfl⟩ := List.mem_ofFn.1 hm
      exact ih i (hn.2 i))
    rw [List.map_ofFn] at h2
    have h3 : (fun i => serRNode C (c i)) = serRNode C ∘ c := rfl
    simp only [serRNode, deRNode, h1, h3, h2]
    rw [branch_get v k c _ rfl]
  | leaf v p e =>
    simp only [serRNode, deRNode, canonical_round hT v hn.1, canonical_round hI p hn.2.1,
      canonical_round hE e hn.2.2]
  | forgotten v => simp only [serRNode, deRNode, canonical_round hT v hn]

/-- **C93** (all trees).  Trees are read back whatever the numbers of children of their branches are. -/
theorem C93_raw_tree {VE : E → Prop} {VI : I → Prop} {VT : T → Prop} {C : Codecs E I T}
    (hE : Faithful VE C.elem) (hI : Faithful VI C.index) (hT : Faithful VT C.val) (t : RTree E I T)
    (ht : RTreeOf VE VI VT t) : deRTree C (serRTree C t) = .ok t := by
  simp only [serRTree, deRTree, raw_round hE hI hT t.root ht.1, deNum, ht.2.1, ht.2.2, if_true]

theorem raw_ext {VE : E → Prop} {VI : I → Prop} {VT : T → Prop} {C : Codecs E I T}
    (hE : Exact VE C.elem) (hI : Exact VI C.index) (hT : Exact VT C.val) (w : Val) :
    ∀ n : RNode E I T, deRNode C w = .ok n → RNodeOf VE VI VT n ∧ Extends w (serRNode C n) := by
  induction w using deRNode.induct C
    (motive_2 := fun w => ∀ l : List (RNode E I T), deRNodes C w = .ok l →
      (∀ n ∈ l, RNodeOf VE VI VT n) ∧ Extends w (seq (l.map (serRNode C)))) with
  | case1 =>
    intro n h
    simp only [deRNode, Except.ok.injEq] at h
    subst h
    exact ⟨trivial, .refl _⟩
  | case4 v cs v' l h1 h2 ih =>
    intro n h
    simp only [deRNode, h1, h2, Except.ok.injEq] at h
    subst h
    obtain ⟨hv, hx⟩ := canonical_ext hT h2
    obtain ⟨hl, hy⟩ := ih l h1
    refine ⟨⟨hv, fun i => hl _ (List.get_mem l i)⟩, .variant _ (.field _ hx (.field _ ?_ (.refl _)))⟩
    have : (List.ofFn fun i => serRNode C (l.get i)) = l.map (serRNode C) := by
      conv_rhs => rw [← List.ofFn_get l, List.map_ofFn]
      rfl
    rw [this]
    exact hy
  | case5 v p e v' p' e' h1 h2 h3 =>
    intro n h
    simp only [deRNode, h1, h2, h3, Except.ok.injEq] at h
    subst h
    obtain ⟨hv, hx⟩ := canonical_ext hT h3
    obtain ⟨hp, hy⟩ := canonical_ext hI h2
    obtain ⟨he, hz⟩ := canonical_ext hE h1
    exact ⟨⟨hv, hp, he⟩, .variant _ (.field _ hx (.field _ hy (.field _ hz (.refl _))))⟩
  | case10 v v' h1 =>
    intro n h
    simp only [deRNode, h1, Except.ok.injEq] at h
    subst h
    obtain ⟨hv, hx⟩ := canonical_ext hT h1
    exact ⟨hv, .variant _ (.field _ hx (.refl _))⟩
  | case12 l h =>
    simp only [deRNodes, Except.ok.injEq] at h
    subst h
    exact ⟨by simp, .refl _⟩
  | case15 v rest n l h1 h2 ih1 ih2 l' h =>
    simp only [deRNodes, h1, h2, Except.ok.injEq] at h
    subst h
    obtain ⟨hn, hx⟩ := ih1 n h2
    obtain ⟨hl, hy⟩ := ih2 l h1
    refine ⟨?_, .cons hx hy⟩
    intro m hm
    rcases List.mem_cons.1 hm with rfl | hm
    · exact hn
    · exact hl m hm
  | case11 t h1 h2 h3 h4 =>
    intro n h
    rw [deRNode] at h
    · cases h
    all_goals assumption
  | case16 t h1 h2 l h =>
    rw [deRNodes] at h
    · cases h
    all_goals assumption
  | _ => simp_all [deRNode, deRNodes]

/-- what a serialized tree that is accepted consists of -/
theorem deRTree_ok {C : Codecs E I T} {w : Val} {t : RTree E I T} (h : deRTree C w = .ok t) :
    ∃ r, w = .field .root r (.field .height (.num t.height) (.field .numLeaves (.num t.numLeaves)
      (.field .phantom .unit .nil))) ∧ deRNode C r = .ok t.root ∧ t.height < 2 ^ 64 ∧ t.numLeaves < 2 ^ 64 := by
  unfold deRTree at h
  split at h
  · rename_i r hh nn
    cases h1 : deRNode C r with
    | error e => simp [h1] at h
    | ok r' =>
      cases h2 : deNum hh with
      | error e => simp [h1, h2] at h
      | ok h' =>
        cases h3 : deNum nn with
        | error e => simp [h1, h2, h3] at h
        | ok n' =>
          simp only [h1, h2, h3, Except.ok.injEq] at h
          subst h
          obtain ⟨hlt, rfl⟩ := deNum_ok h2
          obtain ⟨hlt', rfl⟩ := deNum_ok h3
          exact ⟨r, rfl, h1, hlt, hlt'⟩
  · cases h

/-- **C93** (all accepted trees).  A value that is read as a tree is the serialized value of that tree, except for
bytes appended to node values, positions and elements. -/
theorem C93_raw_accepted {VE : E → Prop} {VI : I → Prop} {VT : T → Prop} {C : Codecs E I T}
    (hE : Exact VE C.elem) (hI : Exact VI C.index) (hT : Exact VT C.val) (w : Val) (t : RTree E I T)
    (h : deRTree C w = .ok t) : RTreeOf VE VI VT t ∧ Extends w (serRTree C t) := by
  obtain ⟨r, rfl, h1, h2, h3⟩ := deRTree_ok h
  obtain ⟨hr, hx⟩ := raw_ext hE hI hT r _ h1
  exact ⟨⟨hr, h2, h3⟩, .field _ hx (.refl _)⟩

/-! ## Trees of one arity -/

theorem embed_read {C : Codecs E I T} (w : Val) :
    ∀ n : Node a E I T, deNode a C w = .ok n → deRNode C w = .ok (embed n) := by
  induction w using deNode.induct a C
    (motive_2 := fun w => ∀ l : List (Node a E I T), deNodes a C w = .ok l → deRNodes C w = .ok (l.map embed)) with
  | case1 =>
    intro n h
    simp only [deNode, Except.ok.injEq] at h
    subst h
    simp [deRNode, embed]
  | case5 v cs v' l h1 h2 c h3 ih =>
    intro n h
    simp only [deNode, h1, h2, h3, Except.ok.injEq] at h
    subst h
    have := toChildren_some h3
    subst this
    simp only [deRNode, h2, ih _ h1, embed]
    rw [branch_get v' a (fun i => embed (c i)) _ (by rw [List.map_ofFn]; rfl)]
  | case6 v p e v' p' e' h1 h2 h3 =>
    intro n h
    simp only [deNode, h1, h2, h3, Except.ok.injEq] at h
    subst h
    simp only [deRNode, h1, h2, h3, embed]
  | case11 v v' h1 =>
    intro n h
    simp only [deNode, h1, Except.ok.injEq] at h
    subst h
    simp only [deRNode, h1, embed]
  | case13 l h =>
    simp only [deNodes, Except.ok.injEq] at h
    subst h
    simp [deRNodes]
  | case16 v rest n l h1 h2 ih1 ih2 l' h =>
    simp only [deNodes, h1, h2, Except.ok.injEq] at h
    subst h
    simp only [deRNodes, ih1 n h2, ih2 l h1, List.map_cons]
  | case12 t h1 h2 h3 h4 =>
    intro n h
    rw [deNode] at h
    · cases h
    all_goals assumption
  | case17 t h1 h2 l h =>
    rw [deNodes] at h
    · cases h
    all_goals assumption
  | _ => simp_all [deNode, deNodes]

theorem read_embed {C : Codecs E I T} (w : Val) :
    ∀ r, deRNode C w = .ok r → ∀ n : Node a E I T, embed n = r → deNode a C w = .ok n := by
  induction w using deRNode.induct C
    (motive_2 := fun w => ∀ l, deRNodes C w = .ok l → ∀ m : List (Node a E I T), m.map embed = l →
      deNodes a C w = .ok m) with
  | case1 =>
    intro r h n hn
    simp only [deRNode, Except.ok.injEq] at h
    subst h
    cases n <;> simp_all [deNode, embed]
  | case4 v cs v' l h1 h2 ih =>
    intro r h n hn
    simp only [deRNode, h1, h2, Except.ok.injEq] at h
    subst h
    cases n with
    | branch w c =>
      obtain ⟨rfl, hl⟩ := branch_inj hn
      rw [List.ofFn_get] at hl
      have h3 := ih l h1 (List.ofFn c) (by rw [List.map_ofFn]; exact hl)
      simp only [deNode, h2, h3, toChildren_ofFn]
    | _ => simp [embed] at hn
  | case5 v p e v' p' e' h1 h2 h3 =>
    intro r h n hn
    simp only [deRNode, h1, h2, h3, Except.ok.injEq] at h
    subst h
    cases n <;> simp_all [deNode, embed]
  | case10 v v' h1 =>
    intro r h n hn
    simp only [deRNode, h1, Except.ok.injEq] at h
    subst h
    cases n <;> simp_all [deNode, embed]
  | case12 l h m hm =>
    simp only [deRNodes, Except.ok.injEq] at h
    subst h
    have : m = [] := by simpa using hm
    subst this
    simp [deNodes]
  | case15 v rest n l h1 h2 ih1 ih2 l' h m hm =>
    simp only [deRNodes, h1, h2, Except.ok.injEq] at h
    subst h
    cases m with
    | nil => simp at hm
    | cons x m =>
      simp only [List.map_cons, List.cons.injEq] at hm
      simp only [deNodes, ih1 n h2 x hm.1, ih2 l h1 m hm.2]
  | case11 t h1 h2 h3 h4 =>
    intro r h n hn
    rw [deRNode] at h
    · cases h
    all_goals assumption
  | case16 t h1 h2 l h m hm =>
    rw [deRNodes] at h
    · cases h
    all_goals assumption
  | _ => simp_all [deRNode, deRNodes]

/-- **C93** (arity).  The trees of arity `a` are read alike by the two models: the model with the arity built in leaves
out exactly the values with other numbers of children. -/
theorem C93_raw_arity (C : Codecs E I T) (w : Val) (t : Tree a E I T) :
    deTree a C w = .ok t ↔ deRTree C w = .ok (embedTree t) := by
  constructor
  · intro h
    unfold deTree at h
    split at h
    · rename_i r hh nn
      cases h1 : deNode a C r with
      | error e => simp [h1] at h
      | ok r' =>
        cases h2 : deNum hh with
        | error e => simp [h1, h2] at h
        | ok h' =>
          cases h3 : deNum nn with
          | error e => simp [h1, h2, h3] at h
          | ok n' =>
            simp only [h1, h2, h3, Except.ok.injEq] at h
            subst h
            simp only [deRTree, embed_read r r' h1, h2, h3, embedTree]
    · cases h
  · intro h
    obtain ⟨r, rfl, h1, h2, h3⟩ := deRTree_ok h
    have h4 := read_embed r _ h1 t.root rfl
    simp only [embedTree] at h2 h3
    simp only [deTree, embedTree, h4, deNum, h2, h3, if_true]

/-! ## Lookup -/

theorem embed_value (H : Hasher E I T) (n : Node a E I T) : (embed n).value H = n.value H := by
  cases n <;> rfl

theorem embed_siblings (H : Hasher E I T) (c : Fin a → Node a E I T) (b : Fin a) :
    rSiblings H (fun i => embed (c i)) b = siblings H c b := by
  simp only [rSiblings, siblings, embed_value]
  congr 1
  apply List.filter_congr
  intro i _
  simp [Fin.ext_iff]

/-- **C93** (lookup).  On trees of arity `a` the two models of lookup agree. -/
theorem C93_raw_lookup (H : Hasher E I T) (h : ℕ) (n : Node a E I T) (path : List (Fin a)) :
    lookupRaw H h (embed n) (path.map Fin.val) = lookupInternal H h n path := by
  induction n generalizing h with
  | empty => simp [embed, lookupRaw, lookupInternal]
  | leaf v p e => simp [embed, lookupRaw, lookupInternal]
  | forgotten v => simp [embed, lookupRaw, lookupInternal]
  | branch v c ih =>
    cases h with
    | zero => simp [embed, lookupRaw, lookupInternal]
    | succ h =>
      simp only [embed, lookupRaw, lookupInternal, List.getElem?_map]
      cases hp : path[h]? with
      | none => simp
      | some b =>
        simp only [Option.map_some, b.isLt, dif_pos, Fin.eta, ih b h, embed_siblings]
        rcases lookupInternal H h (c b) path with e | r
        · rfl
        · cases r <;> rfl

/-- **C93** (refuted: a deserialized tree can be used).  Branches without children are accepted, and every lookup
panics, whatever the height. -/
theorem C93_children_counterexample [NeZero a] {VE : E → Prop} {VI : I → Prop} {VT : T → Prop}
    {C : Codecs E I T} (hE : Faithful VE C.elem) (hI : Faithful VI C.index) (hT : Faithful VT C.val)
    (H : Hasher E I T) (idx : I → ℕ) (v : T) (hv : VT v) (h : ℕ) (hh : h < 2 ^ 64) :
    ∃ w, ∃ t : RTree E I T, deRTree C w = .ok t ∧ t.height = h ∧ ∀ p, t.lookup a H idx p = .error .panic := by
  refine ⟨serRTree C ⟨.branch v 0 fun i => i.elim0, h, 0⟩, ⟨.branch v 0 fun i => i.elim0, h, 0⟩,
    C93_raw_tree hE hI hT _ ⟨⟨hv, fun i => i.elim0⟩, hh, by norm_num⟩, rfl, fun p => ?_⟩
  cases h with
  | zero => simp [RTree.lookup, lookupRaw]
  | succ h =>
    simp only [RTree.lookup, lookupRaw]
    cases ((toPath a (idx p) (h + 1)).map Fin.val)[h]? <;> simp

theorem toPath_one (a : ℕ) [NeZero a] (k : ℕ) : toPath a k 1 = [Fin.ofNat a k] := rfl

/-- **C93** (refuted: lookups return proofs that the commitment accepts).  Branches with a child too many are accepted,
and the proofs made from them are malformed for the verifier, whatever the hash and the commitment. -/
theorem C93_more_children_counterexample [DecidableEq T] [NeZero a] {VE : E → Prop} {VI : I → Prop} {VT : T → Prop}
    {C : Codecs E I T} (hE : Faithful VE C.elem) (hI : Faithful VI C.index) (hT : Faithful VT C.val)
    (H : Hasher E I T) (idx : I → ℕ) (p : I) (e : E) (hp : VI p) (he : VE e) (v : T) (hv : VT v) :
    ∃ w, ∃ t : RTree E I T, ∃ proof, deRTree C w = .ok t ∧ t.lookup a H idx p = .ok (.ok e proof) ∧
      ∀ commitment, Tree.verify a H idx commitment p e proof = .error .inconsistentStructure := by
  let c : Fin (a + 1) → RNode E I T := fun _ => .leaf v p e
  have hb : idx p % a < a + 1 := lt_trans (Nat.mod_lt _ (NeZero.pos a)) (Nat.lt_succ_self a)
  refine ⟨serRTree C ⟨.branch v (a + 1) c, 1, 1⟩, ⟨.branch v (a + 1) c, 1, 1⟩, [rSiblings H c (idx p % a)],
    C93_raw_tree hE hI hT _ ⟨⟨hv, fun _ => ⟨hv, hp, he⟩⟩, by norm_num, by norm_num⟩, ?_, fun commitment => ?_⟩
  · simp [RTree.lookup, toPath_one, lookupRaw, c, hb]
  · have hl : (rSiblings H c (idx p % a)).length = a := by
      have h1 : (List.finRange (a + 1)).filter (fun i => decide (i.val ≠ idx p % a)) =
          (List.finRange (a + 1)).erase ⟨idx p % a, hb⟩ := by
        rw [(List.nodup_finRange (a + 1)).erase_eq_filter]
        apply List.filter_congr
        intro i _
        simp [Fin.ext_iff, bne, BEq.beq]
      unfold rSiblings
      rw [List.length_map, h1, List.length_erase_of_mem (List.mem_finRange _), List.length_finRange]
      rfl
    have ha := NeZero.pos a
    have : ¬ a = a - 1 := by omega
    simp [Tree.verify, verifyMerkleProof, hl, this]

/-! ## Examples -/

/-- a branch with three children in a tree of arity two -/
def exR : RTree ℕ ℕ (List Byte) :=
  ⟨.branch [1, 2] 3 fun i => if i = 0 then .leaf [3, 4] 0 300 else .forgotten [5, 6], 1, 2⟩

theorem exR_of : RTreeOf (· < 256 ^ 8) (· < 256 ^ 8) (fun x => x.length = 2) exR := by
  refine ⟨⟨rfl, fun i => ?_⟩, by decide, by decide⟩
  fin_cases i
  · exact ⟨rfl, by decide, by decide⟩
  · exact rfl
  · exact rfl

example : deRTree exC (serRTree exC exR) = .ok exR :=
  C93_raw_tree (uint_faithful 8) (uint_faithful 8) (C93_node_bytes 2).1 exR exR_of

/-- the model of arity two has no such tree -/
example : ∀ t : Tree 2 ℕ ℕ (List Byte), deTree 2 exC (serRTree exC exR) ≠ .ok t := by
  intro t h
  have h1 := (C93_raw_arity exC _ t).1 h
  rw [C93_raw_tree (uint_faithful 8) (uint_faithful 8) (C93_node_bytes 2).1 exR exR_of] at h1
  have h2 : exR.root = embed t.root := congrArg RTree.root (Except.ok.inj h1)
  cases ht : t.root with
  | branch v c =>
    rw [ht] at h2
    have := congrArg List.length (branch_inj h2).2
    simp at this
  | _ => rw [ht] at h2; simp [exR, embed] at h2

/-- the proof made from it has two siblings -/
example : exR.lookup 2 ⟨[0, 0], fun _ => [7, 7], fun _ _ => [8, 8]⟩ id 0 = .ok (.ok 300 [[[5, 6], [5, 6]]]) := by
  rfl

end Verif.Props.MerkleSerde
