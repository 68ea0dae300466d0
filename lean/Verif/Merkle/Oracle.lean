import Verif.Merkle.Binding
import Verif.Merkle.WF

/-!
# What an accepted proof says about a tree, with the hash function as an oracle

A tree hash is given by the inputs it feeds to one hash function. If a proof is accepted that disagrees with `lookup`, then among the
inputs hashed for the tree and by the verifier there is a collision or a preimage of the value of empty nodes.
-/

namespace Verif.Merkle

variable {a : ℕ} {E I T X : Type}

/-- a tree hash: the hash function, the value of empty nodes, the inputs for nodes and leaves -/
structure Oracle (E I T X : Type) where
  dflt : T
  hash : X → T
  node : List T → X
  leaf : I → E → X

/-- the tree hash as `DigestAlgorithm` -/
def Oracle.hasher (O : Oracle E I T X) : Hasher E I T := ⟨O.dflt, fun l => O.hash (O.node l), fun p e => O.hash (O.leaf p e)⟩

/-- inputs of nodes and leaves are different and determine the values hashed -/
structure Oracle.Separated (a : ℕ) (O : Oracle E I T X) : Prop where
  node_inj : ∀ l l' : List T, l.length = a → l'.length = a → O.node l = O.node l' → l = l'
  leaf_inj : ∀ p e e', O.leaf p e = O.leaf p e' → e = e'
  sep : ∀ p e (l : List T), l.length = a → O.leaf p e ≠ O.node l

/-- the inputs hashed for a tree -/
inductive Hashed (O : Oracle E I T X) : Node a E I T → X → Prop
  | leaf (v : T) (p : I) (e : E) : Hashed O (.leaf v p e) (O.leaf p e)
  | branch (v : T) (c : Fin a → Node a E I T) : Hashed O (.branch v c) (O.node (List.ofFn fun i => (c i).value O.hasher))
  | child (v : T) (c : Fin a → Node a E I T) (i : Fin a) (x : X) : Hashed O (c i) x → Hashed O (.branch v c) x

/-- the inputs hashed when a membership proof is verified -/
inductive Checked [NeZero a] (O : Oracle E I T X) (n : ℕ) (pos : I) (e : E) (proof : List (List T)) : X → Prop
  | leaf : Checked O n pos e proof (O.leaf pos e)
  | node (k : ℕ) : k < proof.length → Checked O n pos e proof
      (O.node (levelInput O.hasher (toPath a n proof.length) proof (O.hasher.digestLeaf pos e) k))

/-- the inputs hashed when a non-membership proof is verified -/
inductive CheckedNone [NeZero a] (O : Oracle E I T X) (n : ℕ) (proof : List (List T)) : X → Prop
  | node (k : ℕ) (h : k < proof.length) : proof[k] ≠ [] → CheckedNone O n proof
      (O.node (levelInput O.hasher (toPath a n proof.length) proof O.dflt k))

/-- a collision between two sets of inputs, or a preimage of the value of empty nodes in one of them -/
def Broken (O : Oracle E I T X) (A B : X → Prop) : Prop :=
  (∃ x y, A x ∧ B y ∧ x ≠ y ∧ O.hash x = O.hash y) ∨ ∃ x, (A x ∨ B x) ∧ O.hash x = O.dflt

theorem Broken.mono {O : Oracle E I T X} {A A' B : X → Prop} (h : Broken O A B) (hA : ∀ x, A x → A' x) : Broken O A' B := by
  rcases h with ⟨x, y, h1, h2⟩ | ⟨x, h1 | h1, h2⟩
  · exact .inl ⟨x, y, hA x h1, h2⟩
  · exact .inr ⟨x, .inl (hA x h1), h2⟩
  · exact .inr ⟨x, .inr h1, h2⟩

/-- no part of the tree is forgotten -/
def InMemory : Node a E I T → Prop
  | .forgotten _ => False
  | .branch _ c => ∀ i, InMemory (c i)
  | _ => True

theorem levelInput_length' (H : Hasher E I T) (path : List (Fin a)) (proof : List (List T)) (init : T) (k : ℕ)
    (h1 : k < path.length) (h2 : k < proof.length) (ha : 2 ≤ a) (hw : proof[k].length = a - 1) :
    (levelInput H path proof init k).length = a := by
  simp only [levelInput, List.getElem?_eq_getElem h1, List.getElem?_eq_getElem h2, List.length_append, List.length_take,
    List.length_cons, List.length_drop]
  have := path[k].isLt
  omega

theorem levelInput_get (H : Hasher E I T) (path : List (Fin a)) (proof : List (List T)) (init : T) (k : ℕ)
    (h1 : k < path.length) (h2 : k < proof.length) (hw : proof[k].length = a - 1) {g : Fin a → T}
    (heq : levelInput H path proof init k = List.ofFn g) : foldTo H path proof init k = g path[k] := by
  have hk : path[k].val < a := path[k].isLt
  have hg := congrArg (fun l => l[path[k].val]?) heq
  simp only [levelInput, List.getElem?_eq_getElem h1, List.getElem?_eq_getElem h2] at hg
  rw [List.getElem?_append_right (by simp)] at hg
  simp only [List.length_take, List.getElem?_ofFn, hk, dif_pos] at hg
  rw [show path[k].val - min path[k].val proof[k].length = 0 by omega] at hg
  simpa using hg

theorem oracle_fold [NeZero a] (O : Oracle E I T X) (hO : O.Separated a) (idx : I → ℕ) (ha : 2 ≤ a) (N : ℕ) (pos : I) (e : E)
    (proof : List (List T)) (hw : ∀ v ∈ proof, v.length = a - 1) :
    ∀ (k h : ℕ) (n : Node a E I T), k ≤ proof.length →
      WF O.hasher idx h ((toPath a N proof.length).drop k) n →
      foldTo O.hasher (toPath a N proof.length) proof (O.hasher.digestLeaf pos e) k = n.value O.hasher →
      Broken O (Hashed O n) (Checked (a := a) O N pos e proof) ∨
      (k = h ∧ ((∃ p' e' q, lookupInternal O.hasher h n (toPath a N proof.length) = .ok (.ok e' q) ∧ O.leaf p' e' = O.leaf pos e ∧
          idx p' < a ^ proof.length ∧ toPath a (idx p') proof.length = toPath a N proof.length) ∨
        lookupInternal O.hasher h n (toPath a N proof.length) = .ok .notInMemory)) ∨
      (k ≠ h ∧ ¬ InMemory n) := by
  intro k
  induction k with
  | zero =>
    intro h n _ hwf hf
    rw [foldTo_zero] at hf
    cases n with
    | empty => exact .inl (.inr ⟨_, .inr .leaf, hf⟩)
    | forgotten v =>
      by_cases h0 : 0 = h
      · exact .inr (.inl ⟨h0, .inr (by cases h <;> rfl)⟩)
      · exact .inr (.inr ⟨h0, id⟩)
    | leaf v p' e' =>
      cases h with
      | succ h => exact hwf.elim
      | zero =>
        obtain ⟨h1, h2, h3⟩ := hwf
        simp only [List.drop_zero, toPath_length] at h2 h3
        have hf' : O.hash (O.leaf pos e) = O.hash (O.leaf p' e') := hf.trans h1
        by_cases hx : O.leaf p' e' = O.leaf pos e
        · exact .inr (.inl ⟨rfl, .inl ⟨p', e', [], rfl, hx, h2, h3⟩⟩)
        · exact .inl (.inl ⟨_, _, .leaf v p' e', .leaf, hx, hf'.symm⟩)
    | branch v c =>
      cases h with
      | zero => exact hwf.elim
      | succ h =>
        have h1 : v = O.hash (O.node (List.ofFn fun i => (c i).value O.hasher)) := hwf.1
        exact .inl (.inl ⟨_, _, .branch v c, .leaf, (hO.sep pos e _ (by simp)).symm, (hf.trans h1).symm⟩)
  | succ k ih =>
    intro h n hk hwf hf
    have hkp : k < (toPath a N proof.length).length := by simp; omega
    have hx := hw proof[k] (List.getElem_mem _)
    have hne : proof[k] ≠ [] := by intro h; rw [h] at hx; simp at hx; omega
    rw [foldTo_succ_ne O.hasher _ proof _ k hkp (by omega) hne] at hf
    have hlen := levelInput_length' O.hasher (toPath a N proof.length) proof (O.hasher.digestLeaf pos e) k hkp (by omega) ha hx
    have hq := Checked.node (O := O) (n := N) (pos := pos) (e := e) (proof := proof) (a := a) k (by omega)
    cases n with
    | empty => exact .inl (.inr ⟨_, .inr hq, hf⟩)
    | forgotten v =>
      by_cases h0 : k + 1 = h
      · exact .inr (.inl ⟨h0, .inr (by cases h <;> rfl)⟩)
      · exact .inr (.inr ⟨h0, id⟩)
    | leaf v p' e' =>
      cases h with
      | succ h => exact hwf.elim
      | zero =>
        obtain ⟨h1, -⟩ := hwf
        have hf' : O.hash (O.leaf p' e') = _ := h1.symm.trans hf.symm
        exact .inl (.inl ⟨_, _, .leaf v p' e', hq, hO.sep p' e' _ hlen, hf'⟩)
    | branch v c =>
      cases h with
      | zero => exact hwf.elim
      | succ h =>
        have h1 : v = O.hash (O.node (List.ofFn fun i => (c i).value O.hasher)) := hwf.1
        by_cases hx' : O.node (List.ofFn fun i => (c i).value O.hasher) =
            O.node (levelInput O.hasher (toPath a N proof.length) proof (O.hasher.digestLeaf pos e) k)
        · have hl := hO.node_inj _ _ (by simp) hlen hx'
          have hg := levelInput_get O.hasher _ proof _ k hkp (by omega) hx hl.symm
          have hdrop : (toPath a N proof.length).drop k
              = (toPath a N proof.length)[k] :: (toPath a N proof.length).drop (k + 1) := List.drop_eq_getElem_cons hkp
          rcases ih h (c (toPath a N proof.length)[k]) (by omega) (by rw [hdrop]; exact hwf.2 _) hg with hb | ⟨h2, hb⟩ | ⟨h2, hb⟩
          · exact .inl (hb.mono fun x hx => .child v c _ x hx)
          · subst h2
            refine .inr (.inl ⟨rfl, ?_⟩)
            rcases hb with ⟨p', e', q, hb, hb'⟩ | hb
            · refine .inl ⟨p', e', q ++ [siblings O.hasher c (toPath a N proof.length)[k]], ?_, hb'⟩
              simp only [lookupInternal, List.getElem?_eq_getElem hkp, hb]
            · refine .inr ?_
              simp only [lookupInternal, List.getElem?_eq_getElem hkp, hb]
          · exact .inr (.inr ⟨by omega, fun hm => hb (hm _)⟩)
        · exact .inl (.inl ⟨_, _, .branch v c, hq, hx', h1.symm.trans hf.symm⟩)

theorem oracle_fold_none [NeZero a] (O : Oracle E I T X) (hO : O.Separated a) (idx : I → ℕ) (ha : 2 ≤ a) (N : ℕ)
    (proof : List (List T)) (hw : ∀ v ∈ proof, v.length = a - 1 ∨ v = []) :
    ∀ (k : ℕ) (n : Node a E I T), k ≤ proof.length →
      WF O.hasher idx k ((toPath a N proof.length).drop k) n →
      foldTo O.hasher (toPath a N proof.length) proof O.dflt k = n.value O.hasher →
      Broken O (Hashed O n) (CheckedNone (a := a) O N proof) ∨
      (∃ q, lookupInternal O.hasher k n (toPath a N proof.length) = .ok (.notFound q)) ∨
      lookupInternal O.hasher k n (toPath a N proof.length) = .ok .notInMemory := by
  intro k
  have dflt : ∀ (k : ℕ) (n : Node a E I T) (pre : List (Fin a)), WF O.hasher idx k pre n → O.dflt = n.value O.hasher →
      Broken O (Hashed O n) (CheckedNone (a := a) O N proof) ∨
      (∃ q, lookupInternal O.hasher k n (toPath a N proof.length) = .ok (.notFound q)) ∨
      lookupInternal O.hasher k n (toPath a N proof.length) = .ok .notInMemory := by
    intro k n pre hwf hf
    cases n with
    | empty => exact .inr (.inl ⟨List.replicate k [], by cases k <;> rfl⟩)
    | forgotten v => exact .inr (.inr (by cases k <;> rfl))
    | leaf v p' e' =>
      cases k with
      | succ k => exact hwf.elim
      | zero => exact .inl (.inr ⟨_, .inl (.leaf v p' e'), (hf.trans hwf.1).symm⟩)
    | branch v c =>
      cases k with
      | zero => exact hwf.elim
      | succ k => exact .inl (.inr ⟨_, .inl (.branch v c), (hf.trans hwf.1).symm⟩)
  induction k with
  | zero =>
    intro n _ hwf hf
    rw [foldTo_zero] at hf
    exact dflt 0 n _ hwf hf
  | succ k ih =>
    intro n hk hwf hf
    have hkp : k < (toPath a N proof.length).length := by simp; omega
    by_cases hne : proof[k] = []
    · rw [foldTo_succ_nil O.hasher _ proof _ k hkp (by omega) hne] at hf
      exact dflt _ n _ hwf hf
    have hx : proof[k].length = a - 1 := (hw proof[k] (List.getElem_mem _)).resolve_right hne
    rw [foldTo_succ_ne O.hasher _ proof _ k hkp (by omega) hne] at hf
    have hlen := levelInput_length' O.hasher (toPath a N proof.length) proof O.dflt k hkp (by omega) ha hx
    have hq := CheckedNone.node (O := O) (n := N) (proof := proof) (a := a) k (by omega) hne
    cases n with
    | empty => exact .inl (.inr ⟨_, .inr hq, hf⟩)
    | forgotten v => exact .inr (.inr rfl)
    | leaf v p' e' => exact hwf.elim
    | branch v c =>
      have h1 : v = O.hash (O.node (List.ofFn fun i => (c i).value O.hasher)) := hwf.1
      by_cases hx' : O.node (List.ofFn fun i => (c i).value O.hasher) =
          O.node (levelInput O.hasher (toPath a N proof.length) proof O.dflt k)
      · have hl := hO.node_inj _ _ (by simp) hlen hx'
        have hg := levelInput_get O.hasher _ proof _ k hkp (by omega) hx hl.symm
        have hdrop : (toPath a N proof.length).drop k
            = (toPath a N proof.length)[k] :: (toPath a N proof.length).drop (k + 1) := List.drop_eq_getElem_cons hkp
        rcases ih (c (toPath a N proof.length)[k]) (by omega) (by rw [hdrop]; exact hwf.2 _) hg with hb | ⟨q, hb⟩ | hb
        · exact .inl (hb.mono fun x hx => .child v c _ x hx)
        · refine .inr (.inl ⟨q ++ [siblings O.hasher c (toPath a N proof.length)[k]], ?_⟩)
          simp only [lookupInternal, List.getElem?_eq_getElem hkp, hb]
        · refine .inr (.inr ?_)
          simp only [lookupInternal, List.getElem?_eq_getElem hkp, hb]
      · exact .inl (.inl ⟨_, _, .branch v c, hq, hx', h1.symm.trans hf.symm⟩)

end Verif.Merkle
