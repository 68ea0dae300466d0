import Verif.Merkle.Remember
import Verif.Props.MerkleUniversal

/-!
# C04-C08, C12-C14: proofs, forgetting, remembering
-/

namespace Verif.Props.Merkle

open Verif.Merkle

variable {a : ℕ} {E I T : Type}

/-! ## Reachable trees -/

/-- Idealised hash, only used where a statement needs collision resistance of the stored tree. -/
structure IdealHash (a : ℕ) (H : Hasher E I T) : Prop where
  digest_inj : ∀ l l' : List T, l.length = a → l'.length = a → H.digest l = H.digest l' → l = l'
  leaf_inj : ∀ p e e', H.digestLeaf p e = H.digestLeaf p e' → e = e'
  leaf_ne : ∀ p e, H.digestLeaf p e ≠ H.dflt
  digest_ne : ∀ l : List T, H.digest l ≠ H.dflt

/-- Trees obtained by any history of `new`, `from_commitment`, `update_with` (hence update and
remove), `forget` and `remember`.  The `remember` step assumes an ideal hash, because otherwise an
accepted proof may come from a collision. -/
inductive Reachable [DecidableEq T] [NeZero a] (H : Hasher E I T) (idx : I → ℕ) :
    Tree a E I T → Prop
  | new (h : ℕ) : Reachable H idx (Tree.new h)
  | fromCommitment (c : T) (h n : ℕ) : Reachable H idx (Tree.fromCommitment c h n)
  | update (t t' : Tree a E I T) (pos : I) (f : Option E → Option E) (o : LookupResult E Unit Unit) :
      Reachable H idx t → idx pos < a ^ t.height → t.updateWith H idx pos f = .ok (t', o) →
      Reachable H idx t'
  | forget (t t' : Tree a E I T) (pos : I) (o : LookupResult E (List (List T)) (List (List T))) :
      Reachable H idx t → t.universalForget H idx pos = .ok (t', o) → Reachable H idx t'
  | remember (t t' : Tree a E I T) (pos : I) (e : E) (proof : List (List T)) :
      Reachable H idx t → IdealHash a H → idx pos < a ^ t.height → proof.length = t.height →
      t.remember H idx pos e proof = .ok t' → Reachable H idx t'

theorem levelInput_length [NeZero a] (H : Hasher E I T) (path : List (Fin a)) (proof : List (List T))
    (init : T) (k : ℕ) (h1 : k < path.length) (h2 : k < proof.length) (ha : 2 ≤ a)
    (hw : ∀ v ∈ proof, v.length = a - 1) : (levelInput H path proof init k).length = a := by
  have := hw proof[k] (List.getElem_mem h2)
  simp only [levelInput, List.getElem?_eq_getElem h1, List.getElem?_eq_getElem h2,
    List.length_append, List.length_take, List.length_cons, List.length_drop]
  have := path[k].isLt
  omega

theorem treeInput_length (H : Hasher E I T) (path : List (Fin a)) :
    ∀ (h : ℕ) (n : Node a E I T) (k : ℕ) (l : List T), treeInput H path h n k = some l → l.length = a := by
  intro h
  induction h with
  | zero => intro n k l hl; simp [treeInput] at hl
  | succ h ih =>
    intro n k l hl
    cases n with
    | branch v c =>
      simp only [treeInput] at hl
      split at hl
      · simp only [Option.some.injEq] at hl; rw [← hl]; simp
      · split at hl
        · exact ih _ _ _ hl
        · simp at hl
    | _ => simp [treeInput] at hl

/-- What a successful `remember` does, for an arbitrary hash: either everything is as expected or
the proof and the tree exhibit a broken hash. -/
theorem remember_cases [DecidableEq T] [NeZero a] (H : Hasher E I T) (idx : I → ℕ)
    (hinj : Function.Injective idx) (ha : 2 ≤ a) (t : Tree a E I T) (hwf : t.WellFormed H idx)
    (pos : I) (hpos : idx pos < a ^ t.height) (e : E) (proof : List (List T))
    (hlen : proof.length = t.height)
    (hver : Tree.verify a H idx (t.commitment H) pos e proof = .ok true) :
    let path := toPath a (idx pos) t.height
    let inp := levelInput H path proof (H.digestLeaf pos e)
    (∃ t', t.remember H idx pos e proof = .ok t' ∧ t'.WellFormed H idx ∧
      t'.height = t.height ∧ t'.numLeaves = t.numLeaves ∧
      t'.commitment H = t.commitment H ∧
      t'.universalLookup H idx pos = .ok (.ok e proof) ∧
      (∀ pos' e' p', idx pos' < a ^ t.height → pos' ≠ pos →
        t.universalLookup H idx pos' = .ok (.ok e' p') →
        t'.universalLookup H idx pos' = .ok (.ok e' p'))) ∨
    (∃ e', e' ≠ e ∧ H.digestLeaf pos e' = H.digestLeaf pos e) ∨
    H.digestLeaf pos e = H.dflt ∨
    (∃ k < t.height, H.digest (inp k) = H.dflt) ∨
    (∃ k < t.height, ∃ l, treeInput H path t.height t.root k = some l ∧ inp k ≠ l ∧
      H.digest (inp k) = H.digest l) := by
  intro path inp
  have hv := (verify_true_iff H idx _ pos e proof).mp hver
  obtain ⟨hw, hf⟩ := hv
  rw [hlen] at hf
  have hpl : path.length = t.height := by simp [path]
  have hth : Through t.height [] path := Through.root _ _
  have hp1 : idx pos < a ^ path.length := by rw [hpl]; exact hpos
  have hp2 : toPath a (idx pos) path.length = path := by rw [hpl]
  rcases agree_or_collision H idx hinj ha pos e proof hw t.height [] path t.root hwf hth
    (by omega) hp1 hp2 hf with h1 | h1 | h1 | h1 | h1
  · left
    obtain ⟨n', g1, g2, g3, g4, g5⟩ := remember_good H idx ha pos e proof hw t.height [] path t.root
      hwf hth (by omega) hp1 hp2 h1 hf
    refine ⟨⟨n', t.height, t.numLeaves⟩, ?_, g2, rfl, rfl, ?_, ?_, ?_⟩
    · simp only [Tree.remember, hver, path] at g1 ⊢
      rw [g1]
    · exact g3
    · simp only [Tree.universalLookup]
      rw [g4, ← hlen, List.take_length]
    · intro pos' e' p' hr hne hl
      simp only [Tree.universalLookup] at hl ⊢
      apply g5 _ (Through.root _ _) _ _ _ hl
      intro heq
      exact hne (hinj (toPath_inj _ _ _ hr hpos heq))
  · right; left; exact h1
  · right; right; left; exact h1
  · right; right; right; left; exact h1
  · right; right; right; right; exact h1

theorem not_broken [DecidableEq T] [NeZero a] (H : Hasher E I T) (idx : I → ℕ) (hid : IdealHash a H)
    (ha : 2 ≤ a) (t : Tree a E I T) (pos : I) (e : E) (proof : List (List T))
    (hlen : proof.length = t.height) (hw : ∀ v ∈ proof, v.length = a - 1) :
    let path := toPath a (idx pos) t.height
    let inp := levelInput H path proof (H.digestLeaf pos e)
    ¬ ((∃ e', e' ≠ e ∧ H.digestLeaf pos e' = H.digestLeaf pos e) ∨
    H.digestLeaf pos e = H.dflt ∨
    (∃ k < t.height, H.digest (inp k) = H.dflt) ∨
    (∃ k < t.height, ∃ l, treeInput H path t.height t.root k = some l ∧ inp k ≠ l ∧
      H.digest (inp k) = H.digest l)) := by
  intro path inp
  rintro (⟨e', h1, h2⟩ | h1 | ⟨k, hk, h1⟩ | ⟨k, hk, l, h1, h2, h3⟩)
  · exact h1 (hid.leaf_inj _ _ _ h2)
  · exact hid.leaf_ne _ _ h1
  · exact hid.digest_ne _ h1
  · apply h2
    apply hid.digest_inj _ _ _ (treeInput_length H path _ _ _ _ h1) h3
    exact levelInput_length H path proof _ k (by simp [path]; exact hk) (by omega) ha hw

theorem reachable_wf [DecidableEq T] [NeZero a] (H : Hasher E I T) (idx : I → ℕ)
    (hinj : Function.Injective idx) (ha : 2 ≤ a) (t : Tree a E I T) (hr : Reachable H idx t) :
    t.WellFormed H idx := by
  induction hr with
  | new h => unfold Tree.WellFormed Tree.new; cases h <;> trivial
  | fromCommitment c h n => unfold Tree.WellFormed Tree.fromCommitment; cases h <;> trivial
  | update t t' pos f o _ hpos hu ih =>
    unfold Tree.updateWith at hu
    split at hu
    · simp at hu
    · rename_i root delta res heq
      simp only [Except.ok.injEq, Prod.mk.injEq] at hu
      rw [← hu.1]
      exact (update_wf H idx pos f t.height [] _ t.root ih (Through.root _ _)
        (by simpa using hpos) (by simp) _ _ _ heq).1
  | forget t t' pos o _ hf ih =>
    unfold Tree.universalForget at hf
    obtain ⟨n', r, h1, h2, -⟩ := forget_spec H idx t.height [] _ t.root ih (Through.root (idx pos) _)
    rw [h1] at hf
    simp only [Except.ok.injEq, Prod.mk.injEq] at hf
    rw [← hf.1]
    exact h2
  | remember t t' pos e proof _ hid hpos hlen hrem ih =>
    have hver : Tree.verify a H idx (t.commitment H) pos e proof = .ok true := by
      unfold Tree.remember at hrem
      split at hrem
      · simp at hrem
      · simp at hrem
      · assumption
    have hw := ((verify_true_iff H idx _ pos e proof).mp hver).1
    rcases remember_cases H idx hinj ha t ih pos hpos e proof hlen hver with ⟨t'', h1, h2, -⟩ | h
    · rw [hrem] at h1
      simp only [Except.ok.injEq] at h1
      rw [h1]; exact h2
    · exact absurd h (not_broken H idx hid ha t pos e proof hlen hw)

/-! ## C04 -/

/-- **C04.** In every reachable tree, whenever lookup of an in-range index returns a value and a
proof, the proof is accepted for that value, index and the current commitment. -/
theorem C04_membership_proofs_verify [DecidableEq T] [NeZero a] (H : Hasher E I T) (idx : I → ℕ)
    (hinj : Function.Injective idx) (ha : 2 ≤ a) (t : Tree a E I T) (hr : Reachable H idx t)
    (pos : I) (hpos : idx pos < a ^ t.height) (e : E) (proof : List (List T))
    (hl : t.universalLookup H idx pos = .ok (.ok e proof)) :
    Tree.verify a H idx (t.commitment H) pos e proof = .ok true :=
  lookup_ok_verifies H idx hinj ha t (reachable_wf H idx hinj ha t hr) pos hpos e proof hl

/-- The demonstration tree: arity 2, height 2, index 1 holds 7. -/
def demoTree : Tree 2 ℕ ℕ (List ℕ) :=
  match (Tree.new 2 : Tree 2 ℕ ℕ (List ℕ)).update demoHasher id 1 7 with
  | .ok (t, _) => t
  | .error _ => Tree.new 2

theorem demoTree_reachable : Reachable demoHasher id demoTree :=
  Reachable.update (Tree.new 2) _ 1 (fun _ => some 7) (.notFound ()) (Reachable.new 2)
    (by decide) rfl

/-- Non-vacuity: a lookup that succeeds. -/
example : demoTree.universalLookup demoHasher id 1 = .ok (.ok 7 [[[0]], [[0]]]) ∧
    Tree.verify 2 demoHasher id (demoTree.commitment demoHasher) 1 7 [[[0]], [[0]]] = .ok true :=
  ⟨rfl, C04_membership_proofs_verify demoHasher id Function.injective_id (le_refl 2) demoTree
    demoTree_reachable 1 (by decide) 7 _ rfl⟩

/-! ## C05 -/

/-- **C05.** Two accepted membership proofs of equal length for the same commitment and index but
different values: at some level the two verifications hash different inputs to the same value, or
the two leaves have the same digest.  (Both collisions are read off the two proofs.) -/
theorem C05_membership_binding [DecidableEq T] [NeZero a] (H : Hasher E I T) (idx : I → ℕ)
    (ha : 2 ≤ a) (com : T) (pos : I) (e₁ e₂ : E) (p₁ p₂ : List (List T))
    (hlen : p₁.length = p₂.length) (hne : e₁ ≠ e₂)
    (h₁ : Tree.verify a H idx com pos e₁ p₁ = .ok true)
    (h₂ : Tree.verify a H idx com pos e₂ p₂ = .ok true) :
    (e₁ ≠ e₂ ∧ H.digestLeaf pos e₁ = H.digestLeaf pos e₂) ∨
    ∃ k < p₁.length,
      let path := toPath a (idx pos) p₁.length
      let l₁ := levelInput H path p₁ (H.digestLeaf pos e₁) k
      let l₂ := levelInput H path p₂ (H.digestLeaf pos e₂) k
      l₁ ≠ l₂ ∧ H.digest l₁ = H.digest l₂ := by
  obtain ⟨hw1, hf1⟩ := (verify_true_iff H idx com pos e₁ p₁).mp h₁
  obtain ⟨hw2, hf2⟩ := (verify_true_iff H idx com pos e₂ p₂).mp h₂
  rw [← hlen] at hf2
  rcases fold_binding H ha (toPath a (idx pos) p₁.length) p₁ p₂ _ _ p₁.length (by simp) (le_refl _)
    (by omega) hw1 hw2 (hf1.trans hf2.symm) with ⟨h, -⟩ | ⟨k, hk, h⟩
  · left; exact ⟨hne, h⟩
  · right; exact ⟨k, hk, h⟩

/-- **C05, ideal form.** With an injective node and leaf hash a commitment and index admit at most
one value (for proofs of equal length). -/
theorem C05_membership_unique [DecidableEq T] [NeZero a] (H : Hasher E I T) (idx : I → ℕ)
    (ha : 2 ≤ a) (hid : IdealHash a H) (com : T) (pos : I) (e₁ e₂ : E) (p₁ p₂ : List (List T))
    (hlen : p₁.length = p₂.length)
    (h₁ : Tree.verify a H idx com pos e₁ p₁ = .ok true)
    (h₂ : Tree.verify a H idx com pos e₂ p₂ = .ok true) : e₁ = e₂ ∧ p₁ = p₂ := by
  obtain ⟨hw1, hf1⟩ := (verify_true_iff H idx com pos e₁ p₁).mp h₁
  obtain ⟨hw2, hf2⟩ := (verify_true_iff H idx com pos e₂ p₂).mp h₂
  rw [← hlen] at hf2
  rcases fold_binding H ha (toPath a (idx pos) p₁.length) p₁ p₂ _ _ p₁.length (by simp) (le_refl _)
    (by omega) hw1 hw2 (hf1.trans hf2.symm) with ⟨h, h'⟩ | ⟨k, hk, h1, h2⟩
  · refine ⟨hid.leaf_inj _ _ _ h, ?_⟩
    rw [List.take_length, hlen, List.take_length] at h'
    exact h'
  · exfalso
    apply h1
    apply hid.digest_inj _ _ _ _ h2
    · exact levelInput_length H _ p₁ _ k (by simpa using hk) hk ha hw1
    · exact levelInput_length H _ p₂ _ k (by simpa using hk) (by omega) ha hw2

/-- An accepted membership folding over a canonical (fully in-memory) tree has the tree's height,
when leaf and node hashes are separated. -/
theorem fold_canon_height [NeZero a] (H : Hasher E I T) (hid : IdealHash a H)
    (hsep : ∀ p e (l : List T), H.digestLeaf p e ≠ H.digest l) (ha : 2 ≤ a) (m : Content a I E)
    (pos : I) (e : E) (path : List (Fin a)) (proof : List (List T))
    (hw : ∀ v ∈ proof, v.length = a - 1) : ∀ (k h : ℕ) (pre : List (Fin a)),
      k ≤ path.length → k ≤ proof.length →
      foldTo H path proof (H.digestLeaf pos e) k = (canon H m h pre).value H → k = h := by
  intro k
  induction k with
  | zero =>
    intro h pre _ _ hf
    rw [foldTo_zero] at hf
    cases h with
    | zero => rfl
    | succ h =>
      simp only [canon] at hf
      split at hf
      · exact absurd hf (hid.leaf_ne _ _)
      · exact absurd hf (hsep _ _ _)
  | succ k ih =>
    intro h pre hp hq hf
    have hx := hw proof[k] (List.getElem_mem _)
    have hne : proof[k] ≠ [] := by intro h; rw [h] at hx; simp at hx; omega
    rw [foldTo_succ_ne H path proof _ k (by omega) (by omega) hne] at hf
    cases h with
    | zero =>
      simp only [canon] at hf
      split at hf
      · exact absurd hf (hid.digest_ne _)
      · exact absurd hf.symm (hsep _ _ _)
    | succ h =>
      simp only [canon] at hf
      split at hf
      · exact absurd hf (hid.digest_ne _)
      · have hlen := levelInput_length H path proof (H.digestLeaf pos e) k (by omega) (by omega) ha hw
        have hl := hid.digest_inj _ _ hlen (by simp) hf
        have hk : path[k].val < a := path[k].isLt
        have hg := congrArg (fun l => l[path[k].val]?) hl
        simp only [levelInput, List.getElem?_eq_getElem (show k < path.length by omega),
          List.getElem?_eq_getElem (show k < proof.length by omega)] at hg
        rw [List.getElem?_append_right (by simp)] at hg
        simp only [List.length_take, List.getElem?_ofFn, hk, dif_pos] at hg
        rw [show path[k].val - min path[k].val proof[k].length = 0 by omega] at hg
        simp only [List.getElem?_cons_zero, Option.some.injEq, Fin.eta] at hg
        have := ih h (path[k] :: pre) (by omega) (by omega) hg
        omega

/-- **C05, end to end.** With an ideal hash whose leaf and node digests are separated: after any
history of updates and removals, *any* accepted membership proof (of any length) for an in-range
index names exactly the value the store holds there. -/
theorem C05_accepted_value_is_stored [DecidableEq T] [NeZero a] (H : Hasher E I T) (idx : I → ℕ)
    (ha : 2 ≤ a) (hid : IdealHash a H) (hsep : ∀ p e (l : List T), H.digestLeaf p e ≠ H.digest l)
    (hinj : Function.Injective idx)
    (height : ℕ) (ops : List (Op I E))
    (hrange : ∀ op ∈ ops, idx op.pos < a ^ height) (hlen : ops.length < 2 ^ 64)
    (t : Tree a E I T) (outs : List (LookupResult E Unit Unit))
    (hrun : run H idx (Tree.new height) ops = .ok (t, outs))
    (pos : I) (hpos : idx pos < a ^ height) (e : E) (proof : List (List T))
    (hver : Tree.verify a H idx (t.commitment H) pos e proof = .ok true) :
    (specRun idx emptyStore ops).1 (idx pos) = some e ∧ proof.length = height := by
  have hp0 : present (emptyStore : Store E) (a ^ height) = 0 := by simp [present, emptyStore]
  obtain ⟨t', m, h1, h2, h3, -⟩ := run_sim H idx ops (Tree.new height) emptyStore _
    (sim_new H idx height) hrange hp0.symm (by simpa [Tree.new, hp0] using hlen)
  rw [hrun] at h1
  simp only [Except.ok.injEq, Prod.mk.injEq] at h1
  obtain ⟨rfl, -⟩ := h1
  simp only [Tree.new] at h3
  obtain ⟨hw, hf⟩ := (verify_true_iff H idx _ pos e proof).mp hver
  have hpl : proof.length = t.height := by
    refine fold_canon_height H hid hsep ha m pos e (toPath a (idx pos) proof.length) proof hw proof.length t.height [] (by simp)
      (le_refl _) ?_
    rw [hf, ← h2.root]; rfl
  refine ⟨?_, by rw [hpl, h3]⟩
  have hag := h2.agree (idx pos) (by rw [h3]; exact hpos)
  rw [← hag]
  have hwf : t.WellFormed H idx := by
    unfold Tree.WellFormed
    rw [h2.root]
    apply canon_wf
    intro path p e hth hm
    have hpl : path.length = t.height := by have := hth.1; simpa using this
    have := h2.coherent path p e hm
    rw [hpl]; exact this
  have hl := lookup_canon H m t.height [] (toPath a (idx pos) t.height) (Through.root _ _)
  rw [← h2.root] at hl
  cases hm : m (toPath a (idx pos) t.height) with
  | none =>
    exfalso
    rw [hm] at hl
    obtain ⟨p, hp⟩ := hl
    obtain ⟨r0, hr0, -, hnf⟩ := lookup_fold H idx ha t.height [] _ t.root hwf (Through.root (idx pos) _)
    rw [hp] at hr0
    simp only [Except.ok.injEq] at hr0
    have hpl2 := (hnf p hr0.symm).1
    have hnv := lookup_notFound_verifies H idx ha t hwf pos p hp
    obtain ⟨hw2, hf2⟩ := (nonmem_true_iff H idx _ pos p).mp hnv
    rw [hpl2] at hf2
    rw [hpl] at hf
    rcases fold_exclusive H ha (toPath a (idx pos) t.height) proof p _ t.height (by simp)
      (by omega) (by omega) hw hw2 (hf.trans hf2.symm) with h | ⟨k, -, h⟩ | ⟨k, hk, hne, hlk, h⟩
    · exact hid.leaf_ne _ _ h
    · exact hid.digest_ne _ h
    · exact hne (hid.digest_inj _ _
        (levelInput_length H _ proof _ k (by simpa using hk) (by omega) ha hw) hlk h)
  | some pe =>
    obtain ⟨p0, e0⟩ := pe
    rw [hm] at hl
    obtain ⟨p, hp⟩ := hl
    have hv2 := lookup_ok_verifies H idx hinj ha t hwf pos (by rw [h3]; exact hpos) e0 p hp
    obtain ⟨r0, hr0, hokf, -⟩ := lookup_fold H idx ha t.height [] _ t.root hwf (Through.root (idx pos) _)
    rw [hp] at hr0
    simp only [Except.ok.injEq] at hr0
    have hpl2 := (hokf e0 p hr0.symm).1
    have := (C05_membership_unique H idx ha hid _ pos e e0 proof p (by omega) hver hv2).1
    simp [this]

/-- A concrete ideal hash: values are token lists with explicit brackets. -/
def treeHasher : Hasher ℕ ℕ (List (List ℕ)) where
  dflt := []
  digest l := [2] :: (l.map fun v => [v.length] :: v).flatten ++ [[3]]
  digestLeaf i e := [[1, i, e]]

theorem treeHasher_flat_inj : ∀ l l' : List (List (List ℕ)), l.length = l'.length →
    (l.map fun v => [v.length] :: v).flatten = (l'.map fun v => [v.length] :: v).flatten → l = l' := by
  intro l
  induction l with
  | nil => intro l' h _; cases l' with
    | nil => rfl
    | cons _ _ => simp at h
  | cons v l ih =>
    intro l' h heq
    cases l' with
    | nil => simp at h
    | cons v' l' =>
      simp only [List.map_cons, List.flatten_cons, List.cons_append, List.cons.injEq, and_true] at heq
      have h2 := List.append_inj heq.2 heq.1
      rw [h2.1, ih l' (by simpa using h) h2.2]

theorem treeHasher_ideal (a : ℕ) : IdealHash a treeHasher where
  digest_inj l l' h h' heq := by
    simp only [treeHasher, List.cons_append, List.cons.injEq, true_and, List.append_cancel_right_eq] at heq
    exact treeHasher_flat_inj l l' (by rw [h, h']) heq
  leaf_inj p e e' h := by simpa [treeHasher] using h
  leaf_ne p e := by simp [treeHasher]
  digest_ne l := by simp [treeHasher]

theorem treeHasher_sep (p e : ℕ) (l : List (List (List ℕ))) :
    treeHasher.digestLeaf p e ≠ treeHasher.digest l := by
  simp [treeHasher]

/-- Non-vacuity of the end-to-end statement: a history, its commitment and an accepted proof. -/
example : ∃ t outs proof,
    run treeHasher id (Tree.new 2 : Tree 2 ℕ ℕ _) [⟨1, fun _ => some 5⟩, ⟨2, fun _ => some 6⟩]
      = .ok (t, outs) ∧
    Tree.verify 2 treeHasher id (t.commitment treeHasher) 2 6 proof = .ok true :=
  ⟨_, _, [[[]], [treeHasher.digest [[], treeHasher.digestLeaf 1 5]]], rfl, by decide⟩

/-- Non-vacuity of the ideal-hash hypothesis together with an accepted proof. -/
example : Tree.verify 2 treeHasher id (treeHasher.digest [[], treeHasher.digestLeaf 1 5]) 1 5 [[[]]]
    = .ok true := by decide

/-! ## C06 -/

/-- **C06.** In every reachable tree, whenever lookup of an index reports absence, the returned
non-membership proof is accepted for the current commitment. -/
theorem C06_nonmembership_proofs_verify [DecidableEq T] [NeZero a] (H : Hasher E I T) (idx : I → ℕ)
    (hinj : Function.Injective idx) (ha : 2 ≤ a) (t : Tree a E I T) (hr : Reachable H idx t)
    (pos : I) (proof : List (List T))
    (hl : t.universalLookup H idx pos = .ok (.notFound proof)) :
    Tree.nonMembershipVerify a H idx (t.commitment H) pos proof = .ok true :=
  lookup_notFound_verifies H idx ha t (reachable_wf H idx hinj ha t hr) pos proof hl

/-- **C06, history form.** After any history of updates and removals, each in-range index that the
store does not contain has an accepted non-membership proof. -/
theorem C06_absent_index_has_proof [DecidableEq T] [NeZero a] (H : Hasher E I T) (idx : I → ℕ)
    (ha : 2 ≤ a) (height : ℕ) (ops : List (Op I E))
    (hrange : ∀ op ∈ ops, idx op.pos < a ^ height) (hlen : ops.length < 2 ^ 64)
    (pos : I) (hpos : idx pos < a ^ height)
    (habs : (specRun idx emptyStore ops).1 (idx pos) = none) :
    ∃ (t : Tree a E I T) (outs : List (LookupResult E Unit Unit)) (proof : List (List T)),
      run H idx (Tree.new height) ops = .ok (t, outs) ∧
      t.universalLookup H idx pos = .ok (.notFound proof) ∧
      Tree.nonMembershipVerify a H idx (t.commitment H) pos proof = .ok true := by
  have hp0 : present (emptyStore : Store E) (a ^ height) = 0 := by simp [present, emptyStore]
  obtain ⟨t, m, h1, h2, h3, -⟩ := run_sim H idx ops (Tree.new height) emptyStore _
    (sim_new H idx height) hrange hp0.symm (by simpa [Tree.new, hp0] using hlen)
  simp only [Tree.new] at h3
  have hag := h2.agree (idx pos) (by rw [h3]; exact hpos)
  rw [habs] at hag
  have hl := lookup_canon H m t.height [] (toPath a (idx pos) t.height) (Through.root _ _)
  rw [← h2.root] at hl
  have hnone : m (toPath a (idx pos) t.height) = none := by simpa using hag
  rw [hnone] at hl
  obtain ⟨p, hp⟩ := hl
  have hwf : t.WellFormed H idx := by
    unfold Tree.WellFormed
    rw [h2.root]
    apply canon_wf
    intro path p e hth hm
    have hpl : path.length = t.height := by have := hth.1; simpa using this
    have := h2.coherent path p e hm
    rw [hpl]; exact this
  exact ⟨t, _, p, h1, hp, lookup_notFound_verifies H idx ha t hwf pos p hp⟩

/-- Non-vacuity: index 2 of the demonstration tree is absent. -/
example : demoTree.universalLookup demoHasher id 2 = .ok (.notFound [[], [[2, 0, 1, 1, 7, 3]]]) ∧
    Tree.nonMembershipVerify 2 demoHasher id (demoTree.commitment demoHasher) 2
      [[], [[2, 0, 1, 1, 7, 3]]] = .ok true :=
  ⟨rfl, C06_nonmembership_proofs_verify demoHasher id Function.injective_id (le_refl 2) demoTree
    demoTree_reachable 2 _ rfl⟩

/-! ## C07 -/

/-- **C07 is false as stated.** For *every* hash function there is a reachable tree and an index
that is present (with an accepted membership proof) and for which a non-membership proof is
accepted too: the verifier does not compare the proof length with the tree height, so the
proof for an empty subtree near the root is accepted for an index whose low digit selects it. -/
theorem C07_present_and_absent_counterexample [DecidableEq T] (H : Hasher E ℕ T) (e : E) :
    ∃ (t : Tree 2 E ℕ T) (pm pn : List (List T)), Reachable H id t ∧
      t.universalLookup H id 1 = .ok (.ok e pm) ∧
      Tree.verify 2 H id (t.commitment H) 1 e pm = .ok true ∧
      Tree.nonMembershipVerify 2 H id (t.commitment H) 1 pn = .ok true := by
  set c1 : Fin 2 → Node 2 E ℕ T := Function.update (fun _ => .empty) 1 (mkLeaf H 1 e) with hc1
  set c2 : Fin 2 → Node 2 E ℕ T := Function.update (fun _ => .empty) 0 (mkBranch H c1) with hc2
  set t : Tree 2 E ℕ T := ⟨mkBranch H c2, 2, 1⟩ with ht
  have hr : Reachable H id t := by
    refine Reachable.update (Tree.new 2) t 1 (fun _ => some e) (.notFound ()) (Reachable.new 2)
      (by show 1 < 2 ^ 2; decide) ?_
    rfl
  have hl : t.universalLookup H id 1 = .ok (.ok e [[H.dflt], [H.dflt]]) := by rfl
  refine ⟨t, [[H.dflt], [H.dflt]], [[(mkBranch H c1).value H]], hr, hl,
    C04_membership_proofs_verify H id Function.injective_id (le_refl 2) t hr 1
      (by show 1 < 2 ^ 2; decide) e _ hl, ?_⟩
  rw [nonmem_true_iff]
  refine ⟨by simp, ?_⟩
  rfl

/-- **C07, partial.** For proofs of *equal* length, an accepted membership proof and an accepted
non-membership proof for the same commitment and index break the hash: a leaf or node input hashes
to the default value, or two different inputs collide.  (Missing: proofs of different lengths, where
the statement is false.) -/
theorem C07_present_xor_absent_partial [DecidableEq T] [NeZero a] (H : Hasher E I T) (idx : I → ℕ)
    (ha : 2 ≤ a) (com : T) (pos : I) (e : E) (pm pn : List (List T))
    (hlen : pm.length = pn.length)
    (h₁ : Tree.verify a H idx com pos e pm = .ok true)
    (h₂ : Tree.nonMembershipVerify a H idx com pos pn = .ok true) :
    let path := toPath a (idx pos) pm.length
    let l₁ := levelInput H path pm (H.digestLeaf pos e)
    let l₂ := levelInput H path pn H.dflt
    H.digestLeaf pos e = H.dflt ∨ (∃ k < pm.length, H.digest (l₁ k) = H.dflt) ∨
      ∃ k < pm.length, l₁ k ≠ l₂ k ∧ (l₂ k).length = a ∧ H.digest (l₁ k) = H.digest (l₂ k) := by
  obtain ⟨hw1, hf1⟩ := (verify_true_iff H idx com pos e pm).mp h₁
  obtain ⟨hw2, hf2⟩ := (nonmem_true_iff H idx com pos pn).mp h₂
  rw [← hlen] at hf2
  exact fold_exclusive H ha (toPath a (idx pos) pm.length) pm pn _ pm.length (by simp) (le_refl _)
    (by omega) hw1 hw2 (hf1.trans hf2.symm)

/-- Non-vacuity of the hypotheses of the partial theorem, each on its own, with equal lengths. -/
example :
    Tree.verify 2 demoHasher id (demoTree.commitment demoHasher) 1 7 [[[0]], [[0]]] = .ok true ∧
    Tree.nonMembershipVerify 2 demoHasher id (demoTree.commitment demoHasher) 0
      [[[1, 1, 7]], [[0]]] = .ok true := by decide

/-! ## C08 -/

/-- **C08 is false as stated.** For every tree, hash and index, the index `pos + capacity` is
looked up at the leaf of `pos`: same value, same proof. -/
theorem C08_out_of_range_aliases_counterexample [NeZero a] (H : Hasher E ℕ T) (t : Tree a E ℕ T)
    (pos : ℕ) :
    t.universalLookup H id (pos + a ^ t.height) = t.universalLookup H id pos := by
  unfold Tree.universalLookup
  simp only [id]
  rw [toPath_add_capacity]

/-- Writing to an out-of-range index overwrites an in-range leaf (concrete witness). -/
theorem C08_out_of_range_update_counterexample :
    ∃ t', demoTree.update demoHasher id 5 9 = .ok (t', .ok 7 ()) ∧
      t'.universalLookup demoHasher id 1 = .ok (.ok 9 [[[0]], [[0]]]) :=
  ⟨_, rfl, rfl⟩

/-- A leaf first written through an out-of-range index stores that index, so the proof returned
for the in-range index it occupies is rejected. -/
theorem C08_out_of_range_insert_breaks_proofs_counterexample :
    ∃ t' p, (Tree.new 2 : Tree 2 ℕ ℕ (List ℕ)).update demoHasher id 5 9 = .ok (t', .notFound ()) ∧
      t'.universalLookup demoHasher id 1 = .ok (.ok 9 p) ∧
      Tree.verify 2 demoHasher id (t'.commitment demoHasher) 1 9 p = .ok false :=
  ⟨_, _, rfl, rfl, by decide⟩

/-- **C08, partial.** Different in-range indices never share a traversal path, so (with C01) they
never alias.  (Missing: out-of-range indices, where the statement is false.) -/
theorem C08_in_range_indices_do_not_alias_partial [NeZero a] (h n n' : ℕ) (hn : n < a ^ h)
    (hn' : n' < a ^ h) (hne : n ≠ n') : toPath a n h ≠ toPath a n' h :=
  fun heq => hne (toPath_inj n n' h hn hn' heq)

/-- Non-vacuity. -/
example : toPath 3 5 2 ≠ toPath 3 7 2 :=
  C08_in_range_indices_do_not_alias_partial 2 5 7 (by decide) (by decide) (by decide)

/-! ## C12 -/

/-- **C12.** Forgetting an in-range index of any reachable tree: it never fails, keeps commitment,
height and leaf count; if it returns a value and proof they are exactly what lookup returned before
and the proof verifies; the index is then reported as not in memory; and every other stored index
is looked up as before. -/
theorem C12_forget_is_safe [DecidableEq T] [NeZero a] (H : Hasher E I T) (idx : I → ℕ)
    (hinj : Function.Injective idx) (ha : 2 ≤ a) (t : Tree a E I T) (hr : Reachable H idx t)
    (pos : I) (hpos : idx pos < a ^ t.height) :
    ∃ t' r, t.universalForget H idx pos = .ok (t', r) ∧
      t'.commitment H = t.commitment H ∧ t'.height = t.height ∧ t'.numLeaves = t.numLeaves ∧
      (∀ e p, r = .ok e p →
        t.universalLookup H idx pos = .ok (.ok e p) ∧
        Tree.verify a H idx (t'.commitment H) pos e p = .ok true ∧
        t'.universalLookup H idx pos = .ok .notInMemory) ∧
      (∀ e p, t.universalLookup H idx pos = .ok (.ok e p) → r = .ok e p) ∧
      (∀ pos' e p, idx pos' < a ^ t.height → pos' ≠ pos →
        t.universalLookup H idx pos' = .ok (.ok e p) →
        t'.universalLookup H idx pos' = .ok (.ok e p)) := by
  have hwf := reachable_wf H idx hinj ha t hr
  obtain ⟨n', r, h1, h2, h3, h4, h5, h6, h7⟩ := forget_spec H idx t.height []
    (toPath a (idx pos) t.height) t.root hwf (Through.root _ _)
  refine ⟨⟨n', t.height, t.numLeaves⟩, r, ?_, h3, rfl, rfl, ?_, ?_, ?_⟩
  · simp only [Tree.universalForget, h1]
  · intro e p hrr
    obtain ⟨g1, g2⟩ := h4 e p hrr
    refine ⟨g1, ?_, g2⟩
    have : (⟨n', t.height, t.numLeaves⟩ : Tree a E I T).commitment H = t.commitment H := h3
    rw [this]
    exact lookup_ok_verifies H idx hinj ha t hwf pos hpos e p g1
  · intro e p hl
    simp only [Tree.universalLookup] at hl
    cases r with
    | ok e' p' =>
      obtain ⟨g1, -⟩ := h4 e' p' rfl
      rw [hl] at g1
      simp only [Except.ok.injEq, LookupResult.ok.injEq] at g1
      rw [g1.1, g1.2]
    | notInMemory => have := (h5 rfl).1; rw [hl] at this; simp at this
    | notFound p' => obtain ⟨⟨q, hq⟩, -⟩ := h6 p' rfl; rw [hl] at hq; simp at hq
  · intro pos' e p hp' hne hl
    simp only [Tree.universalLookup] at hl ⊢
    refine h7 _ (Through.root _ _) ?_ e p hl
    intro heq
    exact hne (hinj (toPath_inj _ _ _ hp' hpos heq))

/-- Non-vacuity: forgetting the only leaf of the demonstration tree. -/
example : ∃ t', demoTree.universalForget demoHasher id 1 = .ok (t', .ok 7 [[[0]], [[0]]]) ∧
    t'.universalLookup demoHasher id 1 = .ok .notInMemory ∧
    t'.commitment demoHasher = demoTree.commitment demoHasher := ⟨_, rfl, rfl, rfl⟩

/-- Observation (documented as WARN #495): an *absent* index may become "not in memory" when its
neighbour is forgotten. -/
theorem C12_absent_neighbour_becomes_unknown :
    ∃ t' r, demoTree.universalForget demoHasher id 1 = .ok (t', r) ∧
      (∃ p, demoTree.universalLookup demoHasher id 0 = .ok (.notFound p)) ∧
      t'.universalLookup demoHasher id 0 = .ok .notInMemory :=
  ⟨_, _, rfl, ⟨_, rfl⟩, rfl⟩

/-! ## C13 -/

/-- **C13, soundness.** remember accepts only proofs that verify against the commitment. -/
theorem C13_remember_only_valid [DecidableEq T] [NeZero a] (H : Hasher E I T) (idx : I → ℕ)
    (t t' : Tree a E I T) (pos : I) (e : E) (proof : List (List T))
    (h : t.remember H idx pos e proof = .ok t') :
    Tree.verify a H idx (t.commitment H) pos e proof = .ok true := by
  unfold Tree.remember at h
  split at h
  · simp at h
  · simp at h
  · assumption

/-- **C13, effect.** If the proof verifies (and has the tree's height), remember succeeds, keeps the
commitment, height, leaf count and every other stored index, and makes the index available with
exactly this value and proof; the only alternative is a hash collision or default-preimage exhibited
by the proof (against the values stored along the path). -/
theorem C13_remember_effect [DecidableEq T] [NeZero a] (H : Hasher E I T) (idx : I → ℕ)
    (hinj : Function.Injective idx) (ha : 2 ≤ a) (t : Tree a E I T) (hr : Reachable H idx t)
    (pos : I) (hpos : idx pos < a ^ t.height) (e : E) (proof : List (List T))
    (hlen : proof.length = t.height)
    (hver : Tree.verify a H idx (t.commitment H) pos e proof = .ok true) :
    let path := toPath a (idx pos) t.height
    let inp := levelInput H path proof (H.digestLeaf pos e)
    (∃ t', t.remember H idx pos e proof = .ok t' ∧
      t'.height = t.height ∧ t'.numLeaves = t.numLeaves ∧
      t'.commitment H = t.commitment H ∧
      t'.universalLookup H idx pos = .ok (.ok e proof) ∧
      (∀ pos' e' p', idx pos' < a ^ t.height → pos' ≠ pos →
        t.universalLookup H idx pos' = .ok (.ok e' p') →
        t'.universalLookup H idx pos' = .ok (.ok e' p'))) ∨
    (∃ e', e' ≠ e ∧ H.digestLeaf pos e' = H.digestLeaf pos e) ∨
    H.digestLeaf pos e = H.dflt ∨
    (∃ k < t.height, H.digest (inp k) = H.dflt) ∨
    (∃ k < t.height, ∃ l, treeInput H path t.height t.root k = some l ∧ inp k ≠ l ∧
      H.digest (inp k) = H.digest l) := by
  intro path inp
  rcases remember_cases H idx hinj ha t (reachable_wf H idx hinj ha t hr) pos hpos e proof hlen hver
    with ⟨t', h1, _, h⟩ | h
  · left; exact ⟨t', h1, h⟩
  · right; exact h

/-- **C13, round trip.** Forgetting a stored index and remembering it with the returned value and
proof succeeds for every hash and restores the lookup of this index and of every stored index. -/
theorem C13_forget_remember_round_trip [DecidableEq T] [NeZero a] (H : Hasher E I T) (idx : I → ℕ)
    (hinj : Function.Injective idx) (ha : 2 ≤ a) (t : Tree a E I T) (hr : Reachable H idx t)
    (pos : I) (hpos : idx pos < a ^ t.height) (e : E) (p : List (List T))
    (hl : t.universalLookup H idx pos = .ok (.ok e p)) :
    ∃ t' t'', t.universalForget H idx pos = .ok (t', .ok e p) ∧
      t'.remember H idx pos e p = .ok t'' ∧
      t''.commitment H = t.commitment H ∧ t''.numLeaves = t.numLeaves ∧ t''.height = t.height ∧
      ∀ pos' e' p', idx pos' < a ^ t.height → t.universalLookup H idx pos' = .ok (.ok e' p') →
        t''.universalLookup H idx pos' = .ok (.ok e' p') := by
  have hwf := reachable_wf H idx hinj ha t hr
  set path := toPath a (idx pos) t.height with hpath
  have hth : Through t.height [] path := Through.root _ _
  have hpl : path.length = t.height := by simp [hpath]
  have hp1 : idx pos < a ^ path.length := by rw [hpl]; exact hpos
  have hp2 : toPath a (idx pos) path.length = path := by rw [hpl]
  obtain ⟨n', r, h1, h2, h3, h4, h5, h6, h7⟩ := forget_spec H idx t.height [] path t.root hwf hth
  have hl' : lookupInternal H t.height t.root path = .ok (.ok e p) := hl
  have hrr : r = .ok e p := by
    cases r with
    | ok e' p' =>
      obtain ⟨g1, -⟩ := h4 e' p' rfl
      rw [hl'] at g1
      simp only [Except.ok.injEq, LookupResult.ok.injEq] at g1
      rw [g1.1, g1.2]
    | notInMemory => have := (h5 rfl).1; rw [hl'] at this; simp at this
    | notFound p' => obtain ⟨⟨q, hq⟩, -⟩ := h6 p' rfl; rw [hl'] at hq; simp at hq
  subst hrr
  have hver := lookup_ok_verifies H idx hinj ha t hwf pos hpos e p hl
  obtain ⟨hw, hf⟩ := (verify_true_iff H idx _ pos e p).mp hver
  obtain ⟨r0, hr0, hok0, -⟩ := lookup_fold H idx ha t.height [] path t.root hwf hth
  rw [hl'] at hr0
  simp only [Except.ok.injEq] at hr0
  obtain ⟨hplen, -, -⟩ := hok0 e p hr0.symm
  have hag := forget_agree H idx ha hinj pos e p t.height [] path t.root n' p hwf hth hp1 hp2 h1
    (by rw [← hplen, List.take_length])
  rw [hplen] at hf
  obtain ⟨n'', g1, g2, g3, g4, g5⟩ := remember_good H idx ha pos e p hw t.height [] path n' h2 hth
    (by omega) hp1 hp2 hag (by rw [h3]; exact hf)
  refine ⟨⟨n', t.height, t.numLeaves⟩, ⟨n'', t.height, t.numLeaves⟩, ?_, ?_, ?_, rfl, rfl, ?_⟩
  · simp only [Tree.universalForget, ← hpath, h1]
  · have hc : (⟨n', t.height, t.numLeaves⟩ : Tree a E I T).commitment H = t.commitment H := h3
    simp only [Tree.remember, hc, hver, ← hpath, g1]
  · show n''.value H = t.root.value H
    rw [g3, h3]
  · intro pos' e' p' hp' hl2
    simp only [Tree.universalLookup] at hl2 ⊢
    by_cases hpp : toPath a (idx pos') t.height = path
    · rw [hpp] at hl2 ⊢
      rw [g4]
      rw [hl'] at hl2
      rw [← hplen, List.take_length]
      exact hl2
    · exact g5 _ (Through.root _ _) hpp _ _ (h7 _ (Through.root _ _) hpp _ _ hl2)

/-- Non-vacuity of the round trip (the demonstration tree). -/
example : ∃ t' t'', demoTree.universalForget demoHasher id 1 = .ok (t', .ok 7 [[[0]], [[0]]]) ∧
      t'.remember demoHasher id 1 7 [[[0]], [[0]]] = .ok t'' ∧
      t''.universalLookup demoHasher id 1 = .ok (.ok 7 [[[0]], [[0]]]) := by
  obtain ⟨t', t'', h1, h2, -, -, -, h3⟩ := C13_forget_remember_round_trip demoHasher id
    Function.injective_id (le_refl 2) demoTree demoTree_reachable 1 (by decide) 7 [[[0]], [[0]]] rfl
  exact ⟨t', t'', h1, h2, h3 1 7 _ (by decide) rfl⟩

/-- Tree obtained from the demonstration tree by forgetting index 1 and remembering it again. -/
def demoRemembered : Tree 2 ℕ ℕ (List ℕ) :=
  match demoTree.universalForget demoHasher id 1 with
  | .ok (t', .ok e p) => match t'.remember demoHasher id 1 e p with
    | .ok t'' => t''
    | .error _ => demoTree
  | _ => demoTree

/-- **Forget + remember is not fully transparent (1).** Afterwards an *empty* neighbour cannot be
written any more, although the original tree accepts the write. -/
theorem C13_empty_slot_not_writable_counterexample :
    (∃ t o, demoTree.update demoHasher id 0 3 = .ok (t, o)) ∧
      demoRemembered.update demoHasher id 0 3 = .error .forgottenLeaf :=
  ⟨⟨_, _, rfl⟩, rfl⟩

/-- **Forget + remember is not fully transparent (2).** Removing the remembered leaf leaves a tree
with no element whose commitment differs from the one of the empty tree, while removal from the
original tree restores the empty commitment: the history independence of C03 does not extend to
histories with forget / remember. -/
theorem C13_remove_after_remember_counterexample :
    (∃ t o, demoTree.remove demoHasher id 1 = .ok (t, o) ∧ t.numLeaves = 0 ∧
      t.commitment demoHasher = (Tree.new 2 : Tree 2 ℕ ℕ (List ℕ)).commitment demoHasher) ∧
    (∃ t o, demoRemembered.remove demoHasher id 1 = .ok (t, o) ∧ t.numLeaves = 0 ∧
      t.commitment demoHasher ≠ (Tree.new 2 : Tree 2 ℕ ℕ (List ℕ)).commitment demoHasher) :=
  ⟨⟨_, _, rfl, rfl, rfl⟩, ⟨_, _, rfl, rfl, by decide⟩⟩

/-- **Forget + remember on an append-only tree**: pushing fails afterwards, although the tree is not
full and its last leaf is in memory. -/
theorem C13_push_after_remember_counterexample :
    ∃ t t' t'' p, (Tree.new 2 : Tree 2 ℕ ℕ (List ℕ)).push demoHasher 7 = (t, .ok ()) ∧
      t.universalForget demoHasher id 0 = .ok (t', .ok 7 p) ∧
      t'.remember demoHasher id 0 7 p = .ok t'' ∧
      (t''.push demoHasher 8).2 = .error .forgottenLeaf ∧ (t.push demoHasher 8).2 = .ok () :=
  ⟨_, _, _, _, rfl, rfl, rfl, rfl, rfl⟩

/-! ## C14 -/

/-- **C14 is false as stated (1).** The non-membership proof returned by forgetting an absent index
is shorter than the one returned by lookup, and is rejected. -/
theorem C14_forget_absent_proof_rejected_counterexample :
    ∃ t' p, demoTree.universalForget demoHasher id 2 = .ok (t', .notFound p) ∧
      Tree.nonMembershipVerify 2 demoHasher id (demoTree.commitment demoHasher) 2 p = .ok false ∧
      t'.nonMembershipRemember demoHasher id 2 p = .error .inconsistentStructure :=
  ⟨_, _, rfl, by decide, rfl⟩

/-- **C14 is false as stated (2).** Remembering a valid, accepted non-membership proof (as returned
by lookup) in a tree whose memory was dropped panics, or builds a branch with too few children. -/
theorem C14_nonmembership_remember_counterexample :
    ∃ p3 p2, demoTree.universalLookup demoHasher id 3 = .ok (.notFound p3) ∧
      demoTree.universalLookup demoHasher id 2 = .ok (.notFound p2) ∧
      Tree.nonMembershipVerify 2 demoHasher id (demoTree.commitment demoHasher) 3 p3 = .ok true ∧
      Tree.nonMembershipVerify 2 demoHasher id (demoTree.commitment demoHasher) 2 p2 = .ok true ∧
      (Tree.fromCommitment (demoTree.commitment demoHasher) 2 1 :
          Tree 2 ℕ ℕ (List ℕ)).nonMembershipRemember demoHasher id 3 p3 = .error .panic ∧
      (Tree.fromCommitment (demoTree.commitment demoHasher) 2 1 :
          Tree 2 ℕ ℕ (List ℕ)).nonMembershipRemember demoHasher id 2 p2 = .error .illFormed :=
  ⟨_, _, rfl, rfl, by decide, by decide, rfl, rfl⟩

/-- **C14, remembering an absence.** A tree known only by its commitment: an accepted non-membership
proof of the tree's height without empty levels is remembered, the commitment is kept, and the index
is then reported absent with exactly this proof.  (Missing: proofs with empty levels, see the
counterexample above.) -/
theorem C14_nonmembership_remember_partial [DecidableEq T] [NeZero a] (H : Hasher E I T) (idx : I → ℕ)
    (ha : 2 ≤ a) (com : T) (h n : ℕ) (pos : I) (hpos : idx pos < a ^ h) (proof : List (List T))
    (hlen : proof.length = h) (hfull : ∀ v ∈ proof, v ≠ [])
    (hver : Tree.nonMembershipVerify a H idx com pos proof = .ok true) :
    ∃ t', (Tree.fromCommitment com h n : Tree a E I T).nonMembershipRemember H idx pos proof = .ok t' ∧
      t'.commitment H = com ∧ t'.height = h ∧ t'.numLeaves = n ∧
      t'.universalLookup H idx pos = .ok (.notFound proof) := by
  obtain ⟨h1, h2⟩ := (nonmem_true_iff H idx com pos proof).mp hver
  rw [hlen] at h2
  obtain ⟨n', g1, -, g3, g4⟩ := remember_forgotten_none H idx ha pos proof
    (fun v hv => (h1 v hv).resolve_right (hfull v hv)) h [] (toPath a (idx pos) h) com
    (Through.root _ _) (by omega) (by simpa using hpos) (by simp)
  refine ⟨⟨n', h, n⟩, ?_, ?_, rfl, rfl, ?_⟩
  · have hver' : Tree.nonMembershipVerify a H idx
        ((Tree.fromCommitment com h n : Tree a E I T).commitment H) pos proof = .ok true := hver
    unfold Tree.nonMembershipRemember
    rw [hver']
    simp only [Tree.fromCommitment, g1]
  · show n'.value H = com
    rw [g3, h2]
  · show lookupInternal H h n' (toPath a (idx pos) h) = _
    rw [g4, ← hlen, List.take_length]

/-- Non-vacuity: index 0 of the demonstration tree is absent with full levels. -/
example : ∃ p, demoTree.universalLookup demoHasher id 0 = .ok (.notFound p) ∧ p.length = 2 ∧
    (∀ v ∈ p, v ≠ []) ∧
    Tree.nonMembershipVerify 2 demoHasher id (demoTree.commitment demoHasher) 0 p = .ok true :=
  ⟨_, rfl, rfl, by decide, by decide⟩

/-- Relation of the two non-membership proofs: lookup's proof is forget's with empty levels in
front. -/
theorem forget_absent_lookup [NeZero a] (H : Hasher E I T) (idx : I → ℕ) :
    ∀ (h : ℕ) (pre path : List (Fin a)) (n n' : Node a E I T) (p : List (List T)),
      WF H idx h pre n → Through h pre path → forgetInternal H h n path = .ok (n', .notFound p) →
      p.length ≤ h ∧ lookupInternal H h n path =
        .ok (.notFound (List.replicate (h - p.length) [] ++ p)) := by
  intro h
  induction h with
  | zero =>
    intro pre path n n' p hwf ht hf
    cases n with
    | branch v c => simp [WF] at hwf
    | empty =>
      simp only [forgetInternal, Except.ok.injEq, Prod.mk.injEq, LookupResult.notFound.injEq] at hf
      rw [← hf.2]; simp [lookupInternal]
    | leaf v p0 e => simp [forgetInternal] at hf
    | forgotten v => simp [forgetInternal] at hf
  | succ h ih =>
    intro pre path n n' p hwf ht hf
    cases n with
    | leaf v p0 e => simp [forgetInternal] at hf
    | forgotten v => simp [forgetInternal] at hf
    | empty =>
      simp only [forgetInternal, Except.ok.injEq, Prod.mk.injEq, LookupResult.notFound.injEq] at hf
      rw [← hf.2]; simp [lookupInternal]
    | branch v c =>
      simp only [WF] at hwf
      obtain ⟨b, hb, htb⟩ := ht.step
      obtain ⟨n1, r1, hf1, -⟩ := forget_spec H idx h (b :: pre) path (c b) (hwf.2 b) htb
      simp only [forgetInternal, hb, hf1] at hf
      cases r1 with
      | ok e p => simp only at hf; split at hf <;> simp at hf
      | notInMemory => simp at hf
      | notFound p1 =>
        simp only [Except.ok.injEq, Prod.mk.injEq, LookupResult.notFound.injEq] at hf
        obtain ⟨g1, g2⟩ := ih (b :: pre) path (c b) n1 p1 (hwf.2 b) htb hf1
        rw [← hf.2]
        refine ⟨by simp; omega, ?_⟩
        simp only [lookupInternal, hb, g2, List.length_append, List.length_singleton,
          Nat.add_sub_add_right, List.append_assoc]

/-- **C14, partial.** For every reachable tree: forgetting an absent index leaves the tree unchanged;
if the returned proof is full length it equals the one lookup returns and is accepted; and
remembering with lookup's proof succeeds and leaves the tree unchanged.  (Missing: absent indices in
an empty subtree above the leaves, where the returned proof is too short and rejected, and
remembering into forgotten subtrees.) -/
theorem C14_forget_absent_partial [DecidableEq T] [NeZero a] (H : Hasher E I T) (idx : I → ℕ)
    (hinj : Function.Injective idx) (ha : 2 ≤ a) (t : Tree a E I T) (hr : Reachable H idx t)
    (pos : I) (t' : Tree a E I T) (p : List (List T))
    (hf : t.universalForget H idx pos = .ok (t', .notFound p)) :
    t' = t ∧
    (p.length = t.height → t.universalLookup H idx pos = .ok (.notFound p) ∧
      Tree.nonMembershipVerify a H idx (t'.commitment H) pos p = .ok true) ∧
    ∃ p', t.universalLookup H idx pos = .ok (.notFound p') ∧
      t'.nonMembershipRemember H idx pos p' = .ok t := by
  have hwf := reachable_wf H idx hinj ha t hr
  set path := toPath a (idx pos) t.height with hpath
  have hth : Through t.height [] path := Through.root _ _
  obtain ⟨n', r, h1, h2, h3, h4, h5, h6, h7⟩ := forget_spec H idx t.height [] path t.root hwf hth
  simp only [Tree.universalForget, ← hpath, h1, Except.ok.injEq, Prod.mk.injEq] at hf
  obtain ⟨ht', hrp⟩ := hf
  subst hrp
  obtain ⟨-, hn⟩ := h6 p rfl
  obtain ⟨g1, g2⟩ := forget_absent_lookup H idx t.height [] path t.root n' p hwf hth h1
  have htt : t' = t := by rw [← ht', hn]
  subst htt
  refine ⟨rfl, ?_, _, g2, ?_⟩
  · intro hlen
    have hl : t'.universalLookup H idx pos = .ok (.notFound p) := by
      unfold Tree.universalLookup
      rw [g2, hlen]; simp
    exact ⟨hl, lookup_notFound_verifies H idx ha t' hwf pos p hl⟩
  · have hv := lookup_notFound_verifies H idx ha t' hwf pos _ g2
    have hrem : ∀ (h : ℕ) (pre : List (Fin a)) (n : Node a E I T) (q q' : List (List T)),
        Through h pre path → WF H idx h pre n →
        lookupInternal H h n path = .ok (.notFound q) →
        rememberInternal H h n path pos none q' = .ok n := by
      intro h
      induction h with
      | zero =>
        intro pre n q q' hth hwf hl
        cases n with
        | branch v c => simp [WF] at hwf
        | empty => simp [rememberInternal]
        | leaf v p e => simp [lookupInternal] at hl
        | forgotten v => simp [lookupInternal] at hl
      | succ h ih =>
        intro pre n q q' hth hwf hl
        cases n with
        | leaf v p e => simp [lookupInternal] at hl
        | forgotten v => simp [lookupInternal] at hl
        | empty => simp [rememberInternal]
        | branch v c =>
          simp only [WF] at hwf
          obtain ⟨b, hb, htb⟩ := hth.step
          simp only [lookupInternal, hb] at hl
          cases hx : lookupInternal H h (c b) path with
          | error e => rw [hx] at hl; simp at hl
          | ok x =>
            rw [hx] at hl
            cases x with
            | ok e p => simp at hl
            | notInMemory => simp at hl
            | notFound q1 =>
              simp [rememberInternal, hb, ih (b :: pre) (c b) q1 q' htb (hwf.2 b) hx]
    simp only [Tree.nonMembershipRemember, hv, ← hpath]
    rw [hrem t'.height [] t'.root _ _ hth hwf g2]

/-- Non-vacuity: index 0 of the demonstration tree is absent at leaf level. -/
example : ∃ t' p, demoTree.universalForget demoHasher id 0 = .ok (t', .notFound p) ∧
    p.length = demoTree.height := ⟨_, _, rfl, rfl⟩

end Verif.Props.Merkle
