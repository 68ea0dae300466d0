import Verif.Merkle.Iter
import Verif.Props.MerkleAppend

/-!
# C15, C16, C17: range proofs, iteration, bulk proofs
-/

namespace Verif.Props.Merkle

open Verif.Merkle

variable {a : ℕ} {E I T : Type}

/-! ## C15 -/

/-- **C15.** Build an append-only tree of any height and arity from `L₀` and extend it by any lists.
For every range `lo ≤ hi` of stored indices the range lookup returns exactly these indices and the
corresponding slice of the appended elements, and the returned proof is accepted for them. -/
theorem C15_range_proofs_verify [DecidableEq T] [NeZero a] (H : Hasher E ℕ T) (h : ℕ)
    (L₀ : List E) (hL0 : L₀.length ≤ a ^ h) (Ds : List (List E)) (t₀ t : Tree a E ℕ T)
    (flags : List Bool) (h0 : Tree.fromElems a H (some h) L₀ = .ok t₀)
    (hrun : runExtend H t₀ Ds = (t, flags)) (lo hi : ℕ) (hlh : lo ≤ hi)
    (hhi : hi < (specExtend (a ^ h) L₀ Ds).1.length) :
    ∃ proof,
      t.rangeLookup H id lo hi = .ok (.ok (List.range' lo (hi - lo + 1),
        ((specExtend (a ^ h) L₀ Ds).1.drop lo).take (hi - lo + 1)) proof) ∧
      verifyRangeProof a H (t.commitment H) (List.range' lo (hi - lo + 1))
        (((specExtend (a ^ h) L₀ Ds).1.drop lo).take (hi - lo + 1)) proof = .ok true := by
  rw [fromElems_listTree H h L₀ hL0] at h0
  simp only [Except.ok.injEq] at h0
  subst h0
  rw [runExtend_listTree H h Ds L₀ hL0] at hrun
  simp only [Prod.mk.injEq] at hrun
  have hlen := specExtend_length (a ^ h) Ds L₀ hL0
  obtain ⟨rfl, -⟩ := hrun
  set L := (specExtend (a ^ h) L₀ Ds).1
  have hcap : hi < a ^ h := by omega
  have hd1 : lo / a ^ h = 0 := Nat.div_eq_of_lt (by omega)
  have hd2 : hi / a ^ h = 0 := Nat.div_eq_of_lt hcap
  have hcnt : hi - lo + 1 = hi + 1 - lo := by omega
  rw [hcnt]
  refine ⟨⟨leftBound a H L lo h, rightBound a H L hi h⟩, ?_, ?_⟩
  · have := range_seq (a := a) H L lo hi (toPath a lo h) (toPath a hi h) h 0 true true
      (fun k hk => toPath_getElem? lo h k hk) (fun k hk => toPath_getElem? hi h k hk)
      (fun _ => hd1) (fun _ => hd2) (by simp; omega) (by simp; omega)
    simp only [Nat.zero_mul, if_true] at this
    exact this
  · rw [verifyRange_iff]
    refine ⟨by simp; omega, ?_⟩
    rw [levelVal_zero_zip (a := a) H L lo (hi + 1 - lo) (by omega),
      rangeLoop_seq H L lo hi hlh hhi h, hd1, hd2]
    simp only [Nat.sub_zero, Nat.zero_add, List.range'_one, List.map_cons, List.map_nil, levelVal,
      Nat.zero_mul]
    rfl

/-- Non-vacuity: seven elements in a ternary tree of height 2, range 1..5. -/
example : ∃ t₀ t flags, Tree.fromElems 3 demoHasher (some 2) [5, 6] = .ok t₀ ∧
    runExtend demoHasher t₀ [[7, 8], [9, 10, 11]] = (t, flags) ∧
    5 < (specExtend (3 ^ 2) [5, 6] [[7, 8], [9, 10, 11]]).1.length :=
  ⟨_, _, _, rfl, rfl, by decide⟩

/-- Observation (outside C15): a range with `start > end` is not rejected by the lookup; here it
returns an empty range together with a malformed proof. -/
example : (listTree demoHasher 2 [5, 6, 7, 8] : Tree 2 ℕ ℕ (List ℕ)).rangeLookup demoHasher id 2 1 =
    .ok (.ok ([], []) ⟨[[demoHasher.digest [demoHasher.digestLeaf 0 5, demoHasher.digestLeaf 1 6]]],
      [[demoHasher.digest [demoHasher.digestLeaf 2 7, demoHasher.digestLeaf 3 8]]]⟩) := rfl

/-! ## C16 -/

/-- **C16.** Two range proofs of the same shape accepted for the same commitment and index list:
the element lists (and the proofs) are equal, or two different lists hashed at the same step of the
two verifications have the same digest, or two different elements have the same leaf digest at the
same index.  The collisions are read off the two inputs. -/
theorem C16_range_binding [DecidableEq T] (H : Hasher E I T) (ha : 0 < a) (com : T) (is : List I)
    (es₁ es₂ : List E) (p₁ p₂ : RangeProof T)
    (hshape : SameShape (p₁.lbound.zip p₁.rbound) (p₂.lbound.zip p₂.rbound))
    (h₁ : verifyRangeProof a H com is es₁ p₁ = .ok true)
    (h₂ : verifyRangeProof a H com is es₂ p₂ = .ok true) :
    es₁ = es₂ ∨
    (∃ (k : ℕ) (i : I) (e e' : E), is[k]? = some i ∧ es₁[k]? = some e ∧ es₂[k]? = some e' ∧ e ≠ e' ∧
      H.digestLeaf i e = H.digestLeaf i e') ∨
    (∃ (k : ℕ) (x y : List T),
      (rangeInputs a H (p₁.lbound.zip p₁.rbound) (List.zipWith H.digestLeaf is es₁))[k]? = some x ∧
      (rangeInputs a H (p₂.lbound.zip p₂.rbound) (List.zipWith H.digestLeaf is es₂))[k]? = some y ∧
      x ≠ y ∧ H.digest x = H.digest y) := by
  rw [verifyRange_iff] at h₁ h₂
  obtain ⟨hl1, hr1⟩ := h₁
  obtain ⟨hl2, hr2⟩ := h₂
  rcases range_binding H ha _ _ _ _ _ hshape (by simp; omega) hr1 hr2 with ⟨hv, -⟩ | hc
  · by_cases hes : es₁ = es₂
    · left; exact hes
    · right; left
      have hlen : es₁.length = es₂.length := by omega
      obtain ⟨k, hk⟩ : ∃ k, es₁[k]? ≠ es₂[k]? := by
        by_contra hcon
        push Not at hcon
        exact hes (List.ext_getElem? hcon)
      have hk1 : k < es₁.length := by
        by_contra hn
        rw [List.getElem?_eq_none (by omega), List.getElem?_eq_none (by omega)] at hk
        exact hk rfl
      have hki : k < is.length := by omega
      refine ⟨k, is[k], es₁[k], es₂[k]'(by omega), List.getElem?_eq_getElem hki,
        List.getElem?_eq_getElem hk1, List.getElem?_eq_getElem (by omega), ?_, ?_⟩
      · intro heq
        rw [List.getElem?_eq_getElem hk1, List.getElem?_eq_getElem (by omega), heq] at hk
        exact hk rfl
      · have := congrArg (fun l => l[k]?) hv
        simp only [List.getElem?_zipWith, List.getElem?_eq_getElem hki,
          List.getElem?_eq_getElem hk1, List.getElem?_eq_getElem (show k < es₂.length by omega),
          Option.some.injEq] at this
        exact this
  · right; right; exact hc

/-- Non-vacuity: with a weak hash the collision case really occurs (both accepted). -/
example :
    let H : Hasher ℕ ℕ ℕ := ⟨0, fun l => l.sum, fun _ e => e⟩
    verifyRangeProof 2 H 10 [0, 1] [3, 3] ⟨[[], []], [[], [4]]⟩ = .ok true ∧
    verifyRangeProof 2 H 10 [0, 1] [2, 4] ⟨[[], []], [[], [4]]⟩ = .ok true := by decide

/-- **C16, against a real tree.** With an ideal, domain-separated hash whose leaf digest also binds
the index, every element of any accepted range proof — whatever its shape — is stored at the claimed
index of the append-only tree with that commitment. -/
theorem C16_accepted_range_is_stored [DecidableEq T] [NeZero a] (H : Hasher E ℕ T) (hid : IdealHash a H)
    (hleaf : ∀ p e p' e', H.digestLeaf p e = H.digestLeaf p' e' → p = p' ∧ e = e')
    (hsep : ∀ p e (l : List T), H.digestLeaf p e ≠ H.digest l)
    (h : ℕ) (L : List E) (t : Tree a E ℕ T) (ht : Tree.fromElems a H (some h) L = .ok t)
    (is : List ℕ) (es : List E) (p : RangeProof T)
    (hv : verifyRangeProof a H (t.commitment H) is es p = .ok true) :
    is.length = es.length ∧ ∀ (k i : ℕ) (e : E), is[k]? = some i → es[k]? = some e → L[i]? = some e := by
  have hL : L.length ≤ a ^ h := by
    by_contra hn
    rw [(C10_from_elems_capacity H h L).2 (by omega)] at ht
    simp at ht
  rw [fromElems_listTree H h L hL] at ht
  simp only [Except.ok.injEq] at ht
  subst ht
  rw [verifyRange_iff] at hv
  refine ⟨hv.1, ?_⟩
  intro k i e hi he
  have hmem : H.digestLeaf i e ∈ List.zipWith H.digestLeaf is es := by
    apply List.mem_of_getElem? (i := k)
    simp [List.getElem?_zipWith, hi, he]
  obtain ⟨m, hm, hmv⟩ := range_values_in_tree H (Nat.pos_of_ne_zero (NeZero.ne a)) hid.digest_inj
    hid.digest_ne (fun l p e _ => (hsep p e l).symm) (seqTree H L h 0 : Node a E ℕ T)
    (seqTree_honest H L h 0) _ _ _ hv.2
    (by
      intro x hx
      simp only [List.mem_singleton] at hx
      exact ⟨_, .refl _, hx.symm⟩) _ hmem
  have hmh := hm.honest H (seqTree_honest H L h 0)
  cases m with
  | empty => exact absurd hmv.symm (hid.leaf_ne i e)
  | forgotten _ => exact absurd hmh (by simp [Honest])
  | branch v c =>
    have h1 : v = H.digestLeaf i e := hmv
    exact absurd (h1.symm.trans hmh.1) (hsep i e _)
  | leaf v p' e' =>
    have h1 : v = H.digestLeaf i e := hmv
    have h2 : v = H.digestLeaf p' e' := hmh
    obtain ⟨rfl, rfl⟩ := hleaf _ _ _ _ (h2.symm.trans h1)
    exact seqTree_leaves H L h 0 p' e' (hm.leaves_subset (by simp [leaves]))

/-- Non-vacuity: the hash `treeHasher` meets all hash hypotheses and a range proof is accepted. -/
example : IdealHash 2 treeHasher ∧
    (∀ p e p' e', treeHasher.digestLeaf p e = treeHasher.digestLeaf p' e' → p = p' ∧ e = e') ∧
    (∀ p e l, treeHasher.digestLeaf p e ≠ treeHasher.digest l) ∧
    ∃ t p, Tree.fromElems 2 treeHasher (some 2) [5, 6, 7] = .ok t ∧
      verifyRangeProof 2 treeHasher (t.commitment treeHasher) [1, 2] [6, 7] p = .ok true := by
  refine ⟨treeHasher_ideal 2, ?_, treeHasher_sep, ?_⟩
  · intro p e p' e' h
    simpa [treeHasher] using h
  · obtain ⟨p, -, hp⟩ := C15_range_proofs_verify (a := 2) treeHasher 2 [5, 6, 7] (by decide) []
      _ _ _ rfl rfl 1 2 (by decide) (by decide)
    exact ⟨_, p, rfl, hp⟩

/-- **The index list is not bound when the leaf digest ignores the index** (as the SHA3 and Keccak
hashers of `merkle_tree/src/prelude.rs` do): any accepted range proof is accepted for every other
index list of the same length. -/
theorem C16_indices_not_bound_counterexample [DecidableEq T] (H : Hasher E I T)
    (hpos : ∀ p p' e, H.digestLeaf p e = H.digestLeaf p' e) (com : T) (is is' : List I) (es : List E)
    (p : RangeProof T) (hlen : is'.length = is.length)
    (h : verifyRangeProof a H com is es p = .ok true) :
    verifyRangeProof a H com is' es p = .ok true := by
  rw [verifyRange_iff] at h ⊢
  refine ⟨by omega, ?_⟩
  have : List.zipWith H.digestLeaf is' es = List.zipWith H.digestLeaf is es := by
    apply List.ext_getElem
    · simp; omega
    · intro k h1 h2
      simp only [List.getElem_zipWith]
      exact hpos _ _ _
  rw [this]; exact h.2

/-- Non-vacuity: a hash ignoring the index, a tree and a proof accepted for indices 0,1 and also for
indices 5,6, which are outside the tree. -/
example :
    let H : Hasher ℕ ℕ (List ℕ) := ⟨[0], fun l => 2 :: (l.flatten ++ [3]), fun _ e => [1, e]⟩
    let com := H.digest [[1, 7], [1, 8]]
    verifyRangeProof 2 H com [0, 1] [7, 8] ⟨[[]], [[]]⟩ = .ok true ∧
    verifyRangeProof 2 H com [5, 6] [7, 8] ⟨[[]], [[]]⟩ = .ok true := by decide

/-! ## C17 -/

/-- Specification: `out` lists exactly the indices whose lookup succeeds, with their values, in strictly
increasing index order (hence each once). -/
def ListsRemembered [NeZero a] (H : Hasher E I T) (idx : I → ℕ) (t : Tree a E I T)
    (out : List (I × E)) : Prop :=
  (out.Pairwise fun x y => idx x.1 < idx y.1) ∧
  ∀ p e, (p, e) ∈ out ↔ idx p < a ^ t.height ∧ ∃ proof, t.universalLookup H idx p = .ok (.ok e proof)

theorem leaves_lists [NeZero a] (H : Hasher E I T) (idx : I → ℕ) (hinj : Function.Injective idx)
    (t : Tree a E I T) (hwf : t.WellFormed H idx) : ListsRemembered H idx t (leaves t.root) := by
  refine ⟨leaves_sorted H idx t.height [] 0 t.root hwf (Base.root _), ?_⟩
  intro p e
  constructor
  · intro hm
    obtain ⟨-, h2, h3⟩ := leaves_lookup H idx t.height [] 0 t.root hwf (Base.root _) p e hm
    exact ⟨by omega, h3 _ (fun k hk => toPath_getElem? _ _ k hk)⟩
  · rintro ⟨hp, q, hq⟩
    obtain ⟨p', h1, h2, h3⟩ := lookup_mem_leaves H idx t.height [] _ t.root hwf (Through.root _ _) e q hq
    rw [toPath_length] at h2 h3
    have : p' = p := hinj (toPath_inj _ _ _ h2 hp h3)
    rw [← this]; exact h1

theorem iteration_of_wf [NeZero a] (H : Hasher E I T) (idx : I → ℕ) (hinj : Function.Injective idx)
    (t : Tree a E I T) (hwf : t.WellFormed H idx) :
    ∃ out, (∀ out', IterYields [t.root] out' ↔ out' = out) ∧ ListsRemembered H idx t out := by
  refine ⟨leaves t.root, ?_, leaves_lists H idx hinj t hwf⟩
  intro out'
  constructor
  · intro h
    have := iterYields_eq _ _ h
    simpa using this
  · rintro rfl
    have := iterYields_exists [t.root]
    simpa using this

theorem bulk_of_wf [DecidableEq T] [NeZero a] (H : Hasher E I T) (idx : I → ℕ)
    (hinj : Function.Injective idx) (ha : 2 ≤ a) (t : Tree a E I T) (hwf : t.WellFormed H idx) :
    ∃ out, t.collectLeavesWithProofs H = .ok out ∧
      ListsRemembered H idx t (out.map fun x => (x.1, x.2.1)) ∧
      ∀ p e proof, (p, e, proof) ∈ out → t.universalLookup H idx p = .ok (.ok e proof) ∧
        Tree.verify a H idx (t.commitment H) p e proof = .ok true := by
  obtain ⟨buf', out, h1, -, -, -, h2, h3⟩ := collect_spec H idx t.height [] 0 t.root
    (List.replicate t.height (List.replicate (a - 1) H.dflt)) hwf (Base.root _) (by simp)
    (by
      intro v hv
      rw [List.eq_of_mem_replicate hv, List.length_replicate]; omega)
  refine ⟨out, ?_, ?_, ?_⟩
  · unfold Tree.collectLeavesWithProofs
    rw [h1]; rfl
  · rw [h2]; exact leaves_lists H idx hinj t hwf
  · intro p e proof hm
    obtain ⟨q, hq, -, hpr⟩ := h3 p e proof hm (toPath a (idx p) t.height)
      (fun k hk => toPath_getElem? _ _ k hk)
    rw [List.drop_of_length_le (by simp), List.append_nil] at hpr
    subst hpr
    have hl := leaves_lists H idx hinj t hwf
    have hp : idx p < a ^ t.height :=
      ((hl.2 p e).mp (by rw [← h2, List.mem_map]; exact ⟨_, hm, rfl⟩)).1
    exact ⟨hq, lookup_ok_verifies H idx hinj ha t hwf p hp e proof hq⟩

/-- **C17, iteration.** For every reachable tree (including forgotten parts) the iterator terminates,
its output is determined, and it lists exactly the remembered leaves in increasing index order. -/
theorem C17_iteration [DecidableEq T] [NeZero a] (H : Hasher E I T) (idx : I → ℕ)
    (hinj : Function.Injective idx) (ha : 2 ≤ a) (t : Tree a E I T) (hr : Reachable H idx t) :
    ∃ out, (∀ out', IterYields [t.root] out' ↔ out' = out) ∧ ListsRemembered H idx t out :=
  iteration_of_wf H idx hinj t (reachable_wf H idx hinj ha t hr)

/-- **C17, iteration**, append-only and light-weight trees. -/
theorem C17_iteration_append [DecidableEq T] [NeZero a] (H : Hasher E ℕ T) (ha : 2 ≤ a)
    (t : Tree a E ℕ T) (hr : AppendReachable H t) :
    ∃ out, (∀ out', IterYields [t.root] out' ↔ out' = out) ∧ ListsRemembered H id t out :=
  iteration_of_wf H id Function.injective_id t (append_reachable_wf H ha t hr)

/-- **C17, bulk proofs.** Collecting all leaves with proofs succeeds, lists exactly the remembered
leaves, and every listed proof is the one `lookup` returns and is accepted. -/
theorem C17_bulk_proofs [DecidableEq T] [NeZero a] (H : Hasher E I T) (idx : I → ℕ)
    (hinj : Function.Injective idx) (ha : 2 ≤ a) (t : Tree a E I T) (hr : Reachable H idx t) :
    ∃ out, t.collectLeavesWithProofs H = .ok out ∧
      ListsRemembered H idx t (out.map fun x => (x.1, x.2.1)) ∧
      ∀ p e proof, (p, e, proof) ∈ out → t.universalLookup H idx p = .ok (.ok e proof) ∧
        Tree.verify a H idx (t.commitment H) p e proof = .ok true :=
  bulk_of_wf H idx hinj ha t (reachable_wf H idx hinj ha t hr)

/-- **C17, bulk proofs**, append-only and light-weight trees. -/
theorem C17_bulk_proofs_append [DecidableEq T] [NeZero a] (H : Hasher E ℕ T) (ha : 2 ≤ a)
    (t : Tree a E ℕ T) (hr : AppendReachable H t) :
    ∃ out, t.collectLeavesWithProofs H = .ok out ∧
      ListsRemembered H id t (out.map fun x => (x.1, x.2.1)) ∧
      ∀ p e proof, (p, e, proof) ∈ out → t.universalLookup H id p = .ok (.ok e proof) ∧
        Tree.verify a H id (t.commitment H) p e proof = .ok true :=
  bulk_of_wf H id Function.injective_id ha t (append_reachable_wf H ha t hr)

/-- Non-vacuity: a reachable tree with a remembered leaf. -/
example : Reachable demoHasher id demoTree ∧
    (demoTree.collectLeavesWithProofs demoHasher) = .ok [(1, 7, [[[0]], [[0]]])] :=
  ⟨demoTree_reachable, rfl⟩

end Verif.Props.Merkle
