import Verif.Merkle.Hashes
import Verif.Props.MerkleProofs
import Verif.Props.MerkleAppend
import Mathlib.Tactic.NormNum.Prime
import Mathlib.Algebra.Field.ZMod

/-!
# C86: the shipped tree hashes

Every shipped tree hash feeds different inputs for leaves and inner nodes to one hash function, so a proof accepted against the
commitment of a tree says what `lookup` says, or two inputs among those hashed for the tree and by the verifier collide, or one of
them hashes to the value of empty nodes.
-/

namespace Verif.Props.MerkleHashes

open Verif.Merkle Verif.Props.Merkle
open Verif.Rescue (Vec)

variable {a : ℕ} {E I T X : Type}

/-! ## Trees -/

/-- **C86, any tree, partly forgotten or not**: an accepted proof of the tree's height shows what `lookup` returns, unless the part
looked up is not in memory, or the hash function is broken by explicit inputs -/
theorem C86_membership [DecidableEq T] [NeZero a] (O : Oracle E I T X) (hO : O.Separated a) (idx : I → ℕ)
    (hinj : Function.Injective idx) (ha : 2 ≤ a) (t : Tree a E I T) (hr : Reachable O.hasher idx t) (pos : I)
    (hpos : idx pos < a ^ t.height) (e : E) (proof : List (List T)) (hlen : proof.length = t.height)
    (hver : Tree.verify a O.hasher idx (t.commitment O.hasher) pos e proof = .ok true) :
    (∃ q, t.universalLookup O.hasher idx pos = .ok (.ok e q)) ∨ t.universalLookup O.hasher idx pos = .ok .notInMemory ∨
      Broken O (Hashed O t.root) (Checked (a := a) O (idx pos) pos e proof) := by
  have hwf := reachable_wf O.hasher idx hinj ha t hr
  obtain ⟨hw, hf⟩ := (verify_true_iff O.hasher idx _ pos e proof).mp hver
  have hd : (toPath a (idx pos) proof.length).drop proof.length = [] := by simp
  rcases oracle_fold O hO idx ha (idx pos) pos e proof hw proof.length t.height t.root (le_refl _) (by rw [hd]; exact hwf)
    hf with hb | ⟨-, hb⟩ | ⟨hb, -⟩
  · exact .inr (.inr hb)
  · rcases hb with ⟨p', e', q, h1, h2, h3, h4⟩ | hb
    · rw [hlen] at h1 h3 h4
      have : p' = pos := hinj (toPath_inj _ _ _ h3 hpos h4)
      subst this
      rw [hO.leaf_inj _ _ _ h2] at h1
      exact .inl ⟨q, h1⟩
    · rw [hlen] at hb
      exact .inr (.inl hb)
  · exact absurd hlen hb

/-- for trees in memory, proofs of any length -/
theorem full [DecidableEq T] [NeZero a] (O : Oracle E I T X) (hO : O.Separated a) (idx : I → ℕ)
    (hinj : Function.Injective idx) (ha : 2 ≤ a) (t : Tree a E I T) (hwf : t.WellFormed O.hasher idx) (hm : InMemory t.root) (pos : I)
    (hpos : idx pos < a ^ t.height) (e : E) (proof : List (List T))
    (hver : Tree.verify a O.hasher idx (t.commitment O.hasher) pos e proof = .ok true) :
    (∃ q, t.universalLookup O.hasher idx pos = .ok (.ok e q) ∧ proof.length = t.height) ∨
      t.universalLookup O.hasher idx pos = .ok .notInMemory ∨
      Broken O (Hashed O t.root) (Checked (a := a) O (idx pos) pos e proof) := by
  obtain ⟨hw, hf⟩ := (verify_true_iff O.hasher idx _ pos e proof).mp hver
  have hd : (toPath a (idx pos) proof.length).drop proof.length = [] := by simp
  rcases oracle_fold O hO idx ha (idx pos) pos e proof hw proof.length t.height t.root (le_refl _) (by rw [hd]; exact hwf)
    hf with hb | ⟨hlen, hb⟩ | ⟨-, hb⟩
  · exact .inr (.inr hb)
  · rcases hb with ⟨p', e', q, h1, h2, h3, h4⟩ | hb
    · rw [hlen] at h1 h3 h4
      have : p' = pos := hinj (toPath_inj _ _ _ h3 hpos h4)
      subst this
      rw [hO.leaf_inj _ _ _ h2] at h1
      exact .inl ⟨q, h1, hlen⟩
    · rw [hlen] at hb
      exact .inr (.inl hb)
  · exact absurd hm hb

/-- **C86, absence**: an accepted non-membership proof of the tree's height shows that `lookup` finds nothing -/
theorem C86_absence [DecidableEq T] [NeZero a] (O : Oracle E I T X) (hO : O.Separated a) (idx : I → ℕ)
    (hinj : Function.Injective idx) (ha : 2 ≤ a) (t : Tree a E I T) (hr : Reachable O.hasher idx t) (pos : I)
    (proof : List (List T)) (hlen : proof.length = t.height)
    (hver : Tree.nonMembershipVerify a O.hasher idx (t.commitment O.hasher) pos proof = .ok true) :
    (∃ q, t.universalLookup O.hasher idx pos = .ok (.notFound q)) ∨ t.universalLookup O.hasher idx pos = .ok .notInMemory ∨
      Broken O (Hashed O t.root) (CheckedNone (a := a) O (idx pos) proof) := by
  have hwf := reachable_wf O.hasher idx hinj ha t hr
  obtain ⟨hw, hf⟩ := (nonmem_true_iff O.hasher idx _ pos proof).mp hver
  have hd : (toPath a (idx pos) proof.length).drop proof.length = [] := by simp
  rcases oracle_fold_none O hO idx ha (idx pos) proof hw proof.length t.root (le_refl _) (by rw [hd, hlen]; exact hwf) hf with
    hb | hb | hb
  · exact .inr (.inr hb)
  · rw [hlen] at hb; exact .inl hb
  · rw [hlen] at hb; exact .inr (.inl hb)

theorem inMemory_canon (H : Hasher E I T) (m : Content a I E) : ∀ (h : ℕ) (pre : List (Fin a)), InMemory (canon H m h pre) := by
  intro h
  induction h with
  | zero => intro pre; simp only [canon]; cases m pre <;> trivial
  | succ h ih =>
    intro pre
    simp only [canon]
    split
    · trivial
    · exact fun i => ih _

theorem inMemory_seq (H : Hasher E ℕ T) (L : List E) : ∀ (h b : ℕ), InMemory (seqTree H L h b : Node a E ℕ T) := by
  intro h
  induction h with
  | zero => intro b; simp only [seqTree]; cases L[b]? <;> trivial
  | succ h ih =>
    intro b
    simp only [seqTree]
    split
    · trivial
    · exact fun i => ih _

/-- **C86, universal trees**: after any history of updates and removals, an accepted proof of any length for an index in range names
the value the store holds, or the hash function is broken by explicit inputs -/
theorem C86_history [DecidableEq T] [NeZero a] (O : Oracle E I T X) (hO : O.Separated a) (idx : I → ℕ)
    (hinj : Function.Injective idx) (ha : 2 ≤ a) (height : ℕ) (ops : List (Op I E))
    (hrange : ∀ op ∈ ops, idx op.pos < a ^ height) (hlen : ops.length < 2 ^ 64)
    (t : Tree a E I T) (outs : List (LookupResult E Unit Unit))
    (hrun : run O.hasher idx (Tree.new height) ops = .ok (t, outs))
    (pos : I) (hpos : idx pos < a ^ height) (e : E) (proof : List (List T))
    (hver : Tree.verify a O.hasher idx (t.commitment O.hasher) pos e proof = .ok true) :
    (specRun idx emptyStore ops).1 (idx pos) = some e ∧ proof.length = height ∨
      Broken O (Hashed O t.root) (Checked (a := a) O (idx pos) pos e proof) := by
  have hp0 : present (emptyStore : Store E) (a ^ height) = 0 := by simp [present, emptyStore]
  obtain ⟨t', m, h1, h2, h3, -⟩ := run_sim O.hasher idx ops (Tree.new height) emptyStore _
    (sim_new O.hasher idx height) hrange hp0.symm (by simpa [Tree.new, hp0] using hlen)
  rw [hrun] at h1
  simp only [Except.ok.injEq, Prod.mk.injEq] at h1
  obtain ⟨rfl, -⟩ := h1
  simp only [Tree.new] at h3
  have hwf : t.WellFormed O.hasher idx := by
    unfold Tree.WellFormed
    rw [h2.root]
    apply canon_wf
    intro path p e hth hm
    have hpl : path.length = t.height := by have := hth.1; simpa using this
    have := h2.coherent path p e hm
    rw [hpl]; exact this
  have hag := h2.agree (idx pos) (by rw [h3]; exact hpos)
  have hl := lookup_canon O.hasher m t.height [] (toPath a (idx pos) t.height) (Through.root _ _)
  rw [← h2.root] at hl
  rcases full O hO idx hinj ha t hwf (by rw [h2.root]; exact inMemory_canon _ _ _ _) pos (by rw [h3]; exact hpos) e proof hver with
    ⟨q, hq, hpl⟩ | hq | hq
  · left
    refine ⟨?_, by rw [hpl, h3]⟩
    rw [← hag]
    unfold Tree.universalLookup at hq
    cases hm : m (toPath a (idx pos) t.height) with
    | none => rw [hm] at hl; obtain ⟨p, hp⟩ := hl; rw [hp] at hq; simp at hq
    | some pe =>
      obtain ⟨p0, e0⟩ := pe
      rw [hm] at hl; obtain ⟨p, hp⟩ := hl; rw [hp] at hq
      simp only [Except.ok.injEq, LookupResult.ok.injEq] at hq
      simp [hq.1]
  · exfalso
    unfold Tree.universalLookup at hq
    cases hm : m (toPath a (idx pos) t.height) with
    | none => rw [hm] at hl; obtain ⟨p, hp⟩ := hl; rw [hp] at hq; simp at hq
    | some pe => rw [hm] at hl; obtain ⟨p, hp⟩ := hl; rw [hp] at hq; simp at hq
  · exact .inr hq

/-- **C86, append-only trees**: an accepted proof of any length for an index below the capacity names the element of the list -/
theorem C86_list [DecidableEq T] [NeZero a] (O : Oracle E ℕ T X) (hO : O.Separated a) (ha : 2 ≤ a) (h : ℕ) (L : List E)
    (t : Tree a E ℕ T) (ht : Tree.fromElems a O.hasher (some h) L = .ok t) (i : ℕ) (hi : i < a ^ h) (e : E) (proof : List (List T))
    (hver : Tree.verify a O.hasher id (t.commitment O.hasher) i e proof = .ok true) :
    L[i]? = some e ∧ proof.length = h ∨ Broken O (Hashed O t.root) (Checked (a := a) O i i e proof) := by
  have hL : L.length ≤ a ^ h := by
    by_contra hn
    rw [(C10_from_elems_capacity O.hasher h L).2 (by omega)] at ht
    cases ht
  rw [fromElems_listTree O.hasher h L hL] at ht
  simp only [Except.ok.injEq] at ht
  subst ht
  have hl := listTree_lookup (a := a) O.hasher h L i hi
  rcases full O hO id Function.injective_id ha _ (listTree_wf O.hasher h L) (inMemory_seq _ _ _ _) i hi e proof hver with
    ⟨q, hq, hpl⟩ | hq | hq
  · left
    refine ⟨?_, hpl⟩
    cases hm : L[i]? with
    | none => rw [hm] at hl; obtain ⟨p, hp⟩ := hl; rw [hp] at hq; simp at hq
    | some e0 =>
      rw [hm] at hl; obtain ⟨p, hp⟩ := hl; rw [hp] at hq
      simp only [Except.ok.injEq, LookupResult.ok.injEq] at hq
      simp [hq.1]
  · exfalso
    cases hm : L[i]? with
    | none => rw [hm] at hl; obtain ⟨p, hp⟩ := hl; rw [hp] at hq; simp at hq
    | some e0 => rw [hm] at hl; obtain ⟨p, hp⟩ := hl; rw [hp] at hq; simp at hq
  · exact .inr hq

/-- an injective hash that never gives the value of empty nodes is not broken -/
theorem not_broken (O : Oracle E I T X) (hi : Function.Injective O.hash) (h0 : ∀ x, O.hash x ≠ O.dflt) (A B : X → Prop) :
    ¬ Broken O A B := by
  rintro (⟨x, y, -, -, h1, h2⟩ | ⟨x, -, h⟩)
  · exact h1 (hi h2)
  · exact h0 x h

/-! ## Rescue -/

section
variable {F : Type} [Field F]

theorem sponge_one (f : Vec F → Vec F) (x : List F) (hx : x.length % 3 = 0) : ∃ y, Rescue.spongeNoPadding f x 1 = .ok [y] := by
  unfold Rescue.spongeNoPadding
  rw [if_neg (by simpa [Rescue.crhfRate] using hx)]
  obtain ⟨h1, -, -⟩ := Rescue.squeezeAux_spec f (rate := Rescue.crhfRate) (by decide) (by decide) 2
    (Rescue.absorb f Rescue.crhfRate Rescue.zeroVec x) 1 (by omega)
  have h2 : (Rescue.squeeze f Rescue.crhfRate (Rescue.absorb f Rescue.crhfRate Rescue.zeroVec x) 1).1.length = 1 := h1
  obtain ⟨y, hy⟩ := List.length_eq_one_iff.1 h2
  exact ⟨y, by rw [hy]⟩

/-- **C86, `RescueHash`**: its digests are the sponge on the inputs of `rescueOracle`, never an error -/
theorem C86_rescue_digest (f : Vec F → Vec F) (emb : I → F) (l : List F) (pos : I) (e : F) :
    rescueDigest f l = .ok ((rescueOracle f emb).hasher.digest l) ∧
    rescueLeaf f emb pos e = .ok ((rescueOracle f emb).hasher.digestLeaf pos e) := by
  constructor
  · obtain ⟨y, hy⟩ := sponge_one f (Rescue.padWithZeros (0 :: l) 3) (by
      rw [Rescue.padWithZeros_length _ (by decide)]; exact Rescue.lenToNextMultiple_mod _ _ (by decide))
    simp only [rescueDigest, Rescue.spongeWithZeroPadding, Rescue.crhfRate, hy, Rescue.expect, first, Oracle.hasher, rescueOracle]
  · obtain ⟨y, hy⟩ := sponge_one f [1, emb pos, e] (by simp)
    have hp : Rescue.padWithZeros [1, emb pos, e] 3 = [1, emb pos, e] := by rw [Rescue.padWithZeros_eq _ (by decide)]; simp [Rescue.lenToNextMultiple]
    simp only [rescueLeaf, Rescue.spongeWithZeroPadding, Rescue.crhfRate, hp, hy, Rescue.expect, first, Oracle.hasher, rescueOracle]

/-- **C86, `RescueHash`**: leaves and inner nodes are separated, for every arity -/
theorem C86_rescue_separated (f : Vec F → Vec F) (emb : I → F) (a : ℕ) : (rescueOracle f emb).Separated a where
  node_inj l l' h h' heq := by
    simp only [rescueOracle, Rescue.padWithZeros_eq _ (show 0 < 3 by decide), List.length_cons, h, h', List.cons_append,
      List.cons.injEq, true_and] at heq
    exact (List.append_inj heq (by rw [h, h'])).1
  leaf_inj p e e' h := by simpa [rescueOracle] using h
  sep p e l _ := by
    simp only [rescueOracle, Rescue.padWithZeros_eq _ (show 0 < 3 by decide), List.cons_append, ne_eq, List.cons.injEq]
    intro h
    exact one_ne_zero h.1

/-- **C86, intervals**: the tree hash for intervals in `examples.rs` refuses every leaf and every inner node of arity 3, because their
inputs have length 4 and the sponge asks for multiples of 3 -/
theorem C86_interval_counterexample (f : Vec F → Vec F) (emb : ℕ → F) (pos : ℕ) (e : F × F) (data : List F) (h : data.length = 3) :
    intervalLeaf f emb pos e = .error .parameter ∧ intervalDigest f data = .error .parameter := by
  constructor
  · unfold intervalLeaf Rescue.spongeNoPadding
    rw [if_pos (by simp [Rescue.crhfRate])]
    rfl
  · unfold intervalDigest Rescue.spongeNoPadding
    rw [if_pos (by simp [h, Rescue.crhfRate])]
    rfl

/-! ## Poseidon2 -/

theorem poseidon_hash_one (perm : List F → List F) (N R : ℕ) (hR : 0 < R) (hp : ∀ s, perm s ≠ []) (x : List F) :
    Poseidon2.hash perm N R 1 x = [(Poseidon2.hash perm N R 1 x).headD 0] := by
  unfold Poseidon2.hash
  simp only [Poseidon2.squeeze, one_ne_zero, if_false, List.append_nil]
  generalize (Poseidon2.absorb perm R x (List.replicate N 0) 0).1 = s
  rw [Nat.min_eq_left hR]
  rcases hs : perm s with _ | ⟨y, ys⟩
  · exact absurd hs (hp s)
  · rfl

theorem leaf_input (IN : ℕ) (h3 : 3 ≤ IN) (x e : F) :
    (((List.replicate IN (0 : F)).set 0 1).set (IN - 2) x).set (IN - 1) e = 1 :: List.replicate (IN - 3) 0 ++ [x, e] := by
  obtain ⟨n, rfl⟩ := Nat.exists_eq_add_of_le h3
  have e1 : 3 + n - 2 = n + 1 := by omega
  have e2 : 3 + n - 1 = n + 2 := by omega
  have e3 : 3 + n - 3 = n := by omega
  have e4 : (3 + n) = n + 1 + 1 + 1 := by omega
  rw [e1, e2, e3, e4, List.replicate_succ, List.set_cons_zero, List.set_cons_succ, List.set_cons_succ, List.replicate_add n 2]
  simp [List.cons_append]

/-- **C86, `FixedLenPoseidon2Hash`**: with an input length for the arity its digests are the sponge on the inputs of
`poseidonOracle` -/
theorem C86_poseidon2_digest (perm : List F → List F) (N R IN : ℕ) (hR : 0 < R) (hp : ∀ s, perm s ≠ []) (emb : I → F)
    (h3 : 3 ≤ IN) (l : List F) (hl : l.length + 1 ≤ IN) (pos : I) (e : F) :
    poseidonDigest perm N R IN l = .ok ((poseidonOracle perm N R IN emb).hasher.digest l) ∧
    poseidonLeaf perm N R IN emb pos e = .ok ((poseidonOracle perm N R IN emb).hasher.digestLeaf pos e) := by
  have pad : ∀ x : List F, x ≠ [] → x.length ≤ IN → Poseidon2.zeroPadding x IN = some (x ++ List.replicate (IN - x.length) 0) := by
    intro x h0 hx
    have h1 : 0 < x.length := List.length_pos_iff.2 h0
    unfold Poseidon2.zeroPadding Poseidon2.nextMultipleOf
    rw [if_neg (by omega)]
    by_cases he : x.length = IN
    · rw [he, Nat.mod_self]; rfl
    · rw [Nat.mod_eq_of_lt (by omega), if_neg (by omega), show x.length + (IN - x.length) = IN by omega]
  constructor
  · simp only [poseidonDigest, Poseidon2.fixedEvaluate]
    rw [if_neg (by simp only [List.length_cons]; omega), pad _ (by simp) (by simpa using hl)]
    simp only
    rw [poseidon_hash_one perm N R hR hp]
    rfl
  · have hll : (1 :: List.replicate (IN - 3) 0 ++ [emb pos, e]).length = IN := by simp; omega
    simp only [poseidonLeaf, Poseidon2.fixedEvaluate]
    rw [if_neg (by omega), leaf_input IN h3, if_neg (by rw [hll]; omega), pad _ (by simp) (by rw [hll]), hll, Nat.sub_self,
      List.replicate_zero, List.append_nil]
    simp only
    rw [poseidon_hash_one perm N R hR hp]
    rfl

/-- **C86, `FixedLenPoseidon2Hash`**: shorter input lengths are refused -/
theorem C86_poseidon2_refused (perm : List F → List F) (N R IN : ℕ) (emb : I → F) (l : List F) (pos : I) (e : F) :
    (IN < 3 → poseidonLeaf perm N R IN emb pos e = .error .param) ∧
    (IN < l.length + 1 → poseidonDigest perm N R IN l = .error .param) := by
  refine ⟨fun h => by unfold poseidonLeaf; rw [if_pos h], fun h => ?_⟩
  unfold poseidonDigest Poseidon2.fixedEvaluate
  rw [if_pos (by simpa using h)]
  rfl

/-- **C86, `FixedLenPoseidon2Hash`**: leaves and inner nodes are separated -/
theorem C86_poseidon2_separated (perm : List F → List F) (N R IN : ℕ) (emb : I → F) (a : ℕ) :
    (poseidonOracle perm N R IN emb).Separated a where
  node_inj l l' h h' heq := by
    simp only [poseidonOracle, List.cons_append, List.cons.injEq, true_and] at heq
    exact (List.append_inj heq (by rw [h, h'])).1
  leaf_inj p e e' h := by simpa [poseidonOracle] using h
  sep p e l _ := by
    simp only [poseidonOracle, List.cons_append, ne_eq, List.cons.injEq]
    intro h
    exact one_ne_zero h.1

end

/-! ## Byte-oriented hash functions -/

section
variable {n : ℕ}

theorem foldl_bytes (l : List (Bytes n)) : ∀ acc, l.foldl (fun acc v => acc ++ v.1) acc = acc ++ (l.map (·.1)).flatten := by
  induction l with
  | nil => intro acc; simp
  | cons x l ih => intro acc; simp [ih]

theorem flatten_inj : ∀ l l' : List (Bytes n), l.length = l'.length → (l.map (·.1)).flatten = (l'.map (·.1)).flatten → l = l' := by
  intro l
  induction l with
  | nil => intro l' h _; exact (List.eq_nil_of_length_eq_zero h.symm).symm
  | cons x l ih =>
    intro l' h heq
    cases l' with
    | nil => simp at h
    | cons x' l' =>
      simp only [List.map_cons, List.flatten_cons] at heq
      obtain ⟨h1, h2⟩ := List.append_inj heq (by rw [x.2, x'.2])
      rw [Subtype.ext h1, ih l' (by simpa using h) h2]

/-- **C86, SHA3, Keccak and any other `Digest`**: the digests are the hash function on the inputs of the oracles -/
theorem C86_bytes_digest (h : List Octet → Bytes n) (serI : I → List Octet) (ser : E → List Octet) (l : List (Bytes n)) (pos : I)
    (e : E) :
    bytesDigest h l = (shaOracle (I := I) h ser).hasher.digest l ∧ bytesDigest h l = (hasherOracle h serI ser).hasher.digest l ∧
    shaLeaf h ser pos e = (shaOracle h ser).hasher.digestLeaf pos e ∧
    hasherLeaf h serI ser pos e = (hasherOracle h serI ser).hasher.digestLeaf pos e := by
  refine ⟨?_, ?_, rfl, ?_⟩
  · simp only [bytesDigest, foldl_bytes]; rfl
  · simp only [bytesDigest, foldl_bytes]; rfl
  · simp only [hasherLeaf, List.append_assoc]; rfl

/-- **C86, SHA3 and Keccak**: leaves and inner nodes are separated if the serialization of elements is injective -/
theorem C86_sha_separated (h : List Octet → Bytes n) (ser : E → List Octet) (hs : Function.Injective ser) (a : ℕ) :
    (shaOracle (I := I) h ser).Separated a where
  node_inj l l' h h' heq := by
    simp only [shaOracle, bytesNode, List.cons.injEq, true_and] at heq
    exact flatten_inj l l' (by rw [h, h']) heq
  leaf_inj p e e' h := by
    simp only [shaOracle, List.cons.injEq, true_and] at h
    exact hs h
  sep p e l _ := by
    simp only [shaOracle, bytesNode, ne_eq, List.cons.injEq]
    intro h
    exact absurd h.1 (by decide)

/-- **C86, `HasherDigestAlgorithm`**: leaves and inner nodes are separated if the serialization of elements is injective -/
theorem C86_hasher_separated (h : List Octet → Bytes n) (serI : I → List Octet) (ser : E → List Octet)
    (hs : Function.Injective ser) (a : ℕ) : (hasherOracle h serI ser).Separated a where
  node_inj l l' h h' heq := by
    simp only [hasherOracle, bytesNode, List.cons.injEq, true_and] at heq
    exact flatten_inj l l' (by rw [h, h']) heq
  leaf_inj p e e' h := by
    simp only [hasherOracle, List.cons.injEq, true_and, List.append_cancel_left_eq] at h
    exact hs h
  sep p e l _ := by
    simp only [hasherOracle, bytesNode, ne_eq, List.cons.injEq]
    intro h
    exact absurd h.1 (by decide)

/-- **C86, positions**: the leaf inputs of `HasherDigestAlgorithm` determine the position too if positions are serialized to a fixed
length; those of SHA3 and Keccak never depend on it -/
theorem C86_positions (h : List Octet → Bytes n) (serI : I → List Octet) (ser : E → List Octet) (m : ℕ)
    (hm : ∀ p, (serI p).length = m) (hi : Function.Injective serI) (hs : Function.Injective ser) (p p' : I) (e e' : E) :
    ((hasherOracle h serI ser).leaf p e = (hasherOracle h serI ser).leaf p' e' → p = p' ∧ e = e') ∧
    (shaOracle h ser).leaf p e = (shaOracle h ser).leaf p' e := by
  refine ⟨fun heq => ?_, rfl⟩
  simp only [hasherOracle, List.cons.injEq, true_and] at heq
  obtain ⟨h1, h2⟩ := List.append_inj heq (by rw [hm, hm])
  exact ⟨hi h1, hs h2⟩

end

/-! ## Examples -/

instance : Fact (Nat.Prime 101) := ⟨by norm_num⟩

/-- a toy permutation -/
def toyF (v : Vec (ZMod 101)) : Vec (ZMod 101) :=
  ⟨v.a ^ 3 + 2 * v.b + 5 * v.c + v.d + 7, v.a + v.b ^ 3 + 3 * v.c + 2 * v.d, v.c + v.a, v.d + 3 * v.a ^ 3⟩

/-- a tree with the Rescue tree hash on a toy permutation, and an accepted proof -/
example : ∃ t proof, Tree.fromElems 3 (rescueOracle toyF (fun i : ℕ => (i : ZMod 101))).hasher (some 2) [10, 20, 30, 40, 50] = .ok t ∧
    Tree.verify 3 (rescueOracle toyF (fun i : ℕ => (i : ZMod 101))).hasher id
      (t.commitment (rescueOracle toyF (fun i : ℕ => (i : ZMod 101))).hasher) 3 40 proof = .ok true := by
  have h := C09_append_order (a := 3) (rescueOracle toyF (fun i : ℕ => (i : ZMod 101))).hasher (by decide) 2
    [10, 20, 30, 40, 50] [] (by decide)
  obtain ⟨t₀, t, -, -, h3, -, -, h6, -⟩ := h
  obtain ⟨p, -, hp⟩ := h6 3 40 rfl
  exact ⟨t, p, h3, hp⟩

/-- an oracle that is not broken -/
def freeOracle : Oracle ℕ ℕ (List (List ℕ)) (List (List ℕ)) :=
  ⟨[], fun x => [7] :: x, fun l => [2] :: (l.map fun v => [v.length] :: v).flatten, fun i e => [[1, i, e]]⟩

theorem freeOracle_ok : freeOracle.Separated 3 ∧ ∀ A B, ¬ Broken freeOracle A B := by
  refine ⟨⟨?_, ?_, ?_⟩, ?_⟩
  · intro l l' h h' heq
    simp only [freeOracle, List.cons.injEq, true_and] at heq
    exact treeHasher_flat_inj l l' (by rw [h, h']) heq
  · intro p e e' h; simpa [freeOracle] using h
  · intro p e l _; simp [freeOracle]
  · exact not_broken _ (fun x y h => by simpa [freeOracle] using h) (fun x => by simp [freeOracle])

/-- with it exactly the elements of the list have accepted proofs -/
example (e : ℕ) : ∃ t, Tree.fromElems 3 freeOracle.hasher (some 2) [10, 20, 30, 40, 50] = .ok t ∧
    ((∃ proof, Tree.verify 3 freeOracle.hasher id (t.commitment freeOracle.hasher) 3 e proof = .ok true) ↔ e = 40) := by
  obtain ⟨t₀, t, -, -, h3, -, -, h6, -⟩ := C09_append_order (a := 3) freeOracle.hasher (by decide) 2 [10, 20, 30, 40, 50] []
    (by decide)
  refine ⟨t, h3, ?_, ?_⟩
  · rintro ⟨proof, hv⟩
    rcases C86_list freeOracle freeOracle_ok.1 (by decide) 2 _ t h3 3 (by decide) e proof hv with ⟨h, -⟩ | h
    · simpa using h.symm
    · exact absurd h (freeOracle_ok.2 _ _)
  · rintro rfl
    obtain ⟨p, -, hp⟩ := h6 3 40 rfl
    exact ⟨p, hp⟩

/-- a history, and an accepted proof for it -/
example : ∃ t outs proof,
    run freeOracle.hasher id (Tree.new 1 : Tree 3 ℕ ℕ _) [⟨1, fun _ => some 5⟩, ⟨2, fun _ => some 6⟩] = .ok (t, outs) ∧
    Tree.verify 3 freeOracle.hasher id (t.commitment freeOracle.hasher) 2 6 proof = .ok true :=
  ⟨_, _, [[[], freeOracle.hasher.digestLeaf 1 5]], rfl, by decide⟩

/-- a tree reached by an update, an accepted membership proof and an accepted non-membership proof of its height -/
example : ∃ t : Tree 3 ℕ ℕ _, Reachable freeOracle.hasher id t ∧
    Tree.verify 3 freeOracle.hasher id (t.commitment freeOracle.hasher) 1 5 [[[], []]] = .ok true ∧
    Tree.nonMembershipVerify 3 freeOracle.hasher id (t.commitment freeOracle.hasher) 0
      [[freeOracle.hasher.digestLeaf 1 5, []]] = .ok true :=
  ⟨_, Reachable.update (Tree.new 1) _ 1 (fun _ => some 5) (.notFound ()) (Reachable.new 1) (by show 1 < 3 ^ 1; decide) rfl,
    by decide, by decide⟩

/-- a digest with a toy permutation in place of Poseidon2 -/
example : poseidonDigest (fun s : List (ZMod 101) => (s.map (· ^ 3 + 1)).reverse ++ [1]) 3 2 4 [5, 6] =
    .ok ((poseidonOracle (fun s : List (ZMod 101) => (s.map (· ^ 3 + 1)).reverse ++ [1]) 3 2 4 (fun i : ℕ => (i : ZMod 101))).hasher.digest
      [5, 6]) :=
  (C86_poseidon2_digest _ 3 2 4 (by decide) (by simp) _ (by decide) [5, 6] (by decide) 0 0).1

/-- bytes of a toy hash function -/
example : ∃ h : List Octet → Bytes 2, (hasherOracle (E := Octet) h (fun p : Octet => [p]) fun e => [e]).Separated 3 ∧
    bytesDigest h [⟨[1, 2], rfl⟩, ⟨[3, 4], rfl⟩] = ⟨[58, 5], rfl⟩ :=
  ⟨fun l => ⟨[l.sum, Fin.ofNat 256 l.length], rfl⟩, C86_hasher_separated _ _ _ (fun x y h => by simpa using h) 3, by decide⟩

end Verif.Props.MerkleHashes
