import Verif.Merkle.Paths

/-! # Well-formed trees (possibly with forgotten parts); lookup, verify, update, forget, remember -/

namespace Verif.Merkle

variable {a : ℕ} {E I T : Type}

/-- `WF H idx h pre n`: node `n` of height `h` below the digits `pre` (least significant first)
stores correct hash values, and each leaf sits where its position says. -/
def WF [NeZero a] (H : Hasher E I T) (idx : I → ℕ) : ℕ → List (Fin a) → Node a E I T → Prop
  | _, _, .empty => True
  | _, _, .forgotten _ => True
  | 0, pre, .leaf v p e =>
    v = H.digestLeaf p e ∧ idx p < a ^ pre.length ∧ toPath a (idx p) pre.length = pre
  | _ + 1, _, .leaf _ _ _ => False
  | 0, _, .branch _ _ => False
  | h + 1, pre, .branch v c => v = digestBranch H c ∧ ∀ i, WF H idx h (i :: pre) (c i)

/-- `path` goes through the node of height `h` below `pre`. -/
def Through (h : ℕ) (pre path : List (Fin a)) : Prop :=
  path.length = h + pre.length ∧ path.drop h = pre

theorem Through.step {h : ℕ} {pre path : List (Fin a)} (ht : Through (h + 1) pre path) :
    ∃ b, path[h]? = some b ∧ Through h (b :: pre) path := by
  obtain ⟨h1, h2⟩ := ht
  have hlt : h < path.length := by omega
  refine ⟨path[h], by simp [hlt], by simp; omega, ?_⟩
  rw [List.drop_eq_getElem_cons hlt, h2]

theorem Through.zero {pre path : List (Fin a)} (ht : Through 0 pre path) : path = pre := by
  have := ht.2
  simpa using this

theorem Through.root [NeZero a] (n h : ℕ) : Through h [] (toPath a n h) := by
  simp [Through]

theorem Through.take {h : ℕ} {pre path : List (Fin a)} {b : Fin a} (ht : Through h (b :: pre) path) :
    path.take (h + 1) = path.take h ++ [b] := by
  obtain ⟨h1, h2⟩ := ht
  have hlt : h < path.length := by simp at h1; omega
  rw [List.take_succ_eq_append_getElem hlt]
  rw [List.drop_eq_getElem_cons hlt] at h2
  simp only [List.cons.injEq] at h2
  rw [h2.1]

theorem Through.uniq {h : ℕ} {pre path : List (Fin a)} {b b' : Fin a}
    (h1 : Through h (b :: pre) path) (h2 : path[h]? = some b') : b = b' := by
  have hlt : h < path.length := by have := h1.1; simp at this; omega
  have := h1.2
  rw [List.drop_eq_getElem_cons hlt] at this
  simp only [List.cons.injEq] at this
  simp [hlt] at h2
  rw [← this.1, h2]

/-- Computing the root from a lookup: both the membership and the non-membership proof fold
to the node's value. -/
theorem lookup_fold [NeZero a] (H : Hasher E I T) (idx : I → ℕ) (ha : 2 ≤ a) :
    ∀ (h : ℕ) (pre path : List (Fin a)) (n : Node a E I T), WF H idx h pre n →
      Through h pre path →
      ∃ r, lookupInternal H h n path = .ok r ∧
        (∀ e p, r = .ok e p →
          p.length = h ∧ (∀ v ∈ p, v.length = a - 1) ∧
          ∃ p0, idx p0 < a ^ path.length ∧ toPath a (idx p0) path.length = path ∧
            ((path.take h).zip p).foldl (foldStep H) (H.digestLeaf p0 e) = n.value H) ∧
        (∀ p, r = .notFound p →
          p.length = h ∧ (∀ v ∈ p, v.length = a - 1 ∨ v = []) ∧
            ((path.take h).zip p).foldl (foldStep H) H.dflt = n.value H) := by
  intro h
  induction h with
  | zero =>
    intro pre path n hwf ht
    cases n with
    | empty =>
      refine ⟨.notFound [], by simp [lookupInternal], by simp, ?_⟩
      intro p hp
      simp at hp
      subst hp
      simp [Node.value]
    | branch v c => simp [WF] at hwf
    | leaf v p e =>
      refine ⟨.ok e [], by simp [lookupInternal], ?_, by simp⟩
      intro e' p' h
      simp at h
      obtain ⟨rfl, rfl⟩ := h
      simp only [WF] at hwf
      obtain ⟨h1, h2, h3⟩ := hwf
      have := ht.zero
      subst this
      refine ⟨rfl, by simp, p, h2, h3, ?_⟩
      simp [Node.value, h1]
    | forgotten v => exact ⟨.notInMemory, by simp [lookupInternal], by simp, by simp⟩
  | succ h ih =>
    intro pre path n hwf ht
    cases n with
    | empty =>
      refine ⟨.notFound (List.replicate (h + 1) []), by simp [lookupInternal], by simp, ?_⟩
      intro p hp
      simp only [LookupResult.notFound.injEq] at hp
      subst hp
      refine ⟨by simp, ?_, ?_⟩
      · intro v hv
        right
        exact (List.mem_replicate.mp hv).2
      · have key : ∀ (k : ℕ) (q : List (Fin a)) (x : T), x = H.dflt →
            (q.zip (List.replicate k [])).foldl (foldStep H) x = H.dflt := by
          intro k q
          induction q generalizing k with
          | nil => intro x hx; simp [hx]
          | cons d q ihq =>
            intro x hx
            cases k with
            | zero => simp [hx]
            | succ k =>
              simp only [List.replicate_succ, List.zip_cons_cons, List.foldl_cons]
              apply ihq
              simp [foldStep]
        simpa [Node.value] using key (h + 1) (path.take (h + 1)) H.dflt rfl
    | leaf v p e => simp [WF] at hwf
    | forgotten v => exact ⟨.notInMemory, by simp [lookupInternal], by simp, by simp⟩
    | branch v c =>
      simp only [WF] at hwf
      obtain ⟨hv, hc⟩ := hwf
      obtain ⟨b, hb, htb⟩ := ht.step
      obtain ⟨r, hr, hok, hnf⟩ := ih (b :: pre) path (c b) (hc b) htb
      have hlen : path.length = h + 1 + pre.length := ht.1
      cases r with
      | notInMemory =>
        exact ⟨.notInMemory, by simp [lookupInternal, hb, hr], by simp, by simp⟩
      | ok e p =>
        refine ⟨.ok e (p ++ [siblings H c b]), by simp [lookupInternal, hb, hr], ?_, by simp⟩
        intro e' p' heq
        simp only [LookupResult.ok.injEq] at heq
        obtain ⟨rfl, rfl⟩ := heq
        obtain ⟨h1, h2, p0, h3, h4, h5⟩ := hok e p rfl
        refine ⟨by simp [h1], ?_, p0, h3, h4, ?_⟩
        · intro v' hv'
          simp only [List.mem_append, List.mem_singleton] at hv'
          rcases hv' with hv' | rfl
          · exact h2 v' hv'
          · exact siblings_length H c b
        · rw [htb.take, List.zip_append (by simp [h1]; omega), List.foldl_append, h5]
          simp only [List.zip_cons_cons, List.zip_nil_left, List.foldl_cons, List.foldl_nil]
          rw [foldStep_siblings H c b ha, Node.value, hv]
      | notFound p =>
        refine ⟨.notFound (p ++ [siblings H c b]), by simp [lookupInternal, hb, hr], by simp, ?_⟩
        intro p' heq
        simp only [LookupResult.notFound.injEq] at heq
        subst heq
        obtain ⟨h1, h2, h5⟩ := hnf p rfl
        refine ⟨by simp [h1], ?_, ?_⟩
        · intro v' hv'
          simp only [List.mem_append, List.mem_singleton] at hv'
          rcases hv' with hv' | rfl
          · exact h2 v' hv'
          · left; exact siblings_length H c b
        · rw [htb.take, List.zip_append (by simp [h1]; omega), List.foldl_append, h5]
          simp only [List.zip_cons_cons, List.zip_nil_left, List.foldl_cons, List.foldl_nil]
          rw [foldStep_siblings H c b ha, Node.value, hv]

/-- A whole tree is well formed. -/
def Tree.WellFormed [NeZero a] (H : Hasher E I T) (idx : I → ℕ) (t : Tree a E I T) : Prop :=
  WF H idx t.height [] t.root

theorem lookup_ok_verifies [DecidableEq T] [NeZero a] (H : Hasher E I T) (idx : I → ℕ)
    (hinj : Function.Injective idx) (ha : 2 ≤ a) (t : Tree a E I T) (hwf : t.WellFormed H idx)
    (pos : I) (hpos : idx pos < a ^ t.height) (e : E) (p : List (List T))
    (hl : t.universalLookup H idx pos = .ok (.ok e p)) :
    Tree.verify a H idx (t.commitment H) pos e p = .ok true := by
  obtain ⟨r, hr, hok, -⟩ := lookup_fold H idx ha t.height [] (toPath a (idx pos) t.height) t.root
    hwf (Through.root _ _)
  unfold Tree.universalLookup at hl
  rw [hl] at hr
  simp only [Except.ok.injEq] at hr
  obtain ⟨h1, h2, p0, h3, h4, h5⟩ := hok e p hr.symm
  simp only [toPath_length] at h3 h4
  have : p0 = pos := hinj (toPath_inj _ _ _ h3 hpos h4)
  subst this
  have hall : (p.all fun v => v.length == a - 1) = true := by
    rw [List.all_eq_true]; intro v hv; simp [h2 v hv]
  have htake : (toPath a (idx p0) t.height).take t.height = toPath a (idx p0) t.height := by
    rw [List.take_of_length_le (by simp)]
  rw [htake] at h5
  simp only [Tree.verify, verifyMerkleProof, hall, if_true, h1, h5, Tree.commitment]
  simp

theorem lookup_notFound_verifies [DecidableEq T] [NeZero a] (H : Hasher E I T) (idx : I → ℕ)
    (ha : 2 ≤ a) (t : Tree a E I T) (hwf : t.WellFormed H idx)
    (pos : I) (p : List (List T))
    (hl : t.universalLookup H idx pos = .ok (.notFound p)) :
    Tree.nonMembershipVerify a H idx (t.commitment H) pos p = .ok true := by
  obtain ⟨r, hr, -, hnf⟩ := lookup_fold H idx ha t.height [] (toPath a (idx pos) t.height) t.root
    hwf (Through.root _ _)
  unfold Tree.universalLookup at hl
  rw [hl] at hr
  simp only [Except.ok.injEq] at hr
  obtain ⟨h1, h2, h5⟩ := hnf p hr.symm
  have hall : (p.all fun v => v.length == a - 1 || v.isEmpty) = true := by
    rw [List.all_eq_true]; intro v hv
    rcases h2 v hv with h | h <;> simp [h]
  have htake : (toPath a (idx pos) t.height).take t.height = toPath a (idx pos) t.height := by
    rw [List.take_of_length_le (by simp)]
  rw [htake] at h5
  simp only [Tree.nonMembershipVerify, verifyMerkleProof, hall, if_true, h1, h5, Tree.commitment]
  simp

end Verif.Merkle
