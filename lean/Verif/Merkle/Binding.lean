import Verif.Merkle.Preserve

/-! # Folding level by level; collision extraction -/

namespace Verif.Merkle

variable {a : ℕ} {E I T : Type}

/-- The value reached after the first `k` levels. -/
def foldTo (H : Hasher E I T) (path : List (Fin a)) (proof : List (List T)) (init : T) (k : ℕ) : T :=
  ((path.take k).zip (proof.take k)).foldl (foldStep H) init

/-- The list hashed at level `k`: the level's sibling values with the running value inserted. -/
def levelInput (H : Hasher E I T) (path : List (Fin a)) (proof : List (List T)) (init : T) (k : ℕ) :
    List T :=
  match path[k]?, proof[k]? with
  | some b, some vs => vs.take b ++ foldTo H path proof init k :: vs.drop b
  | _, _ => []

theorem foldTo_zero (H : Hasher E I T) (path : List (Fin a)) (proof : List (List T)) (init : T) :
    foldTo H path proof init 0 = init := by simp [foldTo]

theorem foldTo_succ (H : Hasher E I T) (path : List (Fin a)) (proof : List (List T)) (init : T)
    (k : ℕ) (h1 : k < path.length) (h2 : k < proof.length) :
    foldTo H path proof init (k + 1) =
      foldStep H (foldTo H path proof init k) (path[k], proof[k]) := by
  unfold foldTo
  rw [List.take_succ_eq_append_getElem h1, List.take_succ_eq_append_getElem h2,
    List.zip_append (by simp; omega), List.foldl_append]
  rfl

theorem foldTo_succ_ne (H : Hasher E I T) (path : List (Fin a)) (proof : List (List T)) (init : T)
    (k : ℕ) (h1 : k < path.length) (h2 : k < proof.length) (hne : proof[k] ≠ []) :
    foldTo H path proof init (k + 1) = H.digest (levelInput H path proof init k) := by
  rw [foldTo_succ H path proof init k h1 h2]
  simp only [foldStep, hne, if_false, levelInput, List.getElem?_eq_getElem h1,
    List.getElem?_eq_getElem h2]

theorem foldTo_succ_nil (H : Hasher E I T) (path : List (Fin a)) (proof : List (List T)) (init : T)
    (k : ℕ) (h1 : k < path.length) (h2 : k < proof.length) (hne : proof[k] = []) :
    foldTo H path proof init (k + 1) = H.dflt := by
  rw [foldTo_succ H path proof init k h1 h2]
  simp [foldStep, hne]

theorem insert_inj {α : Type} {l l' : List α} {b : ℕ} {v v' : α} (hb : b ≤ l.length)
    (hb' : b ≤ l'.length) (h : l.take b ++ v :: l.drop b = l'.take b ++ v' :: l'.drop b) :
    v = v' ∧ l = l' := by
  have h1 := List.append_inj h (by simp; omega)
  simp only [List.cons.injEq] at h1
  refine ⟨h1.2.1, ?_⟩
  rw [← List.take_append_drop b l, ← List.take_append_drop b l', h1.1, h1.2.2]

/-- Two foldings of the same length along the same path reaching the same value: either they agree
at every level, or some level exhibits a collision. -/
theorem fold_binding (H : Hasher E I T) (ha : 2 ≤ a) (path : List (Fin a)) (p₁ p₂ : List (List T))
    (i₁ i₂ : T) (n : ℕ) (hpath : n ≤ path.length) (hl₁ : n ≤ p₁.length) (hl₂ : n ≤ p₂.length)
    (hw₁ : ∀ v ∈ p₁, v.length = a - 1) (hw₂ : ∀ v ∈ p₂, v.length = a - 1)
    (heq : foldTo H path p₁ i₁ n = foldTo H path p₂ i₂ n) :
    (i₁ = i₂ ∧ p₁.take n = p₂.take n) ∨
      ∃ k < n, levelInput H path p₁ i₁ k ≠ levelInput H path p₂ i₂ k ∧
        H.digest (levelInput H path p₁ i₁ k) = H.digest (levelInput H path p₂ i₂ k) := by
  induction n with
  | zero => left; simpa [foldTo_zero] using heq
  | succ n ih =>
    have hn0 : n < path.length := by omega
    have hn1 : n < p₁.length := by omega
    have hn2 : n < p₂.length := by omega
    have hx1 := hw₁ p₁[n] (List.getElem_mem hn1)
    have hx2 := hw₂ p₂[n] (List.getElem_mem hn2)
    have hne1 : p₁[n] ≠ [] := by intro h; rw [h] at hx1; simp at hx1; omega
    have hne2 : p₂[n] ≠ [] := by intro h; rw [h] at hx2; simp at hx2; omega
    rw [foldTo_succ_ne H path p₁ i₁ n hn0 hn1 hne1, foldTo_succ_ne H path p₂ i₂ n hn0 hn2 hne2] at heq
    by_cases hli : levelInput H path p₁ i₁ n = levelInput H path p₂ i₂ n
    · have hli' := hli
      simp only [levelInput, List.getElem?_eq_getElem hn0, List.getElem?_eq_getElem hn1,
        List.getElem?_eq_getElem hn2] at hli'
      have hb := path[n].isLt
      obtain ⟨h1, h2⟩ := insert_inj (by omega) (by omega) hli'
      rcases ih (by omega) (by omega) (by omega) h1 with ⟨h3, h4⟩ | ⟨k, hk, hc⟩
      · left
        refine ⟨h3, ?_⟩
        rw [List.take_succ_eq_append_getElem hn1, List.take_succ_eq_append_getElem hn2, h4, h2]
      · right; exact ⟨k, by omega, hc⟩
    · right; exact ⟨n, by omega, hli, heq⟩

/-- A membership folding and a non-membership folding of the same length reaching the same value
break the hash: a collision or a preimage of the default value. -/
theorem fold_exclusive (H : Hasher E I T) (ha : 2 ≤ a) (path : List (Fin a)) (p₁ p₂ : List (List T))
    (i₁ : T) (n : ℕ) (hpath : n ≤ path.length) (hl₁ : n ≤ p₁.length) (hl₂ : n ≤ p₂.length)
    (hw₁ : ∀ v ∈ p₁, v.length = a - 1) (hw₂ : ∀ v ∈ p₂, v.length = a - 1 ∨ v = [])
    (heq : foldTo H path p₁ i₁ n = foldTo H path p₂ H.dflt n) :
    i₁ = H.dflt ∨ (∃ k < n, H.digest (levelInput H path p₁ i₁ k) = H.dflt) ∨
      ∃ k < n, levelInput H path p₁ i₁ k ≠ levelInput H path p₂ H.dflt k ∧
        (levelInput H path p₂ H.dflt k).length = a ∧
        H.digest (levelInput H path p₁ i₁ k) = H.digest (levelInput H path p₂ H.dflt k) := by
  induction n with
  | zero => left; simpa [foldTo_zero] using heq
  | succ n ih =>
    have hn0 : n < path.length := by omega
    have hn1 : n < p₁.length := by omega
    have hn2 : n < p₂.length := by omega
    have hx1 := hw₁ p₁[n] (List.getElem_mem hn1)
    have hx2 := hw₂ p₂[n] (List.getElem_mem hn2)
    have hne1 : p₁[n] ≠ [] := by intro h; rw [h] at hx1; simp at hx1; omega
    rw [foldTo_succ_ne H path p₁ i₁ n hn0 hn1 hne1] at heq
    by_cases hne2 : p₂[n] = []
    · rw [foldTo_succ_nil H path p₂ H.dflt n hn0 hn2 hne2] at heq
      right; left; exact ⟨n, by omega, heq⟩
    · have hx2' : p₂[n].length = a - 1 := by
        rcases hx2 with h | h
        · exact h
        · exact absurd h hne2
      rw [foldTo_succ_ne H path p₂ H.dflt n hn0 hn2 hne2] at heq
      by_cases hli : levelInput H path p₁ i₁ n = levelInput H path p₂ H.dflt n
      · have hli' := hli
        simp only [levelInput, List.getElem?_eq_getElem hn0, List.getElem?_eq_getElem hn1,
          List.getElem?_eq_getElem hn2] at hli'
        have hb := path[n].isLt
        obtain ⟨h1, h2⟩ := insert_inj (by omega) (by omega) hli'
        rcases ih (by omega) (by omega) (by omega) h1 with h3 | ⟨k, hk, hc⟩ | ⟨k, hk, hc⟩
        · left; exact h3
        · right; left; exact ⟨k, by omega, hc⟩
        · right; right; exact ⟨k, by omega, hc⟩
      · right; right
        refine ⟨n, by omega, hli, ?_, heq⟩
        simp only [levelInput, List.getElem?_eq_getElem hn0, List.getElem?_eq_getElem hn2,
          List.length_append, List.length_take, List.length_cons, List.length_drop]
        have hb := path[n].isLt
        omega

/-- Acceptance of a membership proof, unfolded. -/
theorem verify_true_iff [DecidableEq T] [NeZero a] (H : Hasher E I T) (idx : I → ℕ) (com : T) (pos : I)
    (e : E) (proof : List (List T)) :
    Tree.verify a H idx com pos e proof = .ok true ↔
      (∀ v ∈ proof, v.length = a - 1) ∧
        foldTo H (toPath a (idx pos) proof.length) proof (H.digestLeaf pos e) proof.length = com := by
  unfold Tree.verify verifyMerkleProof foldTo
  simp only
  rw [List.take_of_length_le (by simp), List.take_length]
  split
  · rename_i h
    rw [List.all_eq_true] at h
    simp only [Except.ok.injEq, decide_eq_true_eq]
    constructor
    · intro h'; exact ⟨fun v hv => by simpa using h v hv, h'⟩
    · intro h'; exact h'.2
  · rename_i h
    simp only [reduceCtorEq, false_iff, not_and]
    intro h'
    exfalso
    apply h
    rw [List.all_eq_true]
    intro v hv
    simp [h' v hv]

theorem nonmem_true_iff [DecidableEq T] [NeZero a] (H : Hasher E I T) (idx : I → ℕ) (com : T) (pos : I)
    (proof : List (List T)) :
    Tree.nonMembershipVerify a H idx com pos proof = .ok true ↔
      (∀ v ∈ proof, v.length = a - 1 ∨ v = []) ∧
        foldTo H (toPath a (idx pos) proof.length) proof H.dflt proof.length = com := by
  unfold Tree.nonMembershipVerify verifyMerkleProof foldTo
  simp only
  rw [List.take_of_length_le (by simp), List.take_length]
  split
  · rename_i h
    rw [List.all_eq_true] at h
    simp only [Except.ok.injEq, decide_eq_true_eq]
    constructor
    · intro h'
      refine ⟨fun v hv => ?_, h'⟩
      have := h v hv
      simpa using this
    · intro h'; exact h'.2
  · rename_i h
    simp only [reduceCtorEq, false_iff, not_and]
    intro h'
    exfalso
    apply h
    rw [List.all_eq_true]
    intro v hv
    rcases h' v hv with h'' | h'' <;> simp [h'']

end Verif.Merkle
