import Verif.Plonk.Lookup
import Verif.Plonk.GrandProduct
import Mathlib.Data.List.Count
import Mathlib.Algebra.BigOperators.Group.List.Basic

/-!
# The sorted vector and the lookup product over an arbitrary finite field
-/

set_option linter.unusedSectionVars false

namespace Verif.Plonk

open Polynomial

section lists
variable {F : Type} [DecidableEq F]

/-- pairs of neighbours -/
def adj (l : List F) : List (F × F) := l.zip l.tail

@[simp] theorem adj_nil : adj ([] : List F) = [] := rfl
@[simp] theorem adj_single (x : F) : adj [x] = [] := rfl
@[simp] theorem adj_cons_cons (x y : F) (l : List F) : adj (x :: y :: l) = (x, y) :: adj (y :: l) := rfl

theorem adj_length (l : List F) : (adj l).length = l.length - 1 := by
  simp [adj]

theorem mem_of_adj {l : List F} {q : F × F} (h : q ∈ adj l) : q.1 ∈ l ∧ q.2 ∈ l := by
  obtain ⟨a, b⟩ := q
  exact ⟨(List.of_mem_zip h).1, List.mem_of_mem_tail (List.of_mem_zip h).2⟩

theorem foldl_bump (l : List F) : ∀ (m : F → ℕ) (x : F), l.foldl bump m x = m x + l.count x := by
  induction l with
  | nil => intro m x; simp
  | cons a l ih =>
    intro m x
    rw [List.foldl_cons, ih, List.count_cons]
    unfold bump
    by_cases h : x = a
    · subst h; simp; omega
    · have : ¬ a = x := fun h' => h h'.symm
      simp [h, this]

theorem countMap_eq (l : List F) (x : F) : countMap l x = l.count x := by
  unfold countMap
  rw [foldl_bump]
  simp

theorem mergeSorted_cons (x : F) (xs : List F) (m : F → ℕ) :
    mergeSorted (x :: xs) m =
      List.replicate (1 + m x) x ++ mergeSorted xs (fun y => if y = x then 0 else m y) := by
  rw [mergeSorted]
  split
  · rfl
  · rename_i h
    have h0 : m x = 0 := by simpa using h
    rw [h0]
    have : (fun y => if y = x then 0 else m y) = m := by
      funext y
      by_cases hy : y = x
      · subst hy; simp [h0]
      · simp [hy]
    rw [this]
    rfl

theorem mergeSorted_head (t : List F) (m : F → ℕ) : (mergeSorted t m).head? = t.head? := by
  cases t with
  | nil => rfl
  | cons x xs =>
    rw [mergeSorted_cons, Nat.add_comm]
    simp [List.replicate_succ]

theorem mergeSorted_count : ∀ (t : List F) (m : F → ℕ) (y : F),
    (mergeSorted t m).count y = t.count y + if y ∈ t then m y else 0 := by
  intro t
  induction t with
  | nil => intro m y; simp [mergeSorted]
  | cons x xs ih =>
    intro m y
    rw [mergeSorted_cons, List.count_append, ih, List.count_replicate, List.count_cons]
    by_cases h : y = x
    · subst h
      simp
      omega
    · have h' : ¬ x = y := fun e => h e.symm
      simp [h, h']

theorem adj_replicate_append (x : F) (k : ℕ) (l : List F) :
    adj (List.replicate (1 + k) x ++ l) = List.replicate k (x, x) ++ adj (x :: l) := by
  induction k with
  | zero => simp
  | succ k ih =>
    rw [show 1 + (k + 1) = (1 + k) + 1 by omega, List.replicate_succ, List.replicate_succ,
      List.cons_append, List.cons_append, ← ih, show 1 + k = k + 1 by omega, List.replicate_succ,
      List.cons_append, adj_cons_cons]

theorem adj_cons_head (x : F) (l l' : List F) (h : l.head? = l'.head?) (q : F × F) :
    (adj (x :: l)).count q + (adj l').count q = (adj (x :: l')).count q + (adj l).count q := by
  cases l with
  | nil =>
    cases l' with
    | nil => rfl
    | cons b l' => simp at h
  | cons a l =>
    cases l' with
    | nil => simp at h
    | cons b l' =>
      simp only [List.head?_cons, Option.some.injEq] at h
      subst h
      rw [adj_cons_cons, adj_cons_cons, List.count_cons, List.count_cons]
      omega

theorem mergeSorted_adj : ∀ (t : List F) (m : F → ℕ) (q : F × F),
    (adj (mergeSorted t m)).count q =
      (adj t).count q + if q.1 = q.2 ∧ q.1 ∈ t then m q.1 else 0 := by
  intro t
  induction t with
  | nil => intro m q; simp [mergeSorted]
  | cons x xs ih =>
    intro m q
    rw [mergeSorted_cons, adj_replicate_append, List.count_append, List.count_replicate]
    have h1 := adj_cons_head x (mergeSorted xs (fun y => if y = x then 0 else m y)) xs
      (mergeSorted_head _ _) q
    rw [ih] at h1
    obtain ⟨a, b⟩ := q
    simp only at h1 ⊢
    by_cases hab : a = b
    · subst hab
      by_cases hx : a = x
      · subst hx
        simp at h1 ⊢
        omega
      · have hx' : ¬ x = a := fun e => hx e.symm
        simp [hx, hx'] at h1 ⊢
        omega
    · have : ¬ ((x, x) = (a, b)) := by
        intro e
        injection e with e1 e2
        exact hab (e1 ▸ e2 ▸ rfl)
      simp [hab, this] at h1 ⊢
      omega

theorem count_diag (l : List F) (q : F × F) :
    (l.map (fun x => (x, x))).count q = if q.1 = q.2 then l.count q.1 else 0 := by
  obtain ⟨a, b⟩ := q
  induction l with
  | nil => simp
  | cons x l ih =>
    rw [List.map_cons, List.count_cons, List.count_cons, ih]
    by_cases hab : a = b
    · subst hab
      simp
    · have : ¬ ((x, x) = (a, b)) := by
        intro e
        injection e with e1 e2
        exact hab (e1 ▸ e2 ▸ rfl)
      simp [hab, this]

/-- the merge contains the table and the looked-up values of the table -/
theorem mergeSorted_perm (t l : List F) :
    (mergeSorted t (countMap l)).Perm (t ++ l.filter (fun x => decide (x ∈ t))) := by
  rw [List.perm_iff_count]
  intro y
  rw [mergeSorted_count, List.count_append, countMap_eq]
  by_cases h : y ∈ t
  · rw [if_pos h, List.count_filter (by simpa using h)]
  · rw [if_neg h, List.count_eq_zero_of_not_mem (a := y) (l := l.filter _) (by simp [h])]

theorem mergeSorted_length_iff (t l : List F) :
    (mergeSorted t (countMap l)).length = t.length + l.length ↔ ∀ x ∈ l, x ∈ t := by
  rw [(mergeSorted_perm t l).length_eq, List.length_append, Nat.add_left_cancel_iff,
    List.length_filter_eq_length_iff]
  simp

/-- the neighbours in the merge are the neighbours in the table and a pair `(x, x)` for every
looked-up `x` -/
theorem mergeSorted_adj_perm (t l : List F) (h : ∀ x ∈ l, x ∈ t) :
    (adj (mergeSorted t (countMap l))).Perm (adj t ++ l.map (fun x => (x, x))) := by
  rw [List.perm_iff_count]
  intro q
  rw [mergeSorted_adj, List.count_append, count_diag, countMap_eq]
  by_cases hq : q.1 = q.2
  · by_cases ht : q.1 ∈ t
    · simp [hq, hq ▸ ht]
    · have : l.count q.1 = 0 := List.count_eq_zero_of_not_mem (fun hm => ht (h _ hm))
      simp [hq ▸ ht, hq, hq ▸ this]
  · simp [hq]

/-- a property that does not change between neighbours is the same for all elements -/
theorem adj_const (P : F → Prop) : ∀ (l : List F), (∀ q ∈ adj l, P q.1 ↔ P q.2) →
    ∀ a ∈ l, ∀ b ∈ l, P a ↔ P b := by
  intro l
  induction l with
  | nil => intro _ a ha; simp at ha
  | cons x l ih =>
    intro h
    cases l with
    | nil =>
      intro a ha b hb
      simp only [List.mem_singleton] at ha hb
      rw [ha, hb]
    | cons y l =>
      have h1 := ih (fun q hq => h q (by rw [adj_cons_cons]; exact List.mem_cons_of_mem _ hq))
      have hxy : P x ↔ P y := h (x, y) (by simp)
      intro a ha b hb
      have key : ∀ a ∈ x :: y :: l, P a ↔ P y := by
        intro a ha
        rcases List.mem_cons.1 ha with rfl | ha
        · exact hxy
        · exact h1 a ha y (by simp)
      rw [key a ha, key b hb]

/-- a vector whose neighbours are those of the table and the pairs `(x, x)` of the looked-up values:
the looked-up values are in the table -/
theorem lookups_of_adj (s t l : List F) (hl : l.length + 1 = t.length)
    (h : (adj s).Perm (adj t ++ l.map (fun x => (x, x)))) : ∀ x ∈ l, x ∈ t := by
  intro x hx
  have hlen : 0 < l.length := List.length_pos_of_mem hx
  match t, hl, h with
  | [], hl, _ => simp at hl
  | [a], hl, _ => simp at hl; simp [hl] at hlen
  | a :: b :: t, hl, h =>
    have hP := adj_const (fun y => y ∈ a :: b :: t) s (by
      intro q hq
      rcases List.mem_append.1 (h.mem_iff.1 hq) with h1 | h1
      · have := mem_of_adj h1
        exact ⟨fun _ => this.2, fun _ => this.1⟩
      · obtain ⟨y, -, rfl⟩ := List.mem_map.1 h1
        exact Iff.rfl)
    have h1 : x ∈ s := (mem_of_adj (h.mem_iff.2 (List.mem_append_right _
      (List.mem_map.2 ⟨x, hx, rfl⟩)))).1
    have h2 : a ∈ s := (mem_of_adj (q := (a, b)) (h.mem_iff.2 (List.mem_append_left _ (by simp)))).1
    exact (hP x h1 a h2).2 (by simp)

end lists

/-! ### The product -/

section field
variable {F : Type} [Field F] [DecidableEq F]

/-- the factor of a pair of neighbours -/
def pairFactor (β γ : F) (q : F × F) : F := γ * (1 + β) + q.1 + β * q.2

theorem pairFactor_diag (β γ x : F) : pairFactor β γ (x, x) = (1 + β) * (γ + x) := by
  unfold pairFactor; ring

theorem prod_of_adj (s t l : List F) (h : (adj s).Perm (adj t ++ l.map (fun x => (x, x)))) (β γ : F) :
    ((adj s).map (pairFactor β γ)).prod =
      ((adj t).map (pairFactor β γ)).prod * (l.map (fun x => (1 + β) * (γ + x))).prod := by
  rw [(h.map _).prod_eq, List.map_append, List.prod_append, List.map_map]
  congr 2
  refine List.map_congr_left ?_
  intro x _
  exact pairFactor_diag β γ x

variable [Fintype F]

theorem count_map_of_inj {α β : Type} [BEq α] [LawfulBEq α] [DecidableEq β] (φ : α → β) (q0 : α) :
    ∀ l : List α, (∀ q ∈ l, φ q = φ q0 → q = q0) → (l.map φ).count (φ q0) = l.count q0 := by
  intro l
  induction l with
  | nil => intro _; rfl
  | cons a l ih =>
    intro h
    rw [List.map_cons, List.count_cons, List.count_cons,
      ih (fun q hq => h q (List.mem_cons_of_mem _ hq))]
    congr 1
    by_cases he : φ a = φ q0
    · have := h a (by simp) he
      simp [this]
    · have : ¬ a = q0 := fun e => he (by rw [e])
      simp [he, this]

theorem pairPoly (β : F) (hβ : 1 + β ≠ 0) (P : List (F × F)) :
    ∃ A : F[X], (∀ γ, A.eval γ = (P.map (pairFactor β γ)).prod) ∧ A.natDegree ≤ P.length ∧
      A.roots = ((P.map (fun q => -(q.1 + β * q.2) / (1 + β)) : List F) : Multiset F) := by
  set M : Multiset F := ((P.map (fun q => -(q.1 + β * q.2) / (1 + β)) : List F) : Multiset F) with hM
  refine ⟨C ((1 + β) ^ P.length) * (M.map (fun a => X - C a)).prod, ?_, ?_, ?_⟩
  · intro γ
    rw [eval_mul, eval_C, hM]
    clear hM M
    induction P with
    | nil => simp
    | cons q P ih =>
      rw [List.map_cons, List.map_cons, List.prod_cons, ← ih, ← Multiset.cons_coe, Multiset.map_cons,
        Multiset.prod_cons, eval_mul, List.length_cons, pow_succ]
      unfold pairFactor
      simp only [eval_sub, eval_X, eval_C]
      field_simp
      ring
  · refine (natDegree_C_mul_le _ _).trans ?_
    rw [natDegree_multiset_prod_X_sub_C_eq_card, hM]
    simp
  · rw [roots_C_mul _ (pow_ne_zero _ hβ), roots_multiset_prod_X_sub_C]

/-- different collections of pairs: the products agree for few challenges only -/
theorem pairs_sound (P Q : List (F × F)) (h : ¬ P.Perm Q) :
    (Finset.univ.filter (fun x : F × F => (P.map (pairFactor x.1 x.2)).prod =
      (Q.map (pairFactor x.1 x.2)).prod)).card ≤
      (max P.length Q.length + P.length + Q.length + 1) * Fintype.card F := by
  classical
  rw [card_pairs (fun β γ => (P.map (pairFactor β γ)).prod = (Q.map (pairFactor β γ)).prod)]
  obtain ⟨q0, hq0⟩ : ∃ q0, P.count q0 ≠ Q.count q0 := by
    by_contra hc
    push Not at hc
    exact h (List.perm_iff_count.2 hc)
  set B : Finset F := insert (-1) ((P ++ Q).toFinset.image
    (fun q => (q.1 - q0.1) / (q0.2 - q.2))) with hB
  have hterm : ∀ β : F, (Finset.univ.filter (fun γ =>
      (P.map (pairFactor β γ)).prod = (Q.map (pairFactor β γ)).prod)).card ≤
      max P.length Q.length + if β ∈ B then Fintype.card F else 0 := by
    intro β
    by_cases hβ : β ∈ B
    · rw [if_pos hβ]
      have : (Finset.univ.filter (fun γ =>
        (P.map (pairFactor β γ)).prod = (Q.map (pairFactor β γ)).prod)).card ≤
          Fintype.card F := Finset.card_le_univ _
      omega
    · rw [if_neg hβ, add_zero]
      have hb1 : 1 + β ≠ 0 := by
        intro e
        apply hβ
        rw [hB, Finset.mem_insert]
        left
        linear_combination e
      have hinj : ∀ q ∈ P ++ Q, -(q.1 + β * q.2) / (1 + β) = -(q0.1 + β * q0.2) / (1 + β) → q = q0 := by
        intro q hq e
        have e' : q.1 + β * q.2 = q0.1 + β * q0.2 := by
          field_simp at e
          linear_combination -e
        by_cases h2 : q0.2 = q.2
        · refine Prod.ext ?_ h2.symm
          rw [h2] at e'
          linear_combination e'
        · exfalso
          apply hβ
          rw [hB, Finset.mem_insert]
          right
          rw [Finset.mem_image]
          refine ⟨q, by simpa using hq, ?_⟩
          rw [div_eq_iff (sub_ne_zero.2 h2)]
          linear_combination e'
      obtain ⟨A, hA1, hA2, hA3⟩ := pairPoly β hb1 P
      obtain ⟨A', hA1', hA2', hA3'⟩ := pairPoly β hb1 Q
      have hne : A - A' ≠ 0 := by
        intro e
        rw [sub_eq_zero] at e
        have : A.roots = A'.roots := by rw [e]
        rw [hA3, hA3'] at this
        have hc := congrArg (Multiset.count (-(q0.1 + β * q0.2) / (1 + β))) this
        rw [Multiset.coe_count, Multiset.coe_count,
          count_map_of_inj (fun q : F × F => -(q.1 + β * q.2) / (1 + β)) q0 P
            (fun q hq => hinj q (List.mem_append_left _ hq)),
          count_map_of_inj (fun q : F × F => -(q.1 + β * q.2) / (1 + β)) q0 Q
            (fun q hq => hinj q (List.mem_append_right _ hq))] at hc
        exact hq0 hc
      have hsub : (Finset.univ.filter (fun γ =>
          (P.map (pairFactor β γ)).prod = (Q.map (pairFactor β γ)).prod)) ⊆
          (A - A').roots.toFinset := by
        intro γ hγ
        rw [Finset.mem_filter] at hγ
        rw [Multiset.mem_toFinset, mem_roots hne, IsRoot.def, eval_sub, hA1, hA1', hγ.2, sub_self]
      refine (Finset.card_le_card hsub).trans ((Multiset.toFinset_card_le _).trans ?_)
      refine (card_roots' _).trans ((natDegree_sub_le _ _).trans ?_)
      exact max_le_max hA2 hA2'
  refine (Finset.sum_le_sum (fun β _ => hterm β)).trans ?_
  rw [Finset.sum_add_distrib, Finset.sum_const, Finset.card_univ, smul_eq_mul,
    ← Finset.sum_filter, Finset.sum_const, smul_eq_mul]
  have h1 : (Finset.univ.filter (fun β => β ∈ B)).card ≤ P.length + Q.length + 1 := by
    have : Finset.univ.filter (fun β => β ∈ B) = B := by ext; simp
    rw [this]
    refine (Finset.card_insert_le _ _).trans ?_
    have h2 := (Finset.card_image_le (s := (P ++ Q).toFinset)
      (f := fun q => (q.1 - q0.1) / (q0.2 - q.2)))
    have h3 := List.toFinset_card_le (P ++ Q)
    rw [List.length_append] at h3
    omega
  have := Nat.mul_le_mul_right (Fintype.card F) h1
  nlinarith

end field

end Verif.Plonk
