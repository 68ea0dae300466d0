import Mathlib.Algebra.Polynomial.Roots
import Mathlib.Algebra.Polynomial.BigOperators
import Mathlib.Data.Fintype.BigOperators
import Mathlib.Algebra.BigOperators.Field
import Mathlib.Tactic.LinearCombination

/-!
# The permutation product over an arbitrary finite field
-/

set_option linter.unusedSectionVars false

namespace Verif.Plonk

open Polynomial

variable {F : Type} [Field F] {ι : Type} [DecidableEq ι]

/-- values that do not change along a permutation: the two products agree -/
theorem product_complete (S : Finset ι) (σ : ι → ι) (hσ : Set.BijOn σ S S) (idv v : ι → F)
    (hv : ∀ s ∈ S, v (σ s) = v s) (β γ : F) :
    ∏ s ∈ S, (v s + γ + β * idv s) = ∏ s ∈ S, (v s + γ + β * idv (σ s)) := by
  symm
  refine Finset.prod_bij (fun s _ => σ s) (fun s hs => hσ.mapsTo hs)
    (fun a ha b hb h => hσ.injOn ha hb h) ?_ ?_
  · intro b hb
    obtain ⟨a, ha, h⟩ := hσ.surjOn hb
    exact ⟨a, ha, h⟩
  · intro s hs
    rw [hv s hs]

variable [Fintype F] [DecidableEq F]

theorem card_pairs (P : F → F → Prop) [∀ a b, Decidable (P a b)] :
    (Finset.univ.filter (fun x : F × F => P x.1 x.2)).card =
      ∑ a : F, (Finset.univ.filter (fun b => P a b)).card := by
  rw [Finset.card_filter, ← Finset.univ_product_univ, Finset.sum_product]
  refine Finset.sum_congr rfl ?_
  intro a _
  rw [Finset.card_filter]

/-- values that change along the permutation: the two products agree for few challenges only -/
theorem product_sound (S : Finset ι) (σ : ι → ι) (hσ : ∀ s ∈ S, σ s ∈ S) (idv v : ι → F)
    (hid : ∀ s ∈ S, ∀ t ∈ S, idv s = idv t → s = t) {s0 : ι} (h0 : s0 ∈ S) (hv : v (σ s0) ≠ v s0) :
    (Finset.univ.filter (fun x : F × F => ∏ s ∈ S, (v s + x.2 + x.1 * idv s) =
      ∏ s ∈ S, (v s + x.2 + x.1 * idv (σ s)))).card ≤ 2 * S.card * Fintype.card F := by
  classical
  rw [card_pairs (fun β γ => ∏ s ∈ S, (v s + γ + β * idv s) = ∏ s ∈ S, (v s + γ + β * idv (σ s)))]
  set B : Finset F := S.image (fun t => (v s0 - v t) / (idv t - idv (σ s0))) with hB
  have hterm : ∀ β : F, (Finset.univ.filter (fun γ =>
      ∏ s ∈ S, (v s + γ + β * idv s) = ∏ s ∈ S, (v s + γ + β * idv (σ s)))).card ≤
      S.card + if β ∈ B then Fintype.card F else 0 := by
    intro β
    by_cases hβ : β ∈ B
    · rw [if_pos hβ]
      have : (Finset.univ.filter (fun γ =>
        ∏ s ∈ S, (v s + γ + β * idv s) = ∏ s ∈ S, (v s + γ + β * idv (σ s)))).card ≤
          Fintype.card F := Finset.card_le_univ _
      omega
    · rw [if_neg hβ, add_zero]
      set PL : F[X] := ∏ s ∈ S, (X + C (v s + β * idv s)) with hPL
      set PR : F[X] := ∏ s ∈ S, (X + C (v s + β * idv (σ s))) with hPR
      have eL : ∀ γ, PL.eval γ = ∏ s ∈ S, (v s + γ + β * idv s) := by
        intro γ
        rw [hPL, eval_prod]
        refine Finset.prod_congr rfl ?_
        intro s _
        simp
        ring
      have eR : ∀ γ, PR.eval γ = ∏ s ∈ S, (v s + γ + β * idv (σ s)) := by
        intro γ
        rw [hPR, eval_prod]
        refine Finset.prod_congr rfl ?_
        intro s _
        simp
        ring
      have hne : PL - PR ≠ 0 := by
        intro h
        have h1 : (PL - PR).eval (-(v s0 + β * idv (σ s0))) = 0 := by rw [h, eval_zero]
        rw [eval_sub, eL, eR, Finset.prod_eq_zero h0 (f := fun s =>
          v s + -(v s0 + β * idv (σ s0)) + β * idv (σ s)) (by ring), sub_zero,
          Finset.prod_eq_zero_iff] at h1
        obtain ⟨t, ht, h1⟩ := h1
        by_cases he : t = σ s0
        · subst he
          apply hv
          linear_combination h1
        · have hd : idv t - idv (σ s0) ≠ 0 := fun h2 =>
            he (hid t ht _ (hσ s0 h0) (sub_eq_zero.1 h2))
          apply hβ
          rw [hB, Finset.mem_image]
          refine ⟨t, ht, ?_⟩
          rw [div_eq_iff hd]
          linear_combination -h1
      have hdeg : (PL - PR).natDegree ≤ S.card := by
        refine (natDegree_sub_le _ _).trans (max_le ?_ ?_)
        · refine (natDegree_prod_le _ _).trans ?_
          refine (Finset.sum_le_card_nsmul S _ 1 ?_).trans (by simp)
          intro s _
          exact (natDegree_X_add_C _).le
        · refine (natDegree_prod_le _ _).trans ?_
          refine (Finset.sum_le_card_nsmul S _ 1 ?_).trans (by simp)
          intro s _
          exact (natDegree_X_add_C _).le
      have hsub : (Finset.univ.filter (fun γ =>
          ∏ s ∈ S, (v s + γ + β * idv s) = ∏ s ∈ S, (v s + γ + β * idv (σ s)))) ⊆
          (PL - PR).roots.toFinset := by
        intro γ hγ
        rw [Finset.mem_filter] at hγ
        rw [Multiset.mem_toFinset, mem_roots hne, IsRoot.def, eval_sub, eL, eR, hγ.2, sub_self]
      refine (Finset.card_le_card hsub).trans ((Multiset.toFinset_card_le _).trans ?_)
      exact (card_roots' _).trans hdeg
  refine (Finset.sum_le_sum (fun β _ => hterm β)).trans ?_
  rw [Finset.sum_add_distrib, Finset.sum_const, Finset.card_univ, smul_eq_mul,
    ← Finset.sum_filter, Finset.sum_const, smul_eq_mul]
  have h1 : (Finset.univ.filter (fun β => β ∈ B)).card ≤ S.card := by
    have : Finset.univ.filter (fun β => β ∈ B) = B := by ext; simp
    rw [this]
    exact Finset.card_image_le
  have := Nat.mul_le_mul_right (Fintype.card F) h1
  nlinarith

end Verif.Plonk
