import Mathlib.Algebra.Polynomial.Eval.Defs
import Mathlib.Algebra.Polynomial.FieldDivision
import Mathlib.Tactic.Module
import Mathlib.Tactic.LinearCombination
import Mathlib.Tactic.Ring

/-!
# Polynomials as coefficient vectors

`DensePolynomial` (arkworks) and `GeneralDensePolynomial` (`pcs/src/poly.rs`) are lists of
coefficients, constant coefficient first.
-/

set_option linter.unusedSectionVars false

namespace Verif.Pcs

variable {F G : Type} [Field F] [DecidableEq F] [AddCommGroup G] [Module F G] [DecidableEq G]

/-- `truncate_leading_zeros` (`poly.rs:163-167`): remove zero coefficients at the high end -/
def norm : List G → List G
  | [] => []
  | c :: p =>
    match norm p with
    | [] => if c = 0 then [] else [c]
    | q => c :: q

/-- Horner evaluation, `poly.rs:170-177` and arkworks `evaluate`:
`rfold(zero, |result, coeff| result * point + coeff)` -/
def horner (p : List G) (x : F) : G := p.foldr (fun c r => x • r + c) 0

/-- the number of zero coefficients at the low end and the rest,
`skip_leading_zeros_and_convert_to_bigints`, `univariate_kzg/mod.rs:1044-1053` -/
def skipLeadingZeros (p : List F) : ℕ × List F :=
  ((p.takeWhile (· = 0)).length, p.dropWhile (· = 0))

/-- `msm_bigint` of arkworks: multi-scalar multiplication, truncating to the shorter input -/
def msm (bases : List G) (scalars : List F) : G :=
  (List.zipWith (fun (b : G) (s : F) => s • b) bases scalars).sum

/-- Long division by `d` (arkworks `divide_with_q_and_r`; external).  Returns the quotient and
the remainder padded to the degree of `d`.  One step per coefficient, from the top. -/
def divMod (d : List F) : List F → List F × List F
  | [] => ([], List.replicate (d.length - 1) 0)
  | c :: p =>
    let qr := divMod d p
    let s := c :: qr.2
    let t := s.getLastD 0 / d.getLastD 0
    (t :: qr.1, (List.zipWith (fun a b => a - t * b) s d).take (d.length - 1))

/-- `polynomial / &divisor` -/
def divPoly (p d : List F) : List F := norm (divMod d p).1

/-- coefficientwise sum, missing coefficients being zero -/
def addPoly : List F → List F → List F
  | [], q => q
  | p, [] => p
  | a :: p, b :: q => (a + b) :: addPoly p q

/-- product of polynomials (arkworks; external) -/
def mulPoly : List F → List F → List F
  | [], _ => []
  | a :: p, q => addPoly (q.map (a * ·)) (0 :: mulPoly p q)

/-! ## Meaning -/

/-- value of the polynomial with the given coefficients, as a sum -/
def evalAt (p : List G) (x : F) : G := ∑ i ∈ Finset.range p.length, x ^ i • p.getD i 0

theorem evalAt_nil (x : F) : evalAt ([] : List G) x = 0 := by simp [evalAt]

theorem evalAt_cons (c : G) (p : List G) (x : F) : evalAt (c :: p) x = c + x • evalAt p x := by
  unfold evalAt
  rw [List.length_cons, Finset.sum_range_succ', Finset.smul_sum, add_comm]
  simp only [List.getD_cons_succ, List.getD_cons_zero, pow_zero, one_smul]
  congr 1
  refine Finset.sum_congr rfl fun i _ => ?_
  rw [smul_smul, pow_succ, mul_comm]

theorem horner_eq (p : List G) (x : F) : horner p x = evalAt p x := by
  induction p with
  | nil => simp [horner, evalAt_nil]
  | cons c p ih =>
    rw [evalAt_cons, ← ih, add_comm]; rfl

theorem evalAt_append (p q : List G) (x : F) :
    evalAt (p ++ q) x = evalAt p x + x ^ p.length • evalAt q x := by
  induction p with
  | nil => simp [evalAt_nil]
  | cons c p ih =>
    rw [List.cons_append, evalAt_cons, evalAt_cons, ih, List.length_cons, pow_succ]
    module

theorem evalAt_replicate_zero (n : ℕ) (x : F) : evalAt (List.replicate n (0 : G)) x = 0 := by
  induction n with
  | zero => simp [evalAt_nil]
  | succ n ih => rw [List.replicate_succ, evalAt_cons, ih]; simp

theorem norm_append (p : List G) : ∃ n, p = norm p ++ List.replicate n 0 := by
  induction p with
  | nil => exact ⟨0, rfl⟩
  | cons c p ih =>
    obtain ⟨n, hn⟩ := ih
    unfold norm
    cases h : norm p with
    | nil =>
      rw [h] at hn
      simp only
      by_cases hc : c = 0
      · rw [if_pos hc]
        refine ⟨n + 1, ?_⟩
        rw [hn, hc]; rfl
      · rw [if_neg hc]
        exact ⟨n, by rw [hn]; rfl⟩
    | cons a q =>
      rw [h] at hn
      exact ⟨n, by rw [hn]; rfl⟩

theorem norm_length_le (p : List G) : (norm p).length ≤ p.length := by
  obtain ⟨n, hn⟩ := norm_append p
  have := congrArg List.length hn
  simp at this
  omega

theorem evalAt_norm (p : List G) (x : F) : evalAt (norm p) x = evalAt p x := by
  obtain ⟨n, hn⟩ := norm_append p
  rw [hn, evalAt_append, evalAt_replicate_zero]
  rw [← hn]; simp

/-- the multi-scalar multiplication of powers of the trapdoor -/
theorem msm_powers (τ : F) (g : G) (k : ℕ) (bases : List G) (p : List F)
    (hb : ∀ i, i < p.length → bases.getD i 0 = τ ^ (k + i) • g) (hl : p.length ≤ bases.length) :
    msm bases p = (τ ^ k * evalAt p τ) • g := by
  induction p generalizing k bases with
  | nil => simp [msm, evalAt_nil]
  | cons c p ih =>
    cases bases with
    | nil => simp at hl
    | cons b bases =>
      have h0 := hb 0 (by simp)
      simp only [List.getD_cons_zero, Nat.add_zero] at h0
      have : msm (b :: bases) (c :: p) = c • b + msm bases p := by simp [msm]
      rw [this, ih (k + 1) bases ?_ (by simpa using hl), evalAt_cons, h0, pow_succ]
      · simp only [smul_eq_mul]; module
      · intro i hi
        have := hb (i + 1) (by simpa using hi)
        simp only [List.getD_cons_succ] at this
        rw [this]; congr 2; omega

theorem takeWhile_zero (p : List F) : p.takeWhile (· = 0) =
    List.replicate (p.takeWhile (· = 0)).length 0 := by
  rw [List.eq_replicate_iff]
  refine ⟨rfl, fun b hb => ?_⟩
  have := List.all_takeWhile (p := fun y : F => decide (y = 0)) (l := p)
  rw [List.all_eq_true] at this
  simpa using this b hb

theorem skip_eval (p : List F) (x : F) :
    evalAt p x = x ^ (skipLeadingZeros p).1 * evalAt (skipLeadingZeros p).2 x := by
  conv_lhs => rw [← List.takeWhile_append_dropWhile (p := (· = (0 : F))) (l := p)]
  rw [evalAt_append]
  have : evalAt (p.takeWhile (· = 0)) x = 0 := by
    rw [takeWhile_zero]; exact evalAt_replicate_zero _ _
  rw [this, zero_add]; rfl

theorem skip_length (p : List F) : (skipLeadingZeros p).1 + (skipLeadingZeros p).2.length = p.length := by
  unfold skipLeadingZeros
  simp only
  rw [← List.length_append, List.takeWhile_append_dropWhile]

theorem evalAt_addPoly (p q : List F) (x : F) :
    evalAt (addPoly p q) x = evalAt p x + evalAt q x := by
  induction p generalizing q with
  | nil => simp [addPoly, evalAt_nil]
  | cons a p ih =>
    cases q with
    | nil => simp [addPoly, evalAt_nil]
    | cons b q =>
      rw [addPoly, evalAt_cons, evalAt_cons, evalAt_cons, ih, smul_add]
      abel

theorem evalAt_map_mul (a : F) (q : List F) (x : F) :
    evalAt (q.map (a * ·)) x = a * evalAt q x := by
  induction q with
  | nil => simp [evalAt_nil]
  | cons b q ih =>
    rw [List.map_cons, evalAt_cons, evalAt_cons, ih]
    simp only [smul_eq_mul]; ring

theorem evalAt_mulPoly (p q : List F) (x : F) :
    evalAt (mulPoly p q) x = evalAt p x * evalAt q x := by
  induction p with
  | nil => simp [mulPoly, evalAt_nil]
  | cons a p ih =>
    rw [mulPoly, evalAt_addPoly, evalAt_map_mul, evalAt_cons, evalAt_cons, ih]
    simp only [smul_eq_mul]; ring

theorem addPoly_length (p q : List F) : (addPoly p q).length = max p.length q.length := by
  induction p generalizing q with
  | nil => simp [addPoly]
  | cons a p ih =>
    cases q with
    | nil => simp [addPoly]
    | cons b q => simp [addPoly, ih]

theorem mulPoly_length (p q : List F) (hp : p ≠ []) (hq : q ≠ []) :
    (mulPoly p q).length = p.length + q.length - 1 := by
  induction p with
  | nil => exact absurd rfl hp
  | cons a p ih =>
    rw [mulPoly, addPoly_length]
    have hq0 := List.length_pos_of_ne_nil hq
    by_cases h : p = []
    · subst h
      simp [mulPoly]; omega
    · have hp0 := List.length_pos_of_ne_nil h
      simp only [List.length_map, List.length_cons, ih h]
      omega

theorem evalAt_sub_smul (s d : List F) (t x : F) (h : s.length = d.length) :
    evalAt (List.zipWith (fun a b => a - t * b) s d) x = evalAt s x - t * evalAt d x := by
  induction s generalizing d with
  | nil =>
    have : d = [] := List.length_eq_zero_iff.1 (by simpa using h.symm)
    subst this
    simp [evalAt_nil]
  | cons a s ih =>
    cases d with
    | nil => simp at h
    | cons b d =>
      rw [List.zipWith_cons_cons, evalAt_cons, evalAt_cons, evalAt_cons, ih d (by simpa using h)]
      simp only [smul_eq_mul]; ring

theorem getLastD_zipWith (s d : List F) (t : F) (h : s.length = d.length) :
    (List.zipWith (fun a b => a - t * b) s d).getLastD 0 = s.getLastD 0 - t * d.getLastD 0 := by
  simp only [List.getLastD_eq_getLast?, List.getLast?_eq_getElem?, List.length_zipWith,
    List.getElem?_zipWith, h, min_self]
  by_cases hd : d.length = 0
  · have h1 : d = [] := List.length_eq_zero_iff.1 hd
    have h2 : s = [] := List.length_eq_zero_iff.1 (by omega)
    subst h1 h2; simp
  · rw [List.getElem?_eq_getElem (show d.length - 1 < s.length by omega),
      List.getElem?_eq_getElem (show d.length - 1 < d.length by omega)]
    simp

theorem evalAt_take_of_last_zero (l : List F) (n : ℕ) (hn : l.length = n + 1)
    (h0 : l.getLastD 0 = 0) (x : F) : evalAt (l.take n) x = evalAt l x := by
  have hne : l ≠ [] := by intro h; subst h; simp at hn
  have e : l = l.take n ++ [0] := by
    conv_lhs => rw [← List.dropLast_append_getLast hne]
    have h1 : l.getLast hne = 0 := by
      rw [← h0, List.getLastD_eq_getLast?, List.getLast?_eq_some_getLast hne]; rfl
    rw [h1, List.dropLast_eq_take, hn]; rfl
  conv_rhs => rw [e, evalAt_append]
  simp [evalAt_cons, evalAt_nil]

theorem divMod_spec (d : List F) (hd : d ≠ []) (hl : d.getLastD 0 ≠ 0) (p : List F) :
    (divMod d p).1.length = p.length ∧ (divMod d p).2.length = d.length - 1 ∧
    ∀ x : F, evalAt p x = evalAt (divMod d p).1 x * evalAt d x + evalAt (divMod d p).2 x := by
  have hd0 := List.length_pos_of_ne_nil hd
  induction p with
  | nil =>
    refine ⟨rfl, by simp [divMod], fun x => ?_⟩
    simp [divMod, evalAt_nil, evalAt_replicate_zero]
  | cons c p ih =>
    obtain ⟨h1, h2, h3⟩ := ih
    have hs : (c :: (divMod d p).2).length = d.length := by simp [h2]; omega
    refine ⟨by simp [divMod, h1], ?_, fun x => ?_⟩
    · simp only [divMod, List.length_take, List.length_zipWith, hs]; omega
    · simp only [divMod]
      rw [evalAt_take_of_last_zero _ (d.length - 1) (by simp only [List.length_zipWith, hs]; omega),
        evalAt_sub_smul _ _ _ _ hs, evalAt_cons, evalAt_cons, evalAt_cons, h3 x]
      · simp only [smul_eq_mul]; ring
      · rw [getLastD_zipWith _ _ _ hs, div_mul_cancel₀ _ hl, sub_self]

theorem divMod_small (d : List F) (p : List F) (hp : p.length ≤ d.length - 1) :
    divMod d p = (List.replicate p.length 0, p ++ List.replicate (d.length - 1 - p.length) 0) := by
  induction p with
  | nil => simp [divMod]
  | cons c p ih =>
    simp only [List.length_cons] at hp
    rw [divMod, ih (by omega)]
    have hl : (c :: (p ++ List.replicate (d.length - 1 - p.length) (0 : F))).getLastD 0 = 0 := by
      have : d.length - 1 - p.length = (d.length - 1 - (p.length + 1)) + 1 := by omega
      rw [this, List.replicate_succ', List.getLastD_eq_getLast?, ← List.append_assoc,
        ← List.cons_append, List.getLast?_append]
      simp
    simp only [hl, zero_div, zero_mul, sub_zero]
    refine Prod.ext rfl ?_
    simp only
    have hz : ∀ (s d : List F), s.length ≤ d.length →
        List.zipWith (fun a _ => a) s d = s := by
      intro s
      induction s with
      | nil => intro d _; simp
      | cons a s ih2 =>
        intro d hd
        cases d with
        | nil => simp at hd
        | cons b d => simp only [List.zipWith_cons_cons]; rw [ih2 d (by simpa using hd)]
    rw [hz _ _ (by simp; omega)]
    rw [List.take_cons (by omega), List.length_cons, List.cons_append]
    congr 1
    rw [List.take_append, List.take_of_length_le (by omega)]
    congr 1
    rw [List.take_replicate]
    congr 1
    omega

theorem norm_replicate (n : ℕ) : norm (List.replicate n (0 : F)) = [] := by
  induction n with
  | zero => rfl
  | succ n ih => rw [List.replicate_succ, norm, ih]; simp

theorem norm_cons_length (c : F) (p : List F) : (norm (c :: p)).length ≤ (norm p).length + 1 := by
  rw [norm]
  cases h : norm p with
  | nil => simp only; split <;> simp
  | cons a q => simp

/-- the quotient has the expected number of coefficients -/
theorem divPoly_length (p d : List F) : (divPoly p d).length ≤ p.length - (d.length - 1) := by
  unfold divPoly
  induction p with
  | nil => simp [divMod, norm]
  | cons c p ih =>
    by_cases h : (c :: p).length ≤ d.length - 1
    · rw [divMod_small d _ h, norm_replicate]; simp
    · simp only [List.length_cons] at h ⊢
      rw [divMod]
      refine le_trans (norm_cons_length _ _) ?_
      omega

theorem divPoly_eval (p d : List F) (hd : d ≠ []) (hl : d.getLastD 0 ≠ 0) :
    ∃ r : List F, r.length = d.length - 1 ∧
      ∀ x : F, evalAt p x = evalAt (divPoly p d) x * evalAt d x + evalAt r x := by
  obtain ⟨_, h2, h3⟩ := divMod_spec d hd hl p
  exact ⟨_, h2, fun x => by unfold divPoly; rw [evalAt_norm]; exact h3 x⟩

/-- two coefficient lists of the same length with the same values at enough points are equal;
only the polynomial reading is needed: -/
noncomputable def toPoly (p : List F) : Polynomial F :=
  ∑ i ∈ Finset.range p.length, Polynomial.monomial i (p.getD i 0)

theorem toPoly_eval (p : List F) (x : F) : (toPoly p).eval x = evalAt p x := by
  unfold toPoly evalAt
  rw [Polynomial.eval_finsetSum]
  refine Finset.sum_congr rfl fun i _ => ?_
  rw [Polynomial.eval_monomial, smul_eq_mul, mul_comm]

theorem toPoly_cons (c : F) (p : List F) :
    toPoly (c :: p) = Polynomial.C c + Polynomial.X * toPoly p := by
  unfold toPoly
  rw [List.length_cons, Finset.sum_range_succ', Finset.mul_sum, add_comm]
  congr 1
  refine Finset.sum_congr rfl fun i _ => ?_
  rw [List.getD_cons_succ, Polynomial.X_mul_monomial]

theorem toPoly_degree_lt (p : List F) : (toPoly p).degree < p.length := by
  rw [Polynomial.degree_lt_iff_coeff_zero]
  intro m hm
  unfold toPoly
  rw [Polynomial.finsetSum_coeff]
  refine Finset.sum_eq_zero fun i hi => ?_
  rw [Polynomial.coeff_monomial, if_neg]
  have := Finset.mem_range.1 hi
  omega

end Verif.Pcs
