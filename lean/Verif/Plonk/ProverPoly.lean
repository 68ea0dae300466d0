import Verif.Plonk.Prover
import Verif.Plonk.VerifierLemmas

/-!
# The prover's arithmetic with coefficient lists, as polynomials
-/

set_option linter.unusedSectionVars false

namespace Verif.Plonk

open Verif.Circuit Verif.Pcs Polynomial

variable {F G G2 : Type} [Field F] [DecidableEq F] [AddCommGroup G] [Module F G]

theorem toPoly_nil : toPoly ([] : List F) = 0 := by simp [toPoly]

theorem toPoly_append (p q : List F) : toPoly (p ++ q) = toPoly p + X ^ p.length * toPoly q := by
  induction p with
  | nil => simp [toPoly_nil]
  | cons a p ih =>
    rw [List.cons_append, toPoly_cons, ih, toPoly_cons, List.length_cons]
    ring

theorem toPoly_replicate_zero (n : ℕ) : toPoly (List.replicate n (0 : F)) = 0 := by
  induction n with
  | zero => exact toPoly_nil
  | succ n ih => rw [List.replicate_succ, toPoly_cons, ih]; simp

theorem toPoly_norm (p : List F) : toPoly (norm p) = toPoly p := by
  obtain ⟨n, hn⟩ := norm_append p
  conv_rhs => rw [hn, toPoly_append, toPoly_replicate_zero, mul_zero, add_zero]

theorem toPoly_addPoly (p q : List F) : toPoly (addPoly p q) = toPoly p + toPoly q := by
  induction p generalizing q with
  | nil => simp [addPoly, toPoly_nil]
  | cons a p ih =>
    cases q with
    | nil => simp [addPoly, toPoly_nil]
    | cons b q =>
      rw [addPoly, toPoly_cons, toPoly_cons, toPoly_cons, ih, C_add]
      ring

theorem toPoly_map_mul (c : F) (p : List F) : toPoly (p.map (c * ·)) = C c * toPoly p := by
  induction p with
  | nil => simp [toPoly_nil]
  | cons a p ih =>
    rw [List.map_cons, toPoly_cons, toPoly_cons, ih, C_mul]
    ring

theorem toPoly_map_neg (p : List F) : toPoly (p.map (-·)) = -toPoly p := by
  induction p with
  | nil => simp [toPoly_nil]
  | cons a p ih =>
    rw [List.map_cons, toPoly_cons, toPoly_cons, ih, C_neg]
    ring

theorem toPoly_dAdd (p q : List F) : toPoly (dAdd p q) = toPoly p + toPoly q := by
  unfold dAdd
  rw [toPoly_norm, toPoly_addPoly]

theorem toPoly_mulScalar (c : F) (p : List F) : toPoly (mulScalar c p) = C c * toPoly p := by
  unfold mulScalar
  rw [toPoly_norm, toPoly_map_mul]

theorem toPoly_mulVanishing (n : ℕ) (p : List F) : toPoly (mulVanishing n p) = (X ^ n - 1) * toPoly p := by
  unfold mulVanishing
  rw [toPoly_norm, toPoly_addPoly, toPoly_append, toPoly_replicate_zero, toPoly_map_neg, List.length_replicate]
  ring

theorem toPoly_maskPoly (n : ℕ) (m p : List F) :
    toPoly (maskPoly n m p) = (X ^ n - 1) * toPoly m + toPoly p := by
  unfold maskPoly
  rw [toPoly_dAdd, toPoly_mulVanishing, toPoly_norm, toPoly_norm]

theorem dAdd_length (p q : List F) : (dAdd p q).length ≤ max p.length q.length := by
  unfold dAdd
  exact (norm_length_le _).trans (addPoly_length p q).le

theorem dAdd_length_le {p q : List F} {n : ℕ} (hp : p.length ≤ n) (hq : q.length ≤ n) :
    (dAdd p q).length ≤ n := (dAdd_length p q).trans (max_le hp hq)

theorem mulScalar_length (c : F) (p : List F) : (mulScalar c p).length ≤ p.length := by
  unfold mulScalar
  exact (norm_length_le _).trans (by simp)

theorem maskPoly_length (n : ℕ) (m p : List F) : (maskPoly n m p).length ≤ max (n + m.length) p.length := by
  unfold maskPoly
  refine (dAdd_length _ _).trans (max_le_max ?_ (norm_length_le p))
  unfold mulVanishing
  refine (norm_length_le _).trans ?_
  rw [addPoly_length]
  have := norm_length_le m
  simp
  omega

/-- masking does not change the values on the domain -/
theorem maskPoly_eval (n : ℕ) (m p : List F) {x : F} (hx : x ^ n = 1) :
    (toPoly (maskPoly n m p)).eval x = evalAt p x := by
  rw [toPoly_maskPoly, eval_add, eval_mul, eval_sub, eval_pow, eval_X, eval_one, hx, sub_self, zero_mul,
    zero_add, toPoly_eval]

theorem natDegree_of_length {p : List F} {D : ℕ} (h : p.length ≤ D + 1) : (toPoly p).natDegree ≤ D := by
  have h1 := toPoly_degree_lt p
  by_cases h0 : toPoly p = 0
  · rw [h0]; simp
  · rw [degree_eq_natDegree h0] at h1
    have : (toPoly p).natDegree < p.length := by exact_mod_cast h1
    omega

/-- a stripped list has a leading coefficient -/
theorem toPoly_norm_natDegree (p : List F) :
    (norm p ≠ [] → toPoly (norm p) ≠ 0) ∧ (toPoly (norm p)).natDegree = (norm p).length - 1 := by
  induction p with
  | nil => exact ⟨fun h => absurd rfl h, by simp [norm, toPoly_nil]⟩
  | cons c p ih =>
    rw [norm]
    cases hp : norm p with
    | nil =>
      simp only
      split
      · exact ⟨fun h => absurd rfl h, by simp [toPoly_nil]⟩
      · rename_i hc
        refine ⟨fun _ => ?_, ?_⟩
        · rw [toPoly_cons, toPoly_nil]
          simpa using hc
        · rw [toPoly_cons, toPoly_nil]
          simp
    | cons a q =>
      simp only
      rw [hp] at ih
      have h0 := ih.1 (by simp)
      have hd : (toPoly (c :: a :: q)).natDegree = (toPoly (a :: q)).natDegree + 1 := by
        rw [toPoly_cons, add_comm, natDegree_add_C, mul_comm, natDegree_mul_X h0]
      refine ⟨fun _ h => ?_, by rw [hd, ih.2]; simp⟩
      rw [h] at hd
      simp at hd

theorem toPoly_take_drop (k : ℕ) (p : List F) :
    toPoly p = toPoly (p.take k) + X ^ k * toPoly (p.drop k) := by
  by_cases h : k ≤ p.length
  · conv_lhs => rw [← List.take_append_drop k p, toPoly_append, List.length_take, min_eq_left h]
  · rw [List.take_of_length_le (by omega), List.drop_eq_nil_of_le (by omega), toPoly_nil, mul_zero, add_zero]

/-! ## Division -/

/-- division by a linear polynomial -/
theorem divMod_linear (x : F) (p : List F) : ∃ r : F, (divMod [-x, 1] p).2 = [r] ∧
    toPoly p = toPoly (divMod [-x, 1] p).1 * (X - C x) + C r := by
  induction p with
  | nil => exact ⟨0, rfl, by simp [divMod, toPoly_nil]⟩
  | cons c p ih =>
    obtain ⟨r, h1, h2⟩ := ih
    refine ⟨c + r * x, ?_, ?_⟩
    · simp [divMod, h1]
    · have e : (divMod [-x, 1] (c :: p)).1 = r :: (divMod [-x, 1] p).1 := by
        simp [divMod, h1]
      rw [e, toPoly_cons, toPoly_cons, h2, C_add, C_mul]
      ring

theorem toPoly_divPoly (x : F) (p : List F) :
    ∃ r : F, toPoly p = toPoly (divPoly p [-x, 1]) * (X - C x) + C r := by
  obtain ⟨r, -, h⟩ := divMod_linear x p
  exact ⟨r, by unfold divPoly; rw [toPoly_norm]; exact h⟩

/-- the quotient of the prover is that of the polynomial that vanishes at the point and differs by a
constant -/
theorem divPoly_of_root (x : F) (p : List F) {P : F[X]} (c : F) (hc : toPoly p = P + C c) (h : P.eval x = 0) :
    (X - C x) * toPoly (divPoly p [-x, 1]) = P := by
  obtain ⟨r, hr⟩ := toPoly_divPoly x p
  have e : P - (X - C x) * toPoly (divPoly p [-x, 1]) = C (r - c) := by
    rw [C_sub]
    linear_combination hr - hc
  have h2 := congrArg (eval x) e
  simp only [eval_sub, eval_mul, eval_X, eval_C, sub_self, zero_mul, sub_zero, h] at h2
  rw [← h2, C_0, sub_eq_zero] at e
  exact e.symm

/-! ## Evaluation on the coset -/

theorem fft_getD (d : Domain F) (l : List F) {i : ℕ} (hi : i < d.size) :
    (d.fft l).getD i 0 = (toPoly l).eval (d.offset * d.gen ^ i) := by
  unfold Domain.fft
  rw [List.getD_eq_getElem?_getD, List.getElem?_map, List.getElem?_range hi, toPoly_eval]
  rfl

theorem cosetIfft_eval {d : Domain F} (hd : Good d) {l : List F} (hl : l.length ≤ d.size) {i : ℕ}
    (hi : i < d.size) : (toPoly (cosetIfft d l)).eval (d.offset * d.gen ^ i) = l.getD i 0 := by
  rw [← ifft_eval d hd.prim l hl i hi, toPoly_eval]
  unfold cosetIfft evalAt
  rw [List.length_mapIdx]
  refine Finset.sum_congr rfl fun j hj => ?_
  have hj := Finset.mem_range.1 hj
  rw [List.getD_eq_getElem?_getD, List.getD_eq_getElem?_getD, List.getElem?_mapIdx,
    List.getElem?_eq_getElem hj]
  simp only [Option.map_some, Option.getD_some, smul_eq_mul]
  rw [mul_pow, mul_mul_mul_comm, ← mul_pow, mul_inv_cancel₀ hd.off, one_pow, one_mul]

theorem cosetIfft_length (d : Domain F) (l : List F) : (cosetIfft d l).length = d.size := by
  simp [cosetIfft, Domain.ifft]

/-- the interpolation on the coset finds the polynomial -/
theorem cosetIfft_unique {d : Domain F} (hd : Good d) {l : List F} (hl : l.length ≤ d.size) {T : F[X]}
    (hT : T.degree < d.size) (h : ∀ i < d.size, l.getD i 0 = T.eval (d.offset * d.gen ^ i)) :
    toPoly (cosetIfft d l) = T := by
  refine eq_of_degrees_lt_of_eval_index_eq (Finset.range d.size) (v := point d) hd.inj ?_ ?_ ?_
  · have := toPoly_degree_lt (cosetIfft d l)
    rw [cosetIfft_length] at this
    simpa using this
  · simpa using hT
  · intro i hi
    have hi := Finset.mem_range.1 hi
    unfold point
    rw [cosetIfft_eval hd hl hi, h i hi]

end Verif.Plonk
