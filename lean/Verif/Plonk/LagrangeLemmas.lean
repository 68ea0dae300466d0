import Verif.Plonk.Lagrange
import Verif.Plonk.PermLemmas
import Verif.Plonk.FinalizeSat
import Verif.Pcs.MultilinearBatch
import Mathlib.LinearAlgebra.Lagrange
import Mathlib.Data.List.GetD

/-!
# Lagrange basis polynomials of a coset of roots of unity
-/

set_option linter.unusedSectionVars false

namespace Verif.Plonk

open Verif.Circuit Verif.Pcs Polynomial

variable {F : Type} [Field F] [DecidableEq F]

/-- the `i`-th point of a domain -/
def point (d : Domain F) (i : ℕ) : F := d.offset * d.gen ^ i

/-- the `i`-th Lagrange basis polynomial of a domain -/
noncomputable def basis (d : Domain F) (i : ℕ) : F[X] :=
  Lagrange.basis (Finset.range d.size) (point d) i

/-- a domain with its generator of the right order and its offset not zero -/
structure Good (d : Domain F) : Prop where
  prim : IsPrimitiveRoot d.gen d.size
  off : d.offset ≠ 0

variable {d : Domain F}

theorem Good.gen_ne (h : Good d) : d.gen ≠ 0 := h.prim.ne_zero (size_pos d).ne'

theorem Good.size_ne (h : Good d) : (d.size : F) ≠ 0 := by
  have : NeZero d.size := ⟨(size_pos d).ne'⟩
  exact (h.prim.neZero').out

theorem Good.inj (h : Good d) : Set.InjOn (point d) (Finset.range d.size) := by
  intro i hi j hj e
  have e := mul_left_cancel₀ h.off e
  exact h.prim.pow_inj (by simpa using hi) (by simpa using hj) e

theorem Good.mem_iff (h : Good d) (τ : F) : vanishing d τ = 0 ↔ ∃ i < d.size, τ = point d i := by
  unfold vanishing point
  rw [sub_eq_zero]
  constructor
  · intro e
    have : (τ / d.offset) ^ d.size = 1 := by
      rw [div_pow, e, div_self (pow_ne_zero _ h.off)]
    have : NeZero d.size := ⟨(size_pos d).ne'⟩
    obtain ⟨i, hi, hg⟩ := h.prim.eq_pow_of_pow_eq_one ‹_›
    exact ⟨i, hi, by rw [hg, mul_div_cancel₀ _ h.off]⟩
  · rintro ⟨i, -, rfl⟩
    rw [mul_pow, ← pow_mul, mul_comm i, pow_mul, h.prim.pow_eq_one, one_pow, mul_one]

theorem Good.nodal (h : Good d) :
    Lagrange.nodal (Finset.range d.size) (point d) = X ^ d.size - C (d.offset ^ d.size) := by
  have hn := (size_pos d).ne'
  refine Polynomial.eq_of_degree_sub_lt_of_eval_finset_eq ((Finset.range d.size).image (point d)) ?_ ?_
  · rw [Finset.card_image_of_injOn h.inj, Finset.card_range]
    have hd : (Lagrange.nodal (Finset.range d.size) (point d)).degree = d.size := by
      rw [Lagrange.degree_nodal, Finset.card_range]
    rw [← hd]
    refine Polynomial.degree_sub_lt_left ?_ Lagrange.nodal_ne_zero ?_
    · rw [hd, Polynomial.degree_X_pow_sub_C (size_pos d)]
    · rw [Lagrange.nodal_monic.leadingCoeff, (Polynomial.monic_X_pow_sub_C _ hn).leadingCoeff]
  · intro x hx
    obtain ⟨i, hi, rfl⟩ := Finset.mem_image.1 hx
    rw [Lagrange.eval_nodal_at_node hi]
    have := (h.mem_iff (point d i)).2 ⟨i, by simpa using hi, rfl⟩
    simpa [vanishing] using this.symm

theorem Good.basis_off (h : Good d) {i : ℕ} (hi : i < d.size) {τ : F} (hτ : vanishing d τ ≠ 0) :
    (basis d i).eval τ =
      vanishing d τ * ((d.size : F) * d.offset ^ (d.size - 1) * d.gen⁻¹ ^ i * (τ - point d i))⁻¹ := by
  have hne : τ ≠ point d i := fun e => hτ ((h.mem_iff τ).2 ⟨i, hi, e⟩)
  unfold basis
  rw [Lagrange.eval_basis_not_at_node (by simpa using hi) hne,
    Lagrange.nodalWeight_eq_eval_derivative_nodal (by simpa using hi), h.nodal]
  have hp : point d i ^ (d.size - 1) = d.offset ^ (d.size - 1) * d.gen⁻¹ ^ i := by
    have hs := size_pos d
    have e : (d.gen ^ i) ^ (d.size - 1) = d.gen⁻¹ ^ i := by
      rw [inv_pow]
      refine eq_inv_of_mul_eq_one_left ?_
      rw [← pow_succ, Nat.sub_add_cancel hs, ← pow_mul, mul_comm i, pow_mul, h.prim.pow_eq_one, one_pow]
    unfold point
    rw [mul_pow, e]
  simp only [derivative_sub, derivative_X_pow, derivative_C, sub_zero, eval_mul, eval_natCast, eval_pow,
    eval_X, eval_sub, eval_C, hp, vanishing, mul_inv, map_natCast]
  ring

theorem Good.basis_on (h : Good d) {i j : ℕ} (hi : i < d.size) (hj : j < d.size) :
    (basis d i).eval (point d j) = if i = j then 1 else 0 := by
  unfold basis
  split
  · subst i
    exact Lagrange.eval_basis_self h.inj (by simpa using hi)
  · exact Lagrange.eval_basis_of_ne ‹_› (by simpa using hj)

/-- a polynomial of small degree is determined by its values on the domain -/
theorem Good.interpolate (h : Good d) {P : F[X]} (hP : P.degree < d.size) (τ : F) :
    P.eval τ = ∑ i ∈ Finset.range d.size, P.eval (point d i) * (basis d i).eval τ := by
  have := Lagrange.eq_interpolate_of_eval_eq (s := Finset.range d.size) (v := point d) (f := P)
    (fun i => P.eval (point d i)) h.inj (by rwa [Finset.card_range]) (fun i _ => rfl)
  conv_lhs => rw [this]
  rw [Lagrange.interpolate_apply, eval_finsetSum]
  simp [basis]

theorem div_offset (h : Good d) : divP (d.offset ^ d.size) d.offset = .ok (d.offset ^ (d.size - 1)) := by
  have hs := size_pos d
  unfold divP
  rw [if_neg h.off]
  congr 1
  rw [div_eq_iff h.off, ← pow_succ, Nat.sub_add_cancel hs]

theorem Good.last (h : Good d) : point d (d.size - 1) = d.gen⁻¹ * d.offset := by
  have hs := size_pos d
  unfold point
  rw [mul_comm]
  congr 1
  refine eq_inv_of_mul_eq_one_left ?_
  rw [← pow_succ, Nat.sub_add_cancel hs, h.prim.pow_eq_one]

theorem Good.firstTerm (h : Good d) {τ : F} (hτ : vanishing d τ ≠ 0) :
    divP (vanishing d τ) ((d.size : F) * d.offset ^ (d.size - 1) * (τ - d.offset)) =
      .ok ((basis d 0).eval τ) := by
  have hs := size_pos d
  have hne : τ - d.offset ≠ 0 := by
    intro e
    exact hτ ((h.mem_iff τ).2 ⟨0, hs, by simpa [point] using sub_eq_zero.1 e⟩)
  unfold divP
  rw [if_neg (mul_ne_zero (mul_ne_zero h.size_ne (pow_ne_zero _ h.off)) hne), h.basis_off hs hτ]
  simp [point, div_eq_mul_inv]

theorem Good.lastTerm (h : Good d) {τ : F} (hτ : vanishing d τ ≠ 0) :
    divP (vanishing d τ * d.gen⁻¹)
        ((d.size : F) * d.offset ^ (d.size - 1) * (τ - d.offset * d.gen⁻¹)) =
      .ok ((basis d (d.size - 1)).eval τ) := by
  have hs := size_pos d
  have hne : τ - d.offset * d.gen⁻¹ ≠ 0 := by
    intro e
    exact hτ ((h.mem_iff τ).2 ⟨d.size - 1, by omega, by
      rw [h.last, sub_eq_zero.1 e, mul_comm]⟩)
  have hg : d.gen⁻¹ ^ (d.size - 1) = d.gen := by
    rw [inv_pow]
    refine inv_eq_of_mul_eq_one_left ?_
    rw [← pow_succ', Nat.sub_add_cancel hs, h.prim.pow_eq_one]
  unfold divP
  rw [if_neg (mul_ne_zero (mul_ne_zero h.size_ne (pow_ne_zero _ h.off)) hne),
    h.basis_off (by omega) hτ, h.last, hg, mul_comm d.gen⁻¹ d.offset, div_eq_mul_inv]
  simp only [mul_inv]
  generalize (τ - d.offset * d.gen⁻¹)⁻¹ = y
  generalize (d.offset ^ (d.size - 1))⁻¹ = x
  ring

theorem findPoint_eq (h : Good d) {j : ℕ} (hj : j < d.size) : ∀ (k s : ℕ), s + k ≤ d.size →
    findPoint d.gen (point d j) k (point d s) =
      (List.range' s k).map (fun i => if i = j then 1 else 0) := by
  intro k
  induction k with
  | zero => intro s _; rfl
  | succ k ih =>
    intro s hs
    unfold findPoint
    have hstep : point d s * d.gen = point d (s + 1) := by simp [point, pow_succ, mul_assoc]
    rw [List.range'_succ, List.map_cons]
    by_cases e : s = j
    · subst e
      rw [if_pos rfl, if_pos rfl]
      congr 1
      refine List.ext_getElem (by simp) ?_
      intro i h1 h2
      simp
      omega
    · rw [if_neg, if_neg e, hstep, ih (s + 1) (by omega)]
      intro e'
      exact e (h.inj (by simp; omega) (by simpa using hj) e')

theorem coeffInverses_eq (g τ : F) : ∀ (k : ℕ) (l c : F),
    coeffInverses g τ k l c =
      (List.range k).map (fun i => l * g⁻¹ ^ i * (τ + c * g ^ i)) := by
  intro k
  induction k with
  | zero => intro l c; rfl
  | succ k ih =>
    intro l c
    unfold coeffInverses
    rw [ih, List.range_succ_eq_map, List.map_cons, List.map_map]
    simp only [pow_zero, mul_one]
    congr 1
    refine List.map_congr_left ?_
    intro i _
    simp only [Function.comp, Nat.succ_eq_add_one, pow_succ]
    ring

theorem lagrangeRange_eq (h : Good d) {s e : ℕ} (hse : s ≤ e) (he : e ≤ d.size) (τ : F) :
    lagrangeRange d s e τ = .ok ((List.range' s (e - s)).map (fun i => (basis d i).eval τ)) := by
  unfold lagrangeRange
  rw [if_neg (by omega), if_neg (by omega)]
  by_cases hz : vanishing d τ = 0
  · rw [if_pos hz]
    obtain ⟨j, hj, rfl⟩ := (h.mem_iff τ).1 hz
    congr 1
    show findPoint d.gen (point d j) (e - s) (point d s) = _
    rw [findPoint_eq h hj _ _ (by omega)]
    refine List.map_congr_left ?_
    intro i hi
    rw [List.mem_range'_1] at hi
    rw [h.basis_on (by omega) hj]
  · rw [if_neg hz]
    have hv : divP ((d.size : F) * d.offset ^ d.size) d.offset =
        .ok ((d.size : F) * d.offset ^ (d.size - 1)) := by
      have := div_offset h
      unfold divP at this ⊢
      rw [if_neg h.off] at this ⊢
      injection this with this
      rw [mul_div_assoc, this]
    rw [hv]
    simp only
    congr 1
    rw [coeffInverses_eq, List.range'_eq_map_range, List.map_map, List.map_map]
    refine List.map_congr_left ?_
    intro i hi
    rw [List.mem_range] at hi
    simp only [Function.comp]
    rw [h.basis_off (by omega) hz]
    have e1 : -d.offset * d.gen ^ s * d.gen ^ i = -point d (s + i) := by
      simp [point, pow_add, mul_assoc]
    rw [e1, ← sub_eq_add_neg, pow_add d.gen⁻¹]
    simp only [mul_inv, inv_inv]
    ring

theorem foldl_zip_sum (l : List ℕ) (f : ℕ → F) : ∀ (x : List F) (r : F),
    (x.zip (l.map f)).foldl (fun r y => r + y.2 * y.1) r =
      r + ((x.zip l).map (fun y => y.1 * f y.2)).sum := by
  induction l with
  | nil => intro x r; simp
  | cons a l ih =>
    intro x r
    rcases x with _ | ⟨b, x⟩
    · simp
    · simp only [List.map_cons, List.zip_cons_cons, List.foldl_cons, List.sum_cons]
      rw [ih]
      ring

theorem zip_range_sum (x : List F) (g : ℕ → ℕ) (f : ℕ → F) :
    ((x.zip ((List.range x.length).map g)).map (fun y => y.1 * f y.2)).sum =
      ∑ i ∈ Finset.range x.length, x.getD i 0 * f (g i) := by
  induction x generalizing g with
  | nil => simp
  | cons a x ih =>
    rw [List.length_cons, List.range_succ_eq_map, Finset.sum_range_succ', List.map_cons,
      List.zip_cons_cons, List.map_cons, List.sum_cons, List.map_map]
    have := ih (g ∘ Nat.succ)
    rw [show (List.map (g ∘ Nat.succ) (List.range x.length)) =
      List.map (g ∘ Nat.succ) (List.range x.length) from rfl, this]
    simp [add_comm]

/-- the sum of the inputs times the Lagrange coefficients -/
theorem evaluatePi_plain (h : Good d) (pi : List F) (hl : pi.length ≤ d.size) (z : F) :
    evaluatePi d pi z false =
      .ok (∑ i ∈ Finset.range pi.length, pi.getD i 0 * (basis d i).eval z) := by
  unfold evaluatePi
  simp only [Bool.false_eq_true, if_false]
  rw [lagrangeRange_eq h (Nat.zero_le _) hl]
  simp only [List.take_length, Nat.sub_zero]
  rw [foldl_zip_sum, zero_add, ← zip_range_sum pi (fun i => i)]
  rw [List.map_id', List.range_eq_range']

theorem evaluatePi_merged (h : Good d) (pi1 pi2 : List F) (he : pi1.length = pi2.length)
    (hl : pi1.length ≤ d.size) (z : F) :
    evaluatePi d (pi1 ++ pi2) z true =
      .ok (∑ i ∈ Finset.range pi1.length, pi1.getD i 0 * (basis d i).eval z +
        ∑ i ∈ Finset.range pi1.length, pi2.getD i 0 * (basis d (d.size - 1 - i)).eval z) := by
  have hlen : (pi1 ++ pi2).length / 2 = pi1.length := by
    rw [List.length_append]; omega
  unfold evaluatePi
  simp only [if_true, hlen]
  rw [lagrangeRange_eq h (Nat.zero_le _) hl]
  simp only
  rw [if_neg (by omega), lagrangeRange_eq h (by omega) le_rfl]
  simp only
  rw [List.take_left, List.drop_left, ← List.map_reverse, foldl_zip_sum, foldl_zip_sum, zero_add,
    ← zip_range_sum pi1 (fun i => i) (fun i => (basis d i).eval z), he,
    ← zip_range_sum pi2 (fun i => d.size - 1 - i) (fun i => (basis d i).eval z)]
  congr 4
  · rw [Nat.sub_zero, ← he, List.map_id', List.range_eq_range']
  · congr 1
    refine List.ext_getElem (by simp; omega) ?_
    intro i h1 h2
    simp at h1 h2 ⊢
    omega

/-! ### The polynomial of the public inputs -/

theorem except_bind_ok {ε α β : Type} {x : Except ε α} {g : α → Except ε β} {y : β}
    (h : (x >>= g) = .ok y) : ∃ a, x = .ok a ∧ g a = .ok y := by
  cases x with
  | error e => cases h
  | ok a => exact ⟨a, rfl, h⟩

theorem evalAt_ifft (h : Good d) (ho : d.offset = 1) (l : List F) (hl : l.length ≤ d.size) (z : F) :
    evalAt (d.ifft l) z = ∑ i ∈ Finset.range d.size, l.getD i 0 * (basis d i).eval z := by
  have hdeg : (toPoly (d.ifft l)).degree < d.size := by
    have := toPoly_degree_lt (d.ifft l)
    rwa [show (d.ifft l).length = d.size by simp [Domain.ifft]] at this
  rw [← toPoly_eval, h.interpolate hdeg]
  refine Finset.sum_congr rfl fun i hi => ?_
  rw [toPoly_eval]
  unfold point
  rw [ho, one_mul, ifft_eval d h.prim l hl i (by simpa using hi)]

variable {p : ℕ} [Fact p.Prime]

theorem mapM_length' {ε α β : Type} {g : α → Except ε β} : ∀ {l : List α} {x : List β},
    l.mapM g = .ok x → x.length = l.length := by
  intro l
  induction l with
  | nil =>
    intro x h
    injection h with h
    subst h
    rfl
  | cons a l ih =>
    intro x h
    rw [List.mapM_cons] at h
    obtain ⟨y, -, h⟩ := except_bind_ok h
    obtain ⟨ys, hys, h⟩ := except_bind_ok h
    injection h with h
    subst h
    simp [ih hys]

theorem writeInputs_ok (c : Circ p) (hw : c.witness.length = c.numVars) :
    ∀ (ids : List ℕ) (x v : List (ZMod p)), ids.mapM (ioValue c) = .ok x → (∀ g ∈ ids, g < v.length) →
      ids.Nodup →
      ∃ v', writeInputs c ids v = .ok v' ∧ v'.length = v.length ∧ x.length = ids.length ∧
        (∀ j, j ∉ ids → v'[j]? = v[j]?) ∧ ∀ i g : ℕ, ids[i]? = some g → v'[g]? = x[i]? := by
  intro ids
  induction ids with
  | nil =>
    intro x v hx _ _
    injection hx with hx
    subst hx
    exact ⟨v, rfl, rfl, rfl, fun _ _ => rfl, by simp⟩
  | cons g ids ih =>
    intro x v hx hb hn
    rw [List.mapM_cons] at hx
    obtain ⟨y, hy, hx⟩ := except_bind_ok hx
    obtain ⟨ys, hys, hx⟩ := except_bind_ok hx
    injection hx with hx
    subst hx
    have hg := hb g (by simp)
    obtain ⟨v', e, l1, l2, h1, h2⟩ := ih ys (v.set g y) hys (by
      intro g' hg'
      rw [List.length_set]
      exact hb g' (by simp [hg'])) (List.nodup_cons.1 hn).2
    rw [List.length_set] at l1
    refine ⟨v', ?_, l1, by simp [l2], ?_, ?_⟩
    · unfold ioValue at hy
      unfold writeInputs
      split at hy
      · cases hy
      · split at hy
        · cases hy
        · rename_i r hr hlt
          injection hy with hy
          have hx : c.witness[r.w4]? = some y := by
            rw [← hy]
            unfold Circ.val
            rw [List.getD_eq_getElem _ _ (by omega)]
            exact List.getElem?_eq_getElem _
          rw [hr]
          simp only
          rw [hx]
          simp only
          rw [if_neg (by omega), e]
    · intro j hj
      rw [List.mem_cons, not_or] at hj
      rw [h1 j hj.2, List.getElem?_set_ne (Ne.symm hj.1)]
    · intro i g' hi
      rcases i with _ | i
      · simp only [List.getElem?_cons_zero, Option.some.injEq] at hi
        subst hi
        rw [h1 g (List.nodup_cons.1 hn).1, List.getElem?_set_self hg]
        rfl
      · exact h2 i g' hi

/-- the gate numbers of the public inputs after finalizing -/
theorem finalize_pubIds {S : ℕ} {root : ZMod p} {rnd : List (ZMod p)} {c : Circ p} {f : FCirc p}
    (hc : FinOK c) (hf : finalize S root rnd c = .ok f) :
    f.circ.pubIds = List.range c.pubIds.length ∧ f.circ.domSize = f.dom.size ∧
      f.circ.witness = c.witness ∧ f.circ.numVars = c.numVars ∧ c.pubIds.length ≤ f.dom.size := by
  obtain ⟨hd, -, hr, -⟩ := finalize_ok hf
  have hn := newDomain_size hd
  have hl := rows_le_numSlots c
  have hpb : ∀ g ∈ c.pubIds, g < c.rows.length := by
    intro g hg
    obtain ⟨x, h1, _⟩ := hc.wf.pub g hg
    exact (List.getElem?_eq_some_iff.1 h1).1
  have hcount : c.pubIds.length ≤ f.dom.size := by
    have h1 : c.pubIds.Nodup := hc.pubSorted.imp (fun h => Nat.ne_of_lt h)
    have h2 : c.pubIds.toFinset ⊆ Finset.range c.rows.length := by
      intro g hg
      rw [List.mem_toFinset] at hg
      exact Finset.mem_range.2 (hpb g hg)
    have := Finset.card_le_card h2
    rw [List.toFinset_card_of_nodup h1, Finset.card_range] at this
    omega
  obtain ⟨r1, e1, -⟩ := moveIo_ok (padCirc c f.dom.size).pubIds 0 (padCirc c f.dom.size).rows
    hc.pubSorted (by
      intro g hg
      have := hpb g hg
      refine ⟨Nat.zero_le _, ?_⟩
      show g < (c.rows ++ _).length
      rw [List.length_append]
      omega)
  unfold rearrangeGates at hr
  rw [e1] at hr
  simp only at hr
  split at hr
  · injection hr with hr
    rw [← hr]
    exact ⟨by simp [padCirc, List.range_eq_range'], rfl, rfl, rfl, hcount⟩
  · split at hr
    · cases hr
    · injection hr with hr
      rw [← hr]
      exact ⟨by simp [padCirc, List.range_eq_range'], rfl, rfl, rfl, hcount⟩

/-- the domain of the verifier is the domain of the circuit -/
theorem newDomain_again {F : Type} [Field F] {S : ℕ} {root : F} {m : ℕ} {d : Domain F}
    (h : newDomain S root m = some d) : newDomain S root d.size = some d := by
  unfold newDomain at h ⊢
  split at h
  · cases h
  · rename_i hS
    injection h with h
    subst h
    show (if S < Nat.clog 2 (2 ^ Nat.clog 2 m) then none else _) = _
    have e : Nat.clog 2 (2 ^ Nat.clog 2 m) = Nat.clog 2 m := Nat.clog_pow 2 _ (by omega)
    rw [show (Domain.size (⟨Nat.clog 2 m, root ^ 2 ^ (S - Nat.clog 2 m), 1⟩ : Domain F)) =
      2 ^ Nat.clog 2 m from rfl, e, if_neg hS]

theorem good_of_newDomain {S : ℕ} {root : ZMod p} (hroot : IsPrimitiveRoot root (2 ^ S)) {m : ℕ}
    {d : Domain (ZMod p)} (h : newDomain S root m = some d) : Good d ∧ d.offset = 1 := by
  have h1 := (gen_of_newDomain hroot h).1
  have h2 : d.offset = 1 := by
    unfold newDomain at h
    split at h
    · cases h
    · injection h with h
      rw [← h]
  exact ⟨⟨h1, by rw [h2]; exact one_ne_zero⟩, h2⟩

end Verif.Plonk
