import Verif.Plonk.ProverQuot

/-!
# The quotient polynomial of the prover: degree, interpolation, parts
-/

set_option linter.unusedSectionVars false

namespace Verif.Plonk

open Verif.Circuit Verif.Pcs Polynomial
open Verif.Props.Lagrange (C57_first_and_last L)

variable {F G G2 : Type} [Field F] [DecidableEq F] [AddCommGroup G] [Module F G]

/-! ## Degrees -/

/-- the degrees of the polynomials of an honest prover for a domain of `n` points -/
structure Inst.Tight (I : Inst F) (n : ℕ) : Prop where
  w : ∀ i < I.nw, (I.w i).natDegree ≤ n + 1
  σ : ∀ i < I.nw, (I.σ i).natDegree ≤ n - 1
  q : ∀ i < I.nq, (I.q i).natDegree ≤ n - 1
  z : I.z.natDegree ≤ n + 2
  pi : I.pi.natDegree ≤ n - 1
  lk : ∀ l, I.lookup = some l → l.range.natDegree ≤ n - 1 ∧ l.key.natDegree ≤ n - 1 ∧
    l.tableDomSep.natDegree ≤ n - 1 ∧ l.qDomSep.natDegree ≤ n - 1 ∧ l.h1.natDegree ≤ n + 2 ∧
    l.h2.natDegree ≤ n + 2 ∧ l.prod.natDegree ≤ n + 2

section
variable {d : Domain F} {I : Inst F}

theorem Inst.Tight.fits {n : ℕ} (h : I.Tight n) : I.Fits (n + 2) where
  w i hi := (h.w i hi).trans (by omega)
  σ i hi := (h.σ i hi).trans (by omega)
  q i hi := (h.q i hi).trans (by omega)
  z := h.z
  pi := h.pi.trans (by omega)
  lk l hl := by
    obtain ⟨h1, h2, h3, h4, h5, h6, h7⟩ := h.lk l hl
    exact ⟨by omega, by omega, by omega, by omega, h5, h6, h7⟩

theorem Inst.Tight.gate {n : ℕ} (hn : 0 < n) (h : I.Tight n) {K : ℕ} (hK : 6 * n + 4 ≤ K) :
    I.gate.natDegree ≤ K := by
  have w5 : ∀ i < 5, (I.w i).natDegree ≤ n + 1 := fun i hi => h.w i (by have := I.nw_pos; omega)
  have q : ∀ i < 13, (I.q i).natDegree ≤ n - 1 := fun i hi => h.q i (by unfold Inst.nq; split <;> omega)
  unfold Inst.gate
  refine nd_sub (nd_add (nd_add (nd_add (nd_add (nd_add (nd_add ?_ ?_) ?_) ?_) ?_) ?_) ?_) ?_
  · exact nd_sum fun i hi => nd_mul (q i (by simp at hi; omega)) (w5 i (by simp at hi; omega)) (by omega)
  · exact nd_mul (q 4 (by omega)) (nd_mul (w5 0 (by omega)) (w5 1 (by omega)) le_rfl) (by omega)
  · exact nd_mul (q 5 (by omega)) (nd_mul (w5 2 (by omega)) (w5 3 (by omega)) le_rfl) (by omega)
  · exact nd_sum fun i hi => nd_mul (q _ (by simp at hi; omega))
      (natDegree_pow_le_of_le 5 (w5 i (by simp at hi; omega))) (by omega)
  · exact nd_mul (q 12 (by omega)) (nd_mul (nd_mul (nd_mul (nd_mul (w5 0 (by omega)) (w5 1 (by omega)) le_rfl)
      (w5 2 (by omega)) le_rfl) (w5 3 (by omega)) le_rfl) (w5 4 (by omega)) le_rfl) (by omega)
  · exact (q 11 (by omega)).trans (by omega)
  · exact h.pi.trans (by omega)
  · exact nd_mul (q 10 (by omega)) (w5 4 (by omega)) (by omega)

theorem Inst.Tight.perm {n : ℕ} (h : I.Tight n) (β γ : F) :
    (I.perm d β γ).natDegree ≤ n + 2 + I.nw * (n + 1) := by
  unfold Inst.perm
  refine nd_sub (nd_mul h.z (nd_prod (D := n + 1) (fun i hi => ?_) le_rfl) (by omega))
    (nd_mul (nd_shift d h.z) (nd_prod (D := n + 1) (fun i hi => ?_) le_rfl) (by omega))
  · exact nd_add (nd_add (h.w i hi) (nd_Cmul _ (natDegree_X_le.trans (by omega)))) (nd_C _ _)
  · exact nd_add (nd_add (h.w i hi) (nd_Cmul _ ((h.σ i hi).trans (by omega)))) (nd_C _ _)

theorem Inst.Tight.lookup (h : I.Tight d.size) (hd : Good d) {l : LkPolys F}
    (hl : I.lookup = some l) (τ β γ : F) {K : ℕ} (hK : 5 * d.size + 7 ≤ K) :
    ∀ e ∈ I.lookupConstraints d l τ β γ, e.natDegree ≤ K := by
  have hn := size_pos d
  obtain ⟨h1, h2, h3, h4, h5, h6, h7⟩ := h.lk l hl
  have w5 : ∀ i < 6, (I.w i).natDegree ≤ d.size + 1 := fun i hi => h.w i (by simp [Inst.nw, hl]; omega)
  have q13 : (I.q 13).natDegree ≤ d.size - 1 := h.q 13 (by simp [Inst.nq, hl])
  have hone : ∀ D, (1 : F[X]).natDegree ≤ D := by simp
  have htab : (I.table l τ).natDegree ≤ 2 * d.size := by
    unfold Inst.table
    refine nd_add (h1.trans (by omega)) (nd_mul (E := d.size + 1) q13
      (nd_add (nd_add (nd_add ?_ ?_) ?_) ?_) (by omega))
    · exact nd_Cmul _ (h3.trans (by omega))
    · exact nd_Cmul _ (h2.trans (by omega))
    · exact nd_Cmul _ (w5 _ (by omega))
    · exact nd_Cmul _ (w5 _ (by omega))
  have hlook : (I.looked l τ).natDegree ≤ 2 * d.size := by
    unfold Inst.looked
    refine nd_add ((w5 5 (by omega)).trans (by omega)) (nd_mul (E := d.size + 1) q13
      (nd_add (nd_add (nd_add ?_ ?_) ?_) ?_) (by omega))
    · exact nd_Cmul _ (h4.trans (by omega))
    · exact nd_Cmul _ (w5 _ (by omega))
    · exact nd_Cmul _ (w5 _ (by omega))
    · exact nd_Cmul _ (w5 _ (by omega))
  unfold Inst.lookupConstraints
  simp only [List.mem_cons, List.not_mem_nil, or_false, forall_eq_or_imp, forall_eq]
  refine ⟨?_, ?_, ?_, ?_⟩
  · exact nd_mul (nd_lag hd (by omega)) (nd_sub h5 (nd_shift d h6)) (by omega)
  · exact nd_mul (nd_lag hd (by omega)) (nd_sub h7 (hone _)) (by omega)
  · exact nd_mul (nd_lag hd (by omega)) (nd_sub h7 (hone _)) (by omega)
  · refine nd_mul (D := 1) (E := 5 * d.size + 6) (nd_sub natDegree_X_le (nd_C _ _)) (nd_sub ?_ ?_) (by omega)
    · refine nd_mul (D := 3 * d.size + 2) (E := 2 * d.size)
        (nd_mul (D := d.size + 2) (E := 2 * d.size) ?_ ?_ (by omega)) ?_ (by omega)
      · rw [mul_comm]
        exact nd_Cmul _ h7
      · exact nd_add (nd_C _ _) hlook
      · exact nd_add (nd_add (nd_C _ _) htab) (nd_Cmul _ (nd_shift d htab))
    · refine nd_mul (D := 2 * d.size + 4) (E := d.size + 2)
        (nd_mul (D := d.size + 2) (E := d.size + 2) (nd_shift d h7) ?_ (by omega)) ?_ (by omega)
      · exact nd_add (nd_add (nd_C _ _) h5) (nd_Cmul _ (nd_shift d h5))
      · exact nd_add (nd_add (nd_C _ _) h6) (nd_Cmul _ (nd_shift d h6))

theorem Inst.Tight.constraints (h : I.Tight d.size) (hd : Good d) (τ β γ : F) :
    ∀ e ∈ I.constraints d τ β γ, e.natDegree ≤ d.size + 2 + I.nw * (d.size + 1) := by
  have hn := size_pos d
  have h5 := Nat.mul_le_mul_right (d.size + 1) I.nw_pos.1
  have hone : ∀ D, (1 : F[X]).natDegree ≤ D := by simp
  intro e he
  unfold Inst.constraints at he
  rw [List.mem_append] at he
  rcases he with he | he
  · simp only [List.mem_cons, List.not_mem_nil, or_false] at he
    rcases he with rfl | rfl | rfl
    · exact h.gate hn (by omega)
    · exact h.perm β γ
    · exact nd_mul (nd_lag hd hn) (nd_sub h.z (hone _)) (by omega)
  · cases hl : I.lookup with
    | none => rw [hl] at he; simp at he
    | some l =>
      rw [hl] at he
      have hnw : I.nw = 6 := by simp [Inst.nw, hl]
      exact h.lookup hd hl τ β γ (by rw [hnw]; omega) e he

end

theorem batch_tight {d : Domain F} (hd : Good d) {Is : List (Inst F)} {nw : ℕ}
    (h : ∀ I ∈ Is, I.Tight d.size ∧ I.nw = nw) (τ α β γ : F) (bs : List F) :
    (batch d τ α β γ Is bs).natDegree ≤ d.size + 2 + nw * (d.size + 1) := by
  unfold batch
  refine nd_zipWith fun I hI b => nd_Cmul _ (nd_combine fun e he => ?_)
  rw [← (h I hI).2]
  exact (h I hI).1.constraints hd τ β γ e he

/-! ## The leading coefficient -/

theorem Inst.Tight.perm_top {I : Inst F} {d : Domain F} (h : I.Tight d.size) (hn : 2 ≤ d.size)
    (hg : d.gen ^ d.size = 1) (β γ : F) :
    (I.perm d β γ).coeff (d.size + 2 + I.nw * (d.size + 1)) = (1 - d.gen ^ 2) *
      (I.z.coeff (d.size + 2) * ∏ i ∈ Finset.range I.nw, (I.w i).coeff (d.size + 1)) := by
  have hz : (Plonk.shift d I.z).coeff (d.size + 2) = d.gen ^ 2 * I.z.coeff (d.size + 2) := by
    unfold Plonk.shift
    rw [comp_C_mul_X_coeff, pow_add, hg, one_mul, mul_comm]
  have hprod : ∀ P : ℕ → F[X], (∀ i < I.nw, (P i).natDegree ≤ d.size + 1) →
      (∏ i ∈ Finset.range I.nw, P i).coeff (I.nw * (d.size + 1)) =
        ∏ i ∈ Finset.range I.nw, (P i).coeff (d.size + 1) ∧
      (∏ i ∈ Finset.range I.nw, P i).natDegree ≤ I.nw * (d.size + 1) := by
    intro P hP
    refine ⟨?_, nd_prod (D := d.size + 1) (fun i hi => hP i hi) le_rfl⟩
    have := coeff_prod_of_natDegree_le (s := Finset.range I.nw) P (d.size + 1)
      (fun i hi => hP i (Finset.mem_range.1 hi))
    rwa [Finset.card_range] at this
  obtain ⟨a1, a2⟩ := hprod (fun i => I.w i + C (β * I.k i) * X + C γ) fun i hi =>
    nd_add (nd_add (h.w i hi) (nd_Cmul _ (natDegree_X_le.trans (by omega)))) (nd_C _ _)
  obtain ⟨b1, b2⟩ := hprod (fun i => I.w i + C β * I.σ i + C γ) fun i hi =>
    nd_add (nd_add (h.w i hi) (nd_Cmul _ ((h.σ i hi).trans (by omega)))) (nd_C _ _)
  have c1 : ∀ i, (I.w i + C (β * I.k i) * X + C γ).coeff (d.size + 1) = (I.w i).coeff (d.size + 1) := by
    intro i
    rw [coeff_add, coeff_add, coeff_C_mul, coeff_X, if_neg (by omega), coeff_C, if_neg (by omega)]
    ring
  have c2 : ∀ i ∈ Finset.range I.nw,
      (I.w i + C β * I.σ i + C γ).coeff (d.size + 1) = (I.w i).coeff (d.size + 1) := by
    intro i hi
    have := h.σ i (Finset.mem_range.1 hi)
    rw [coeff_add, coeff_add, coeff_C_mul, coeff_eq_zero_of_natDegree_lt (p := I.σ i) (by omega), coeff_C,
      if_neg (by omega)]
    ring
  unfold Inst.perm
  rw [coeff_sub, coeff_mul_add_eq_of_natDegree_le h.z a2, coeff_mul_add_eq_of_natDegree_le (nd_shift d h.z) b2, a1, b1, hz,
    Finset.prod_congr rfl c2]
  simp only [c1]
  ring

theorem combine_top {K : ℕ} {a : F} : ∀ {l : List F[X]}, (∀ e ∈ l, e.natDegree < K) → (combine (C a) l).coeff K = 0
  | [], _ => by simp [combine]
  | e :: l, h => by
    rw [combine, coeff_add, coeff_C_mul, combine_top (fun e he => h e (by simp [he])),
      coeff_eq_zero_of_natDegree_lt (h e (by simp))]
    simp

/-- only the permutation argument reaches the highest degree -/
theorem Inst.Tight.top {I : Inst F} {d : Domain F} (h : I.Tight d.size) (hd : Good d) (hn : 2 ≤ d.size) (τ α β γ : F) :
    (combine (C α) (I.constraints d τ β γ)).coeff (d.size + 2 + I.nw * (d.size + 1)) = α * (1 - d.gen ^ 2) *
      (I.z.coeff (d.size + 2) * ∏ i ∈ Finset.range I.nw, (I.w i).coeff (d.size + 1)) := by
  have hK := Nat.mul_le_mul_right (d.size + 1) I.nw_pos.1
  have hone : ∀ D, (1 : F[X]).natDegree ≤ D := by simp
  have hgate := h.gate (by omega) (K := 6 * d.size + 4) le_rfl
  have hstart : (I.start d).natDegree ≤ 2 * d.size + 2 :=
    nd_mul (nd_lag hd (by omega)) (nd_sub h.z (hone _)) (by omega)
  have hlk : (combine (C α) (I.start d :: (match I.lookup with
      | none => []
      | some l => I.lookupConstraints d l τ β γ))).coeff (d.size + 2 + I.nw * (d.size + 1)) = 0 := by
    refine combine_top fun e he => ?_
    rcases List.mem_cons.1 he with rfl | he
    · omega
    · cases hl : I.lookup with
      | none => rw [hl] at he; simp at he
      | some l =>
        rw [hl] at he
        have := h.lookup hd hl τ β γ (K := 5 * d.size + 7) le_rfl e he
        omega
  have e : combine (C α) (I.constraints d τ β γ) = I.gate + C α * (I.perm d β γ + C α *
      combine (C α) (I.start d :: (match I.lookup with
      | none => []
      | some l => I.lookupConstraints d l τ β γ))) := rfl
  rw [e, coeff_add, coeff_C_mul, coeff_add, coeff_C_mul, hlk, coeff_eq_zero_of_natDegree_lt (by omega),
    h.perm_top hn hd.prim.pow_eq_one]
  ring

/-- over a domain with two points the combined constraints have a lower degree than the prover expects -/
theorem batch_top {d : Domain F} (hd : Good d) (hn : d.size = 2) {Is : List (Inst F)} {nw : ℕ}
    (h : ∀ I ∈ Is, I.Tight d.size ∧ I.nw = nw) (τ α β γ : F) (bs : List F) :
    (batch d τ α β γ Is bs).coeff (d.size + 2 + nw * (d.size + 1)) = 0 := by
  have hg : d.gen ^ 2 = 1 := by
    have := hd.prim.pow_eq_one
    rwa [hn] at this
  unfold batch
  induction Is generalizing bs with
  | nil => simp
  | cons I Is ih =>
    cases bs with
    | nil => simp
    | cons b bs =>
      rw [List.zipWith_cons_cons, List.sum_cons, coeff_add, ih (fun J hJ => h J (by simp [hJ])), coeff_C_mul,
        ← (h I (by simp)).2, (h I (by simp)).1.top hd (by omega), hg]
      simp

/-! ## The sum over the instances -/

theorem combine_dvd {P a : F[X]} {l : List F[X]} (h : ∀ c ∈ l, P ∣ c) : P ∣ combine a l := by
  induction l with
  | nil => exact dvd_zero _
  | cons c l ih =>
    rw [combine]
    exact dvd_add (h c (by simp)) (Dvd.dvd.mul_left (ih fun c hc => h c (by simp [hc])) _)

theorem batch_dvd {d : Domain F} (hd : Good d) (ho : d.offset = 1) {Is : List (Inst F)} {τ β γ : F}
    (h : ∀ I ∈ Is, ∀ e ∈ I.constraints d τ β γ, ∀ j < d.size, e.eval (d.gen ^ j) = 0) (α : F) (bs : List F) :
    X ^ d.size - 1 ∣ batch d τ α β γ Is bs := by
  unfold batch
  refine List.dvd_sum fun P hP => ?_
  obtain ⟨i, hi, rfl⟩ := List.mem_iff_getElem.1 hP
  rw [List.getElem_zipWith]
  exact Dvd.dvd.mul_left (combine_dvd fun e he => hd.dvd ho (h _ (List.getElem_mem _) e he)) _

theorem batch_cons (d : Domain F) (τ α β γ : F) (I : Inst F) (Is : List (Inst F)) (b : F) (bs : List F) :
    batch d τ α β γ (I :: Is) (b :: bs) =
      C b * combine (C α) (I.constraints d τ β γ) + batch d τ α β γ Is bs := by
  simp [batch]

theorem quotSum_ok {d quot : Domain F} (hf : Finer d quot) {gen : F} (hgen : gen ≠ 0) {zhInv : List F}
    (hz : ∀ i < quot.size, (gen * quot.gen ^ i) ^ d.size - 1 ≠ 0 ∧
      zhInv.getD (i % (quot.size / d.size)) 0 = ((gen * quot.gen ^ i) ^ d.size - 1)⁻¹)
    {τ : Option F} {t : F} {α β γ : F} {nw : ℕ} {b : Bool} {rs : List (Run F G G2)} {Is : List (Inst F)}
    (hr : List.Forall₂ (PolysAre d) rs Is) (hn : ∀ I ∈ Is, I.nw = nw) (hb : ∀ I ∈ Is, I.lookup.isSome = b)
    (hτ : ∀ I ∈ Is, I.lookup.isSome → τ = some t) {base : F} {acc l : List F} (hacc : acc.length = quot.size)
    (h : quotSum d quot { quot with offset := gen } zhInv nw τ α β γ rs base acc = .ok l) :
    l.length = quot.size ∧ ∀ i < quot.size, l.getD i 0 = acc.getD i 0 +
      (batch d t α β γ Is ((List.range Is.length).map
        (fun j => base * (α ^ (if b then 7 else 3)) ^ j))).eval (gen * quot.gen ^ i) *
          ((gen * quot.gen ^ i) ^ d.size - 1)⁻¹ := by
  induction hr generalizing base acc with
  | nil =>
    rw [quotSum] at h
    obtain rfl := Except.ok.inj h
    exact ⟨hacc, fun i _ => by simp [batch]⟩
  | @cons r I rs Is hrI hrs ih =>
    rw [quotSum] at h
    cases hq : quotEvals d quot { quot with offset := gen } zhInv nw τ α β γ r with
    | error e => rw [hq] at h; cases h
    | ok m =>
      rw [hq] at h
      simp only at h
      rw [← hn I (by simp)] at hq
      obtain ⟨hm1, hm2⟩ := quotEvals_ok hf hgen hz hrI (hτ I (by simp)) hq
      have hstep : (if r.pk.lookup.isSome then (α ^ 2 * α) ^ 2 * α else α ^ 2 * α) =
          α ^ (if b then 7 else 3) := by
        have : r.pk.lookup.isSome = b := by
          rw [← hb I (by simp)]
          rcases hrI.lookup.cases with ⟨e1, -, e2⟩ | ⟨_, _, _, e1, -, e2, -⟩ <;> rw [e1, e2] <;> rfl
        rw [this]
        cases b <;> simp <;> ring
      rw [hstep] at h
      obtain ⟨h1, h2⟩ := ih (fun J hJ => hn J (by simp [hJ])) (fun J hJ => hb J (by simp [hJ]))
        (fun J hJ => hτ J (by simp [hJ])) (by simp [hacc, hm1]) h
      refine ⟨h1, fun i hi => ?_⟩
      rw [h2 i hi, List.length_cons, List.range_succ_eq_map, List.map_cons, List.map_map, batch_cons, eval_add,
        eval_mul, eval_C]
      have e1 : (List.zipWith (fun a b => a + base * b) acc m).getD i 0 = acc.getD i 0 + base * m.getD i 0 := by
        simp only [List.getD_eq_getElem?_getD, List.getElem?_zipWith,
          List.getElem?_eq_getElem (show i < acc.length by omega),
          List.getElem?_eq_getElem (show i < m.length by omega)]
        rfl
      have e2 : (List.range Is.length).map (fun j => base * α ^ (if b then 7 else 3) *
          (α ^ (if b then 7 else 3)) ^ j) = (List.range Is.length).map
            ((fun j => base * (α ^ (if b then 7 else 3)) ^ j) ∘ Nat.succ) := by
        refine List.map_congr_left fun j _ => ?_
        simp only [Function.comp_apply, Nat.succ_eq_add_one]
        rw [pow_succ]
        ring
      rw [e1, e2, hm2 i hi, pow_zero, mul_one]
      ring

theorem vanishingInverses_ok {d quot : Domain F} (hf : Finer d quot) {gen : F} {l : List F}
    (h : vanishingInverses d.size (quot.size / d.size) quot gen = .ok l) :
    ∀ i < quot.size, (gen * quot.gen ^ i) ^ d.size - 1 ≠ 0 ∧
      l.getD (i % (quot.size / d.size)) 0 = ((gen * quot.gen ^ i) ^ d.size - 1)⁻¹ := by
  intro i hi
  obtain ⟨-, h2⟩ := mapM_range_ok h
  have hm := size_pos quot
  have hr : 0 < quot.size / d.size := by
    refine Nat.pos_of_ne_zero fun h0 => ?_
    have := hf.ratio
    rw [h0] at this
    omega
  have h := h2 (i % (quot.size / d.size)) (Nat.mod_lt _ hr) 0
  simp only at h
  have e : (gen * quot.gen ^ (i % (quot.size / d.size))) ^ d.size = (gen * quot.gen ^ i) ^ d.size := by
    rw [mul_pow, mul_pow]
    congr 1
    conv_rhs => rw [← Nat.mod_add_div i (quot.size / d.size), pow_add, mul_pow]
    have : (quot.gen ^ (quot.size / d.size * (i / (quot.size / d.size)))) ^ d.size = 1 := by
      rw [← pow_mul, mul_right_comm, hf.ratio, pow_mul, hf.prim.pow_eq_one, one_pow]
    rw [this, mul_one]
  rw [e] at h
  split at h
  · cases h
  · exact ⟨‹_›, (Except.ok.inj h).symm⟩

/-- the prover's quotient times the vanishing polynomial is the combination of the constraints -/
theorem quotPoly_ok {d quot : Domain F} (hf : Finer d quot) {gen : F} (hgen : gen ≠ 0)
    {τ : Option F} {t : F} {α β γ : F} {nw : ℕ} {b : Bool} {rs : List (Run F G G2)} {Is : List (Inst F)}
    (hsize : nw * (d.size + 1) + 2 < quot.size)
    (hr : List.Forall₂ (PolysAre d) rs Is) (hn : ∀ I ∈ Is, I.Tight d.size ∧ I.nw = nw)
    (hb : ∀ I ∈ Is, I.lookup.isSome = b)
    (hτ : ∀ I ∈ Is, I.lookup.isSome → τ = some t)
    (hv : ∀ I ∈ Is, ∀ e ∈ I.constraints d t β γ, ∀ j < d.size, e.eval (d.gen ^ j) = 0) {q : List F}
    (h : quotPoly gen d quot nw τ α β γ rs = .ok q) :
    Is ≠ [] ∧ ((X ^ d.size - 1) * toPoly q =
      batch d t α β γ Is (alphaBases α (firstLookup Is) Is.length)) ∧ (toPoly q).natDegree = Pcs.degree q := by
  unfold quotPoly at h
  split at h
  · cases h
  rename_i hne
  have hIs : Is ≠ [] := by
    rintro rfl
    cases hr
    simp at hne
  refine ⟨hIs, ?_⟩
  have hnd : (toPoly q).natDegree = Pcs.degree q := by
    split at h
    · cases h
    simp only at h
    split at h
    · cases h
    rw [← Except.ok.inj h]
    exact (toPoly_norm_natDegree _).2
  refine ⟨?_, hnd⟩
  have hfirst : firstLookup Is = b := by
    obtain _ | ⟨I, Js⟩ := Is
    · exact absurd rfl hIs
    · exact hb I (by simp)
  rw [hfirst, alphaBases_eq _ _ (by simpa using hIs)]
  cases hz : vanishingInverses d.size (quot.size / d.size) quot gen with
  | error e => rw [hz] at h; cases h
  | ok zhInv =>
    rw [hz] at h
    simp only at h
    cases hs : quotSum d quot { quot with offset := gen } zhInv nw τ α β γ rs 1 (List.replicate quot.size 0) with
    | error e => rw [hs] at h; cases h
    | ok l =>
      rw [hs] at h
      simp only at h
      have hz := vanishingInverses_ok hf hz
      obtain ⟨h1, h2⟩ := quotSum_ok hf hgen hz hr (fun I hI => (hn I hI).2) hb hτ (by simp) hs
      rw [← Except.ok.inj h, toPoly_norm]
      simp only [one_mul] at h2
      obtain ⟨T, hT⟩ := batch_dvd hf.good hf.offset hv α
        ((List.range Is.length).map (fun j => (α ^ (if b then 7 else 3)) ^ j))
      have hcos : Good ({ quot with offset := gen } : Domain F) := ⟨hf.prim, hgen⟩
      rw [cosetIfft_unique hcos (T := T) h1.le ?_ ?_, ← hT]
      · -- the degree
        have hdeg := batch_tight hf.good hn t α β γ
          ((List.range Is.length).map (fun j => (α ^ (if b then 7 else 3)) ^ j))
        by_cases hT0 : T = 0
        · rw [hT0, degree_zero]
          exact WithBot.bot_lt_coe _
        have hmon : (X ^ d.size - 1 : F[X]).Monic := by
          rw [← C_1]
          exact monic_X_pow_sub_C 1 (size_pos d).ne'
        have hnd : (X ^ d.size - 1 : F[X]).natDegree = d.size := by
          rw [← C_1]
          exact natDegree_X_pow_sub_C
        rw [hT, hmon.natDegree_mul' hT0, hnd] at hdeg
        rw [degree_eq_natDegree hT0]
        have : T.natDegree < quot.size := by omega
        exact_mod_cast this
      · intro i hi
        show l.getD i 0 = T.eval (gen * quot.gen ^ i)
        have hi' : i < quot.size := hi
        rw [h2 i hi', hT, eval_mul]
        have e : (List.replicate quot.size (0 : F)).getD i 0 = 0 := by
          rw [List.getD_eq_getElem?_getD, List.getElem?_replicate, if_pos hi']
          rfl
        have hne := (hz i hi').1
        rw [e, zero_add]
        simp only [eval_sub, eval_pow, eval_X, eval_one]
        rw [mul_comm, ← mul_assoc, inv_mul_cancel₀ hne, one_mul]

/-! ## The parts of the quotient -/

theorem combine_chunks (s k : ℕ) (t : List F) :
    combine (X ^ s) ((List.range (k + 1)).map (fun i => toPoly (norm
      (if i < k then (t.drop (i * s)).take s else t.drop (i * s))))) = toPoly t := by
  induction k generalizing t with
  | zero => simp [combine, toPoly_norm]
  | succ k ih =>
    rw [List.range_succ_eq_map, List.map_cons, List.map_map, combine]
    have e : (List.range (k + 1)).map ((fun i => toPoly (norm
        (if i < k + 1 then (t.drop (i * s)).take s else t.drop (i * s)))) ∘ Nat.succ) =
        (List.range (k + 1)).map (fun i => toPoly (norm
          (if i < k then ((t.drop s).drop (i * s)).take s else (t.drop s).drop (i * s)))) := by
      refine List.map_congr_left fun i _ => ?_
      simp only [Function.comp_apply, List.drop_drop, Nat.succ_eq_add_one, Nat.add_lt_add_iff_right]
      rw [show (i + 1) * s = s + i * s by ring]
    rw [e, ih, toPoly_norm, if_pos (by omega), Nat.zero_mul, List.drop_zero, ← toPoly_take_drop]

theorem maskParts_ok {n : ℕ} : ∀ {ps : List (List F)} {rnd : ℕ → F} {last : F} {l : List (List F)},
    ps ≠ [] → maskParts n rnd last ps = .ok l → l.length = ps.length ∧
      combine (X ^ (n + 2)) (l.map toPoly) = combine (X ^ (n + 2)) (ps.map toPoly) - C last ∧
      ∀ D, n + 3 ≤ D → (∀ p ∈ ps, p.length ≤ D) → ∀ p ∈ l, p.length ≤ D := by
  intro ps
  induction ps with
  | nil => intro _ _ _ h; exact absurd rfl h
  | cons p ps ih =>
    intro rnd last l _ h
    obtain _ | ⟨c, p⟩ := p
    · rw [maskParts] at h; cases h
    obtain _ | ⟨q, ps⟩ := ps
    · rw [maskParts] at h
      obtain rfl := Except.ok.inj h
      refine ⟨rfl, ?_, ?_⟩
      · simp only [List.map_cons, List.map_nil, combine, toPoly_cons, C_sub]
        ring
      · intro D hD hp q hq
        obtain rfl := List.mem_singleton.1 hq
        simpa using hp (c :: p) (by simp)
    · rw [maskParts] at h
      split at h
      · cases h
      rename_i hne
      push Not at hne
      cases hm : maskParts n (fun i => rnd (i + 1)) (rnd 0) (q :: ps) with
      | error e => rw [hm] at h; cases h
      | ok l' =>
        rw [hm] at h
        simp only at h
        obtain rfl := Except.ok.inj h
        obtain ⟨h1, h2, h3⟩ := ih (by simp) hm
        refine ⟨by simp [h1], ?_, ?_⟩
        · rw [List.map_cons, combine, h2, List.map_cons (a := c :: p), combine, toPoly_append, toPoly_cons,
            toPoly_cons, toPoly_cons, toPoly_nil, List.length_cons, hne.1, C_sub]
          ring
        · intro D hD hp x hx
          rcases List.mem_cons.1 hx with rfl | hx
          · simp [hne.1]; omega
          · exact h3 D hD (fun p hp' => hp p (by simp [hp'])) x hx

/-- the parts of the quotient -/
theorem splitQuot_ok {d : Domain F} {nw : ℕ} (hnw : 5 ≤ nw) {rnd : ℕ → F} {t : List F} {ts : List (List F)}
    (h : splitQuot d.size nw rnd t = .ok ts) :
    ts ≠ [] ∧ joinQuot d (ts.map toPoly) = toPoly t ∧ ∀ p ∈ ts, p.length ≤ d.size + 3 := by
  unfold splitQuot at h
  split at h
  · cases h
  rename_i hdeg
  rw [not_not] at hdeg
  split at h
  · cases h
  rename_i hle
  obtain ⟨k, rfl⟩ : ∃ k, nw = k + 1 := ⟨nw - 1, by omega⟩
  obtain ⟨h1, h2, h3⟩ := maskParts_ok (by simp) h
  refine ⟨?_, ?_, ?_⟩
  · rintro rfl
    simp at h1
  · unfold joinQuot
    rw [h2, C_0, sub_zero, List.map_map, ← combine_chunks (d.size + 2) k t]
    rfl
  · refine h3 _ le_rfl fun p hp => ?_
    obtain ⟨i, hi, rfl⟩ := List.mem_map.1 hp
    refine (norm_length_le _).trans ?_
    rw [List.mem_range] at hi
    split
    · rw [List.length_take]
      omega
    · rw [List.length_drop]
      have : i = k := by omega
      subst this
      unfold Pcs.degree at hdeg
      have e1 : (i + 1) * (d.size + 1) + 2 = i * (d.size + 2) + d.size + 3 - i := by
        have : (i + 1) * (d.size + 1) + 2 + i = i * (d.size + 2) + d.size + 3 := by ring
        omega
      omega

end Verif.Plonk
