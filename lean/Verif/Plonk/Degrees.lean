import Verif.Plonk.VerifierLemmas
import Mathlib.Algebra.Polynomial.BigOperators
import Mathlib.Algebra.Polynomial.Eval.Degree

/-!
# Degrees of the constraints and of what the verifier combines
-/

set_option linter.unusedSectionVars false

namespace Verif.Plonk

open Verif.Pcs Polynomial

variable {F : Type} [Field F] [DecidableEq F]

/-- the polynomials of an instance have degree at most `D` -/
structure Inst.Fits (I : Inst F) (D : ℕ) : Prop where
  w : ∀ i < I.nw, (I.w i).natDegree ≤ D
  σ : ∀ i < I.nw, (I.σ i).natDegree ≤ D
  q : ∀ i < I.nq, (I.q i).natDegree ≤ D
  z : I.z.natDegree ≤ D
  pi : I.pi.natDegree ≤ D
  lk : ∀ l, I.lookup = some l → l.range.natDegree ≤ D ∧ l.key.natDegree ≤ D ∧ l.tableDomSep.natDegree ≤ D ∧
    l.qDomSep.natDegree ≤ D ∧ l.h1.natDegree ≤ D ∧ l.h2.natDegree ≤ D ∧ l.prod.natDegree ≤ D

theorem nd_C (a : F) (D : ℕ) : (C a).natDegree ≤ D := by rw [natDegree_C]; omega

theorem nd_add {P Q : F[X]} {D : ℕ} (h : P.natDegree ≤ D) (h' : Q.natDegree ≤ D) : (P + Q).natDegree ≤ D :=
  natDegree_add_le_of_degree_le h h'

theorem nd_sub {P Q : F[X]} {D : ℕ} (h : P.natDegree ≤ D) (h' : Q.natDegree ≤ D) : (P - Q).natDegree ≤ D :=
  natDegree_sub_le_of_le h h' |>.trans (by simp)

theorem nd_Cmul {P : F[X]} {D : ℕ} (a : F) (h : P.natDegree ≤ D) : (C a * P).natDegree ≤ D :=
  (natDegree_C_mul_le a P).trans h

theorem nd_mul {P Q : F[X]} {D E K : ℕ} (h : P.natDegree ≤ D) (h' : Q.natDegree ≤ E) (hk : D + E ≤ K) :
    (P * Q).natDegree ≤ K :=
  natDegree_mul_le.trans (by omega)

theorem nd_shift (d : Domain F) {P : F[X]} {D : ℕ} (h : P.natDegree ≤ D) : (Plonk.shift d P).natDegree ≤ D := by
  unfold Plonk.shift
  refine natDegree_comp_le.trans ?_
  have : (C d.gen * X : F[X]).natDegree ≤ 1 := (natDegree_C_mul_le _ _).trans natDegree_X_le
  calc _ ≤ P.natDegree * 1 := Nat.mul_le_mul_left _ this
    _ ≤ D := by omega

theorem nd_list_sum {l : List F[X]} {D : ℕ} (h : ∀ P ∈ l, P.natDegree ≤ D) : l.sum.natDegree ≤ D := by
  induction l with
  | nil => simp
  | cons a l ih =>
    rw [List.sum_cons]
    exact nd_add (h a (by simp)) (ih fun P hP => h P (by simp [hP]))

theorem nd_sum {s : Finset ℕ} {f : ℕ → F[X]} {D : ℕ} (h : ∀ i ∈ s, (f i).natDegree ≤ D) :
    (∑ i ∈ s, f i).natDegree ≤ D := natDegree_sum_le_of_forall_le s f h

theorem nd_prod {m : ℕ} {f : ℕ → F[X]} {D K : ℕ} (h : ∀ i < m, (f i).natDegree ≤ D) (hk : m * D ≤ K) :
    (∏ i ∈ Finset.range m, f i).natDegree ≤ K := by
  refine (natDegree_prod_le _ _).trans ((Finset.sum_le_card_nsmul _ _ D fun i hi => h i (Finset.mem_range.1 hi)).trans ?_)
  simpa using hk

theorem nd_combine {a : F} {l : List F[X]} {D : ℕ} (h : ∀ P ∈ l, P.natDegree ≤ D) :
    (combine (C a) l).natDegree ≤ D := by
  induction l with
  | nil => simp [combine]
  | cons c l ih =>
    rw [combine]
    exact nd_add (h c (by simp)) (nd_Cmul _ (ih fun P hP => h P (by simp [hP])))

theorem nd_lag {d : Domain F} (hd : Good d) {i : ℕ} (hi : i < d.size) : (lag d i).natDegree ≤ d.size := by
  unfold lag
  have := Lagrange.degree_basis (s := Finset.range d.size) (v := fun j => d.offset * d.gen ^ j) hd.inj
    (Finset.mem_range.2 hi)
  rw [natDegree_le_iff_degree_le, this]
  simp

theorem nd_zipWith {A : Type} {f : A → F → F[X]} {D : ℕ} : ∀ {l : List A} {b : List F},
    (∀ x ∈ l, ∀ y, (f x y).natDegree ≤ D) → (List.zipWith f l b).sum.natDegree ≤ D := by
  intro l b h
  refine nd_list_sum fun P hP => ?_
  obtain ⟨i, hi, rfl⟩ := List.mem_iff_getElem.1 hP
  rw [List.getElem_zipWith]
  exact h _ (List.getElem_mem _) _

variable {d : Domain F} {D : ℕ}

theorem Inst.Fits.five {I : Inst F} (h : I.Fits D) {i : ℕ} (hi : i < 5) : (I.w i).natDegree ≤ D :=
  h.w i (by have := I.nw_pos; omega)

theorem Inst.Fits.sel {I : Inst F} (h : I.Fits D) {i : ℕ} (hi : i < 13) : (I.q i).natDegree ≤ D :=
  h.q i (by unfold Inst.nq; split <;> omega)

theorem Inst.Fits.gate {I : Inst F} (h : I.Fits D) : I.gate.natDegree ≤ 7 * D := by
  have w5 : ∀ i < 5, (I.w i).natDegree ≤ D := fun i hi => h.five hi
  have q : ∀ i < 13, (I.q i).natDegree ≤ D := fun i hi => h.sel hi
  unfold Inst.gate
  refine nd_sub (nd_add (nd_add (nd_add (nd_add (nd_add (nd_add ?_ ?_) ?_) ?_) ?_) ?_) ?_) ?_
  · exact nd_sum fun i hi => nd_mul (q i (by simp at hi; omega)) (w5 i (by simp at hi; omega)) (by omega)
  · exact nd_mul (q 4 (by omega)) (nd_mul (w5 0 (by omega)) (w5 1 (by omega)) le_rfl) (by omega)
  · exact nd_mul (q 5 (by omega)) (nd_mul (w5 2 (by omega)) (w5 3 (by omega)) le_rfl) (by omega)
  · exact nd_sum fun i hi => nd_mul (q _ (by simp at hi; omega))
      (natDegree_pow_le_of_le 5 (w5 i (by simp at hi; omega))) (by omega)
  · exact nd_mul (q 12 (by omega)) (nd_mul (nd_mul (nd_mul (nd_mul (w5 0 (by omega)) (w5 1 (by omega)) le_rfl)
      (w5 2 (by omega)) le_rfl) (w5 3 (by omega)) le_rfl) (w5 4 (by omega)) le_rfl) (by omega)
  · exact (q 11 (by omega)).trans (by omega)
  · exact h.pi.trans (by omega)
  · exact nd_mul (q 10 (by omega)) (w5 4 (by omega)) (by omega)

theorem Inst.Fits.perm {I : Inst F} (h : I.Fits D) (hD : 1 ≤ D) (β γ : F) :
    (I.perm d β γ).natDegree ≤ 7 * D := by
  have hnw := I.nw_pos.2
  have hmul : I.nw * D ≤ 6 * D := Nat.mul_le_mul_right _ hnw
  unfold Inst.perm
  refine nd_sub (nd_mul h.z (nd_prod (D := D) (fun i hi => ?_) hmul) (by omega))
    (nd_mul (nd_shift d h.z) (nd_prod (D := D) (fun i hi => ?_) hmul) (by omega))
  · exact nd_add (nd_add (h.w i hi) (nd_Cmul _ (natDegree_X_le.trans hD))) (nd_C _ _)
  · exact nd_add (nd_add (h.w i hi) (nd_Cmul _ (h.σ i hi))) (nd_C _ _)

theorem Inst.Fits.lookup {I : Inst F} (h : I.Fits D) (hd : Good d) (hD : d.size ≤ D) {l : LkPolys F}
    (hl : I.lookup = some l) (τ β γ : F) :
    ∀ e ∈ I.lookupConstraints d l τ β γ, e.natDegree ≤ 7 * D := by
  have hn := size_pos d
  obtain ⟨h1, h2, h3, h4, h5, h6, h7⟩ := h.lk l hl
  have w5 : (I.w 5).natDegree ≤ D := h.w 5 (by simp [Inst.nw, hl])
  have q13 : (I.q 13).natDegree ≤ D := h.q 13 (by simp [Inst.nq, hl])
  have hone : (1 : F[X]).natDegree ≤ D := by simp
  have htab : (I.table l τ).natDegree ≤ 2 * D := by
    unfold Inst.table
    refine nd_add (h1.trans (by omega)) (nd_mul (E := D) q13 (nd_add (nd_add (nd_add ?_ ?_) ?_) ?_) (by omega))
    · exact nd_Cmul _ h3
    · exact nd_Cmul _ h2
    · exact nd_Cmul _ (h.five (by omega))
    · exact nd_Cmul _ (h.five (by omega))
  have hlook : (I.looked l τ).natDegree ≤ 2 * D := by
    unfold Inst.looked
    refine nd_add (w5.trans (by omega)) (nd_mul (E := D) q13 (nd_add (nd_add (nd_add ?_ ?_) ?_) ?_) (by omega))
    · exact nd_Cmul _ h4
    · exact nd_Cmul _ (h.five (by omega))
    · exact nd_Cmul _ (h.five (by omega))
    · exact nd_Cmul _ (h.five (by omega))
  unfold Inst.lookupConstraints
  simp only [List.mem_cons, List.not_mem_nil, or_false, forall_eq_or_imp, forall_eq]
  refine ⟨?_, ?_, ?_, ?_⟩
  · exact nd_mul (nd_lag hd (by omega)) (nd_sub h5 (nd_shift d h6)) (by omega)
  · exact nd_mul (nd_lag hd (by omega)) (nd_sub h7 hone) (by omega)
  · exact nd_mul (nd_lag hd (by omega)) (nd_sub h7 hone) (by omega)
  · refine nd_mul (D := 1) (E := 6 * D) (nd_sub natDegree_X_le (nd_C _ _)) (nd_sub ?_ ?_) (by omega)
    · refine nd_mul (D := 3 * D) (E := 2 * D) (nd_mul (D := D) (E := 2 * D) ?_ ?_ (by omega)) ?_ (by omega)
      · rw [mul_comm]
        exact nd_Cmul _ h7
      · exact nd_add (nd_C _ _) hlook
      · exact nd_add (nd_add (nd_C _ _) htab) (nd_Cmul _ (nd_shift d htab))
    · refine nd_mul (D := 2 * D) (E := D) (nd_mul (D := D) (E := D) (nd_shift d h7) ?_ (by omega)) ?_ (by omega)
      · exact nd_add (nd_add (nd_C _ _) h5) (nd_Cmul _ (nd_shift d h5))
      · exact nd_add (nd_add (nd_C _ _) h6) (nd_Cmul _ (nd_shift d h6))

theorem Inst.Fits.constraints {I : Inst F} (h : I.Fits D) (hd : Good d) (hD : d.size ≤ D) (τ β γ : F) :
    ∀ e ∈ I.constraints d τ β γ, e.natDegree ≤ 7 * D := by
  have hn := size_pos d
  intro e he
  unfold Inst.constraints at he
  rw [List.mem_append] at he
  rcases he with he | he
  · simp only [List.mem_cons, List.not_mem_nil, or_false] at he
    rcases he with rfl | rfl | rfl
    · exact h.gate
    · exact h.perm (by omega) β γ
    · unfold Inst.start
      exact nd_mul (nd_lag hd (by omega)) (nd_sub h.z (by simp)) (by omega)
  · cases hl : I.lookup with
    | none => simp [hl] at he
    | some l =>
      rw [hl] at he
      exact h.lookup hd hD hl τ β γ e he

theorem batch_natDegree {Is : List (Inst F)} (h : ∀ I ∈ Is, I.Fits D) (hd : Good d) (hD : d.size ≤ D)
    (τ α β γ : F) (bs : List F) : (batch d τ α β γ Is bs).natDegree ≤ 7 * D := by
  unfold batch
  exact nd_zipWith fun I hI b => nd_Cmul _ (nd_combine fun e he => (h I hI).constraints hd hD τ β γ e he)

theorem joinQuot_natDegree (d : Domain F) {ts : List F[X]} (h : ∀ t ∈ ts, t.natDegree ≤ D) :
    (joinQuot d ts).natDegree ≤ (d.size + 2) * (ts.length - 1) + D := by
  unfold joinQuot
  induction ts with
  | nil => simp [combine]
  | cons t ts ih =>
    rw [combine]
    have ht := h t (by simp)
    refine nd_add (ht.trans (by omega)) ?_
    obtain _ | ⟨t', ts'⟩ := ts
    · simp [combine]
    · refine nd_mul (natDegree_X_pow_le _) (ih fun t ht => h t (by simp [ht])) ?_
      simp only [List.length_cons, Nat.add_sub_cancel]
      rw [Nat.mul_succ]
      omega

theorem Inst.Fits.lin {I : Inst F} (h : I.Fits D) (c : Claims F) (ch : Chal F) (τ l1 ln : F) :
    (I.lin c d ch τ l1 ln).natDegree ≤ D := by
  have q : ∀ i < 13, (I.q i).natDegree ≤ D := fun i hi => h.sel hi
  unfold Inst.lin
  refine nd_add (nd_add (nd_add (nd_Cmul _ h.z) (nd_Cmul _ (h.σ _ ?_))) ?_) ?_
  · have := I.nw_pos
    omega
  · unfold Inst.linGate
    refine nd_add (nd_add (nd_add (nd_add (nd_add (nd_add (nd_add (nd_add (nd_add (nd_add (nd_add (nd_add
      ?_ ?_) ?_) ?_) ?_) ?_) ?_) ?_) ?_) ?_) ?_) ?_) ?_ <;> exact nd_Cmul _ (q _ (by omega))
  · cases hl : I.lookup with
    | none => simp
    | some l =>
      obtain ⟨-, -, -, -, -, h6, h7⟩ := h.lk l hl
      simp only [Inst.linLk]
      exact nd_add (nd_Cmul _ h7) (nd_Cmul _ h6)

theorem residue_natDegree {Is : List (Inst F × Claims F)} (h : ∀ x ∈ Is, x.1.Fits D) {ts : List F[X]}
    (ht : ∀ t ∈ ts, t.natDegree ≤ D) (ch : Chal F) (τ : F) : (residue d ch τ Is ts).natDegree ≤ D := by
  unfold residue
  refine nd_add (nd_add (nd_zipWith fun x hx b => nd_Cmul _ ((h x hx).lin _ _ _ _ _)) (nd_Cmul _ (nd_combine ht)))
    (nd_C _ _)

theorem parts_natDegree (v : F) {l : List (Bool × F[X] × F)} (h : ∀ x ∈ l, x.2.1.natDegree ≤ D) (a b : F) :
    (parts v l a b).1.natDegree ≤ D ∧ (parts v l a b).2.natDegree ≤ D := by
  induction l generalizing a b with
  | nil => simp [parts]
  | cons x l ih =>
    obtain ⟨t, P, y⟩ := x
    have ih := ih (fun x hx => h x (by simp [hx]))
    have hP : P.natDegree ≤ D := h _ List.mem_cons_self
    cases t
    · exact ⟨nd_add (nd_Cmul _ (nd_sub hP (nd_C _ _))) (ih _ _).1, (ih _ _).2⟩
    · exact ⟨(ih _ _).1, nd_add (nd_Cmul _ (nd_sub hP (nd_C _ _))) (ih _ _).2⟩

theorem items_natDegree {Is : List (Inst F × Claims F)} (h : ∀ x ∈ Is, x.1.Fits D) :
    ∀ y ∈ allItems Is, y.2.1.natDegree ≤ D := by
  intro y hy
  obtain ⟨x, hx, hy⟩ := List.mem_flatMap.1 hy
  have hI := h x hx
  unfold Inst.items at hy
  rw [List.mem_append, List.mem_append, List.mem_append] at hy
  rcases hy with ((hy | hy) | hy) | hy
  · obtain ⟨i, hi, rfl⟩ := List.mem_map.1 hy
    exact hI.w i (List.mem_range.1 hi)
  · obtain ⟨i, hi, rfl⟩ := List.mem_map.1 hy
    exact hI.σ i (by have := List.mem_range.1 hi; omega)
  · obtain rfl := List.mem_singleton.1 hy
    exact hI.z
  · cases hl : x.1.lookup with
    | none => simp [hl] at hy
    | some l =>
      obtain ⟨h1, h2, h3, h4, h5, h6, h7⟩ := hI.lk l hl
      have q13 : (x.1.q 13).natDegree ≤ D := hI.q 13 (by simp [Inst.nq, hl])
      have w3 : (x.1.w 3).natDegree ≤ D := hI.five (by omega)
      have w4 : (x.1.w 4).natDegree ≤ D := hI.five (by omega)
      rw [hl] at hy
      simp only [List.mem_append, List.mem_cons, List.not_mem_nil, or_false] at hy
      rcases hy with (rfl | rfl | rfl | rfl | rfl | rfl) | (rfl | rfl | rfl | rfl | rfl | rfl | rfl | rfl | rfl) <;>
        assumption

end Verif.Plonk
