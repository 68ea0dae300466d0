import Verif.Hash.RescueLemmas
import Mathlib.LinearAlgebra.Matrix.ToLinearEquiv
import Mathlib.Data.Finset.Sort
import Mathlib.Data.Fintype.Fin
import Mathlib.Order.Fin.Basic

/-! # Minors of a 4 × 4 matrix -/

namespace Verif.Rescue

/-- every square submatrix is invertible -/
def IsMDS {F : Type} [CommRing F] (M : Matrix (Fin 4) (Fin 4) F) : Prop :=
  ∀ (k : ℕ) (r c : Fin k ↪o Fin 4), (M.submatrix r c).det ≠ 0

/-- the number of non-zero entries of a vector -/
def weight {F : Type} [Zero F] [DecidableEq F] (x : Fin 4 → F) : ℕ :=
  (Finset.univ.filter fun i => x i ≠ 0).card

theorem branch_of_mds {F : Type} [Field F] [DecidableEq F] {M : Matrix (Fin 4) (Fin 4) F}
    (hM : IsMDS M) (x : Fin 4 → F) (hx : x ≠ 0) : 5 ≤ weight x + weight (M.mulVec x) := by
  by_contra hlt
  push Not at hlt
  set C := Finset.univ.filter fun i => x i ≠ 0 with hC
  set Z := Finset.univ.filter fun i => M.mulVec x i = 0 with hZ
  have hsum : Z.card + weight (M.mulVec x) = 4 := by
    have := Finset.card_filter_add_card_filter_not (s := (Finset.univ : Finset (Fin 4)))
      (fun i => M.mulVec x i = 0)
    simpa [weight, hZ] using this
  have hle : C.card ≤ Z.card := by
    have : weight x = C.card := rfl
    omega
  obtain ⟨R, hRZ, hR⟩ := Finset.exists_subset_card_eq hle
  let r := R.orderEmbOfFin hR
  let c := C.orderEmbOfFin rfl
  apply hM _ r c
  rw [← Matrix.exists_mulVec_eq_zero_iff]
  refine ⟨fun i => x (c i), ?_, ?_⟩
  · intro h
    apply hx
    funext i
    by_contra hi
    have hiC : i ∈ C := by simp [hC]; exact hi
    obtain ⟨j, hj⟩ : ∃ j, c j = i := by
      have : i ∈ Set.range c := by
        rw [Finset.range_orderEmbOfFin]; exact hiC
      exact this
    have := congrFun h j
    simp only [hj] at this
    exact hi this
  · funext j
    have hz : M.mulVec x (r j) = 0 := by
      have : r j ∈ Z := hRZ (Finset.orderEmbOfFin_mem R hR j)
      simpa [hZ] using this
    rw [Pi.zero_apply, ← hz]
    simp only [Matrix.mulVec, _root_.dotProduct, Matrix.submatrix_apply]
    have h1 : ∑ i, M (r j) (c i) * x (c i) = ∑ i ∈ C, M (r j) i * x i := by
      refine Finset.sum_bij (fun i _ => c i) (fun i _ => Finset.orderEmbOfFin_mem C rfl i)
        (fun a _ b _ h => c.injective h) ?_ (fun _ _ => rfl)
      intro b hb
      have : b ∈ Set.range c := by
        rw [Finset.range_orderEmbOfFin]; exact hb
      obtain ⟨a, ha⟩ := this
      exact ⟨a, Finset.mem_univ _, ha⟩
    rw [h1]
    apply Finset.sum_subset (Finset.subset_univ _)
    intro i _ hi
    have : x i = 0 := by
      by_contra hne
      exact hi (by simp [hC]; exact hne)
    rw [this, mul_zero]

/-- 3 × 3 minors -/
def minor3 (M : Fin 4 → Fin 4 → ℤ) (i i' i'' j j' j'' : Fin 4) : ℤ :=
  M i j * (M i' j' * M i'' j'' - M i' j'' * M i'' j')
    - M i j' * (M i' j * M i'' j'' - M i' j'' * M i'' j)
    + M i j'' * (M i' j * M i'' j' - M i' j' * M i'' j)

/-- the determinant -/
def det4 (M : Fin 4 → Fin 4 → ℤ) : ℤ :=
  M 0 0 * minor3 M 1 2 3 1 2 3 - M 0 1 * minor3 M 1 2 3 0 2 3 + M 0 2 * minor3 M 1 2 3 0 1 3
    - M 0 3 * minor3 M 1 2 3 0 1 2

/-- all minors are non-zero modulo `p` -/
def MinorsOk (p : ℕ) (M : Fin 4 → Fin 4 → ℤ) : Prop :=
  1 % (p : ℤ) ≠ 0 ∧
  (∀ i j, M i j % p ≠ 0) ∧
  (∀ i i' j j', i < i' → j < j' → (M i j * M i' j' - M i j' * M i' j) % p ≠ 0) ∧
  (∀ i i' i'', i < i' → i' < i'' → ∀ j j' j'', j < j' → j' < j'' →
    minor3 M i i' i'' j j' j'' % p ≠ 0) ∧
  det4 M % p ≠ 0

instance (p : ℕ) (M : Fin 4 → Fin 4 → ℤ) : Decidable (MinorsOk p M) := by
  unfold MinorsOk; infer_instance

theorem det_eq_det4 (M : Matrix (Fin 4) (Fin 4) ℤ) : M.det = det4 M := by
  rw [Matrix.det_succ_row_zero]
  simp [Fin.sum_univ_succ, Matrix.det_fin_three, Matrix.submatrix_apply, det4, minor3, Fin.succAbove]
  ring_nf

theorem mds_of_minors {p : ℕ} (M : Matrix (Fin 4) (Fin 4) ℤ) (h : MinorsOk p M) :
    IsMDS (M.map (Int.cast : ℤ → ZMod p)) := by
  obtain ⟨h0, h1, h2, h3, h4⟩ := h
  intro k r c hd
  have hd' : ((M.submatrix r c).det : ZMod p) = 0 := by
    have := (Int.castRingHom (ZMod p)).map_det (M.submatrix r c)
    rw [eq_intCast] at this
    rw [this, ← hd]
    rfl
  have hd2 : (M.submatrix r c).det % p = 0 := by
    rw [CharP.intCast_eq_zero_iff (ZMod p) p] at hd'
    exact Int.emod_eq_zero_of_dvd hd'
  have hk : k ≤ 4 := by simpa using Fintype.card_le_of_embedding r.toEmbedding
  interval_cases k
  · rw [Matrix.det_fin_zero] at hd2; exact h0 hd2
  · rw [Matrix.det_fin_one] at hd2; exact h1 _ _ hd2
  · rw [Matrix.det_fin_two] at hd2
    exact h2 (r 0) (r 1) (c 0) (c 1) (r.strictMono (by decide)) (c.strictMono (by decide)) hd2
  · rw [Matrix.det_fin_three] at hd2
    refine h3 (r 0) (r 1) (r 2) (r.strictMono (by decide)) (r.strictMono (by decide))
      (c 0) (c 1) (c 2) (c.strictMono (by decide)) (c.strictMono (by decide)) ?_
    rw [← hd2]
    congr 1
    simp only [minor3, Matrix.submatrix_apply]
    ring
  · have hid : ∀ f : Fin 4 ↪o Fin 4, ∀ i, f i = i := by
      intro f i
      have key : ∀ a b c d : Fin 4, a < b → b < c → c < d → a = 0 ∧ b = 1 ∧ c = 2 ∧ d = 3 := by
        decide
      obtain ⟨e0, e1, e2, e3⟩ := key (f 0) (f 1) (f 2) (f 3) (f.strictMono (by decide))
        (f.strictMono (by decide)) (f.strictMono (by decide))
      fin_cases i <;> assumption
    apply h4
    rw [← hd2, ← det_eq_det4]
    congr 2
    ext i j
    simp [hid]

end Verif.Rescue
