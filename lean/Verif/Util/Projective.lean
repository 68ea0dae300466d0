import Verif.Util.Edwards

/-!
# Multiples of a point without divisions

Used to evaluate multiples of concrete points in proofs.
-/

namespace Verif

variable {F : Type} [Field F]

/-- addition in projective coordinates -/
def projAdd (a d : F) (P Q : F × F × F) : F × F × F :=
  let A := P.2.2 * Q.2.2
  let B := A * A
  let C := P.1 * Q.1
  let D := P.2.1 * Q.2.1
  let E := d * C * D
  (A * (B - E) * ((P.1 + P.2.1) * (Q.1 + Q.2.1) - C - D), A * (B + E) * (D - a * C), (B - E) * (B + E))

/-- double and add, highest bit first -/
def projMul (a d : F) (P : F × F × F) : List Bool → F × F × F → F × F × F
  | [], T => T
  | b :: bs, T =>
    let T2 := projAdd a d T T
    projMul a d P bs (if b then projAdd a d T2 P else T2)

/-- the number with these bits, highest first -/
def bitsBE : List Bool → ℕ → ℕ
  | [], n => n
  | b :: bs, n => bitsBE bs (2 * n + if b then 1 else 0)

/-- `T` are projective coordinates of `P` -/
def Proj (P : F × F) (T : F × F × F) : Prop := T.2.2 ≠ 0 ∧ T.1 = P.1 * T.2.2 ∧ T.2.1 = P.2 * T.2.2

theorem Proj.add {E : EdGroup F} {P Q : E.Pt} {S T : F × F × F} (hS : Proj P.1 S) (hT : Proj Q.1 T) :
    Proj (P + Q).1 (projAdd E.a E.d S T) := by
  obtain ⟨X1, Y1, Z1⟩ := S
  obtain ⟨X2, Y2, Z2⟩ := T
  obtain ⟨h1, h2, h3⟩ := hS
  obtain ⟨h4, h5, h6⟩ := hT
  obtain ⟨hd1, hd2⟩ := E.defd P.2 Q.2
  simp only at h1 h2 h3 h4 h5 h6
  have e1 : Z1 * Z2 * (Z1 * Z2) - E.d * (X1 * X2) * (Y1 * Y2) =
      (Z1 * Z2) ^ 2 * (1 - edZ E.d P.1 Q.1) := by rw [h2, h3, h5, h6, edZ]; ring
  have e2 : Z1 * Z2 * (Z1 * Z2) + E.d * (X1 * X2) * (Y1 * Y2) =
      (Z1 * Z2) ^ 2 * (1 + edZ E.d P.1 Q.1) := by rw [h2, h3, h5, h6, edZ]; ring
  have hz : Z1 * Z2 ≠ 0 := mul_ne_zero h1 h4
  simp only [Proj, projAdd, e1, e2, E.add_val, edAdd]
  refine ⟨mul_ne_zero (mul_ne_zero (pow_ne_zero 2 hz) hd2) (mul_ne_zero (pow_ne_zero 2 hz) hd1), ?_, ?_⟩
  · rw [h2, h3, h5, h6]
    field_simp
    ring
  · rw [h2, h3, h5, h6]
    field_simp

theorem Proj.mul {E : EdGroup F} {P : E.Pt} {S : F × F × F} (hS : Proj P.1 S) (bs : List Bool) :
    ∀ (n : ℕ) (T : F × F × F), Proj (n • P).1 T → Proj (bitsBE bs n • P).1 (projMul E.a E.d S bs T) := by
  induction bs with
  | nil => intro n T h; exact h
  | cons b bs ih =>
    intro n T h
    refine ih _ _ ?_
    have h2 := h.add h
    rw [← two_nsmul, ← mul_nsmul'] at h2
    cases b with
    | false => simpa using h2
    | true =>
      have h3 := h2.add hS
      rw [← succ_nsmul] at h3
      simpa using h3

/-- a multiple is not the neutral element -/
theorem smul_ne_zero_of_proj {E : EdGroup F} (P : E.Pt) (bs : List Bool)
    (h : (projMul E.a E.d (P.1.1, P.1.2, 1) bs (0, 1, 1)).1 ≠ 0) : bitsBE bs 0 • P ≠ 0 := by
  intro h0
  have h1 := Proj.mul (P := P) (S := (P.1.1, P.1.2, 1)) ⟨one_ne_zero, by simp, by simp⟩ bs 0 (0, 1, 1)
    ⟨one_ne_zero, by rw [zero_nsmul, E.zero_val]; simp, by rw [zero_nsmul, E.zero_val]; simp⟩
  rw [h0, E.zero_val] at h1
  exact h (by rw [h1.2.1]; simp)

end Verif
