import Verif.Props.EmulatedSwLaw
import Verif.Util.Projective

/-!
# Multiples of a point in short Weierstrass form without divisions

Jacobian coordinates, used to evaluate multiples of concrete points in proofs. This is mathematics; nothing here models
code.
-/

set_option linter.unusedSectionVars false

namespace Verif.Props.Emulated

open WeierstrassCurve.Affine

variable {q : ℕ} [Fact q.Prime] {a b : ZMod q}

/-- the double -/
def jacDbl (a : ZMod q) (T : ZMod q × ZMod q × ZMod q) : ZMod q × ZMod q × ZMod q :=
  let X := T.1
  let Y := T.2.1
  let Z := T.2.2
  let M := 3 * X * X + a * Z * Z * Z * Z
  let S := 4 * X * Y * Y
  let X3 := M * M - 2 * S
  (X3, M * (S - X3) - 8 * Y * Y * Y * Y, 2 * Y * Z)

/-- the sum with a point given by its coordinates -/
def jacAdd (P : ZMod q × ZMod q) (T : ZMod q × ZMod q × ZMod q) : ZMod q × ZMod q × ZMod q :=
  let X := T.1
  let Y := T.2.1
  let Z := T.2.2
  let H := P.1 * Z * Z - X
  let R := P.2 * Z * Z * Z - Y
  let X3 := R * R - H * H * H - 2 * X * H * H
  (X3, R * (X * H * H - X3) - Y * H * H * H, Z * H)

/-- double and add, highest bit first -/
def jacMul (a : ZMod q) (P : ZMod q × ZMod q) : List Bool → ZMod q × ZMod q × ZMod q → ZMod q × ZMod q × ZMod q
  | [], T => T
  | b :: bs, T => jacMul a P bs (if b then jacAdd P (jacDbl a T) else jacDbl a T)

/-- `T` are Jacobian coordinates of `P` unless the last one is zero -/
def Jac (P : (curve q a b).Point) (T : ZMod q × ZMod q × ZMod q) : Prop :=
  T.2.2 ≠ 0 → ∃ x y, ∃ hn, P = Point.some x y hn ∧ T.1 = x * T.2.2 ^ 2 ∧ T.2.1 = y * T.2.2 ^ 3

theorem Jac.dbl {P : (curve q a b).Point} {T : ZMod q × ZMod q × ZMod q} (h : Jac P T) : Jac (P + P) (jacDbl a T) := by
  obtain ⟨X, Y, Z⟩ := T
  intro hZ
  have hZ : 2 * Y * Z ≠ 0 := hZ
  have z0 : Z ≠ 0 := right_ne_zero_of_mul hZ
  have y0 : 2 * Y ≠ 0 := left_ne_zero_of_mul hZ
  obtain ⟨x, y, hn, rfl, hX, hY⟩ := h z0
  have hX : X = x * Z ^ 2 := hX
  have hY : Y = y * Z ^ 3 := hY
  have hy : y ≠ -y := fun e => y0 (by rw [hY]; linear_combination Z ^ 3 * e)
  have h2 : y + y ≠ 0 := fun e => hy (by linear_combination e)
  obtain ⟨x', y', hn', e, hs, -⟩ := sum_double hn hy
  obtain ⟨t, ht⟩ : ∃ t, t = (x * x * 3 + a) * (y + y)⁻¹ := ⟨_, rfl⟩
  obtain ⟨hx', hy'⟩ := hs t ht
  have ha : a = t * (y + y) - x * x * 3 := by rw [ht, mul_assoc, inv_mul_cancel₀ h2]; ring
  refine ⟨x', y', hn', e, ?_, ?_⟩
  · simp only [jacDbl]
    rw [hx', hX, hY, ha]
    ring
  · simp only [jacDbl]
    rw [hy', hx', hX, hY, ha]
    ring

theorem Jac.add {P : (curve q a b).Point} {T : ZMod q × ZMod q × ZMod q} (h : Jac P T) {x1 y1 : ZMod q}
    (h1 : (curve q a b).Nonsingular x1 y1) : Jac (P + Point.some x1 y1 h1) (jacAdd (x1, y1) T) := by
  obtain ⟨X, Y, Z⟩ := T
  intro hZ
  have hZ : Z * (x1 * Z * Z - X) ≠ 0 := hZ
  have z0 : Z ≠ 0 := left_ne_zero_of_mul hZ
  have y0 : x1 * Z * Z - X ≠ 0 := right_ne_zero_of_mul hZ
  obtain ⟨x, y, hn, rfl, hX, hY⟩ := h z0
  have hX : X = x * Z ^ 2 := hX
  have hY : Y = y * Z ^ 3 := hY
  have hx : x ≠ x1 := fun e => y0 (by rw [hX]; linear_combination -Z ^ 2 * e)
  have h2 : x - x1 ≠ 0 := sub_ne_zero.2 hx
  obtain ⟨x', y', hn', e, hs, -⟩ := sum_chord hn h1 hx
  obtain ⟨hx', hy'⟩ := hs _ rfl
  refine ⟨x', y', hn', e, ?_, ?_⟩
  · simp only [jacAdd]
    rw [hx', hX, hY]
    field_simp
    ring
  · simp only [jacAdd]
    rw [hy', hx', hX, hY]
    field_simp
    ring

theorem Jac.mul {x1 y1 : ZMod q} (h1 : (curve q a b).Nonsingular x1 y1) (bs : List Bool) :
    ∀ (n : ℕ) (T : ZMod q × ZMod q × ZMod q), Jac (n • Point.some x1 y1 h1) T →
      Jac (bitsBE bs n • Point.some x1 y1 h1) (jacMul a (x1, y1) bs T) := by
  induction bs with
  | nil => intro n T h; exact h
  | cons b bs ih =>
    intro n T h
    refine ih _ _ ?_
    have h2 := h.dbl
    rw [← two_nsmul, ← mul_nsmul'] at h2
    cases b with
    | false => simpa using h2
    | true =>
      have h3 := h2.add h1
      rw [← succ_nsmul] at h3
      simpa using h3

/-- a point is killed by `m + 1` if its multiple by `m` is the opposite point -/
theorem smul_zero_of_jac {x1 y1 : ZMod q} (h1 : (curve q a b).Nonsingular x1 y1) (bs : List Bool)
    (hZ : (jacMul a (x1, y1) bs (x1, y1, 1)).2.2 ≠ 0)
    (hX : (jacMul a (x1, y1) bs (x1, y1, 1)).1 = x1 * (jacMul a (x1, y1) bs (x1, y1, 1)).2.2 ^ 2)
    (hY : (jacMul a (x1, y1) bs (x1, y1, 1)).2.1 = -y1 * (jacMul a (x1, y1) bs (x1, y1, 1)).2.2 ^ 3) :
    (bitsBE bs 1 + 1) • Point.some x1 y1 h1 = 0 := by
  obtain ⟨x, y, hn, e, ex, ey⟩ := Jac.mul h1 bs 1 (x1, y1, 1) (fun _ => ⟨x1, y1, h1, one_nsmul _, by simp, by simp⟩) hZ
  rw [hX] at ex
  rw [hY] at ey
  have ex := mul_right_cancel₀ (pow_ne_zero 2 hZ) ex
  have ey := mul_right_cancel₀ (pow_ne_zero 3 hZ) ey
  subst ex ey
  rw [succ_nsmul, e]
  exact sum_opposite hn h1 rfl

end Verif.Props.Emulated
