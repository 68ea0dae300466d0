import Verif.Props.EmulatedSwLaw
import Verif.Util.Edwards

/-!
# From short Weierstrass form to twisted Edwards form

The map `(x, y) ↦ (β X / y, (s X - 1) / (s X + 1))` with `X = x - α`, for a root `α` of `x³ + a x + b`, takes the group
law of `y² = x³ + a x + b` to the group law of `-x² + y² = 1 + d x² y²`. This is mathematics that property C77 refers
to; nothing here models code.

The four numbers `teDx`, `teNx`, `teDy`, `teNy` are the denominators and numerators of the Edwards addition formulas
for the images of two points, all multiplied by `y₁ y₂ (s X₁ + 1) (s X₂ + 1)`.
-/

set_option linter.unusedSectionVars false

namespace Verif.Props.Emulated

open WeierstrassCurve.Affine

section Poly

variable {F : Type*} [Field F]

def teDx (s a2 a4 X1 y1 X2 y2 : F) : F :=
  y1 * y2 * (s * X1 + 1) * (s * X2 + 1) + (a2 - 2 * s * a4) * X1 * X2 * (s * X1 - 1) * (s * X2 - 1)

def teNx (s X1 y1 X2 y2 : F) : F :=
  X1 * y2 * (s * X2 - 1) * (s * X1 + 1) + X2 * y1 * (s * X1 - 1) * (s * X2 + 1)

def teDy (s a2 a4 X1 y1 X2 y2 : F) : F :=
  y1 * y2 * (s * X1 + 1) * (s * X2 + 1) - (a2 - 2 * s * a4) * X1 * X2 * (s * X1 - 1) * (s * X2 - 1)

def teNy (s a2 a4 X1 y1 X2 y2 : F) : F :=
  y1 * y2 * (s * X1 - 1) * (s * X2 - 1) - (a2 + 2 * s * a4) * X1 * X2 * (s * X1 + 1) * (s * X2 + 1)

variable {s a2 a4 X1 y1 X2 y2 X3 y3 : F}

theorem chord_x (e1 : y1 ^ 2 - (X1 ^ 3 + a2 * X1 ^ 2 + a4 * X1) = 0)
    (e2 : y2 ^ 2 - (X2 ^ 3 + a2 * X2 ^ 2 + a4 * X2) = 0) (es : s ^ 2 * a4 - 1 = 0) (h : X1 - X2 ≠ 0)
    (c1 : (X1 - X2) ^ 2 * (X3 + X1 + X2 + a2) - (y1 - y2) ^ 2 = 0)
    (c2 : (X1 - X3) * (y1 - y2) - (y1 + y3) * (X1 - X2) = 0) :
    X3 * teDx s a2 a4 X1 y1 X2 y2 = y3 * teNx s X1 y1 X2 y2 := by
  refine mul_left_cancel₀ (pow_ne_zero 3 h) ?_
  unfold teDx teNx
  linear_combination
    ((X1 - X2) * (y1 * y2 * (s * X1 + 1) * (s * X2 + 1) + (a2 - 2 * s * a4) * X1 * X2 * (s * X1 - 1) * (s * X2 - 1)) +
      (X1 * y2 * (s * X2 - 1) * (s * X1 + 1) + X2 * y1 * (s * X1 - 1) * (s * X2 + 1)) * (y1 - y2)) * c1 +
    (X1 * y2 * (s * X2 - 1) * (s * X1 + 1) + X2 * y1 * (s * X1 - 1) * (s * X2 + 1)) * (X1 - X2) ^ 2 * c2 +
    (- X2 * y2 ^ 2 - X2 ^ 2 * y2 ^ 2 * s + X2 ^ 3 * a2 + 2 * X2 ^ 4 + X2 ^ 4 * s * a2 + 2 * X2 ^ 5 * s + 2 * y1 *
      X2 * y2 + 2 * y1 * X2 ^ 2 * y2 * s - y1 ^ 2 * X2 - y1 ^ 2 * X2 ^ 2 * s + X1 * y2 ^ 2 - X1 * X2 * a4 -
      3 * X1 * X2 ^ 2 * a2 + X1 * X2 ^ 2 * s * a4 + 5 * X1 * X2 ^ 2 * y2 ^ 2 * s ^ 2 - 3 * X1 * X2 ^ 3 - 2 *
      X1 * X2 ^ 3 * s * a2 - 2 * X1 * X2 ^ 3 * s ^ 2 * a4 - 5 * X1 * X2 ^ 4 * s - X1 * X2 ^ 4 * s ^ 2 * a2 -
      2 * X1 * X2 ^ 5 * s ^ 2 - 2 * X1 * y1 * X2 * y2 * s - 4 * X1 * y1 * X2 ^ 2 * y2 * s ^ 2 + X1 * y1 ^ 2
      * X2 * s + X1 * y1 ^ 2 * X2 ^ 2 * s ^ 2 + X1 ^ 2 * y2 ^ 2 * s + X1 ^ 2 * X2 * a2 - X1 ^ 2 * X2 * s *
      a4 - 5 * X1 ^ 2 * X2 * y2 ^ 2 * s ^ 2 + 2 * X1 ^ 2 * X2 ^ 2 * s * a2 + X1 ^ 2 * X2 ^ 2 * s ^ 2 * a4 +
      3 * X1 ^ 2 * X2 ^ 3 * s + X1 ^ 2 * X2 ^ 3 * s ^ 2 * a2 + 2 * X1 ^ 2 * X2 ^ 3 * s ^ 3 * a4 + 3 * X1 ^ 2
      * X2 ^ 4 * s ^ 2 + 2 * X1 ^ 2 * y1 * X2 * y2 * s ^ 2 - X1 ^ 3 * X2 * s * a2 + 2 * X1 ^ 3 * X2 * s ^ 2
      * a4 + X1 ^ 3 * X2 ^ 2 * s ^ 2 * a2 - 2 * X1 ^ 3 * X2 ^ 2 * s ^ 3 * a4) * e1 +
    (X1 * y2 ^ 2 - X1 * X2 * y2 ^ 2 * s - X1 * X2 ^ 2 * a2 + X1 * X2 ^ 3 * s * a2 - 2 * X1 * X2 ^ 3 * s ^ 2 * a4
      - 2 * X1 * y1 * y2 + 2 * X1 * y1 * X2 * y2 * s - 2 * X1 * y1 * X2 ^ 2 * y2 * s ^ 2 + X1 ^ 2 * a4 + X1
      ^ 2 * y2 ^ 2 * s + 2 * X1 ^ 2 * X2 * a2 - X1 ^ 2 * X2 * s * a4 - X1 ^ 2 * X2 * y2 ^ 2 * s ^ 2 - 3 * X1
      ^ 2 * X2 ^ 2 * s * a2 + 4 * X1 ^ 2 * X2 ^ 2 * s ^ 2 * a4 - X1 ^ 2 * X2 ^ 3 * s ^ 2 * a2 + 2 * X1 ^ 2 *
      X2 ^ 3 * s ^ 3 * a4 - 2 * X1 ^ 2 * y1 * y2 * s + 4 * X1 ^ 2 * y1 * X2 * y2 * s ^ 2 + X1 ^ 3 * s * a4 +
      2 * X1 ^ 3 * X2 + 2 * X1 ^ 3 * X2 * s * a2 - 3 * X1 ^ 3 * X2 * s ^ 2 * a4 - 4 * X1 ^ 3 * X2 ^ 2 * s +
      4 * X1 ^ 3 * X2 ^ 2 * s ^ 2 * a2 - 2 * X1 ^ 3 * X2 ^ 2 * s ^ 3 * a4 - X1 ^ 4 + 5 * X1 ^ 4 * X2 * s - 4
      * X1 ^ 4 * X2 * s ^ 2 * a2 + 2 * X1 ^ 4 * X2 ^ 2 * s ^ 2 - X1 ^ 5 * s - 3 * X1 ^ 5 * X2 * s ^ 2) * e2 +
    (- 2 * X1 * X2 ^ 4 * a4 + 2 * X1 * y1 * X2 ^ 3 * y2 + 2 * X1 ^ 2 * X2 ^ 3 * a4 - 2 * X1 ^ 2 * X2 ^ 4 * a2 + 2
      * X1 ^ 2 * X2 ^ 4 * s * a4 - 4 * X1 ^ 2 * y1 * X2 ^ 3 * y2 * s - 2 * X1 ^ 3 * X2 ^ 2 * a4 - 4 * X1 ^ 3
      * X2 ^ 4 + 4 * X1 ^ 3 * X2 ^ 4 * s * a2 + 2 * X1 ^ 3 * X2 ^ 5 * s - 2 * X1 ^ 3 * y1 * X2 * y2 + 4 * X1
      ^ 3 * y1 * X2 ^ 2 * y2 * s + 2 * X1 ^ 4 * X2 * a4 + 2 * X1 ^ 4 * X2 ^ 2 * a2 - 2 * X1 ^ 4 * X2 ^ 2 * s
      * a4 + 4 * X1 ^ 4 * X2 ^ 3 - 4 * X1 ^ 4 * X2 ^ 3 * s * a2 - 2 * X1 ^ 5 * X2 ^ 3 * s) * es

theorem chord_y (e1 : y1 ^ 2 - (X1 ^ 3 + a2 * X1 ^ 2 + a4 * X1) = 0)
    (e2 : y2 ^ 2 - (X2 ^ 3 + a2 * X2 ^ 2 + a4 * X2) = 0) (es : s ^ 2 * a4 - 1 = 0) (h : X1 - X2 ≠ 0)
    (c1 : (X1 - X2) ^ 2 * (X3 + X1 + X2 + a2) - (y1 - y2) ^ 2 = 0) :
    (s * X3 - 1) * teDy s a2 a4 X1 y1 X2 y2 = (s * X3 + 1) * teNy s a2 a4 X1 y1 X2 y2 := by
  refine mul_left_cancel₀ (pow_ne_zero 2 h) ?_
  unfold teDy teNy
  linear_combination
    s * ((y1 * y2 * (s * X1 + 1) * (s * X2 + 1) - (a2 - 2 * s * a4) * X1 * X2 * (s * X1 - 1) * (s * X2 - 1)) -
      (y1 * y2 * (s * X1 - 1) * (s * X2 - 1) - (a2 + 2 * s * a4) * X1 * X2 * (s * X1 + 1) * (s * X2 + 1))) * c1 +
    (- 4 * X2 * y2 ^ 2 * s ^ 2 + 2 * y1 * X2 * y2 * s ^ 2 - 4 * X1 * y2 ^ 2 * s ^ 2 + 4 * X1 * X2 * s ^ 2 * a4 +
      2 * X1 * X2 ^ 2 * s ^ 2 * a2 + 2 * X1 * y1 * y2 * s ^ 2 + 2 * X1 ^ 2 * X2 * s ^ 2 * a2 + 4 * X1 ^ 2 *
      X2 ^ 2 * s ^ 4 * a4) * e1 +
    (2 * y1 * X2 * y2 * s ^ 2 + 2 * X1 * X2 ^ 2 * s ^ 2 * a2 + 2 * X1 * y1 * y2 * s ^ 2 - 4 * X1 ^ 2 * s ^ 2 * a4
      - 2 * X1 ^ 2 * X2 * s ^ 2 * a2 + 4 * X1 ^ 2 * X2 ^ 2 * s ^ 4 * a4 - 4 * X1 ^ 3 * s ^ 2 * a2 - 4 * X1 ^
      3 * X2 * s ^ 2 - 4 * X1 ^ 4 * s ^ 2) * e2 +
    (2 * y1 * X2 ^ 2 * y2 - 2 * X1 * X2 ^ 3 * a2 - 4 * X1 * y1 * X2 * y2 + 4 * X1 ^ 2 * X2 ^ 2 * a2 + 4 * X1 ^ 2
      * X2 ^ 3 * s ^ 2 * a4 + 2 * X1 ^ 2 * y1 * y2 - 8 * X1 ^ 2 * y1 * X2 ^ 2 * y2 * s ^ 2 - 2 * X1 ^ 3 * X2
      * a2 + 4 * X1 ^ 3 * X2 ^ 2 * s ^ 2 * a4 + 8 * X1 ^ 3 * X2 ^ 3 * s ^ 2 * a2 + 4 * X1 ^ 3 * X2 ^ 4 * s ^
      2 + 4 * X1 ^ 4 * X2 ^ 3 * s ^ 2) * es

theorem double_x (e1 : y1 ^ 2 - (X1 ^ 3 + a2 * X1 ^ 2 + a4 * X1) = 0) (es : s ^ 2 * a4 - 1 = 0) (h : 2 * y1 ≠ 0)
    (c1 : (X3 + 2 * X1 + a2) * (4 * y1 ^ 2) - (3 * X1 ^ 2 + 2 * a2 * X1 + a4) ^ 2 = 0)
    (c2 : (3 * X1 ^ 2 + 2 * a2 * X1 + a4) * (X1 - X3) - (y3 + y1) * (2 * y1) = 0) :
    X3 * teDx s a2 a4 X1 y1 X1 y1 = y3 * teNx s X1 y1 X1 y1 := by
  refine mul_left_cancel₀ (pow_ne_zero 3 h) ?_
  unfold teDx teNx
  linear_combination
    (2 * y1 * (y1 * y1 * (s * X1 + 1) * (s * X1 + 1) + (a2 - 2 * s * a4) * X1 * X1 * (s * X1 - 1) * (s * X1 - 1)) +
      (X1 * y1 * (s * X1 - 1) * (s * X1 + 1) + X1 * y1 * (s * X1 - 1) * (s * X1 + 1)) *
        (3 * X1 ^ 2 + 2 * a2 * X1 + a4)) * c1 +
    (X1 * y1 * (s * X1 - 1) * (s * X1 + 1) + X1 * y1 * (s * X1 - 1) * (s * X1 + 1)) * (4 * y1 ^ 2) * c2 +
    (2 * y1 * a4 ^ 2 - 8 * y1 ^ 3 * a2 + 8 * X1 * y1 * a2 * a4 + 4 * X1 * y1 * s * a4 ^ 2 - 32 * X1 * y1 ^ 3 - 16
      * X1 * y1 ^ 3 * s * a2 + 4 * X1 ^ 2 * y1 * a4 + 8 * X1 ^ 2 * y1 * a2 ^ 2 + 16 * X1 ^ 2 * y1 * s * a2 *
      a4 + 2 * X1 ^ 2 * y1 * s ^ 2 * a4 ^ 2 - 32 * X1 ^ 2 * y1 ^ 3 * s - 8 * X1 ^ 2 * y1 ^ 3 * s ^ 2 * a2 +
      40 * X1 ^ 3 * y1 * a2 + 24 * X1 ^ 3 * y1 * s * a4 + 16 * X1 ^ 3 * y1 * s * a2 ^ 2 - 40 * X1 ^ 3 * y1 *
      s ^ 2 * a2 * a4 + 58 * X1 ^ 4 * y1 + 32 * X1 ^ 4 * y1 * s * a2 - 76 * X1 ^ 4 * y1 * s ^ 2 * a4 - 24 *
      X1 ^ 4 * y1 * s ^ 2 * a2 ^ 2 + 16 * X1 ^ 4 * y1 * s ^ 3 * a2 * a4 + 4 * X1 ^ 5 * y1 * s - 72 * X1 ^ 5
      * y1 * s ^ 2 * a2 + 32 * X1 ^ 5 * y1 * s ^ 3 * a4 - 54 * X1 ^ 6 * y1 * s ^ 2) * e1 +
    (12 * X1 ^ 3 * y1 * a4 ^ 2 + 8 * X1 ^ 4 * y1 * a2 * a4 - 4 * X1 ^ 4 * y1 * s * a4 ^ 2 - 8 * X1 ^ 5 * y1 * a4
      - 8 * X1 ^ 6 * y1 * a2 + 8 * X1 ^ 6 * y1 * s * a4 - 4 * X1 ^ 7 * y1 - 4 * X1 ^ 8 * y1 * s) * es

theorem double_y (e1 : y1 ^ 2 - (X1 ^ 3 + a2 * X1 ^ 2 + a4 * X1) = 0) (es : s ^ 2 * a4 - 1 = 0) (h : 2 * y1 ≠ 0)
    (c1 : (X3 + 2 * X1 + a2) * (4 * y1 ^ 2) - (3 * X1 ^ 2 + 2 * a2 * X1 + a4) ^ 2 = 0) :
    (s * X3 - 1) * teDy s a2 a4 X1 y1 X1 y1 = (s * X3 + 1) * teNy s a2 a4 X1 y1 X1 y1 := by
  refine mul_left_cancel₀ (pow_ne_zero 2 h) ?_
  unfold teDy teNy
  linear_combination
    s * ((y1 * y1 * (s * X1 + 1) * (s * X1 + 1) - (a2 - 2 * s * a4) * X1 * X1 * (s * X1 - 1) * (s * X1 - 1)) -
      (y1 * y1 * (s * X1 - 1) * (s * X1 - 1) - (a2 + 2 * s * a4) * X1 * X1 * (s * X1 + 1) * (s * X1 + 1))) * c1 +
    (- 8 * y1 ^ 2 - 8 * X1 * a4 + 4 * X1 * s ^ 2 * a4 ^ 2 - 16 * X1 * y1 ^ 2 * s ^ 2 * a2 - 16 * X1 ^ 2 * s ^ 2 *
      a2 * a4 - 40 * X1 ^ 2 * y1 ^ 2 * s ^ 2 - 8 * X1 ^ 3 - 16 * X1 ^ 3 * s ^ 2 * a4 - 16 * X1 ^ 3 * s ^ 2 *
      a2 ^ 2 - 32 * X1 ^ 4 * s ^ 2 * a2 - 16 * X1 ^ 4 * s ^ 4 * a2 * a4 - 4 * X1 ^ 5 * s ^ 2 - 32 * X1 ^ 5 *
      s ^ 4 * a4) * e1 +
    (8 * X1 ^ 2 * a4 ^ 2 + 8 * X1 ^ 3 * a2 * a4 + 16 * X1 ^ 4 * a4 + 4 * X1 ^ 4 * s ^ 2 * a4 ^ 2 + 8 * X1 ^ 5 *
      a2 + 8 * X1 ^ 6 - 8 * X1 ^ 6 * s ^ 2 * a4 + 4 * X1 ^ 8 * s ^ 2) * es

end Poly

/-! ## The map on points -/

/-- the conditions on the parameters of the map -/
structure TeParams {q : ℕ} [Fact q.Prime] (a b s α β d : ZMod q) : Prop where
  root : α ^ 3 + a * α + b = 0
  hs : s ^ 2 * (3 * α ^ 2 + a) = 1
  hβ : β ^ 2 = -(3 * α + 2 * s * (3 * α ^ 2 + a))
  hd : d * β ^ 2 = 3 * α - 2 * s * (3 * α ^ 2 + a)
  two : (2 : ZMod q) ≠ 0
  β0 : β ≠ 0

variable {q : ℕ} [hq : Fact q.Prime] {a b s α β d : ZMod q}

/-- the image of a finite point -/
def teMap (s α β x y : ZMod q) : ZMod q × ZMod q :=
  (β * (s * (x - α)) / (s * y), (s * (x - α) - 1) / (s * (x - α) + 1))

/-- no denominator of the map is zero -/
def TeDefined (s α : ZMod q) (P : (curve q a b).Point) : Prop :=
  match P with
  | .zero => True
  | .some x y _ => y ≠ 0 ∧ s * (x - α) + 1 ≠ 0

/-- the image of a point -/
def toTe (s α β : ZMod q) (P : (curve q a b).Point) : ZMod q × ZMod q :=
  match P with
  | .zero => (0, 1)
  | .some x y _ => teMap s α β x y

namespace TeParams

variable (H : TeParams a b s α β d)
include H

theorem s0 : s ≠ 0 := by
  intro h
  have := H.hs
  rw [h] at this
  simp at this

/-- the curve equation with the root moved to zero -/
theorem eqn {x y : ZMod q} (h : (curve q a b).Nonsingular x y) :
    y ^ 2 - ((x - α) ^ 3 + 3 * α * (x - α) ^ 2 + (3 * α ^ 2 + a) * (x - α)) = 0 := by
  linear_combination on_curve h + H.root

theorem hs' : s ^ 2 * (3 * α ^ 2 + a) - 1 = 0 := by linear_combination H.hs

theorem X0 {x y : ZMod q} (h : (curve q a b).Nonsingular x y) (hx : x - α = 0) : y = 0 := by
  have := H.eqn h
  rw [hx] at this
  exact pow_eq_zero_iff (two_ne_zero) |>.1 (by linear_combination this)

/-- the two relations between two points and their sum -/
theorem rel {x1 y1 x2 y2 x3 y3 : ZMod q} {h1 : (curve q a b).Nonsingular x1 y1}
    {h2 : (curve q a b).Nonsingular x2 y2} {h3 : (curve q a b).Nonsingular x3 y3}
    (h : Point.some x1 y1 h1 + Point.some x2 y2 h2 = Point.some x3 y3 h3) :
    (x3 - α) * teDx s (3 * α) (3 * α ^ 2 + a) (x1 - α) y1 (x2 - α) y2 = y3 * teNx s (x1 - α) y1 (x2 - α) y2 ∧
    (s * (x3 - α) - 1) * teDy s (3 * α) (3 * α ^ 2 + a) (x1 - α) y1 (x2 - α) y2 =
      (s * (x3 - α) + 1) * teNy s (3 * α) (3 * α ^ 2 + a) (x1 - α) y1 (x2 - α) y2 := by
  have e1 := H.eqn h1
  have e2 := H.eqn h2
  by_cases hx : x1 = x2
  · subst hx
    rcases same_x h1 h2 with hy | hy
    · subst hy
      have hn : y1 ≠ -y1 := by
        intro e
        rw [sum_opposite h1 h2 e] at h
        exact Point.some_ne_zero _ h.symm
      obtain ⟨x, y, hn', e, -, he⟩ := sum_double h1 hn
      rw [e] at h
      simp only [Point.some.injEq] at h
      obtain ⟨rfl, rfl⟩ := h
      obtain ⟨c1, c2⟩ := (he x y).2 ⟨rfl, rfl⟩
      have hy : 2 * y1 ≠ 0 := fun e => hn (by linear_combination e)
      exact ⟨double_x e1 H.hs' hy (by linear_combination c1) (by linear_combination -c2),
        double_y e1 H.hs' hy (by linear_combination c1)⟩
    · rw [sum_opposite h1 h2 hy] at h
      exact absurd h.symm (Point.some_ne_zero _)
  · obtain ⟨x, y, hn', e, -, he⟩ := sum_chord h1 h2 hx
    rw [e] at h
    simp only [Point.some.injEq] at h
    obtain ⟨rfl, rfl⟩ := h
    obtain ⟨c1, c2⟩ := (he x y).2 ⟨rfl, rfl⟩
    have hX : x1 - α - (x2 - α) ≠ 0 := fun e => hx (by linear_combination e)
    exact ⟨chord_x e1 e2 H.hs' hX (by linear_combination c1) (by linear_combination c2),
      chord_y e1 e2 H.hs' hX (by linear_combination c1)⟩

/-- the first coordinate without `s` -/
theorem map_fst {x y : ZMod q} : (teMap s α β x y).1 = β * (x - α) / y := by
  unfold teMap
  have := H.s0
  show β * (s * (x - α)) / (s * y) = _
  rw [show β * (s * (x - α)) = s * (β * (x - α)) by ring, mul_div_mul_left _ _ this]

theorem map_on {x y : ZMod q} (h : (curve q a b).Nonsingular x y) (hy : y ≠ 0) (hu : s * (x - α) + 1 ≠ 0) :
    EdOn (-1) d (teMap s α β x y) := by
  have e := H.eqn h
  have hβ := H.hβ
  have hd := H.hd
  have hs := H.hs
  unfold EdOn
  rw [H.map_fst]
  show -1 * (β * (x - α) / y) ^ 2 + ((s * (x - α) - 1) / (s * (x - α) + 1)) ^ 2 =
    1 + d * (β * (x - α) / y) ^ 2 * ((s * (x - α) - 1) / (s * (x - α) + 1)) ^ 2
  generalize x - α = X at e hu ⊢
  have hp : -(β ^ 2 * X ^ 2 * (s * X + 1) ^ 2) + y ^ 2 * (s * X - 1) ^ 2 =
      y ^ 2 * (s * X + 1) ^ 2 + d * β ^ 2 * X ^ 2 * (s * X - 1) ^ 2 := by
    rw [hd, hβ]
    linear_combination -4 * s * X * e + 4 * s * X ^ 4 * hs
  have h1 : (s * X + 1) ^ 2 ≠ 0 := pow_ne_zero 2 hu
  have h2 : y ^ 2 ≠ 0 := pow_ne_zero 2 hy
  rw [div_pow, div_pow, mul_pow]
  refine mul_left_cancel₀ (mul_ne_zero h1 h2) ?_
  calc (s * X + 1) ^ 2 * y ^ 2 * (-1 * (β ^ 2 * X ^ 2 / y ^ 2) + (s * X - 1) ^ 2 / (s * X + 1) ^ 2)
      = -(β ^ 2 * X ^ 2 * (s * X + 1) ^ 2) + y ^ 2 * (s * X - 1) ^ 2 := by field_simp
    _ = y ^ 2 * (s * X + 1) ^ 2 + d * β ^ 2 * X ^ 2 * (s * X - 1) ^ 2 := hp
    _ = _ := by field_simp

/-- the weight by which numerators and denominators are multiplied -/
theorem weights {x1 y1 x2 y2 : ZMod q} (hy1 : y1 ≠ 0) (hu1 : s * (x1 - α) + 1 ≠ 0) (hy2 : y2 ≠ 0)
    (hu2 : s * (x2 - α) + 1 ≠ 0) :
    ∃ W : ZMod q, W ≠ 0 ∧
      W * (1 + edZ d (teMap s α β x1 y1) (teMap s α β x2 y2)) =
        teDx s (3 * α) (3 * α ^ 2 + a) (x1 - α) y1 (x2 - α) y2 ∧
      W * (1 - edZ d (teMap s α β x1 y1) (teMap s α β x2 y2)) =
        teDy s (3 * α) (3 * α ^ 2 + a) (x1 - α) y1 (x2 - α) y2 ∧
      W * ((teMap s α β x1 y1).1 * (teMap s α β x2 y2).2 + (teMap s α β x2 y2).1 * (teMap s α β x1 y1).2) =
        β * teNx s (x1 - α) y1 (x2 - α) y2 ∧
      W * ((teMap s α β x1 y1).2 * (teMap s α β x2 y2).2 - (-1) * (teMap s α β x1 y1).1 * (teMap s α β x2 y2).1) =
        teNy s (3 * α) (3 * α ^ 2 + a) (x1 - α) y1 (x2 - α) y2 := by
  have hβ := H.hβ
  have hd := H.hd
  unfold edZ
  rw [H.map_fst, H.map_fst]
  have e2 : ∀ x y, (teMap s α β x y).2 = (s * (x - α) - 1) / (s * (x - α) + 1) := fun _ _ => rfl
  rw [e2, e2]
  generalize x1 - α = X1 at hu1 ⊢
  generalize x2 - α = X2 at hu2 ⊢
  refine ⟨y1 * y2 * (s * X1 + 1) * (s * X2 + 1),
    mul_ne_zero (mul_ne_zero (mul_ne_zero hy1 hy2) hu1) hu2, ?_, ?_, ?_, ?_⟩
  · unfold teDx
    rw [← hd]
    field_simp
  · unfold teDy
    rw [← hd]
    field_simp
  · unfold teNx
    field_simp
  · unfold teNy
    rw [show 3 * α + 2 * s * (3 * α ^ 2 + a) = -β ^ 2 by rw [hβ]; ring]
    field_simp

/-- the map takes sums to sums, as long as all denominators are different from zero -/
theorem map_add {x1 y1 x2 y2 x3 y3 : ZMod q} {h1 : (curve q a b).Nonsingular x1 y1}
    {h2 : (curve q a b).Nonsingular x2 y2} {h3 : (curve q a b).Nonsingular x3 y3}
    (h : Point.some x1 y1 h1 + Point.some x2 y2 h2 = Point.some x3 y3 h3)
    (hy1 : y1 ≠ 0) (hu1 : s * (x1 - α) + 1 ≠ 0) (hy2 : y2 ≠ 0) (hu2 : s * (x2 - α) + 1 ≠ 0)
    (hy3 : y3 ≠ 0) (hu3 : s * (x3 - α) + 1 ≠ 0) (hD : EdDef d (teMap s α β x1 y1) (teMap s α β x2 y2)) :
    edAdd (-1) d (teMap s α β x1 y1) (teMap s α β x2 y2) = teMap s α β x3 y3 := by
  obtain ⟨r1, r2⟩ := H.rel h
  obtain ⟨W, hW, w1, w2, w3, w4⟩ := H.weights (x1 := x1) (x2 := x2) hy1 hu1 hy2 hu2
  unfold edAdd
  refine Prod.ext ?_ ?_
  · rw [H.map_fst (x := x3) (y := y3)]
    show _ / _ = _
    rw [div_eq_div_iff hD.1 hy3]
    refine mul_left_cancel₀ hW ?_
    linear_combination y3 * w3 - β * (x3 - α) * w1 - β * r1
  · show _ / _ = (s * (x3 - α) - 1) / (s * (x3 - α) + 1)
    rw [div_eq_div_iff hD.2 hu3]
    refine mul_left_cancel₀ hW ?_
    linear_combination (s * (x3 - α) + 1) * w4 - (s * (x3 - α) - 1) * w2 - r2

/-- the map is injective -/
theorem map_inj {x1 y1 x2 y2 : ZMod q} (h1 : (curve q a b).Nonsingular x1 y1) (hy1 : y1 ≠ 0)
    (hu1 : s * (x1 - α) + 1 ≠ 0) (hy2 : y2 ≠ 0) (hu2 : s * (x2 - α) + 1 ≠ 0)
    (h : teMap s α β x1 y1 = teMap s α β x2 y2) : x1 = x2 ∧ y1 = y2 := by
  have e2 : (s * (x1 - α) - 1) / (s * (x1 - α) + 1) = (s * (x2 - α) - 1) / (s * (x2 - α) + 1) :=
    congrArg Prod.snd h
  rw [div_eq_div_iff hu1 hu2] at e2
  have hx : x1 = x2 := by
    have : 2 * s * (x1 - x2) = 0 := by linear_combination e2
    rcases mul_eq_zero.1 this with h | h
    · exact absurd h (mul_ne_zero H.two H.s0)
    · linear_combination h
  subst hx
  refine ⟨rfl, ?_⟩
  have e1 := congrArg Prod.fst h
  rw [H.map_fst, H.map_fst, div_eq_div_iff hy1 hy2] at e1
  have hX : x1 - α ≠ 0 := fun e => hy1 (H.X0 h1 e)
  exact (mul_left_cancel₀ (mul_ne_zero H.β0 hX) e1).symm

theorem map_ne {x y : ZMod q} (hu : s * (x - α) + 1 ≠ 0) : teMap s α β x y ≠ (0, 1) := by
  intro h
  have e2 : (s * (x - α) - 1) / (s * (x - α) + 1) = 1 := congrArg Prod.snd h
  rw [div_eq_iff hu] at e2
  exact H.two (by linear_combination -e2)

end TeParams

/-! ## Points of odd order -/

/-- some odd multiple of the point is zero -/
def OddOrder {G : Type*} [AddCommGroup G] (P : G) : Prop := ∃ n : ℕ, Odd n ∧ n • P = 0

namespace OddOrder

variable {G : Type*} [AddCommGroup G] {P Q : G}

theorem zero : OddOrder (0 : G) := ⟨1, odd_one, smul_zero _⟩

theorem neg (h : OddOrder P) : OddOrder (-P) := by
  obtain ⟨n, hn, e⟩ := h
  exact ⟨n, hn, by rw [smul_neg, e, neg_zero]⟩

theorem add (h : OddOrder P) (h' : OddOrder Q) : OddOrder (P + Q) := by
  obtain ⟨n, hn, e⟩ := h
  obtain ⟨m, hm, e'⟩ := h'
  refine ⟨n * m, hn.mul hm, ?_⟩
  rw [smul_add, mul_comm n m, mul_smul, e, smul_zero, mul_comm m n, mul_smul, e', smul_zero, add_zero]

theorem two (h : OddOrder P) (h2 : P + P = 0) : P = 0 := by
  obtain ⟨n, ⟨k, rfl⟩, e⟩ := h
  rw [add_smul, one_smul, mul_comm, mul_smul, two_smul, h2, smul_zero, zero_add] at e
  exact e

end OddOrder

theorem neg_point {x y : ZMod q} (h : (curve q a b).Nonsingular x y) :
    ∃ h' : (curve q a b).Nonsingular x (-y), -Point.some x y h = Point.some x (-y) h' := by
  have e : -Point.some x y h = Point.some x ((curve q a b).negY x y) ((curve q a b).nonsingular_neg x y |>.2 h) :=
    Point.neg_some h
  rw [e]
  have : (curve q a b).Nonsingular x (-y) := by
    rw [← negY_curve (a := a) (b := b) x y]
    exact ((curve q a b).nonsingular_neg x y).2 h
  exact ⟨this, by simp only [negY_curve]⟩

/-- a point other than zero is finite -/
theorem finite_point {P : (curve q a b).Point} (h : P ≠ 0) : ∃ x y, ∃ hn, P = Point.some x y hn := by
  cases P with
  | zero => exact absurd rfl h
  | some x y hn => exact ⟨x, y, hn, rfl⟩

namespace TeParams

variable (H : TeParams a b s α β d)
include H

theorem odd_y {x y : ZMod q} {h : (curve q a b).Nonsingular x y} (ho : OddOrder (Point.some x y h)) : y ≠ 0 := by
  rintro rfl
  exact Point.some_ne_zero _ (ho.two (sum_opposite h h (by simp)))

theorem odd_u {x y : ZMod q} {h : (curve q a b).Nonsingular x y} (ho : OddOrder (Point.some x y h)) :
    (s * (x - α)) ^ 2 ≠ 1 := by
  intro hu
  have hy := H.odd_y ho
  have hn : y ≠ -y := fun e => mul_ne_zero H.two hy (by linear_combination e)
  obtain ⟨x3, y3, h3, e3, -, he⟩ := sum_double h hn
  have c1 := ((he x3 y3).2 ⟨rfl, rfl⟩).1
  have e := H.eqn h
  have hs := H.hs
  have hX : (x - α) ^ 2 - (3 * α ^ 2 + a) = 0 := by
    have : s ^ 2 * ((x - α) ^ 2 - (3 * α ^ 2 + a)) = 0 := by linear_combination hu - hs
    exact (mul_eq_zero.1 this).resolve_left (pow_ne_zero 2 H.s0)
  have h0 : (x3 - α) * (2 * y) ^ 2 = 0 := by
    linear_combination c1 + ((x - α) ^ 2 - (3 * α ^ 2 + a)) * hX - 4 * (2 * (x - α) + 3 * α) * e
  have h0 : x3 - α = 0 := (mul_eq_zero.1 h0).resolve_right (pow_ne_zero 2 (mul_ne_zero H.two hy))
  have := H.X0 h3 h0
  have ho2 := ho.add ho
  rw [e3] at ho2
  exact H.odd_y ho2 this

theorem odd_u1 {x y : ZMod q} {h : (curve q a b).Nonsingular x y} (ho : OddOrder (Point.some x y h)) :
    s * (x - α) + 1 ≠ 0 := fun e => H.odd_u ho (by linear_combination (s * (x - α) - 1) * e)

theorem odd_u2 {x y : ZMod q} {h : (curve q a b).Nonsingular x y} (ho : OddOrder (Point.some x y h)) :
    s * (x - α) - 1 ≠ 0 := fun e => H.odd_u ho (by linear_combination (s * (x - α) + 1) * e)

theorem map_neg (x y : ZMod q) : teMap s α β x (-y) = (-(teMap s α β x y).1, (teMap s α β x y).2) := by
  refine Prod.ext ?_ rfl
  show _ = -(teMap s α β x y).1
  rw [H.map_fst, H.map_fst, div_neg]

theorem d_ne : d ≠ -1 := by
  rintro rfl
  have h1 := H.hd
  rw [H.hβ] at h1
  have hs := H.hs
  have : (2 : ZMod q) * 2 * (s * (3 * α ^ 2 + a)) = 0 := by linear_combination h1
  have h4 := (mul_eq_zero.1 this).resolve_left (mul_ne_zero H.two H.two)
  exact one_ne_zero (α := ZMod q) (by linear_combination s * h4 - hs)

theorem final {e f : ZMod q} (hon : -1 * e ^ 2 + f ^ 2 = 1 + d * e ^ 2 * f ^ 2) (h : d * e ^ 2 * f ^ 2 = 1)
    (hf : f ^ 2 + e ^ 2 = 0) : False := by
  have h2 : (2 : ZMod q) * (f ^ 2 - 1) = 0 := by linear_combination hon + h + hf
  have h2 := (mul_eq_zero.1 h2).resolve_left H.two
  have h1 : e ^ 2 = -1 := by linear_combination hf - h2
  have h3 : f ^ 2 = 1 := by linear_combination h2
  rw [h1, h3] at h
  exact H.d_ne (by linear_combination -h)

/-- the first denominator is not zero for points of odd order -/
theorem odd_core {x1 y1 x2 y2 : ZMod q} {h1 : (curve q a b).Nonsingular x1 y1}
    {h2 : (curve q a b).Nonsingular x2 y2} (o1 : OddOrder (Point.some x1 y1 h1)) (o2 : OddOrder (Point.some x2 y2 h2)) :
    1 + edZ d (teMap s α β x1 y1) (teMap s α β x2 y2) ≠ 0 := by
  intro hz
  have hy1 := H.odd_y o1
  have hy2 := H.odd_y o2
  have hu1 := H.odd_u1 o1
  have hu2 := H.odd_u1 o2
  have hon := H.map_on h1 hy1 hu1
  -- the double of the first point
  have hn : Point.some x1 y1 h1 + Point.some x1 y1 h1 ≠ 0 := fun e => Point.some_ne_zero _ (o1.two e)
  obtain ⟨x4, y4, h4, e4⟩ := finite_point hn
  have o4 : OddOrder (Point.some x4 y4 h4) := by rw [← e4]; exact o1.add o1
  obtain ⟨r1, r2⟩ := H.rel e4
  obtain ⟨W, hW, w1, w2, w3, w4⟩ := H.weights (x1 := x1) (x2 := x1) hy1 hu1 hy1 hu1
  obtain ⟨e1, he1⟩ : ∃ e, e = (teMap s α β x1 y1).1 := ⟨_, rfl⟩
  obtain ⟨f1, hf1⟩ : ∃ e, e = (teMap s α β x1 y1).2 := ⟨_, rfl⟩
  obtain ⟨e2, he2⟩ : ∃ e, e = (teMap s α β x2 y2).1 := ⟨_, rfl⟩
  obtain ⟨f2, hf2⟩ : ∃ e, e = (teMap s α β x2 y2).2 := ⟨_, rfl⟩
  unfold edZ at hz w1 w2
  unfold EdOn at hon
  rw [← he1, ← hf1] at hz w1 w2 w3 w4 hon
  rw [← he2, ← hf2] at hz
  -- if the squares of the coordinates are opposite, the second denominator of the double is zero
  have key : f1 ^ 2 + e1 ^ 2 = 0 → False := by
    intro hs
    have hN : teNy s (3 * α) (3 * α ^ 2 + a) (x1 - α) y1 (x1 - α) y1 = 0 := by
      rw [← w4]; linear_combination W * hs
    rw [hN, mul_zero] at r2
    have hD := (mul_eq_zero.1 r2).resolve_left (H.odd_u2 o4)
    rw [← w2] at hD
    have := (mul_eq_zero.1 hD).resolve_left hW
    exact H.final hon (by linear_combination -this) hs
  by_cases hP : Point.some x1 y1 h1 + Point.some x2 y2 h2 = 0
  · -- opposite points
    obtain ⟨h', e'⟩ := neg_point h1
    have hQ : Point.some x2 y2 h2 = Point.some x1 (-y1) h' := by rw [← e']; exact (neg_eq_of_add_eq_zero_right hP).symm
    simp only [Point.some.injEq] at hQ
    obtain ⟨rfl, rfl⟩ := hQ
    rw [H.map_neg] at he2 hf2
    have he2 : e2 = -e1 := by rw [he2, he1]
    have hf2 : f2 = f1 := by rw [hf2, hf1]
    subst he2 hf2
    have hD : teDy s (3 * α) (3 * α ^ 2 + a) (x2 - α) y1 (x2 - α) y1 = 0 := by
      rw [← w2]; linear_combination W * hz
    rw [hD, mul_zero] at r2
    have hN := (mul_eq_zero.1 r2.symm).resolve_left (H.odd_u1 o4)
    rw [← w4] at hN
    have := (mul_eq_zero.1 hN).resolve_left hW
    exact key (by linear_combination this)
  by_cases hM : Point.some x1 y1 h1 = Point.some x2 y2 h2
  · -- equal points
    simp only [Point.some.injEq] at hM
    obtain ⟨rfl, rfl⟩ := hM
    have he2 : e2 = e1 := by rw [he2, he1]
    have hf2 : f2 = f1 := by rw [hf2, hf1]
    subst he2 hf2
    have hD : teDx s (3 * α) (3 * α ^ 2 + a) (x1 - α) y1 (x1 - α) y1 = 0 := by
      rw [← w1]; linear_combination W * hz
    rw [hD, mul_zero] at r1
    have hN := (mul_eq_zero.1 r1.symm).resolve_left (H.odd_y o4)
    rw [hN, mul_zero] at w3
    have := (mul_eq_zero.1 w3).resolve_left hW
    have : 2 * (e2 * f2) = 0 := by linear_combination this
    have := (mul_eq_zero.1 this).resolve_left H.two
    exact one_ne_zero (α := ZMod q) (by linear_combination hz - d * e2 * f2 * this)
  · -- the sum and the difference are finite
    obtain ⟨x3, y3, h3, e3⟩ := finite_point hP
    have o3 : OddOrder (Point.some x3 y3 h3) := by rw [← e3]; exact o1.add o2
    obtain ⟨h2', e2'⟩ := neg_point h2
    have hP' : Point.some x1 y1 h1 + Point.some x2 (-y2) h2' ≠ 0 := by
      rw [← e2']
      intro e
      exact hM (by rw [← sub_eq_zero, sub_eq_add_neg]; exact e)
    obtain ⟨x5, y5, h5, e5⟩ := finite_point hP'
    have o5 : OddOrder (Point.some x5 y5 h5) := by rw [← e5, ← e2']; exact o1.add o2.neg
    obtain ⟨s1, -⟩ := H.rel e3
    obtain ⟨-, t2⟩ := H.rel e5
    obtain ⟨V, hV, v1, v2, v3, v4⟩ := H.weights (x1 := x1) (x2 := x2) hy1 hu1 hy2 hu2
    obtain ⟨U, hU, u1, u2, u3, u4⟩ := H.weights (x1 := x1) (x2 := x2) hy1 hu1 (neg_ne_zero.2 hy2) hu2
    unfold edZ at v1 u2
    rw [H.map_neg] at u2 u4
    simp only [] at u2 u4
    rw [← he1, ← hf1, ← he2, ← hf2] at v1 v3 u2 u4
    have hD : teDx s (3 * α) (3 * α ^ 2 + a) (x1 - α) y1 (x2 - α) y2 = 0 := by
      rw [← v1]; linear_combination V * hz
    rw [hD, mul_zero] at s1
    have hN := (mul_eq_zero.1 s1.symm).resolve_left (H.odd_y o3)
    rw [hN, mul_zero] at v3
    have g1 := (mul_eq_zero.1 v3).resolve_left hV
    have hD : teDy s (3 * α) (3 * α ^ 2 + a) (x1 - α) y1 (x2 - α) (-y2) = 0 := by
      rw [← u2]; linear_combination U * hz
    rw [hD, mul_zero] at t2
    have hN := (mul_eq_zero.1 t2.symm).resolve_left (H.odd_u1 o5)
    rw [← u4] at hN
    have g2 := (mul_eq_zero.1 hN).resolve_left hU
    have hf2 : f2 ≠ 0 := by
      rintro rfl
      exact one_ne_zero (α := ZMod q) (by linear_combination hz)
    refine key ((mul_eq_zero.1 (?_ : f2 * (f1 ^ 2 + e1 ^ 2) = 0)).resolve_left hf2)
    linear_combination e1 * g1 + f1 * g2

theorem odd_finite_def {x1 y1 x2 y2 : ZMod q} {h1 : (curve q a b).Nonsingular x1 y1}
    {h2 : (curve q a b).Nonsingular x2 y2} (o1 : OddOrder (Point.some x1 y1 h1)) (o2 : OddOrder (Point.some x2 y2 h2)) :
    EdDef d (teMap s α β x1 y1) (teMap s α β x2 y2) := by
  refine ⟨H.odd_core o1 o2, ?_⟩
  obtain ⟨h2', e2'⟩ := neg_point h2
  have o2' := o2.neg
  rw [e2'] at o2'
  have := H.odd_core o1 o2'
  rw [H.map_neg] at this
  unfold edZ at this ⊢
  intro e
  exact this (by linear_combination e)

theorem odd_defined {P : (curve q a b).Point} (ho : OddOrder P) : TeDefined s α P := by
  cases P with
  | zero => trivial
  | some x y h => exact ⟨H.odd_y ho, H.odd_u1 ho⟩

/-- all denominators of the addition formulas are different from zero for points of odd order -/
theorem odd_def {P Q : (curve q a b).Point} (o1 : OddOrder P) (o2 : OddOrder Q) :
    EdDef d (toTe s α β P) (toTe s α β Q) := by
  cases P with
  | zero => simp [EdDef, edZ, toTe]
  | some x1 y1 h1 =>
    cases Q with
    | zero => simp [EdDef, edZ, toTe]
    | some x2 y2 h2 => exact H.odd_finite_def o1 o2

theorem toTe_neg (P : (curve q a b).Point) : toTe s α β (-P) = (-(toTe s α β P).1, (toTe s α β P).2) := by
  cases P with
  | zero =>
    rw [← Point.zero_def, neg_zero]
    show ((0 : ZMod q), (1 : ZMod q)) = (-0, 1)
    rw [neg_zero]
  | some x y h =>
    obtain ⟨h', e⟩ := neg_point h
    rw [e]
    exact H.map_neg x y

theorem toTe_on {P : (curve q a b).Point} (h : TeDefined s α P) : EdOn (-1) d (toTe s α β P) := by
  cases P with
  | zero => simp [EdOn, toTe]
  | some x y hn => exact H.map_on hn h.1 h.2

/-- the map takes sums to sums where everything is defined -/
theorem toTe_add {P Q : (curve q a b).Point} (h1 : TeDefined s α P) (h2 : TeDefined s α Q)
    (h3 : TeDefined s α (P + Q)) (hD : EdDef d (toTe s α β P) (toTe s α β Q)) :
    edAdd (-1) d (toTe s α β P) (toTe s α β Q) = toTe s α β (P + Q) := by
  cases P with
  | zero =>
    rw [← Point.zero_def, zero_add]
    show edAdd (-1) d (0, 1) (toTe s α β Q) = toTe s α β Q
    simp [edAdd, edZ]
  | some x1 y1 n1 =>
    cases Q with
    | zero =>
      rw [← Point.zero_def, add_zero]
      show edAdd (-1) d (toTe s α β (Point.some x1 y1 n1)) (0, 1) = toTe s α β (Point.some x1 y1 n1)
      simp [edAdd, edZ]
    | some x2 y2 n2 =>
      by_cases h0 : Point.some x1 y1 n1 + Point.some x2 y2 n2 = 0
      · have e : Point.some x2 y2 n2 = -Point.some x1 y1 n1 := (neg_eq_of_add_eq_zero_right h0).symm
        rw [h0]
        rw [e, H.toTe_neg] at hD ⊢
        have hon := H.toTe_on h1
        generalize toTe s α β (Point.some x1 y1 n1) = T at hD hon ⊢
        obtain ⟨e, f⟩ := T
        unfold edAdd
        unfold EdDef at hD
        unfold EdOn at hon
        simp only at hD hon ⊢
        refine Prod.ext ?_ ?_
        · show _ / _ = (0 : ZMod q)
          rw [show e * f + -e * f = 0 by ring, zero_div]
        · show _ / _ = (1 : ZMod q)
          rw [div_eq_one_iff_eq hD.2]
          unfold edZ
          linear_combination hon
      · obtain ⟨x3, y3, n3, e3⟩ := finite_point h0
        rw [e3] at h3 ⊢
        exact H.map_add e3 h1.1 h1.2 h2.1 h2.2 h3.1 h3.2 hD

theorem odd_add {P Q : (curve q a b).Point} (o1 : OddOrder P) (o2 : OddOrder Q) :
    edAdd (-1) d (toTe s α β P) (toTe s α β Q) = toTe s α β (P + Q) :=
  H.toTe_add (H.odd_defined o1) (H.odd_defined o2) (H.odd_defined (o1.add o2)) (H.odd_def o1 o2)

theorem toTe_inj {P Q : (curve q a b).Point} (h1 : TeDefined s α P) (h2 : TeDefined s α Q)
    (h : toTe s α β P = toTe s α β Q) : P = Q := by
  cases P with
  | zero =>
    cases Q with
    | zero => rfl
    | some x2 y2 n2 => exact absurd h.symm (H.map_ne h2.2)
  | some x1 y1 n1 =>
    cases Q with
    | zero => exact absurd h (H.map_ne h1.2)
    | some x2 y2 n2 =>
      obtain ⟨rfl, rfl⟩ := H.map_inj n1 h1.1 h1.2 h2.1 h2.2 h
      rfl

end TeParams

/-- the images of the points of odd order form a group under the Edwards addition -/
def oddGroup (H : TeParams a b s α β d) : EdGroup (ZMod q) where
  a := -1
  d := d
  mem T := ∃ P : (curve q a b).Point, OddOrder P ∧ toTe s α β P = T
  on := by
    rintro _ ⟨P, h, rfl⟩
    exact H.toTe_on (H.odd_defined h)
  zero := ⟨0, OddOrder.zero, rfl⟩
  neg := by
    rintro _ ⟨P, h, rfl⟩
    exact ⟨-P, h.neg, H.toTe_neg P⟩
  add := by
    rintro _ _ ⟨P, h, rfl⟩ ⟨Q, h', rfl⟩
    exact ⟨P + Q, h.add h', (H.odd_add h h').symm⟩
  defd := by
    rintro _ _ ⟨P, h, rfl⟩ ⟨Q, h', rfl⟩
    exact H.odd_def h h'

end Verif.Props.Emulated
