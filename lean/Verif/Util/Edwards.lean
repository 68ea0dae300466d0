import Mathlib.Algebra.Field.Basic
import Mathlib.Algebra.Group.Even
import Mathlib.Tactic.LinearCombination
import Mathlib.Tactic.FieldSimp
import Mathlib.Tactic.Ring

/-!
# Twisted Edwards curves

The affine group law of a twisted Edwards curve `a x² + y² = 1 + d x² y²`. This is mathematics that the properties
about curve gadgets refer to; nothing here models code.

`EdGroup` is a set of curve points on which the addition formulas are defined and which is closed under them; it is
an abelian group. For a curve with `a` a square and `d` not a square all points form such a set (`EdGroup.complete`);
for `d` and `-a` not squares the points with `1 - d x²` a square do (`EdGroup.half`).
-/

namespace Verif

variable {F : Type*} [Field F]

/-- the curve equation -/
def EdOn (a d : F) (P : F × F) : Prop := a * P.1 ^ 2 + P.2 ^ 2 = 1 + d * P.1 ^ 2 * P.2 ^ 2

/-- `d x₁ x₂ y₁ y₂` -/
def edZ (d : F) (P Q : F × F) : F := d * P.1 * Q.1 * P.2 * Q.2

/-- the addition formulas -/
def edAdd (a d : F) (P Q : F × F) : F × F :=
  ((P.1 * Q.2 + Q.1 * P.2) / (1 + edZ d P Q), (P.2 * Q.2 - a * P.1 * Q.1) / (1 - edZ d P Q))

/-- both denominators of the addition formulas are different from zero -/
def EdDef (d : F) (P Q : F × F) : Prop := 1 + edZ d P Q ≠ 0 ∧ 1 - edZ d P Q ≠ 0

theorem edZ_comm (d : F) (P Q : F × F) : edZ d P Q = edZ d Q P := by unfold edZ; ring

theorem EdDef.symm {d : F} {P Q : F × F} (h : EdDef d P Q) : EdDef d Q P := by
  unfold EdDef; rw [edZ_comm]; exact h

theorem edAdd_comm (a d : F) (P Q : F × F) : edAdd a d P Q = edAdd a d Q P := by
  unfold edAdd; rw [edZ_comm]; congr 1 <;> congr 1 <;> ring

/-- polynomial identity behind `edAdd_on` -/
theorem ed_on_poly {a d x1 y1 x2 y2 : F} (e1 : a * x1 ^ 2 + y1 ^ 2 - 1 - d * x1 ^ 2 * y1 ^ 2 = 0)
    (e2 : a * x2 ^ 2 + y2 ^ 2 - 1 - d * x2 ^ 2 * y2 ^ 2 = 0) :
    a * (x1 * y2 + x2 * y1) ^ 2 * (1 - d * x1 * x2 * y1 * y2) ^ 2 +
      (y1 * y2 - a * x1 * x2) ^ 2 * (1 + d * x1 * x2 * y1 * y2) ^ 2 =
      (1 + d * x1 * x2 * y1 * y2) ^ 2 * (1 - d * x1 * x2 * y1 * y2) ^ 2 +
      d * (x1 * y2 + x2 * y1) ^ 2 * (y1 * y2 - a * x1 * x2) ^ 2 := by
  linear_combination
    (y2 ^ 4 - 2 * x2 ^ 2 * y2 ^ 2 * d + 4 * x2 ^ 2 * y2 ^ 2 * a - 2 * x2 ^ 2 * y2 ^ 4 * a + x2 ^ 4 * a ^ 2 - 2
      * x2 ^ 4 * y2 ^ 2 * a ^ 2 - x2 ^ 4 * y2 ^ 4 * d ^ 2 + 2 * x2 ^ 4 * y2 ^ 4 * a * d - y1 ^ 2 * x2 ^ 2 * y2
      ^ 4 * d - y1 ^ 2 * x2 ^ 4 * y2 ^ 2 * a * d + y1 ^ 2 * x2 ^ 4 * y2 ^ 4 * d ^ 2 - x1 ^ 2 * x2 ^ 2 * y2 ^ 4
      * a * d - x1 ^ 2 * x2 ^ 4 * y2 ^ 2 * a ^ 2 * d + x1 ^ 2 * x2 ^ 4 * y2 ^ 4 * a * d ^ 2 + x1 ^ 2 * y1 ^ 2 *
      x2 ^ 4 * y2 ^ 4 * d ^ 3) * e1 +
    (1 + y2 ^ 2 + x2 ^ 2 * a + x2 ^ 2 * y2 ^ 2 * d - 2 * x2 ^ 2 * y2 ^ 2 * a - y1 ^ 2 * y2 ^ 2 - y1 ^ 2 * x2 ^
      2 * a - 2 * y1 ^ 2 * x2 ^ 2 * y2 ^ 2 * d + 2 * y1 ^ 2 * x2 ^ 2 * y2 ^ 2 * a + y1 ^ 4 * x2 ^ 2 * y2 ^ 2 *
      d - x1 ^ 2 * y2 ^ 2 * a - x1 ^ 2 * x2 ^ 2 * a ^ 2 - 2 * x1 ^ 2 * x2 ^ 2 * y2 ^ 2 * a * d + 2 * x1 ^ 2 *
      x2 ^ 2 * y2 ^ 2 * a ^ 2 + x1 ^ 4 * x2 ^ 2 * y2 ^ 2 * a ^ 2 * d) * e2

/-- polynomial identity behind associativity, first coordinate -/
theorem ed_assoc_poly_x {a d x1 y1 x2 y2 x3 y3 : F} (e1 : a * x1 ^ 2 + y1 ^ 2 - 1 - d * x1 ^ 2 * y1 ^ 2 = 0)
    (e2 : a * x2 ^ 2 + y2 ^ 2 - 1 - d * x2 ^ 2 * y2 ^ 2 = 0)
    (e3 : a * x3 ^ 2 + y3 ^ 2 - 1 - d * x3 ^ 2 * y3 ^ 2 = 0) :
    ((x1 * y2 + x2 * y1) * (1 - d * x1 * x2 * y1 * y2) * y3 +
        (y1 * y2 - a * x1 * x2) * (1 + d * x1 * x2 * y1 * y2) * x3) *
      ((1 + d * x2 * x3 * y2 * y3) * (1 - d * x2 * x3 * y2 * y3) +
        d * (x2 * y3 + x3 * y2) * (y2 * y3 - a * x2 * x3) * x1 * y1) =
    ((x2 * y3 + x3 * y2) * (1 - d * x2 * x3 * y2 * y3) * y1 +
        (y2 * y3 - a * x2 * x3) * (1 + d * x2 * x3 * y2 * y3) * x1) *
      ((1 + d * x1 * x2 * y1 * y2) * (1 - d * x1 * x2 * y1 * y2) +
        d * (x1 * y2 + x2 * y1) * (y1 * y2 - a * x1 * x2) * x3 * y3) := by
  linear_combination
    (0 - y1 * x2 * y2 ^ 4 * x3 ^ 2 * y3 * d - y1 * x2 ^ 2 * y2 ^ 3 * x3 * d + y1 * x2 ^ 2 * y2 ^ 3 * x3 ^ 3 *
      a * d - y1 * x2 ^ 3 * y2 ^ 2 * y3 * d + y1 * x2 ^ 3 * y2 ^ 2 * y3 ^ 3 * d + y1 * x2 ^ 3 * y2 ^ 4 * x3 ^ 2
      * y3 * d ^ 2 - y1 * x2 ^ 4 * y2 * x3 * y3 ^ 2 * a * d + y1 * x2 ^ 4 * y2 ^ 3 * x3 * y3 ^ 2 * d ^ 2 + x1 *
      x2 * y2 ^ 4 * x3 * y3 ^ 2 * d - x1 * x2 ^ 2 * y2 ^ 3 * y3 * d + x1 * x2 ^ 2 * y2 ^ 3 * y3 ^ 3 * d + x1 *
      x2 ^ 3 * y2 ^ 2 * x3 * a * d - x1 * x2 ^ 3 * y2 ^ 2 * x3 ^ 3 * a ^ 2 * d - x1 * x2 ^ 3 * y2 ^ 4 * x3 * y3
      ^ 2 * d ^ 2 - x1 * x2 ^ 4 * y2 * x3 ^ 2 * y3 * a ^ 2 * d + x1 * x2 ^ 4 * y2 ^ 3 * x3 ^ 2 * y3 * a * d ^ 2) * e1 +
    (y1 * y2 * x3 - y1 * y2 * x3 * y3 ^ 2 - y1 * y2 * x3 ^ 3 * a + y1 * y2 * x3 ^ 3 * y3 ^ 2 * d + y1 * x2 *
      y3 - y1 * x2 * y3 ^ 3 - y1 * x2 * x3 ^ 2 * y3 * a + y1 * x2 * x3 ^ 2 * y3 ^ 3 * d - y1 * x2 * y2 ^ 2 * x3
      ^ 2 * y3 * d - y1 * x2 ^ 2 * y2 * x3 * y3 ^ 2 * d - y1 ^ 3 * y2 * x3 + y1 ^ 3 * y2 * x3 * y3 ^ 2 + y1 ^ 3
      * y2 * x3 ^ 3 * a - y1 ^ 3 * y2 * x3 ^ 3 * y3 ^ 2 * d - y1 ^ 3 * x2 * y3 + y1 ^ 3 * x2 * y3 ^ 3 + y1 ^ 3
      * x2 * x3 ^ 2 * y3 * a - y1 ^ 3 * x2 * x3 ^ 2 * y3 ^ 3 * d + y1 ^ 3 * x2 * y2 ^ 2 * x3 ^ 2 * y3 * d + y1
      ^ 3 * x2 ^ 2 * y2 * x3 * y3 ^ 2 * d + x1 * y2 * y3 - x1 * y2 * y3 ^ 3 - x1 * y2 * x3 ^ 2 * y3 * a + x1 *
      y2 * x3 ^ 2 * y3 ^ 3 * d - x1 * x2 * x3 * a + x1 * x2 * x3 * y3 ^ 2 * a + x1 * x2 * x3 ^ 3 * a ^ 2 - x1 *
      x2 * x3 ^ 3 * y3 ^ 2 * a * d + x1 * x2 * y2 ^ 2 * x3 * y3 ^ 2 * d - x1 * x2 ^ 2 * y2 * x3 ^ 2 * y3 * a *
      d - x1 * y1 ^ 2 * y2 * y3 + x1 * y1 ^ 2 * y2 * y3 ^ 3 + x1 * y1 ^ 2 * y2 * x3 ^ 2 * y3 * a - x1 * y1 ^ 2
      * y2 * x3 ^ 2 * y3 ^ 3 * d + x1 * y1 ^ 2 * x2 * x3 * a - x1 * y1 ^ 2 * x2 * x3 * y3 ^ 2 * a - x1 * y1 ^ 2
      * x2 * x3 ^ 3 * a ^ 2 + x1 * y1 ^ 2 * x2 * x3 ^ 3 * y3 ^ 2 * a * d - x1 * y1 ^ 2 * x2 * y2 ^ 2 * x3 * y3
      ^ 2 * d + x1 * y1 ^ 2 * x2 * y2 ^ 2 * x3 ^ 3 * y3 ^ 2 * d ^ 2 + x1 * y1 ^ 2 * x2 ^ 2 * y2 * x3 ^ 2 * y3 *
      a * d - x1 * y1 ^ 2 * x2 ^ 2 * y2 * x3 ^ 2 * y3 ^ 3 * d ^ 2 - x1 ^ 2 * y1 * y2 * x3 * a + x1 ^ 2 * y1 *
      y2 * x3 * y3 ^ 2 * a + x1 ^ 2 * y1 * y2 * x3 ^ 3 * a ^ 2 - x1 ^ 2 * y1 * y2 * x3 ^ 3 * y3 ^ 2 * a * d -
      x1 ^ 2 * y1 * x2 * y3 * a + x1 ^ 2 * y1 * x2 * y3 ^ 3 * a + x1 ^ 2 * y1 * x2 * x3 ^ 2 * y3 * a ^ 2 - x1 ^
      2 * y1 * x2 * x3 ^ 2 * y3 ^ 3 * a * d + x1 ^ 2 * y1 * x2 * y2 ^ 2 * x3 ^ 2 * y3 * a * d - x1 ^ 2 * y1 *
      x2 * y2 ^ 2 * x3 ^ 2 * y3 ^ 3 * d ^ 2 + x1 ^ 2 * y1 * x2 ^ 2 * y2 * x3 * y3 ^ 2 * a * d - x1 ^ 2 * y1 *
      x2 ^ 2 * y2 * x3 ^ 3 * y3 ^ 2 * a * d ^ 2 - x1 ^ 3 * y2 * y3 * a + x1 ^ 3 * y2 * y3 ^ 3 * a + x1 ^ 3 * y2
      * x3 ^ 2 * y3 * a ^ 2 - x1 ^ 3 * y2 * x3 ^ 2 * y3 ^ 3 * a * d + x1 ^ 3 * x2 * x3 * a ^ 2 - x1 ^ 3 * x2 *
      x3 * y3 ^ 2 * a ^ 2 - x1 ^ 3 * x2 * x3 ^ 3 * a ^ 3 + x1 ^ 3 * x2 * x3 ^ 3 * y3 ^ 2 * a ^ 2 * d - x1 ^ 3 *
      x2 * y2 ^ 2 * x3 * y3 ^ 2 * a * d + x1 ^ 3 * x2 ^ 2 * y2 * x3 ^ 2 * y3 * a ^ 2 * d) * e2 +
    (0 - y1 * y2 * x3 + y1 * y2 ^ 3 * x3 - y1 * x2 * y3 + y1 * x2 * y2 ^ 2 * y3 + y1 * x2 ^ 2 * y2 * x3 * a +
      y1 * x2 ^ 3 * y3 * a + y1 ^ 3 * y2 * x3 - y1 ^ 3 * y2 ^ 3 * x3 + y1 ^ 3 * x2 * y3 - y1 ^ 3 * x2 * y2 ^ 2
      * y3 - y1 ^ 3 * x2 ^ 2 * y2 * x3 * a - y1 ^ 3 * x2 ^ 3 * y3 * a - x1 * y2 * y3 + x1 * y2 ^ 3 * y3 + x1 *
      x2 * x3 * a - x1 * x2 * y2 ^ 2 * x3 * a + x1 * x2 ^ 2 * y2 * y3 * a - x1 * x2 ^ 3 * x3 * a ^ 2 + x1 * y1
      ^ 2 * y2 * y3 - x1 * y1 ^ 2 * y2 ^ 3 * y3 - x1 * y1 ^ 2 * x2 * x3 * a - x1 * y1 ^ 2 * x2 * y2 ^ 2 * x3 *
      d + x1 * y1 ^ 2 * x2 * y2 ^ 2 * x3 * a + x1 * y1 ^ 2 * x2 ^ 2 * y2 * y3 * d - x1 * y1 ^ 2 * x2 ^ 2 * y2 *
      y3 * a + x1 * y1 ^ 2 * x2 ^ 3 * x3 * a ^ 2 + x1 ^ 2 * y1 * y2 * x3 * a - x1 ^ 2 * y1 * y2 ^ 3 * x3 * a +
      x1 ^ 2 * y1 * x2 * y3 * a + x1 ^ 2 * y1 * x2 * y2 ^ 2 * y3 * d - x1 ^ 2 * y1 * x2 * y2 ^ 2 * y3 * a + x1
      ^ 2 * y1 * x2 ^ 2 * y2 * x3 * a * d - x1 ^ 2 * y1 * x2 ^ 2 * y2 * x3 * a ^ 2 - x1 ^ 2 * y1 * x2 ^ 3 * y3
      * a ^ 2 + x1 ^ 3 * y2 * y3 * a - x1 ^ 3 * y2 ^ 3 * y3 * a - x1 ^ 3 * x2 * x3 * a ^ 2 + x1 ^ 3 * x2 * y2 ^
      2 * x3 * a ^ 2 - x1 ^ 3 * x2 ^ 2 * y2 * y3 * a ^ 2 + x1 ^ 3 * x2 ^ 3 * x3 * a ^ 3) * e3

/-- polynomial identity behind associativity, second coordinate -/
theorem ed_assoc_poly_y {a d x1 y1 x2 y2 x3 y3 : F} (e1 : a * x1 ^ 2 + y1 ^ 2 - 1 - d * x1 ^ 2 * y1 ^ 2 = 0)
    (e2 : a * x2 ^ 2 + y2 ^ 2 - 1 - d * x2 ^ 2 * y2 ^ 2 = 0)
    (e3 : a * x3 ^ 2 + y3 ^ 2 - 1 - d * x3 ^ 2 * y3 ^ 2 = 0) :
    ((y1 * y2 - a * x1 * x2) * (1 + d * x1 * x2 * y1 * y2) * y3 -
        a * (x1 * y2 + x2 * y1) * (1 - d * x1 * x2 * y1 * y2) * x3) *
      ((1 + d * x2 * x3 * y2 * y3) * (1 - d * x2 * x3 * y2 * y3) -
        d * (x2 * y3 + x3 * y2) * (y2 * y3 - a * x2 * x3) * x1 * y1) =
    ((y2 * y3 - a * x2 * x3) * (1 + d * x2 * x3 * y2 * y3) * y1 -
        a * (x2 * y3 + x3 * y2) * (1 - d * x2 * x3 * y2 * y3) * x1) *
      ((1 + d * x1 * x2 * y1 * y2) * (1 - d * x1 * x2 * y1 * y2) -
        d * (x1 * y2 + x2 * y1) * (y1 * y2 - a * x1 * x2) * x3 * y3) := by
  linear_combination
    (y1 * x2 * y2 ^ 4 * x3 * y3 ^ 2 * d - y1 * x2 ^ 2 * y2 ^ 3 * y3 * d + y1 * x2 ^ 2 * y2 ^ 3 * y3 ^ 3 * d +
      y1 * x2 ^ 3 * y2 ^ 2 * x3 * a * d - y1 * x2 ^ 3 * y2 ^ 2 * x3 ^ 3 * a ^ 2 * d - y1 * x2 ^ 3 * y2 ^ 4 * x3
      * y3 ^ 2 * d ^ 2 - y1 * x2 ^ 4 * y2 * x3 ^ 2 * y3 * a ^ 2 * d + y1 * x2 ^ 4 * y2 ^ 3 * x3 ^ 2 * y3 * a *
      d ^ 2 + x1 * x2 * y2 ^ 4 * x3 ^ 2 * y3 * a * d + x1 * x2 ^ 2 * y2 ^ 3 * x3 * a * d - x1 * x2 ^ 2 * y2 ^ 3
      * x3 ^ 3 * a ^ 2 * d + x1 * x2 ^ 3 * y2 ^ 2 * y3 * a * d - x1 * x2 ^ 3 * y2 ^ 2 * y3 ^ 3 * a * d - x1 *
      x2 ^ 3 * y2 ^ 4 * x3 ^ 2 * y3 * a * d ^ 2 + x1 * x2 ^ 4 * y2 * x3 * y3 ^ 2 * a ^ 2 * d - x1 * x2 ^ 4 * y2
      ^ 3 * x3 * y3 ^ 2 * a * d ^ 2) * e1 +
    (y1 * y2 * y3 - y1 * y2 * y3 ^ 3 - y1 * y2 * x3 ^ 2 * y3 * a + y1 * y2 * x3 ^ 2 * y3 ^ 3 * d - y1 * x2 *
      x3 * a + y1 * x2 * x3 * y3 ^ 2 * a + y1 * x2 * x3 ^ 3 * a ^ 2 - y1 * x2 * x3 ^ 3 * y3 ^ 2 * a * d + y1 *
      x2 * y2 ^ 2 * x3 * y3 ^ 2 * d - y1 * x2 ^ 2 * y2 * x3 ^ 2 * y3 * a * d - y1 ^ 3 * y2 * y3 + y1 ^ 3 * y2 *
      y3 ^ 3 + y1 ^ 3 * y2 * x3 ^ 2 * y3 * a - y1 ^ 3 * y2 * x3 ^ 2 * y3 ^ 3 * d + y1 ^ 3 * x2 * x3 * a - y1 ^
      3 * x2 * x3 * y3 ^ 2 * a - y1 ^ 3 * x2 * x3 ^ 3 * a ^ 2 + y1 ^ 3 * x2 * x3 ^ 3 * y3 ^ 2 * a * d - y1 ^ 3
      * x2 * y2 ^ 2 * x3 * y3 ^ 2 * d + y1 ^ 3 * x2 ^ 2 * y2 * x3 ^ 2 * y3 * a * d - x1 * y2 * x3 * a + x1 * y2
      * x3 * y3 ^ 2 * a + x1 * y2 * x3 ^ 3 * a ^ 2 - x1 * y2 * x3 ^ 3 * y3 ^ 2 * a * d - x1 * x2 * y3 * a + x1
      * x2 * y3 ^ 3 * a + x1 * x2 * x3 ^ 2 * y3 * a ^ 2 - x1 * x2 * x3 ^ 2 * y3 ^ 3 * a * d + x1 * x2 * y2 ^ 2
      * x3 ^ 2 * y3 * a * d + x1 * x2 ^ 2 * y2 * x3 * y3 ^ 2 * a * d + x1 * y1 ^ 2 * y2 * x3 * a - x1 * y1 ^ 2
      * y2 * x3 * y3 ^ 2 * a - x1 * y1 ^ 2 * y2 * x3 ^ 3 * a ^ 2 + x1 * y1 ^ 2 * y2 * x3 ^ 3 * y3 ^ 2 * a * d +
      x1 * y1 ^ 2 * x2 * y3 * a - x1 * y1 ^ 2 * x2 * y3 ^ 3 * a - x1 * y1 ^ 2 * x2 * x3 ^ 2 * y3 * a ^ 2 + x1 *
      y1 ^ 2 * x2 * x3 ^ 2 * y3 ^ 3 * a * d - x1 * y1 ^ 2 * x2 * y2 ^ 2 * x3 ^ 2 * y3 * a * d + x1 * y1 ^ 2 *
      x2 * y2 ^ 2 * x3 ^ 2 * y3 ^ 3 * d ^ 2 - x1 * y1 ^ 2 * x2 ^ 2 * y2 * x3 * y3 ^ 2 * a * d + x1 * y1 ^ 2 *
      x2 ^ 2 * y2 * x3 ^ 3 * y3 ^ 2 * a * d ^ 2 - x1 ^ 2 * y1 * y2 * y3 * a + x1 ^ 2 * y1 * y2 * y3 ^ 3 * a +
      x1 ^ 2 * y1 * y2 * x3 ^ 2 * y3 * a ^ 2 - x1 ^ 2 * y1 * y2 * x3 ^ 2 * y3 ^ 3 * a * d + x1 ^ 2 * y1 * x2 *
      x3 * a ^ 2 - x1 ^ 2 * y1 * x2 * x3 * y3 ^ 2 * a ^ 2 - x1 ^ 2 * y1 * x2 * x3 ^ 3 * a ^ 3 + x1 ^ 2 * y1 *
      x2 * x3 ^ 3 * y3 ^ 2 * a ^ 2 * d - x1 ^ 2 * y1 * x2 * y2 ^ 2 * x3 * y3 ^ 2 * a * d + x1 ^ 2 * y1 * x2 *
      y2 ^ 2 * x3 ^ 3 * y3 ^ 2 * a * d ^ 2 + x1 ^ 2 * y1 * x2 ^ 2 * y2 * x3 ^ 2 * y3 * a ^ 2 * d - x1 ^ 2 * y1
      * x2 ^ 2 * y2 * x3 ^ 2 * y3 ^ 3 * a * d ^ 2 + x1 ^ 3 * y2 * x3 * a ^ 2 - x1 ^ 3 * y2 * x3 * y3 ^ 2 * a ^
      2 - x1 ^ 3 * y2 * x3 ^ 3 * a ^ 3 + x1 ^ 3 * y2 * x3 ^ 3 * y3 ^ 2 * a ^ 2 * d + x1 ^ 3 * x2 * y3 * a ^ 2 -
      x1 ^ 3 * x2 * y3 ^ 3 * a ^ 2 - x1 ^ 3 * x2 * x3 ^ 2 * y3 * a ^ 3 + x1 ^ 3 * x2 * x3 ^ 2 * y3 ^ 3 * a ^ 2
      * d - x1 ^ 3 * x2 * y2 ^ 2 * x3 ^ 2 * y3 * a ^ 2 * d - x1 ^ 3 * x2 ^ 2 * y2 * x3 * y3 ^ 2 * a ^ 2 * d) * e2 +
    (0 - y1 * y2 * y3 + y1 * y2 ^ 3 * y3 + y1 * x2 * x3 * a - y1 * x2 * y2 ^ 2 * x3 * a + y1 * x2 ^ 2 * y2 *
      y3 * a - y1 * x2 ^ 3 * x3 * a ^ 2 + y1 ^ 3 * y2 * y3 - y1 ^ 3 * y2 ^ 3 * y3 - y1 ^ 3 * x2 * x3 * a + y1 ^
      3 * x2 * y2 ^ 2 * x3 * a - y1 ^ 3 * x2 ^ 2 * y2 * y3 * a + y1 ^ 3 * x2 ^ 3 * x3 * a ^ 2 + x1 * y2 * x3 *
      a - x1 * y2 ^ 3 * x3 * a + x1 * x2 * y3 * a - x1 * x2 * y2 ^ 2 * y3 * a - x1 * x2 ^ 2 * y2 * x3 * a ^ 2 -
      x1 * x2 ^ 3 * y3 * a ^ 2 - x1 * y1 ^ 2 * y2 * x3 * a + x1 * y1 ^ 2 * y2 ^ 3 * x3 * a - x1 * y1 ^ 2 * x2 *
      y3 * a - x1 * y1 ^ 2 * x2 * y2 ^ 2 * y3 * d + x1 * y1 ^ 2 * x2 * y2 ^ 2 * y3 * a - x1 * y1 ^ 2 * x2 ^ 2 *
      y2 * x3 * a * d + x1 * y1 ^ 2 * x2 ^ 2 * y2 * x3 * a ^ 2 + x1 * y1 ^ 2 * x2 ^ 3 * y3 * a ^ 2 + x1 ^ 2 *
      y1 * y2 * y3 * a - x1 ^ 2 * y1 * y2 ^ 3 * y3 * a - x1 ^ 2 * y1 * x2 * x3 * a ^ 2 - x1 ^ 2 * y1 * x2 * y2
      ^ 2 * x3 * a * d + x1 ^ 2 * y1 * x2 * y2 ^ 2 * x3 * a ^ 2 + x1 ^ 2 * y1 * x2 ^ 2 * y2 * y3 * a * d - x1 ^
      2 * y1 * x2 ^ 2 * y2 * y3 * a ^ 2 + x1 ^ 2 * y1 * x2 ^ 3 * x3 * a ^ 3 - x1 ^ 3 * y2 * x3 * a ^ 2 + x1 ^ 3
      * y2 ^ 3 * x3 * a ^ 2 - x1 ^ 3 * x2 * y3 * a ^ 2 + x1 ^ 3 * x2 * y2 ^ 2 * y3 * a ^ 2 + x1 ^ 3 * x2 ^ 2 *
      y2 * x3 * a ^ 3 + x1 ^ 3 * x2 ^ 3 * y3 * a ^ 3) * e3

/-- The sum is on the curve. -/
theorem edAdd_on {a d : F} {P Q : F × F} (hP : EdOn a d P) (hQ : EdOn a d Q) (h : EdDef d P Q) :
    EdOn a d (edAdd a d P Q) := by
  obtain ⟨x1, y1⟩ := P
  obtain ⟨x2, y2⟩ := Q
  unfold EdOn at *
  unfold edAdd
  obtain ⟨h1, h2⟩ := h
  unfold edZ at *
  simp only at *
  have key := ed_on_poly (a := a) (d := d) (x1 := x1) (y1 := y1) (x2 := x2) (y2 := y2)
    (by linear_combination hP) (by linear_combination hQ)
  generalize x1 * y2 + x2 * y1 = N at *
  generalize y1 * y2 - a * x1 * x2 = M at *
  generalize 1 + d * x1 * x2 * y1 * y2 = A at *
  generalize 1 - d * x1 * x2 * y1 * y2 = B at *
  field_simp
  linear_combination key

/-- Associativity, where everything is defined. -/
theorem edAdd_assoc {a d : F} {P Q R : F × F} (hP : EdOn a d P) (hQ : EdOn a d Q) (hR : EdOn a d R)
    (h1 : EdDef d P Q) (h2 : EdDef d Q R) (h3 : EdDef d (edAdd a d P Q) R) (h4 : EdDef d P (edAdd a d Q R)) :
    edAdd a d (edAdd a d P Q) R = edAdd a d P (edAdd a d Q R) := by
  obtain ⟨x1, y1⟩ := P
  obtain ⟨x2, y2⟩ := Q
  obtain ⟨x3, y3⟩ := R
  unfold EdOn at *
  have kx := ed_assoc_poly_x (a := a) (d := d) (x1 := x1) (y1 := y1) (x2 := x2) (y2 := y2) (x3 := x3) (y3 := y3)
    (by linear_combination hP) (by linear_combination hQ) (by linear_combination hR)
  have ky := ed_assoc_poly_y (a := a) (d := d) (x1 := x1) (y1 := y1) (x2 := x2) (y2 := y2) (x3 := x3) (y3 := y3)
    (by linear_combination hP) (by linear_combination hQ) (by linear_combination hR)
  unfold EdDef at *
  unfold edAdd edZ at *
  simp only at *
  obtain ⟨h1a, h1b⟩ := h1
  obtain ⟨h2a, h2b⟩ := h2
  obtain ⟨h3a, h3b⟩ := h3
  obtain ⟨h4a, h4b⟩ := h4
  generalize x1 * y2 + x2 * y1 = N at *
  generalize y1 * y2 - a * x1 * x2 = M at *
  generalize x2 * y3 + x3 * y2 = N' at *
  generalize y2 * y3 - a * x2 * x3 = M' at *
  generalize 1 + d * x1 * x2 * y1 * y2 = A at *
  generalize 1 - d * x1 * x2 * y1 * y2 = B at *
  generalize 1 + d * x2 * x3 * y2 * y3 = A' at *
  generalize 1 - d * x2 * x3 * y2 * y3 = B' at *
  rw [Prod.mk.injEq, div_eq_div_iff h3a h4a, div_eq_div_iff h3b h4b]
  constructor
  · field_simp
    linear_combination kx
  · field_simp
    linear_combination ky

/-! ## The group -/

/-- A set of points on which addition is defined and which is closed under addition and negation. -/
structure EdGroup (F : Type*) [Field F] where
  a : F
  d : F
  mem : F × F → Prop
  on : ∀ {P}, mem P → EdOn a d P
  zero : mem (0, 1)
  neg : ∀ {P}, mem P → mem (-P.1, P.2)
  add : ∀ {P Q}, mem P → mem Q → mem (edAdd a d P Q)
  defd : ∀ {P Q}, mem P → mem Q → EdDef d P Q

/-- the points of the group -/
def EdGroup.Pt (E : EdGroup F) : Type _ := {P : F × F // E.mem P}

namespace EdGroup

variable (E : EdGroup F)

instance : Zero E.Pt := ⟨⟨(0, 1), E.zero⟩⟩
instance : Neg E.Pt := ⟨fun P => ⟨(-P.1.1, P.1.2), E.neg P.2⟩⟩
instance : Add E.Pt := ⟨fun P Q => ⟨edAdd E.a E.d P.1 Q.1, E.add P.2 Q.2⟩⟩

theorem zero_val : (0 : E.Pt).1 = (0, 1) := rfl
theorem neg_val (P : E.Pt) : (-P).1 = (-P.1.1, P.1.2) := rfl
theorem add_val (P Q : E.Pt) : (P + Q).1 = edAdd E.a E.d P.1 Q.1 := rfl

instance : AddCommGroup E.Pt where
  add_assoc P Q R := Subtype.ext (edAdd_assoc (E.on P.2) (E.on Q.2) (E.on R.2) (E.defd P.2 Q.2) (E.defd Q.2 R.2)
    (E.defd (E.add P.2 Q.2) R.2) (E.defd P.2 (E.add Q.2 R.2)))
  zero_add P := Subtype.ext (by
    rw [add_val, zero_val]; unfold edAdd edZ; simp)
  add_zero P := Subtype.ext (by
    rw [add_val, zero_val]; unfold edAdd edZ; simp)
  nsmul := nsmulRec
  zsmul := zsmulRec
  neg_add_cancel P := Subtype.ext (by
    have h := E.on P.2
    have h2 := (E.defd (E.neg P.2) P.2).2
    rw [add_val, neg_val, zero_val]
    unfold EdOn at h
    unfold edAdd
    unfold edZ at *
    simp only at *
    rw [Prod.mk.injEq]
    refine ⟨?_, ?_⟩
    · rw [show -P.1.1 * P.1.2 + P.1.1 * P.1.2 = 0 by ring, zero_div]
    · rw [div_eq_one_iff_eq h2]
      linear_combination h)
  add_comm P Q := Subtype.ext (edAdd_comm _ _ _ _)

end EdGroup

/-! ## Complete curves -/

/-- With `a` a square and `d` not a square the addition formulas are defined for all points. -/
theorem edDef_complete {a d : F} (h2 : (2 : F) ≠ 0) (ha : IsSquare a) (hd : ¬ IsSquare d) {P Q : F × F}
    (hP : EdOn a d P) (hQ : EdOn a d Q) : EdDef d P Q := by
  obtain ⟨x1, y1⟩ := P
  obtain ⟨x2, y2⟩ := Q
  obtain ⟨s, rfl⟩ := ha
  unfold EdOn at *
  simp only at *
  have key : ∀ e : F, e * e = 1 → edZ d (x1, y1) (x2, y2) ≠ e := by
    intro e he hz
    unfold edZ at hz
    simp only at hz
    have hn : x1 * y1 ≠ 0 := by
      intro h0
      have : d * x1 * x2 * y1 * y2 = 0 := by linear_combination d * x2 * y2 * h0
      rw [this] at hz
      rw [← hz] at he
      simp at he
    have k : ∀ t : F, t * t = 1 → (s * x1 + t * e * y1) ^ 2 = d * (x1 * y1 * (s * x2 + t * y2)) ^ 2 := by
      intro t ht
      have h3 : d ^ 2 * x1 ^ 2 * x2 ^ 2 * y1 ^ 2 * y2 ^ 2 = 1 := by
        rw [← he, ← hz]; ring
      linear_combination hP - d * x1 ^ 2 * y1 ^ 2 * hQ - h3 + 2 * s * x1 * y1 * t * (-hz) +
        (y1 ^ 2 * e ^ 2 - d * x1 ^ 2 * y1 ^ 2 * y2 ^ 2) * ht + y1 ^ 2 * he
    have k' : ∀ t : F, t * t = 1 → s * x2 + t * y2 = 0 := by
      intro t ht
      by_contra hne
      apply hd
      have h5 : x1 * y1 * (s * x2 + t * y2) ≠ 0 := mul_ne_zero hn hne
      refine ⟨(s * x1 + t * e * y1) / (x1 * y1 * (s * x2 + t * y2)), ?_⟩
      rw [div_mul_div_comm, eq_div_iff (mul_ne_zero h5 h5)]
      linear_combination -(k t ht)
    have h7 := k' 1 (by ring)
    have h8 := k' (-1) (by ring)
    have h9 : 2 * y2 = 0 := by linear_combination h7 - h8
    have h10 : y2 = 0 := (mul_eq_zero.1 h9).resolve_left h2
    rw [h10] at hz
    rw [← hz] at he
    simp at he
  constructor
  · intro h
    exact key (-1) (by ring) (by linear_combination h)
  · intro h
    exact key 1 (by ring) (by linear_combination -h)

/-- all points of a complete curve -/
def EdGroup.complete (a d : F) (h2 : (2 : F) ≠ 0) (ha : IsSquare a) (hd : ¬ IsSquare d) : EdGroup F where
  a := a
  d := d
  mem := EdOn a d
  on h := h
  zero := by unfold EdOn; ring
  neg {P} h := by unfold EdOn at *; simpa using h
  add hP hQ := edAdd_on hP hQ (edDef_complete h2 ha hd hP hQ)
  defd hP hQ := edDef_complete h2 ha hd hP hQ

/-! ## Curves with `d` and `-a` not squares -/

/-- The points of the index two subgroup on which addition is defined. -/
def EdHalf (a d : F) (P : F × F) : Prop := EdOn a d P ∧ IsSquare (1 - d * P.1 ^ 2)

theorem half_ne {d : F} (hd : ¬ IsSquare d) (x : F) : 1 - d * x ^ 2 ≠ 0 := by
  intro h
  have hx : x ≠ 0 := by
    rintro rfl
    simp at h
  apply hd
  refine ⟨1 / x, ?_⟩
  field_simp
  linear_combination -h

theorem edDef_half {a d : F} (ha : ¬ IsSquare (-a)) (hd : ¬ IsSquare d) {P Q : F × F}
    (hP : EdHalf a d P) (hQ : EdHalf a d Q) : EdDef d P Q := by
  obtain ⟨x1, y1⟩ := P
  obtain ⟨x2, y2⟩ := Q
  obtain ⟨hP, s, hs⟩ := hP
  obtain ⟨hQ, t, ht⟩ := hQ
  unfold EdOn at *
  simp only at *
  have key : d ^ 2 * x1 ^ 2 * x2 ^ 2 * y1 ^ 2 * y2 ^ 2 ≠ 1 := by
    intro hz
    have hd0 : d ≠ 0 := by rintro rfl; simp at hz
    have hx1 : x1 ≠ 0 := by rintro rfl; simp at hz
    have hx2 : x2 ≠ 0 := by rintro rfl; simp at hz
    have hy1 : y1 ≠ 0 := by rintro rfl; simp at hz
    have n1 := half_ne hd x1
    have n2 := half_ne hd x2
    have f1 : y1 ^ 2 * (1 - d * x1 ^ 2) = 1 - a * x1 ^ 2 := by linear_combination hP
    have f2 : y2 ^ 2 * (1 - d * x2 ^ 2) = 1 - a * x2 ^ 2 := by linear_combination hQ
    have h1 : (a * d * x1 ^ 2 * x2 ^ 2 - 1) * (d * x2 ^ 2 * y1 ^ 2 - 1) = 0 := by
      have : (a * d * x1 ^ 2 * x2 ^ 2 - 1) * (d * x2 ^ 2 * (1 - a * x1 ^ 2) - (1 - d * x1 ^ 2)) = 0 := by
        have h2 : d ^ 2 * x1 ^ 2 * x2 ^ 2 * (1 - a * x1 ^ 2) * (1 - a * x2 ^ 2) =
            (1 - d * x1 ^ 2) * (1 - d * x2 ^ 2) := by
          rw [← f1, ← f2]
          linear_combination (1 - d * x1 ^ 2) * (1 - d * x2 ^ 2) * hz
        linear_combination -h2
      rw [← f1] at this
      have h3 : (1 - d * x1 ^ 2) * ((a * d * x1 ^ 2 * x2 ^ 2 - 1) * (d * x2 ^ 2 * y1 ^ 2 - 1)) = 0 := by
        linear_combination this
      exact (mul_eq_zero.1 h3).resolve_left n1
    rcases mul_eq_zero.1 h1 with h | h
    · apply ha
      have ht0 : t ≠ 0 := by rintro rfl; rw [mul_zero] at ht; exact n2 ht
      refine ⟨y1 * s / (x1 * t), ?_⟩
      field_simp
      have e1 : t ^ 2 = 1 - d * x2 ^ 2 := by linear_combination -ht
      have e2 : s ^ 2 = 1 - d * x1 ^ 2 := by linear_combination -hs
      rw [e1, e2]
      linear_combination -f1 + h
    · apply hd
      refine ⟨1 / (x2 * y1), ?_⟩
      field_simp
      linear_combination h
  constructor
  · intro h
    apply key
    unfold edZ at h
    simp only at h
    linear_combination (d * x1 * x2 * y1 * y2 - 1) * h
  · intro h
    apply key
    unfold edZ at h
    simp only at h
    linear_combination -(d * x1 * x2 * y1 * y2 + 1) * h

theorem edAdd_half {a d : F} (hd : ¬ IsSquare d) {P Q : F × F} (h : EdDef d P Q)
    (hP : EdHalf a d P) (hQ : EdHalf a d Q) : EdHalf a d (edAdd a d P Q) := by
  refine ⟨edAdd_on hP.1 hQ.1 h, ?_⟩
  obtain ⟨x1, y1⟩ := P
  obtain ⟨x2, y2⟩ := Q
  obtain ⟨hP, s, hs⟩ := hP
  obtain ⟨hQ, t, ht⟩ := hQ
  obtain ⟨h1, -⟩ := h
  unfold EdOn at *
  unfold edAdd
  unfold edZ at *
  simp only at *
  have n1 := half_ne hd x1
  have n2 := half_ne hd x2
  have hs0 : s ≠ 0 := by rintro rfl; rw [mul_zero] at hs; exact n1 hs
  have ht0 : t ≠ 0 := by rintro rfl; rw [mul_zero] at ht; exact n2 ht
  have f1 : y1 ^ 2 * (1 - d * x1 ^ 2) = 1 - a * x1 ^ 2 := by linear_combination hP
  have f2 : y2 ^ 2 * (1 - d * x2 ^ 2) = 1 - a * x2 ^ 2 := by linear_combination hQ
  refine ⟨(1 - d * x1 ^ 2 - d * x2 ^ 2 + a * d * x1 ^ 2 * x2 ^ 2) / (s * t * (1 + d * x1 * x2 * y1 * y2)), ?_⟩
  have e1 : t ^ 2 = 1 - d * x2 ^ 2 := by linear_combination -ht
  have e2 : s ^ 2 = 1 - d * x1 ^ 2 := by linear_combination -hs
  have k1 : (1 - d * x1 ^ 2 * y2 ^ 2) * (1 - d * x2 ^ 2) = 1 - d * x1 ^ 2 - d * x2 ^ 2 + a * d * x1 ^ 2 * x2 ^ 2 := by
    linear_combination -d * x1 ^ 2 * f2
  have k2 : (1 - d * x2 ^ 2 * y1 ^ 2) * (1 - d * x1 ^ 2) = 1 - d * x1 ^ 2 - d * x2 ^ 2 + a * d * x1 ^ 2 * x2 ^ 2 := by
    linear_combination -d * x2 ^ 2 * f1
  have k3 : s ^ 2 * t ^ 2 * ((1 + d * x1 * x2 * y1 * y2) ^ 2 - d * (x1 * y2 + x2 * y1) ^ 2) =
      (1 - d * x1 ^ 2 - d * x2 ^ 2 + a * d * x1 ^ 2 * x2 ^ 2) ^ 2 := by
    rw [e1, e2]
    linear_combination ((1 - d * x2 ^ 2 * y1 ^ 2) * (1 - d * x1 ^ 2)) * k1 +
      (1 - d * x1 ^ 2 - d * x2 ^ 2 + a * d * x1 ^ 2 * x2 ^ 2) * k2
  generalize 1 + d * x1 * x2 * y1 * y2 = A at *
  generalize x1 * y2 + x2 * y1 = N at *
  generalize 1 - d * x1 ^ 2 - d * x2 ^ 2 + a * d * x1 ^ 2 * x2 ^ 2 = M at *
  field_simp
  linear_combination k3

/-- the index two subgroup -/
def EdGroup.half (a d : F) (ha : ¬ IsSquare (-a)) (hd : ¬ IsSquare d) : EdGroup F where
  a := a
  d := d
  mem := EdHalf a d
  on h := h.1
  zero := ⟨by unfold EdOn; ring, ⟨1, by ring⟩⟩
  neg {P} h := ⟨by have := h.1; unfold EdOn at *; simpa using this, by simpa using h.2⟩
  add hP hQ := edAdd_half hd (edDef_half ha hd hP hQ) hP hQ
  defd hP hQ := edDef_half ha hd hP hQ

end Verif
