import Verif.Props.EmulatedSw
import Mathlib.AlgebraicGeometry.EllipticCurve.Affine.Point
import Mathlib.Tactic.FieldSimp
import Mathlib.Tactic.LinearCombination

/-!
# The emulated short Weierstrass addition and the group law (property C36)

The group is Mathlib's group of points of the curve `y² = x³ + a x + b` over the field with `q` elements.

* `swRel_accepts`: if multiplication and addition are exact, then what the gate says is `Accepts`.
* `accepts_swRel`: if multiplication and addition allow the right results, everything in `Accepts` is allowed.
* `Accepts` is not the graph of the addition: for `Q = -P` it allows every finite point other than `P` and `Q`, and
  not the point at infinity.
-/

set_option linter.unusedSectionVars false

namespace Verif.Props.Emulated

open Verif.Circuit Verif.Props.Circuit WeierstrassCurve.Affine

variable {q : ℕ} [hq : Fact q.Prime]

/-- the curve `y² = x³ + a x + b` over the field with `q` elements -/
def curve (q : ℕ) (a b : ZMod q) : WeierstrassCurve.Affine (ZMod q) := ⟨0, 0, 0, a, b⟩

/-- how the crate represents a point -/
def enc {a b : ZMod q} : (curve q a b).Point → SwPoint
  | .zero => ⟨0, 0, true⟩
  | .some x y _ => ⟨x.val, y.val, false⟩

variable {a b : ZMod q}

@[simp] theorem enc_zero : enc (0 : (curve q a b).Point) = ⟨0, 0, true⟩ := rfl

@[simp] theorem enc_some {x y : ZMod q} (h : (curve q a b).Nonsingular x y) :
    enc (Point.some x y h) = ⟨x.val, y.val, false⟩ := rfl

theorem enc_inf (P : (curve q a b).Point) : (enc P).inf = true ↔ P = 0 := by
  cases P with
  | zero => simp [enc, Point.zero_def]
  | some x y h => simp [Point.some_ne_zero]

theorem enc_inj {P Q : (curve q a b).Point} : enc P = enc Q ↔ P = Q := by
  cases P with
  | zero => cases Q <;> simp [enc]
  | some x y h =>
    cases Q with
    | zero => simp [enc]
    | some x' y' h' => simp [(ZMod.val_injective q).eq_iff]

/-! ## The equations of the gate in the field -/

/-- the two equations of the doubling part -/
def DoubleEq (a x0 y0 x1 x2 y2 : ZMod q) : Prop :=
  (x2 + (x0 + x1)) * (y0 + y0) * (y0 + y0) = (x0 * x0 * 3 + a) * (x0 * x0 * 3 + a) ∧
  (y2 + y0) * (y0 + y0) = (x0 * x0 * 3 + a) * (x0 - x2)

/-- the two equations of the chord part -/
def ChordEq (x0 y0 x1 y1 x2 y2 : ZMod q) : Prop :=
  (x0 - x1) * (x0 - x1) * (x2 + (x0 + x1)) = (y0 - y1) * (y0 - y1) ∧
  (x0 - x2) * (y0 - y1) = (y0 + y2) * (x0 - x1)

theorem negY_curve (x y : ZMod q) : (curve q a b).negY x y = -y := by simp [negY, curve]

theorem on_curve {x y : ZMod q} (h : (curve q a b).Nonsingular x y) : y ^ 2 = x ^ 3 + a * x + b := by
  have := ((curve q a b).equation_iff x y).1 h.1
  simpa [curve] using this

/-- points with the same first coordinate are equal or opposite -/
theorem same_x {x0 y0 y1 : ZMod q} (h0 : (curve q a b).Nonsingular x0 y0) (h1 : (curve q a b).Nonsingular x0 y1) :
    y0 = y1 ∨ y0 = -y1 := by
  have e0 := on_curve h0
  have e1 := on_curve h1
  have : (y0 - y1) * (y0 + y1) = 0 := by linear_combination e0 - e1
  rcases mul_eq_zero.1 this with h | h
  · exact Or.inl (by linear_combination h)
  · exact Or.inr (by linear_combination h)

theorem sum_opposite {x0 y0 y1 : ZMod q} (h0 : (curve q a b).Nonsingular x0 y0)
    (h1 : (curve q a b).Nonsingular x0 y1) (h : y0 = -y1) :
    Point.some x0 y0 h0 + Point.some x0 y1 h1 = 0 := Point.add_of_Y_eq rfl (by rw [negY_curve, h])

theorem sum_double {x0 y0 : ZMod q} (h0 : (curve q a b).Nonsingular x0 y0) (h : y0 ≠ -y0) :
    ∃ x y, ∃ hn, Point.some x0 y0 h0 + Point.some x0 y0 h0 = Point.some x y hn ∧
      (∀ s, s = (x0 * x0 * 3 + a) * (y0 + y0)⁻¹ → x = s * s - x0 - x0 ∧ y = s * (x0 - x) - y0) ∧
      ∀ x2 y2, DoubleEq a x0 y0 x0 x2 y2 ↔ x2 = x ∧ y2 = y := by
  have hy : y0 ≠ (curve q a b).negY x0 y0 := by rw [negY_curve]; exact h
  have hd : y0 + y0 ≠ 0 := fun e => h (by linear_combination e)
  have hs : (curve q a b).slope x0 x0 y0 y0 = (x0 * x0 * 3 + a) * (y0 + y0)⁻¹ := by
    rw [slope_of_Y_ne rfl hy, negY_curve, div_eq_mul_inv, sub_neg_eq_add]
    congr 1
    simp [curve]
    ring
  refine ⟨_, _, _, Point.add_self_of_Y_ne hy, ?_, ?_⟩
  · rintro s rfl
    rw [hs]
    constructor
    · simp [curve]; ring
    · rw [addY, negY_curve]; simp [curve]; ring
  · intro x2 y2
    rw [hs]
    generalize hl : (x0 * x0 * 3 + a) * (y0 + y0)⁻¹ = l
    have hl' : x0 * x0 * 3 + a = l * (y0 + y0) := by rw [← hl, inv_mul_cancel_right₀ hd]
    have ex : (curve q a b).addX x0 x0 l = l * l - x0 - x0 := by simp [curve]; ring
    have ey : (curve q a b).addY x0 x0 y0 l = l * (x0 - (l * l - x0 - x0)) - y0 := by
      rw [addY, negY_curve, negAddY, ex]; ring
    rw [ex, ey]
    unfold DoubleEq
    rw [hl']
    constructor
    · rintro ⟨e1, e2⟩
      have hx : x2 = l * l - x0 - x0 := by
        have : (x2 - (l * l - x0 - x0)) * ((y0 + y0) * (y0 + y0)) = 0 := by linear_combination e1
        rcases mul_eq_zero.1 this with h | h
        · linear_combination h
        · exact absurd h (mul_ne_zero hd hd)
      refine ⟨hx, ?_⟩
      have : (y2 - (l * (x0 - x2) - y0)) * (y0 + y0) = 0 := by linear_combination e2
      rcases mul_eq_zero.1 this with h | h
      · rw [← hx]; linear_combination h
      · exact absurd h hd
    · rintro ⟨rfl, rfl⟩
      constructor <;> ring

theorem sum_chord {x0 y0 x1 y1 : ZMod q} (h0 : (curve q a b).Nonsingular x0 y0)
    (h1 : (curve q a b).Nonsingular x1 y1) (h : x0 ≠ x1) :
    ∃ x y, ∃ hn, Point.some x0 y0 h0 + Point.some x1 y1 h1 = Point.some x y hn ∧
      (∀ s, s = (y0 - y1) * (x0 - x1)⁻¹ → x = s * s - x0 - x1 ∧ y = s * (x0 - x) - y0) ∧
      ∀ x2 y2, ChordEq x0 y0 x1 y1 x2 y2 ↔ x2 = x ∧ y2 = y := by
  have hd : x0 - x1 ≠ 0 := sub_ne_zero.2 h
  have hs : (curve q a b).slope x0 x1 y0 y1 = (y0 - y1) * (x0 - x1)⁻¹ := by
    rw [slope_of_X_ne h, div_eq_mul_inv]
  refine ⟨_, _, _, Point.add_of_X_ne h, ?_, ?_⟩
  · rintro s rfl
    rw [hs]
    constructor
    · simp [curve]; ring
    · rw [addY, negY_curve]; simp [curve]; ring
  · intro x2 y2
    rw [hs]
    generalize hl : (y0 - y1) * (x0 - x1)⁻¹ = l
    have hl' : y0 - y1 = l * (x0 - x1) := by rw [← hl]; field_simp
    have ex : (curve q a b).addX x0 x1 l = l * l - x0 - x1 := by simp [curve]; ring
    have ey : (curve q a b).addY x0 x1 y0 l = l * (x0 - (l * l - x0 - x1)) - y0 := by
      rw [addY, negY_curve, negAddY, ex]; ring
    rw [ex, ey]
    unfold ChordEq
    rw [hl']
    constructor
    · rintro ⟨e1, e2⟩
      have hx : x2 = l * l - x0 - x1 := by
        have : (x2 - (l * l - x0 - x1)) * ((x0 - x1) * (x0 - x1)) = 0 := by linear_combination e1
        rcases mul_eq_zero.1 this with h | h
        · linear_combination h
        · exact absurd h (mul_ne_zero hd hd)
      refine ⟨hx, ?_⟩
      have : (y2 - (l * (x0 - x2) - y0)) * (x0 - x1) = 0 := by linear_combination -e2
      rcases mul_eq_zero.1 this with h | h
      · rw [← hx]; linear_combination h
      · exact absurd h hd
    · rintro ⟨rfl, rfl⟩
      constructor <;> ring

/-- **C36, stored witness**: the point that `emulated_sw_ecc_add` computes is the sum in the group. -/
theorem C36_sum (h2 : q ≠ 2) (P Q : (curve q a b).Point) : swSum q a.val (enc P) (enc Q) = enc (P + Q) := by
  have two : (2 : ZMod q) ≠ 0 := by
    intro h
    have h3 : ((2 : ℕ) : ZMod q) = 0 := by exact_mod_cast h
    rw [ZMod.natCast_eq_zero_iff] at h3
    exact h2 ((Nat.prime_dvd_prime_iff_eq hq.out Nat.prime_two).1 h3)
  cases P with
  | zero => rw [← Point.zero_def, zero_add]; simp [swSum]
  | some x0 y0 h0 =>
    cases Q with
    | zero => rw [← Point.zero_def, add_zero]; simp [swSum]
    | some x1 y1 h1 =>
      simp only [enc_some, swSum, Bool.false_eq_true, if_false, (ZMod.val_injective q).eq_iff,
        ZMod.natCast_zmod_val, ZMod.val_eq_zero]
      by_cases hx : x0 = x1
      · subst hx
        by_cases hy : y0 = y1
        · subst hy
          by_cases hz : y0 = 0
          · rw [sum_opposite h0 h1 (by rw [hz]; simp)]
            simp [hz]
          · have hn : y0 ≠ -y0 := by
              intro e
              have : (2 : ZMod q) * y0 = 0 := by linear_combination e
              rcases mul_eq_zero.1 this with h | h
              · exact two h
              · exact hz h
            obtain ⟨x, y, hn', e, hs, -⟩ := sum_double h0 hn
            obtain ⟨rfl, rfl⟩ := hs _ rfl
            rw [e]
            simp [hz]
        · have : y0 = -y1 := (same_x h0 h1).resolve_left hy
          rw [sum_opposite h0 h1 this]
          simp [hy]
      · obtain ⟨x, y, hn', e, hs, -⟩ := sum_chord h0 h1 hx
        obtain ⟨rfl, rfl⟩ := hs _ rfl
        rw [e]
        simp [hx]

/-! ## Meanings of multiplication and addition -/

/-- results are right modulo `q` -/
structure Exact (q : ℕ) (mul add : ℕ → ℕ → ℕ → Prop) : Prop where
  mul : ∀ x y z, mul x y z → (z : ZMod q) = x * y
  add : ∀ x y z, add x y z → (x + y : ZMod q) = z

/-- the right results are possible -/
structure Honest (q N : ℕ) (mul add : ℕ → ℕ → ℕ → Prop) : Prop where
  mul : ∀ u v : ZMod q, mul u.val v.val (u * v).val
  add : ∀ u v : ZMod q, add u.val v.val (u + v).val
  le : q ≤ N

/-- The multiplication and addition of the crate allow the right results. -/
theorem honest_gates {p : ℕ} [hp : Fact p.Prime] {E : Emu} (hE : E.OK p) [Fact E.q.Prime] :
    Honest E.q (2 ^ E.T) (MulRel p E) (AddRel E) := by
  refine ⟨?_, ?_, hE.hqT.le⟩
  · intro u v
    refine ⟨u.val * v.val / E.q, ?_, ?_⟩
    · have h1 : u.val * v.val / E.q ≤ u.val := by
        apply Nat.div_le_of_le_mul
        rw [Nat.mul_comm]
        exact Nat.mul_le_mul_right _ (ZMod.val_lt v).le
      exact h1.trans_lt ((ZMod.val_lt u).trans hE.hqT)
    · rw [ZMod.val_mul, Nat.mul_comm _ E.q, Nat.div_add_mod]
  · intro u v
    unfold AddRel
    rw [ZMod.val_add]
    have hu := ZMod.val_lt u
    have hv := ZMod.val_lt v
    by_cases h : u.val + v.val < E.q
    · left; rw [Nat.mod_eq_of_lt h]
    · right
      rw [Nat.mod_eq_sub_mod (by omega), Nat.mod_eq_of_lt (by omega)]
      rw [Nat.add_sub_cancel' (by omega)]

variable {N : ℕ} {mul add : ℕ → ℕ → ℕ → Prop}

theorem Exact.double (h : Exact q mul add) {k : ℕ} {x0 y0 x1 x2 y2 d x012 x02 : ℕ}
    (hr : DoubleRel N mul add k (3 % q) x0 y0 x1 x2 y2 d x012 x02) :
    (x012 : ZMod q) = x2 + (x0 + x1) ∧ (x02 : ZMod q) = x0 - x2 ∧
      (d = 1 → DoubleEq (q := q) k x0 y0 x1 x2 y2) := by
  obtain ⟨yy, -, e1, xs, -, e2, -, e3, lh1, -, e4, lh2, -, e5, q1, -, e6, q2, -, e7, q3, -, e8, rh1, -, e9, lh3, -,
    e10, rh2, -, e11, rfl, ys, -, e12, lh4, -, e13, -, e14, rh3, -, e15, lh5, -, e16, rh4, -, e17, rfl⟩ := hr
  have f1 := h.add _ _ _ e1
  have f2 := h.add _ _ _ e2
  have f3 := h.add _ _ _ e3
  have f8 := h.add _ _ _ e8
  have f12 := h.add _ _ _ e12
  have f14 := h.add _ _ _ e14
  have f4 := h.mul _ _ _ e4
  have f5 := h.mul _ _ _ e5
  have f6 := h.mul _ _ _ e6
  have f7 := h.mul _ _ _ e7
  have f9 := h.mul _ _ _ e9
  have f10 := h.mul _ _ _ e10
  have f11 := h.mul _ _ _ e11
  have f13 := h.mul _ _ _ e13
  have f15 := h.mul _ _ _ e15
  have f16 := h.mul _ _ _ e16
  have f17 := h.mul _ _ _ e17
  have k3 : ((3 % q : ℕ) : ZMod q) = 3 := by rw [ZMod.natCast_mod]; rfl
  rw [k3] at f7
  refine ⟨by rw [← f3, ← f2], by linear_combination f14, ?_⟩
  rintro rfl
  simp only [Nat.cast_one, mul_one] at f10 f11 f16 f17
  constructor
  · have : (lh2 : ZMod q) = rh1 := f10.symm.trans f11
    rw [f5, f4, f9, ← f8, f7, f6, ← f3, ← f2, ← f1] at this
    exact this
  · have : (lh4 : ZMod q) = rh3 := f16.symm.trans f17
    rw [f13, f15, ← f8, f7, f6, ← f12, ← f1] at this
    rw [this]
    linear_combination (x0 * x0 * 3 + k : ZMod q) * f14

theorem Exact.chord (h : Exact q mul add) {x0 y0 x1 y1 x2 y2 d x012 x02 : ℕ}
    (e012 : (x012 : ZMod q) = x2 + (x0 + x1)) (e02 : (x02 : ZMod q) = x0 - x2)
    (hr : ChordRel N mul add x0 y0 x1 y1 y2 x012 x02 d) : d = 1 → ChordEq (q := q) x0 y0 x1 y1 x2 y2 := by
  obtain ⟨dx, -, e1, lh1, -, e2, lh2, -, e3, dy, -, e4, rh1, -, e5, lh3, -, e6, rh2, -, e7, rfl, lh4, -, e8, ys, -, e9,
    rh3, -, e10, lh5, -, e11, rh4, -, e12, rfl⟩ := hr
  have f1 := h.add _ _ _ e1
  have f4 := h.add _ _ _ e4
  have f9 := h.add _ _ _ e9
  have f2 := h.mul _ _ _ e2
  have f3 := h.mul _ _ _ e3
  have f5 := h.mul _ _ _ e5
  have f6 := h.mul _ _ _ e6
  have f7 := h.mul _ _ _ e7
  have f8 := h.mul _ _ _ e8
  have f10 := h.mul _ _ _ e10
  have f11 := h.mul _ _ _ e11
  have f12 := h.mul _ _ _ e12
  have g1 : (x0 - x1 : ZMod q) = dx := by linear_combination -f1
  have g4 : (y0 - y1 : ZMod q) = dy := by linear_combination -f4
  rintro rfl
  simp only [Nat.cast_one, mul_one] at f6 f7 f11 f12
  unfold ChordEq
  rw [g1, g4, ← e012, ← e02, f9]
  constructor
  · have : (lh2 : ZMod q) = rh1 := f6.symm.trans f7
    rw [f3, f2, f5] at this
    exact this
  · have : (lh4 : ZMod q) = rh3 := f11.symm.trans f12
    rw [f8, f10] at this
    exact this

/-- a coefficient is 0 or 1 -/
theorem val_ite (A : Prop) [Decidable A] : (if A then 1 else 0 : ℕ) = (if A then 1 else 0 : ZMod q).val := by
  split
  · rw [ZMod.val_one]
  · simp

theorem Honest.double (h : Honest q N mul add) {a x0 y0 x1 x2 y2 : ZMod q} {A : Prop} [Decidable A]
    (hr : A → DoubleEq a x0 y0 x1 x2 y2) :
    DoubleRel N mul add a.val (3 % q) x0.val y0.val x1.val x2.val y2.val (if A then 1 else 0) (x2 + (x0 + x1)).val
      (x0 - x2).val := by
  have hl (x : ZMod q) : x.val < N := (ZMod.val_lt x).trans_le h.le
  have k3 : 3 % q = (3 : ZMod q).val := (ZMod.val_natCast q 3).symm
  rw [val_ite (q := q), k3]
  refine ⟨_, hl _, h.add _ _, _, hl _, h.add _ _, hl _, h.add _ _, _, hl _, h.mul _ _, _, hl _, h.mul _ _, _, hl _,
    h.mul _ _, _, hl _, h.mul _ _, _, hl _, h.add _ _, _, hl _, h.mul _ _, _, hl _, h.mul _ _, _, hl _, h.mul _ _, ?_,
    _, hl _, h.add _ _, _, hl _, h.mul _ _, hl _, ?_, _, hl _, h.mul _ _, _, hl _, h.mul _ _, _, hl _, h.mul _ _, ?_⟩
  · split
    next hA => rw [(hr hA).1]
    next => simp
  · have := h.add (x0 - x2) x2
    rwa [sub_add_cancel] at this
  · split
    next hA => rw [(hr hA).2]
    next => simp

theorem Honest.chord (h : Honest q N mul add) {x0 y0 x1 y1 x2 y2 : ZMod q} {A : Prop} [Decidable A]
    (hr : A → ChordEq x0 y0 x1 y1 x2 y2) :
    ChordRel N mul add x0.val y0.val x1.val y1.val y2.val (x2 + (x0 + x1)).val (x0 - x2).val (if A then 1 else 0) := by
  have hl (x : ZMod q) : x.val < N := (ZMod.val_lt x).trans_le h.le
  have hs (x y : ZMod q) : add (x - y).val y.val x.val := by
    have := h.add (x - y) y
    rwa [sub_add_cancel] at this
  rw [val_ite (q := q)]
  refine ⟨_, hl _, hs _ _, _, hl _, h.mul _ _, _, hl _, h.mul _ _, _, hl _, hs _ _, _, hl _, h.mul _ _, _, hl _,
    h.mul _ _, _, hl _, h.mul _ _, ?_, _, hl _, h.mul _ _, _, hl _, h.add _ _, _, hl _, h.mul _ _, _, hl _, h.mul _ _,
    _, hl _, h.mul _ _, ?_⟩
  · split
    next hA => rw [(hr hA).1]
    next => simp
  · split
    next hA => rw [(hr hA).2]
    next => simp

/-! ## What the gate accepts -/

/-- What the addition gate accepts as the sum of `P` and `Q`, for exact arithmetic: if one of them is zero, the
other; otherwise a point different from both whose coordinates are those of `P + Q`, whatever its infinity mark; for
`P + Q = 0` every finite point. -/
def Accepts (P Q : (curve q a b).Point) (R : SwPoint) : Prop :=
  (P = 0 ↔ enc Q = R) ∧ (Q = 0 ↔ enc P = R) ∧
  (P ≠ 0 → Q ≠ 0 → if P + Q = 0 then R.inf = false
    else ∃ x y h, P + Q = Point.some x y h ∧ (R.x : ZMod q) = x ∧ (R.y : ZMod q) = y)

theorem two_ne (h2 : q ≠ 2) : (2 : ZMod q) ≠ 0 := by
  intro h
  have h3 : ((2 : ℕ) : ZMod q) = 0 := by exact_mod_cast h
  rw [ZMod.natCast_eq_zero_iff] at h3
  exact h2 ((Nat.prime_dvd_prime_iff_eq hq.out Nat.prime_two).1 h3)

theorem ne_neg (h2 : q ≠ 2) {y : ZMod q} (hy : y ≠ 0) : y ≠ -y := by
  intro e
  have : (2 : ZMod q) * y = 0 := by linear_combination e
  rcases mul_eq_zero.1 this with h | h
  · exact two_ne h2 h
  · exact hy h

theorem swRel_accepts (h2 : q ≠ 2) (h : Exact q mul add) (P Q : (curve q a b).Point) (R : SwPoint)
    (hr : SwRel N mul add a.val (3 % q) (enc P) (enc Q) R) : Accepts P Q R := by
  obtain ⟨g1, g2, g3, x012, x02, hd, hch⟩ := hr
  rw [enc_inf] at g1 g2
  refine ⟨g1, g2, ?_⟩
  intro nP nQ
  cases P with
  | zero => exact absurd rfl nP
  | some x0 y0 h0 =>
  cases Q with
  | zero => exact absurd rfl nQ
  | some x1 y1 h1 =>
  simp only [enc_some, Bool.false_eq_true, (ZMod.val_injective q).eq_iff, ne_eq, ZMod.val_eq_zero, true_and,
    false_or] at g3 hd hch
  obtain ⟨d1, d2, d3⟩ := h.double hd
  have d4 := h.chord (q := q) d1 d2 hch
  simp only [ZMod.natCast_zmod_val] at d3 d4
  by_cases hx : x0 = x1
  · subst hx
    by_cases hy : y0 = y1 ∧ y0 ≠ 0
    · obtain ⟨rfl, hz⟩ := hy
      obtain ⟨x, y, hn, e, -, hs⟩ := sum_double h0 (ne_neg h2 hz)
      have := (hs _ _).1 (d3 (by simp [hz]))
      rw [e, if_neg (Point.some_ne_zero _)]
      exact ⟨x, y, hn, rfl, this⟩
    · have hop : y0 = -y1 := by
        by_cases e : y0 = y1
        · have : y0 = 0 := by
            by_contra hz
            exact hy ⟨e, hz⟩
          rw [← e, this, neg_zero]
        · exact (same_x h0 h1).resolve_left e
      rw [sum_opposite h0 h1 hop, if_pos rfl]
      rcases g3 with g | g | g
      · exact g
      · exact absurd rfl g
      · exact absurd g hy
  · obtain ⟨x, y, hn, e, -, hs⟩ := sum_chord h0 h1 hx
    have := (hs _ _).1 (d4 (by simp [hx]))
    rw [e, if_neg (Point.some_ne_zero _)]
    exact ⟨x, y, hn, rfl, this⟩

theorem accepts_swRel (h2 : q ≠ 2) (h : Honest q N mul add) (P Q : (curve q a b).Point) (x2 y2 : ZMod q) (i : Bool)
    (hr : Accepts P Q ⟨x2.val, y2.val, i⟩) : SwRel N mul add a.val (3 % q) (enc P) (enc Q) ⟨x2.val, y2.val, i⟩ := by
  obtain ⟨g1, g2, g3⟩ := hr
  refine ⟨by rw [enc_inf]; exact g1, by rw [enc_inf]; exact g2, ?_⟩
  cases P with
  | zero =>
    cases Q with
    | zero =>
      have hD := Honest.double h (a := a) (x0 := 0) (y0 := 0) (x1 := 0) (x2 := x2) (y2 := y2) (A := False) (by simp)
      have hC := Honest.chord h (x0 := 0) (y0 := 0) (x1 := 0) (y1 := 0) (x2 := x2) (y2 := y2) (A := False) (by simp)
      rw [ZMod.val_zero, if_neg (by simp)] at hD hC
      exact ⟨Or.inl rfl, _, _, by simpa [enc] using hD, by simpa [enc] using hC⟩
    | some x1 y1 h1 =>
      have hD := Honest.double h (a := a) (x0 := 0) (y0 := 0) (x1 := x1) (x2 := x2) (y2 := y2) (A := False) (by simp)
      have hC := Honest.chord h (x0 := 0) (y0 := 0) (x1 := x1) (y1 := y1) (x2 := x2) (y2 := y2) (A := False) (by simp)
      rw [ZMod.val_zero, if_neg (by simp)] at hD hC
      exact ⟨Or.inl rfl, _, _, by simpa [enc] using hD, by simpa [enc] using hC⟩
  | some x0 y0 h0 =>
    cases Q with
    | zero =>
      have hD := Honest.double h (a := a) (x0 := x0) (y0 := y0) (x1 := 0) (x2 := x2) (y2 := y2) (A := False) (by simp)
      have hC := Honest.chord h (x0 := x0) (y0 := y0) (x1 := 0) (y1 := 0) (x2 := x2) (y2 := y2) (A := False) (by simp)
      rw [ZMod.val_zero, if_neg (by simp)] at hD hC
      exact ⟨Or.inr (Or.inl rfl), _, _, by simpa [enc] using hD, by simpa [enc] using hC⟩
    | some x1 y1 h1 =>
      have g3 := g3 (Point.some_ne_zero _) (Point.some_ne_zero _)
      simp only [ZMod.natCast_zmod_val] at g3
      simp only [enc_some, Bool.false_eq_true, (ZMod.val_injective q).eq_iff, ne_eq, ZMod.val_eq_zero, true_and,
        false_or]
      by_cases hx : x0 = x1
      · subst hx
        by_cases hy : y0 = y1 ∧ y0 ≠ 0
        · obtain ⟨rfl, hz⟩ := hy
          obtain ⟨x, y, hn, e, -, hs⟩ := sum_double h0 (ne_neg h2 hz)
          rw [e, if_neg (Point.some_ne_zero _)] at g3
          obtain ⟨x', y', h', e', rfl, rfl⟩ := g3
          cases e'
          have hE := (hs _ _).2 ⟨rfl, rfl⟩
          exact ⟨Or.inr (Or.inr ⟨rfl, hz⟩), _, _, Honest.double h (fun _ => hE), Honest.chord h (fun hA => by simp at hA)⟩
        · have hop : y0 = -y1 := by
            by_cases e : y0 = y1
            · have : y0 = 0 := by
                by_contra hz
                exact hy ⟨e, hz⟩
              rw [← e, this, neg_zero]
            · exact (same_x h0 h1).resolve_left e
          rw [sum_opposite h0 h1 hop, if_pos rfl] at g3
          exact ⟨Or.inl g3, _, _, Honest.double h (fun hA => absurd hA.2 hy), Honest.chord h (fun hA => by simp at hA)⟩
      · obtain ⟨x, y, hn, e, -, hs⟩ := sum_chord h0 h1 hx
        rw [e, if_neg (Point.some_ne_zero _)] at g3
        obtain ⟨x', y', h', e', rfl, rfl⟩ := g3
        cases e'
        have hE := (hs _ _).2 ⟨rfl, rfl⟩
        exact ⟨Or.inr (Or.inl hx), _, _, Honest.double h (fun hA => absurd hA.1 hx), Honest.chord h (fun _ => hE)⟩

end Verif.Props.Emulated
