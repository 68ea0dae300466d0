import Verif.Sig.HashToCurve
import Mathlib.Algebra.Field.ZMod
import Mathlib.Tactic.LinearCombination
import Mathlib.Tactic.NormNum.Prime

/-! # C60: the try-and-increment hash lands on the curve -/

namespace Verif.Props.HashToCurve

open Verif.HashToCurve Verif.Conv

variable {p : ℕ}

/-- the point `(x, y)` satisfies `y² = x³ + 3` -/
def OnCurve (x y : ZMod p) : Prop := y ^ 2 = x ^ 3 + 3

theorem findX_spec (isQnr : ZMod p → Bool) (n : ℕ) (x : ZMod p) :
    (∀ x', findX isQnr n x = some x' ↔
      ∃ k < n, x' = x + (k : ZMod p) ∧ isQnr (curveY x') = false ∧
        ∀ j < k, isQnr (curveY (x + (j : ZMod p))) = true) := by
  induction n generalizing x with
  | zero => intro x'; simp [findX]
  | succ n ih =>
    intro x'
    simp only [findX]
    by_cases hq : isQnr (curveY x) = true
    · rw [if_pos hq, ih]
      constructor
      · rintro ⟨k, hk, rfl, h1, h2⟩
        refine ⟨k + 1, by omega, by push_cast; ring, h1, ?_⟩
        intro j hj
        match j with
        | 0 => simpa using hq
        | j + 1 =>
          have := h2 j (by omega)
          rwa [show x + 1 + (j : ZMod p) = x + ((j + 1 : ℕ) : ZMod p) by push_cast; ring] at this
      · rintro ⟨k, hk, rfl, h1, h2⟩
        match k with
        | 0 => simp [hq] at h1
        | k + 1 =>
          refine ⟨k, by omega, by push_cast; ring, h1, ?_⟩
          intro j hj
          have := h2 (j + 1) (by omega)
          rwa [show x + 1 + (j : ZMod p) = x + ((j + 1 : ℕ) : ZMod p) by push_cast; ring]
    · rw [if_neg hq]
      constructor
      · intro h
        cases h
        exact ⟨0, by omega, by simp, by simpa using hq, by simp⟩
      · rintro ⟨k, hk, rfl, h1, h2⟩
        match k with
        | 0 => simp
        | k + 1 =>
          have := h2 0 (by omega)
          simp [hq] at this

/-- The Legendre symbol test and the square root of the field library. `isQnr` holds for the
non-squares (zero is not a non-residue), and `sqrt` returns some root of every square. -/
structure GoodSqrt (isQnr : ZMod p → Bool) (sqrt : ZMod p → ZMod p) : Prop where
  qnr : ∀ a, isQnr a = true ↔ ¬ ∃ b, b ^ 2 = a
  sqrt : ∀ a, (∃ b, b ^ 2 = a) → sqrt a ^ 2 = a

/-- The loop always ends: within `p` rounds some `x` gives a square (`x = 1` does, at the latest). -/
theorem C60_terminates [Fact p.Prime] (isQnr : ZMod p → Bool) (sqrt : ZMod p → ZMod p)
    (h : GoodSqrt isQnr sqrt) (h2f : List Byte → ZMod p) (fuel : ℕ) (hf : p ≤ fuel)
    (msg : List Byte) : ∃ P, hashToCurve isQnr sqrt h2f fuel msg = some P := by
  have hx : ∃ k < p, isQnr (curveY (h2f msg + (k : ZMod p))) = false := by
    refine ⟨(1 - h2f msg : ZMod p).val, ZMod.val_lt _, ?_⟩
    rw [ZMod.natCast_zmod_val, add_sub_cancel, Bool.eq_false_iff, Ne, h.qnr, not_not]
    exact ⟨2, by simp only [curveY]; ring⟩
  have hmin := Nat.find_spec hx
  have : findX isQnr fuel (h2f msg) = some (h2f msg + ((Nat.find hx : ℕ) : ZMod p)) := by
    rw [findX_spec]
    refine ⟨Nat.find hx, hmin.1.trans_le hf, rfl, hmin.2, ?_⟩
    intro j hj
    have := Nat.find_min hx hj
    simp only [not_and, Bool.not_eq_false] at this
    exact this (by have := hmin.1; omega)
  unfold hashToCurve
  rw [this]
  exact ⟨_, rfl⟩

theorem two_val_of_neg [Fact p.Prime] (y : ZMod p) (hy : y ≠ 0) : (-y).val = p - y.val :=
  by rw [ZMod.neg_val, if_neg hy]

/-- The result is on the curve, its `y` coordinate is the smaller of the two roots, its `x`
coordinate is the first one at or after the digest whose right-hand side is a square. These
three facts determine the point, whatever root `sqrt` returns. -/
theorem C60_result [Fact p.Prime] (hp : 2 * p ≤ 2 ^ 256)
    (isQnr : ZMod p → Bool) (sqrt : ZMod p → ZMod p) (h : GoodSqrt isQnr sqrt)
    (h2f : List Byte → ZMod p) (fuel : ℕ) (msg : List Byte) (x y : ZMod p)
    (hr : hashToCurve isQnr sqrt h2f fuel msg = some (x, y)) :
    OnCurve x y ∧ 2 * y.val ≤ p ∧
    (∀ y', OnCurve x y' → 2 * y'.val ≤ p → y' = y) ∧
    ∃ k : ℕ, x = h2f msg + (k : ZMod p) ∧
      ∀ j < k, ¬ ∃ y', OnCurve (h2f msg + (j : ZMod p)) y' := by
  unfold hashToCurve at hr
  have hcurve : ∀ x : ZMod p, curveY x = x ^ 3 + 3 := by intro x; simp only [curveY]; ring
  cases hx : findX isQnr fuel (h2f msg) with
  | none => simp [hx] at hr
  | some x' =>
    simp only [hx, Option.some.injEq, Prod.mk.injEq] at hr
    obtain ⟨rfl, rfl⟩ := hr
    obtain ⟨k, hk, hxk, hq, hprev⟩ := (findX_spec _ _ _ _).1 hx
    have hsq : sqrt (curveY x') ^ 2 = curveY x' := by
      apply h.sqrt
      by_contra hn
      rw [(h.qnr _).2 hn] at hq
      simp at hq
    generalize hw : sqrt (curveY x') = w at hsq ⊢
    have hlt : 2 * w.val < 2 ^ 256 := lt_of_lt_of_le (by have := ZMod.val_lt w; omega) hp
    have hroot : normalizeRoot w ^ 2 = curveY x' ∧ 2 * (normalizeRoot w).val ≤ p := by
      unfold normalizeRoot
      rw [Nat.mod_eq_of_lt hlt]
      by_cases hbig : 2 * w.val > p
      · simp only [hbig, if_true]
        refine ⟨by rw [neg_sq, hsq], ?_⟩
        have hw0 : w ≠ 0 := by
          rintro rfl
          simp at hbig
        rw [two_val_of_neg w hw0]
        omega
      · simp only [hbig, if_false]
        exact ⟨hsq, by omega⟩
    refine ⟨by rw [OnCurve, hroot.1, hcurve], hroot.2, ?_, k, hxk, ?_⟩
    · intro y' hy' hsmall
      rw [OnCurve, ← hcurve, ← hroot.1] at hy'
      rcases sq_eq_sq_iff_eq_or_eq_neg.1 hy' with he | he
      · exact he
      · by_cases h0 : normalizeRoot w = 0
        · rw [he, h0, neg_zero]
        · have hv : y'.val = p - (normalizeRoot w).val := by rw [he, two_val_of_neg _ h0]
          have h1 := hroot.2
          have h2 : (normalizeRoot w).val < p := ZMod.val_lt _
          have h3 : y'.val = (normalizeRoot w).val := by omega
          exact ZMod.val_injective p h3
    · intro j hj hy'
      obtain ⟨y', hy'⟩ := hy'
      have := (h.qnr _).1 (hprev j hj)
      exact this ⟨y', by rw [hcurve]; exact hy'⟩

/-- Deterministic: two libraries with different square root algorithms give the same point, and
more fuel does not change it. -/
theorem C60_deterministic [Fact p.Prime] (hp : 2 * p ≤ 2 ^ 256)
    (isQnr isQnr' : ZMod p → Bool) (sqrt sqrt' : ZMod p → ZMod p) (h : GoodSqrt isQnr sqrt)
    (h' : GoodSqrt isQnr' sqrt') (h2f : List Byte → ZMod p) (fuel fuel' : ℕ) (hf : p ≤ fuel)
    (hf' : p ≤ fuel') (msg : List Byte) :
    hashToCurve isQnr sqrt h2f fuel msg = hashToCurve isQnr' sqrt' h2f fuel' msg := by
  obtain ⟨⟨x, y⟩, h1⟩ := C60_terminates isQnr sqrt h h2f fuel hf msg
  obtain ⟨⟨x', y'⟩, h2⟩ := C60_terminates isQnr' sqrt' h' h2f fuel' hf' msg
  have r1 := C60_result hp isQnr sqrt h h2f fuel msg x y h1
  have r2 := C60_result hp isQnr' sqrt' h' h2f fuel' msg x' y' h2
  obtain ⟨k, hk, hmin⟩ := r1.2.2.2
  obtain ⟨k', hk', hmin'⟩ := r2.2.2.2
  have hkk : k = k' := by
    rcases lt_trichotomy k k' with hlt | heq | hgt
    · exact absurd ⟨y, hk ▸ r1.1⟩ (hmin' k hlt)
    · exact heq
    · exact absurd ⟨y', hk' ▸ r2.1⟩ (hmin k' hgt)
  have hxx : x = x' := by rw [hk, hk', hkk]
  subst hxx
  have hyy : y' = y := r1.2.2.1 y' r2.1 r2.2.1
  rw [h1, h2, hyy]

/-! ### A toy field with 13 elements -/

instance : Fact (Nat.Prime 13) := ⟨by norm_num⟩

def toyQnr (a : ZMod 13) : Bool := decide (¬ ∃ b, b ^ 2 = a)

/-- a square root function that returns the larger root -/
def toySqrt (a : ZMod 13) : ZMod 13 :=
  ((List.range 13).reverse.map (fun n : ℕ => (n : ZMod 13))).find? (fun b => b ^ 2 = a) |>.getD 0

theorem toy_good : GoodSqrt toyQnr toySqrt := by
  refine ⟨by decide +kernel, by decide +kernel⟩

-- digest 3: 3³ + 3 = 4, root 2 (the other root 11 is the one returned by `toySqrt`)
example : hashToCurve toyQnr toySqrt (fun bs => (leNat bs : ZMod 13)) 13 [3] = some (3, 2) ∧
    toySqrt (curveY 3) = 11 ∧
    -- digest 5: 5³ + 3 = 11 and 6³ + 3 = 11 are no squares, 7³ + 3 = 8 neither, 8³ + 3 = 8, 9³+3 = 4
    hashToCurve toyQnr toySqrt (fun bs => (leNat bs : ZMod 13)) 13 [5] = some (9, 2) := by
  decide +kernel

example : 2 * 13 ≤ 2 ^ 256 ∧ GoodSqrt toyQnr toySqrt := ⟨by norm_num, toy_good⟩

end Verif.Props.HashToCurve
