import Mathlib.Algebra.BigOperators.Intervals
import Mathlib.Algebra.BigOperators.Ring.Finset
import Mathlib.Algebra.Order.BigOperators.Group.Finset
import Mathlib.Data.Int.ModEq
import Mathlib.Data.Nat.Size
import Mathlib.Tactic.LinearCombination
import Mathlib.Tactic.Linarith
import Mathlib.Tactic.Ring

/-! # Integer arithmetic with limbs: products, carries, uniqueness of digits -/

namespace Verif.Limbs

open Finset

/-- the integer with limbs `f 0, …, f (n-1)` in base `r` -/
def num {R : Type} [Semiring R] (r : R) (f : ℕ → R) (n : ℕ) : R := ∑ i ∈ range n, f i * r ^ i

/-- coefficient `i` of a product -/
def cv {R : Type} [Semiring R] (f g : ℕ → R) (i : ℕ) : R := ∑ j ∈ range (i + 1), f j * g (i - j)

theorem num_succ' {R : Type} [CommSemiring R] (r : R) (f : ℕ → R) (n : ℕ) :
    num r f (n + 1) = f 0 + r * num r (fun i => f (i + 1)) n := by
  unfold num
  rw [sum_range_succ', mul_sum, add_comm]
  simp only [pow_zero, mul_one, pow_succ]
  congr 1
  apply sum_congr rfl
  intro i _
  ring

theorem num_succ {R : Type} [Semiring R] (r : R) (f : ℕ → R) (n : ℕ) :
    num r f (n + 1) = num r f n + f n * r ^ n := by
  unfold num; rw [sum_range_succ]

theorem cv_succ {R : Type} [CommSemiring R] (f g : ℕ → R) (i : ℕ) :
    cv f g (i + 1) = f 0 * g (i + 1) + cv (fun j => f (j + 1)) g i := by
  unfold cv
  rw [sum_range_succ', add_comm]
  congr 1
  apply sum_congr rfl
  intro j _
  congr 2
  omega

/-- the low limbs of a product -/
theorem cv_modEq (r : ℕ) (g : ℕ → ℕ) (n : ℕ) : ∀ f : ℕ → ℕ,
    num r (cv f g) n ≡ num r f n * num r g n [MOD r ^ n] := by
  induction n with
  | zero => intro f; simpa using Nat.modEq_one
  | succ n ih =>
    intro f
    have h1 : num r (cv f g) (n + 1)
        = f 0 * num r g (n + 1) + r * num r (cv (fun j => f (j + 1)) g) n := by
      rw [num_succ', num_succ' r g]
      have : num r (fun i => cv f g (i + 1)) n
          = f 0 * num r (fun i => g (i + 1)) n + num r (cv (fun j => f (j + 1)) g) n := by
        unfold num
        rw [mul_sum, ← sum_add_distrib]
        apply sum_congr rfl
        intro i _
        show cv f g (i + 1) * r ^ i = _
        rw [cv_succ]; ring
      rw [this]
      simp [cv]; ring
    have h2 : r * num r (cv (fun j => f (j + 1)) g) n
        ≡ r * (num r (fun j => f (j + 1)) n * num r g n) [MOD r ^ (n + 1)] := by
      rw [pow_succ, mul_comm (r ^ n)]
      exact (ih _).mul_left' r
    have h3 : r * (num r (fun j => f (j + 1)) n * num r g n)
        ≡ r * (num r (fun j => f (j + 1)) n * num r g (n + 1)) [MOD r ^ (n + 1)] := by
      rw [num_succ r g]
      have : r * (num r (fun j => f (j + 1)) n * (num r g n + g n * r ^ n))
          = r * (num r (fun j => f (j + 1)) n * num r g n)
            + r ^ (n + 1) * (num r (fun j => f (j + 1)) n * g n) := by ring
      rw [this]
      simp [Nat.ModEq]
    rw [h1, num_succ' r f]
    have := (h2.trans h3).add_left (f 0 * num r g (n + 1))
    have e : f 0 * num r g (n + 1) + r * (num r (fun j => f (j + 1)) n * num r g (n + 1))
        = (f 0 + r * num r (fun j => f (j + 1)) n) * num r g (n + 1) := by ring
    rw [← e]; exact this

/-- a carry chain adds up -/
theorem chain_sum {r : ℕ} {x c e : ℕ → ℕ} {n : ℕ} (h0 : e 0 = 0)
    (h : ∀ i, i < n → x i + e i = c i + r * e (i + 1)) :
    num r x n = num r c n + r ^ n * e n := by
  induction n with
  | zero => simp [num, h0]
  | succ n ih =>
    rw [num_succ, num_succ, ih (fun i hi => h i (by omega))]
    have := h n (by omega)
    have h2 : (x n + e n) * r ^ n = (c n + r * e (n + 1)) * r ^ n := by rw [this]
    rw [pow_succ]
    linear_combination h2

theorem num_lt {r : ℕ} {f : ℕ → ℕ} {n : ℕ} (hf : ∀ i, i < n → f i < r) : num r f n < r ^ n := by
  induction n with
  | zero => simp [num]
  | succ n ih =>
    rw [num_succ, pow_succ]
    have h1 := ih (fun i hi => hf i (by omega))
    have h2 := hf n (by omega)
    have h3 : (f n + 1) * r ^ n ≤ r * r ^ n := Nat.mul_le_mul_right _ h2
    nlinarith

/-- digits are unique -/
theorem num_inj {r : ℕ} {f g : ℕ → ℕ} {n : ℕ} (hf : ∀ i, i < n → f i < r)
    (hg : ∀ i, i < n → g i < r) (h : num r f n = num r g n) : ∀ i, i < n → f i = g i := by
  induction n with
  | zero => intro i hi; omega
  | succ n ih =>
    have a1 := num_lt (fun i (hi : i < n) => hf i (by omega))
    have a2 := num_lt (fun i (hi : i < n) => hg i (by omega))
    rw [num_succ, num_succ] at h
    have hpos : 0 < r ^ n := by omega
    have e1 : (num r f n + f n * r ^ n) / r ^ n = f n := by
      rw [Nat.add_mul_div_right _ _ hpos, Nat.div_eq_of_lt a1, zero_add]
    have e2 : (num r g n + g n * r ^ n) / r ^ n = g n := by
      rw [Nat.add_mul_div_right _ _ hpos, Nat.div_eq_of_lt a2, zero_add]
    have htop : f n = g n := by rw [← e1, ← e2, h]
    intro i hi
    rcases Nat.lt_succ_iff_lt_or_eq.1 hi with hi | rfl
    · refine ih (fun i hi => hf i (by omega)) (fun i hi => hg i (by omega)) ?_ i hi
      rw [htop] at h; omega
    · exact htop

/-- the carries of a sum of limbs -/
def carry (r : ℕ) (x : ℕ → ℕ) : ℕ → ℕ
  | 0 => 0
  | i + 1 => (x i + carry r x i) / r

/-- A chain with result `c` exists exactly when the sums agree modulo `r^n`, and then it is the chain of
the carries. -/
theorem chain_carry {r : ℕ} {x c : ℕ → ℕ} {n : ℕ} (hc : ∀ i, i < n → c i < r)
    (h : num r x n ≡ num r c n [MOD r ^ n]) :
    ∀ i, i < n → x i + carry r x i = c i + r * carry r x (i + 1) := by
  have hs : ∀ i, x i + carry r x i = (x i + carry r x i) % r + r * carry r x (i + 1) := fun i =>
    (Nat.mod_add_div _ _).symm
  have hsum := chain_sum (r := r) (x := x) (c := fun i => (x i + carry r x i) % r)
    (e := carry r x) (n := n) rfl (fun i _ => hs i)
  have hd : ∀ i, i < n → (x i + carry r x i) % r < r := fun i hi =>
    Nat.mod_lt _ (by have := hc i hi; omega)
  have heq : num r (fun i => (x i + carry r x i) % r) n = num r c n := by
    have : num r (fun i => (x i + carry r x i) % r) n ≡ num r c n [MOD r ^ n] := by
      refine Nat.ModEq.trans ?_ h
      rw [hsum]; simp [Nat.ModEq]
    exact Nat.ModEq.eq_of_lt_of_lt this (num_lt hd) (num_lt hc)
  intro i hi
  have := num_inj hd hc heq i hi
  rw [← this]; exact hs i

/-- carries are determined -/
theorem chain_unique {r : ℕ} {x c e : ℕ → ℕ} {n : ℕ} (hc : ∀ i, i < n → c i < r) (h0 : e 0 = 0)
    (h : ∀ i, i < n → x i + e i = c i + r * e (i + 1)) : ∀ i, i ≤ n → e i = carry r x i := by
  intro i
  induction i with
  | zero => intro _; rw [h0]; rfl
  | succ i ih =>
    intro hi
    have h1 := h i (by omega)
    have h2 := hc i (by omega)
    rw [carry, ← ih (by omega), h1, Nat.add_mul_div_left _ _ (by omega), Nat.div_eq_of_lt h2,
      zero_add]

/-- carries of sums of `2 (i + 1)` products of limbs -/
theorem carry_le {M : ℕ} {x : ℕ → ℕ} {n : ℕ}
    (hx : ∀ i, i < n → x i ≤ 2 * (i + 1) * M ^ 2) :
    ∀ i, i ≤ n → carry (M + 1) x i ≤ 2 * i * M := by
  intro i
  induction i with
  | zero => intro _; simp [carry]
  | succ i ih =>
    intro hi
    have h1 := ih (by omega)
    have h2 := hx i (by omega)
    rw [carry]
    apply Nat.div_le_of_le_mul
    nlinarith

/-- carries of sums of two limbs -/
theorem carry_le_one {r : ℕ} {x : ℕ → ℕ} {n : ℕ} (hr : 0 < r)
    (hx : ∀ i, i < n → x i + 1 < 2 * r) : ∀ i, i ≤ n → carry r x i ≤ 1 := by
  intro i
  induction i with
  | zero => intro _; simp [carry]
  | succ i ih =>
    intro hi
    have h1 := ih (by omega)
    have h2 := hx i (by omega)
    rw [carry]
    have : (x i + carry r x i) / r < 2 := by
      rw [Nat.div_lt_iff_lt_mul hr]; omega
    omega

/-- the limbs of a number -/
def dig (r v i : ℕ) : ℕ := v / r ^ i % r

theorem dig_lt {r : ℕ} (hr : 0 < r) (v i : ℕ) : dig r v i < r := Nat.mod_lt _ hr

theorem num_dig (r v n : ℕ) : num r (dig r v) n = v % r ^ n := by
  induction n with
  | zero => simp [num, Nat.mod_one]
  | succ n ih =>
    rw [num_succ, ih, dig, pow_succ, Nat.mod_mul]
    ring

theorem num_dig_of_lt {r : ℕ} {v n : ℕ} (hv : v < r ^ n) :
    num r (dig r v) n = v := by
  rw [num_dig, Nat.mod_eq_of_lt hv]

theorem cv_le {M : ℕ} {f g : ℕ → ℕ} {i : ℕ} (hf : ∀ j, j ≤ i → f j ≤ M) (hg : ∀ j, j ≤ i → g j ≤ M) :
    cv f g i ≤ (i + 1) * M ^ 2 := by
  unfold cv
  calc ∑ j ∈ range (i + 1), f j * g (i - j) ≤ ∑ _j ∈ range (i + 1), M ^ 2 := by
        apply sum_le_sum
        intro j hj
        rw [mem_range] at hj
        rw [sq]
        exact Nat.mul_le_mul (hf j (by omega)) (hg _ (by omega))
    _ = (i + 1) * M ^ 2 := by simp

theorem num_congr {R : Type} [Semiring R] {r : R} {f g : ℕ → R} {n : ℕ} (h : ∀ i, i < n → f i = g i) :
    num r f n = num r g n := by
  unfold num
  apply sum_congr rfl
  intro i hi
  rw [h i (mem_range.1 hi)]

theorem num_add {R : Type} [Semiring R] (r : R) (f g : ℕ → R) (n : ℕ) :
    num r (fun i => f i + g i) n = num r f n + num r g n := by
  unfold num
  rw [← sum_add_distrib]
  apply sum_congr rfl
  intro i _
  rw [add_mul]

theorem num_mul_left {R : Type} [Semiring R] (r k : R) (f : ℕ → R) (n : ℕ) :
    num r (fun i => k * f i) n = k * num r f n := by
  unfold num
  rw [mul_sum]
  apply sum_congr rfl
  intro i _
  rw [mul_assoc]

/-- pairs of terms -/
theorem sum_pairs {R : Type} [AddCommMonoid R] (f : ℕ → R) (m : ℕ) :
    ∑ j ∈ range m, (f (2 * j) + f (2 * j + 1)) = ∑ j ∈ range (2 * m), f j := by
  induction m with
  | zero => simp
  | succ m ih =>
    rw [sum_range_succ, ih, show 2 * (m + 1) = 2 * m + 1 + 1 by ring, sum_range_succ, sum_range_succ,
      add_assoc]

theorem sum_pairs_last {R : Type} [AddCommMonoid R] (f : ℕ → R) (i : ℕ) :
    ∑ j ∈ range ((i + 1) / 2), (f (2 * j) + f (2 * j + 1)) + (if i % 2 = 0 then f i else 0)
      = ∑ j ∈ range (i + 1), f j := by
  rw [sum_pairs]
  rcases Nat.even_or_odd' i with ⟨m, rfl | rfl⟩
  · rw [if_pos (by omega), show (2 * m + 1) / 2 = m by omega, sum_range_succ]
  · rw [if_neg (by omega), add_zero, show (2 * m + 1 + 1) / 2 = m + 1 by omega,
      show 2 * (m + 1) = 2 * m + 1 + 1 by ring]

end Verif.Limbs
