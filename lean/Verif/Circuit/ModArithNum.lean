import Verif.Circuit.ModArithAdd

/-! # The integer arithmetic behind `mod_mul` -/

set_option linter.unusedSectionVars false

namespace Verif.Circuit

variable {p : ℕ}

theorem int_eq_of_field [Fact p.Prime] {a b : ℤ} (h : (a : ZMod p) = (b : ZMod p)) (h1 : a - b < p)
    (h2 : b - a < p) : a = b := by
  have hd : (p : ℤ) ∣ a - b := by
    rw [← ZMod.intCast_zmod_eq_zero_iff_dvd]
    push_cast
    rw [h]; ring
  have := Int.eq_zero_of_abs_lt_dvd hd (abs_lt.2 ⟨by linarith, h1⟩)
  linarith

/-- the parts of an element are below `2^m` and the stored power is right -/
structure FpElem.OK (e : FpElem p) : Prop where
  p0 : e.p0.val < 2 ^ e.m
  p1 : e.p1.val < 2 ^ e.m
  tpm : e.tpm = 2 ^ e.m

/-- the integer an element stands for -/
def FpElem.int (e : FpElem p) : ℕ := e.p0.val + 2 ^ e.m * e.p1.val

theorem cast_val_int [NeZero p] (x : ZMod p) : (((x.val : ℕ) : ℤ) : ZMod p) = x := by
  rw [Int.cast_natCast, ZMod.natCast_val, ZMod.cast_id]

/-- the size conditions of the multiplication -/
structure MulFit (q : FpElem p) (k : ℕ) : Prop where
  ok : q.OK
  mpos : 0 < q.m
  two : 2 ≤ k
  fit : 2 ^ (2 * q.m + k) ≤ p

/-- parameters under which the multiplication is exact -/
structure MulParams (q : FpElem p) (k : ℕ) : Prop extends MulFit q k where
  pos : 0 < q.int
  dvd : q.m % k = 0

theorem fit_int {M K P : ℤ} (hM : 2 ≤ M) (hK : 4 ≤ K) (hP : M * M * K ≤ P) :
    4 * (M * M) ≤ P ∧ M * K + M * M ≤ P ∧ 4 * (M * M) - 4 * M + M * K ≤ P := by
  refine ⟨?_, ?_, ?_⟩
  · nlinarith [mul_nonneg (by positivity : (0 : ℤ) ≤ M * M) (by linarith : (0 : ℤ) ≤ K - 4)]
  · have h1 : M * K + M * M ≤ M * M * K := by
      have : 0 ≤ M * (M * K - K - M) := by
        apply mul_nonneg (by linarith)
        nlinarith [mul_nonneg (by linarith : (0 : ℤ) ≤ M - 2) (by linarith : (0 : ℤ) ≤ K - 4)]
      linarith [show M * (M * K - K - M) = M * M * K - M * K - M * M by ring]
    linarith
  · have : 0 ≤ M * ((M - 1) * (K - 4)) :=
      mul_nonneg (by linarith) (mul_nonneg (by linarith) (by linarith))
    linarith [show M * ((M - 1) * (K - 4)) = M * M * K - 4 * (M * M) + 4 * M - M * K by ring]

theorem mul_bound {M a b : ℤ} (ha : 0 ≤ a) (hb : 0 ≤ b) (ha' : a < M) (hb' : b < M) :
    0 ≤ a * b ∧ a * b ≤ M * M - 2 * M + 1 := by
  refine ⟨mul_nonneg ha hb, ?_⟩
  have : a * b ≤ (M - 1) * (M - 1) := mul_le_mul (by linarith) (by linarith) hb (by linarith)
  linarith [show (M - 1) * (M - 1) = M * M - 2 * M + 1 by ring]

/-- integer version of the three equations -/
theorem eqs_int {P M K x0 x1 y0 y1 q0 q1 w0 w1 z0 z1 c0 c1 : ℤ} (hM : 2 ≤ M) (hK : 4 ≤ K)
    (hP : M * M * K ≤ P) (hne : M * M * K ≠ P)
    (hx0 : 0 ≤ x0 ∧ x0 < M) (hx1 : 0 ≤ x1 ∧ x1 < M) (hy0 : 0 ≤ y0 ∧ y0 < M) (hy1 : 0 ≤ y1 ∧ y1 < M)
    (hq0 : 0 ≤ q0 ∧ q0 < M) (hq1 : 0 ≤ q1 ∧ q1 < M) (hw0 : 0 ≤ w0 ∧ w0 < M) (hw1 : 0 ≤ w1 ∧ w1 < M)
    (hz0 : 0 ≤ z0 ∧ z0 < M) (hz1 : 0 ≤ z1 ∧ z1 < M) (hc0 : 0 ≤ c0 ∧ c0 < M * K) (hc1 : 0 ≤ c1 ∧ c1 < M * K) :
    (z0 + q0 * w0 + M * M - (x0 * y0 + M * c0) < P ∧ x0 * y0 + M * c0 - (z0 + q0 * w0 + M * M) < P) ∧
    (z1 + q0 * w1 + q1 * w0 + c0 + 2 * (M * M) - (x0 * y1 + x1 * y0 + M * c1 + M) < P ∧
      x0 * y1 + x1 * y0 + M * c1 + M - (z1 + q0 * w1 + q1 * w0 + c0 + 2 * (M * M)) < P) ∧
    (c1 + q1 * w1 - (x1 * y1 + 2 * M) < P ∧ x1 * y1 + 2 * M - (c1 + q1 * w1) < P) := by
  obtain ⟨f1, f2, f3⟩ := fit_int hM hK hP
  have hP' : M * M * K < P := lt_of_le_of_ne hP hne
  have a1 := mul_bound hq0.1 hw0.1 hq0.2 hw0.2
  have a2 := mul_bound hx0.1 hy0.1 hx0.2 hy0.2
  have a3 := mul_bound hq0.1 hw1.1 hq0.2 hw1.2
  have a4 := mul_bound hq1.1 hw0.1 hq1.2 hw0.2
  have a5 := mul_bound hx0.1 hy1.1 hx0.2 hy1.2
  have a6 := mul_bound hx1.1 hy0.1 hx1.2 hy0.2
  have a7 := mul_bound hq1.1 hw1.1 hq1.2 hw1.2
  have a8 := mul_bound hx1.1 hy1.1 hx1.2 hy1.2
  have b0 : 0 ≤ M * c0 ∧ M * c0 ≤ M * M * K - M := by
    refine ⟨mul_nonneg (by linarith) hc0.1, ?_⟩
    have : M * c0 ≤ M * (M * K - 1) := mul_le_mul_of_nonneg_left (by linarith [hc0.2]) (by linarith)
    linarith [show M * (M * K - 1) = M * M * K - M by ring]
  have b1 : 0 ≤ M * c1 ∧ M * c1 ≤ M * M * K - M := by
    refine ⟨mul_nonneg (by linarith) hc1.1, ?_⟩
    have : M * c1 ≤ M * (M * K - 1) := mul_le_mul_of_nonneg_left (by linarith [hc1.2]) (by linarith)
    linarith [show M * (M * K - 1) = M * M * K - M by ring]
  have hMM : 2 * M ≤ M * M := by nlinarith
  -- the one tight bound
  have f3' : 4 * (M * M) - 4 * M + M * K < P := by
    have : 4 * (M * M) - 4 * M + M * K ≤ M * M * K := by
      have : 0 ≤ M * ((M - 1) * (K - 4)) :=
        mul_nonneg (by linarith) (mul_nonneg (by linarith) (by linarith))
      linarith [show M * ((M - 1) * (K - 4)) = M * M * K - 4 * (M * M) + 4 * M - M * K by ring]
    linarith
  refine ⟨⟨?_, ?_⟩, ⟨?_, ?_⟩, ⟨?_, ?_⟩⟩ <;>
    linarith [a1.1, a1.2, a2.1, a2.2, a3.1, a3.2, a4.1, a4.2, a5.1, a5.2, a6.1, a6.2, a7.1, a7.2, a8.1, a8.2,
      b0.1, b0.2, b1.1, b1.2, hz0.1, hz0.2, hz1.1, hz1.2, hc0.1, hc0.2, hc1.1, hc1.2]

theorem MulFit.ne [hp : Fact p.Prime] {q : FpElem p} {k : ℕ} (h : MulFit q k) :
    2 ^ (2 * q.m + k) ≠ p := by
  intro he
  have h2 := h.two
  have hpp : (2 ^ (2 * q.m + k)).Prime := by rw [he]; exact hp.out
  exact Nat.Prime.not_prime_pow (by omega) hpp

/-- soundness: the field equations of the circuit imply the integer equation -/
theorem eqs_sound [hp : Fact p.Prime] {q : FpElem p} {k : ℕ} (hq : MulFit q k) {h : MulHints p}
    {x0 x1 y0 y1 : ZMod p} (hx0 : x0.val < 2 ^ q.m) (hx1 : x1.val < 2 ^ q.m) (hy0 : y0.val < 2 ^ q.m)
    (hy1 : y1.val < 2 ^ q.m) (hr : h.Ranges q.m k) (he : h.Eqs q x0 x1 y0 y1) :
    h.z0.val + 2 ^ q.m * h.z1.val + (h.w0.val + 2 ^ q.m * h.w1.val) * q.int =
      (x0.val + 2 ^ q.m * x1.val) * (y0.val + 2 ^ q.m * y1.val) := by
  have hM : (2 : ℤ) ≤ 2 ^ q.m := by
    have := Nat.pow_le_pow_right (n := 2) (by norm_num) hq.mpos
    exact_mod_cast this
  have hK : (4 : ℤ) ≤ 2 ^ k := by
    have := Nat.pow_le_pow_right (n := 2) (by norm_num) hq.two
    exact_mod_cast this
  have hpow : ((2 : ℤ) ^ q.m * 2 ^ q.m * 2 ^ k) = ((2 ^ (2 * q.m + k) : ℕ) : ℤ) := by
    push_cast; rw [pow_add, two_mul, pow_add]
  have hP : (2 : ℤ) ^ q.m * 2 ^ q.m * 2 ^ k ≤ (p : ℤ) := by rw [hpow]; exact_mod_cast hq.fit
  have hne : (2 : ℤ) ^ q.m * 2 ^ q.m * 2 ^ k ≠ (p : ℤ) := by rw [hpow]; exact_mod_cast hq.ne
  have cst : ∀ {a : ZMod p} {n : ℕ}, a.val < 2 ^ n → (0 : ℤ) ≤ (a.val : ℤ) ∧ (a.val : ℤ) < 2 ^ n := by
    intro a n ha
    exact ⟨by positivity, by exact_mod_cast ha⟩
  have hc0 := cst hr.c0
  have hc1 := cst hr.c1
  rw [pow_add] at hc0 hc1
  obtain ⟨b3, b4, b5⟩ := eqs_int (P := (p : ℤ)) hM hK hP hne (cst hx0) (cst hx1) (cst hy0) (cst hy1)
    (cst hq.ok.p0) (cst hq.ok.p1) (cst hr.w0) (cst hr.w1) (cst hr.z0) (cst hr.z1) hc0 hc1
  have t := hq.ok.tpm
  have e3 := int_eq_of_field (p := p) (a := _) (b := _) (by
    push_cast
    simp only [ZMod.natCast_val, ZMod.cast_id', id_eq]
    have := he.e3; rw [t] at this; linear_combination this) b3.1 b3.2
  have e4 := int_eq_of_field (p := p) (a := _) (b := _) (by
    push_cast
    simp only [ZMod.natCast_val, ZMod.cast_id', id_eq]
    have := he.e4; rw [t] at this; linear_combination this) b4.1 b4.2
  have e5 := int_eq_of_field (p := p) (a := _) (b := _) (by
    push_cast
    simp only [ZMod.natCast_val, ZMod.cast_id', id_eq]
    have := he.e5; rw [t] at this; linear_combination this) b5.1 b5.2
  unfold FpElem.int
  zify
  linear_combination e3 + 2 ^ q.m * e4 + 2 ^ q.m * 2 ^ q.m * e5

/-- the carries exist and are small -/
theorem carries_exist {M x0 x1 y0 y1 q0 q1 w0 w1 z0 z1 : ℕ} (hx0 : x0 < M) (hx1 : x1 < M) (hy0 : y0 < M)
    (hy1 : y1 < M) (hq0 : q0 < M) (hq1 : q1 < M) (hw0 : w0 < M) (hw1 : w1 < M) (hz0 : z0 < M) (hz1 : z1 < M)
    (h : z0 + M * z1 + (w0 + M * w1) * (q0 + M * q1) = (x0 + M * x1) * (y0 + M * y1)) :
    ∃ c0 c1 : ℕ, c0 < 2 * M ∧ c1 < 4 * M ∧ z0 + q0 * w0 + M * M = x0 * y0 + M * c0 ∧
      z1 + q0 * w1 + q1 * w0 + c0 + 2 * (M * M) = x0 * y1 + x1 * y0 + M * c1 + M ∧
      c1 + q1 * w1 = x1 * y1 + 2 * M := by
  have hM : 0 < M := by omega
  have hMz : (0 : ℤ) < M := by exact_mod_cast hM
  zify at hx0 hx1 hy0 hy1 hq0 hq1 hw0 hw1 hz0 hz1 h
  have n0 : ∀ a : ℕ, (0 : ℤ) ≤ (a : ℤ) := fun a => by positivity
  -- first carry
  obtain ⟨u, hu⟩ : (M : ℤ) ∣ (z0 + q0 * w0 - x0 * y0 : ℤ) :=
    ⟨x0 * y1 + x1 * y0 + M * (x1 * y1) - z1 - q0 * w1 - q1 * w0 - M * (q1 * w1), by linear_combination h⟩
  have hu2 : u = x0 * y1 + x1 * y0 + M * (x1 * y1) - z1 - q0 * w1 - q1 * w0 - M * (q1 * w1) := by
    have : (M : ℤ) * u = M * (x0 * y1 + x1 * y0 + M * (x1 * y1) - z1 - q0 * w1 - q1 * w0 - M * (q1 * w1)) := by
      rw [← hu]; linear_combination h
    exact mul_left_cancel₀ hMz.ne' this
  have a1 := mul_bound (n0 q0) (n0 w0) hq0 hw0
  have a2 := mul_bound (n0 x0) (n0 y0) hx0 hy0
  have a3 := mul_bound (n0 q0) (n0 w1) hq0 hw1
  have a4 := mul_bound (n0 q1) (n0 w0) hq1 hw0
  have a5 := mul_bound (n0 x0) (n0 y1) hx0 hy1
  have a6 := mul_bound (n0 x1) (n0 y0) hx1 hy0
  have u1 : -(M : ℤ) < u := by
    by_contra hc
    push Not at hc
    have : (M : ℤ) * u ≤ M * (-M) := mul_le_mul_of_nonneg_left hc hMz.le
    have hz := n0 z0
    linarith [a1.1, a2.2, show (M : ℤ) * (-M) = -(M * M) by ring]
  have u2 : u < (M : ℤ) := by
    by_contra hc
    push Not at hc
    have : (M : ℤ) * M ≤ M * u := mul_le_mul_of_nonneg_left hc hMz.le
    linarith [a1.2, a2.1]
  -- second carry
  have hv : (M : ℤ) * (x1 * y1 - q1 * w1 : ℤ) = z1 + q0 * w1 + q1 * w0 - x0 * y1 - x1 * y0 + u := by
    rw [hu2]; ring
  have v1 : -(2 * (M : ℤ)) < x1 * y1 - q1 * w1 := by
    by_contra hc
    push Not at hc
    have : (M : ℤ) * (x1 * y1 - q1 * w1) ≤ M * (-(2 * M)) := mul_le_mul_of_nonneg_left hc hMz.le
    have hz := n0 z1
    linarith [a3.1, a4.1, a5.2, a6.2, show (M : ℤ) * (-(2 * M)) = -(2 * (M * M)) by ring]
  have v2 : (x1 * y1 - q1 * w1 : ℤ) < 2 * (M : ℤ) := by
    by_contra hc
    push Not at hc
    have : (M : ℤ) * (2 * M) ≤ M * (x1 * y1 - q1 * w1) := mul_le_mul_of_nonneg_left hc hMz.le
    linarith [a3.2, a4.2, a5.1, a6.1, show (M : ℤ) * (2 * M) = 2 * (M * M) by ring]
  obtain ⟨c0, hc0⟩ := Int.eq_ofNat_of_zero_le (a := M + u) (by linarith)
  obtain ⟨c1, hc1⟩ := Int.eq_ofNat_of_zero_le (a := 2 * M + (x1 * y1 - q1 * w1 : ℤ)) (by linarith)
  refine ⟨c0, c1, ?_, ?_, ?_, ?_, ?_⟩
  · zify; rw [← hc0]; linarith
  · zify; rw [← hc1]; linarith
  · zify; rw [← hc0]; linear_combination hu
  · zify; rw [← hc0, ← hc1]; linear_combination -hv
  · zify; rw [← hc1]; ring

/-- the carry computed by the builder is the exact one -/
theorem modMulCarry_eq {t off a b c : ℕ} (ht : 0 < t) (h : b + t * off = a + t * c) :
    modMulCarry t off a b = .ok c := by
  unfold modMulCarry
  have key : ∀ d e : ℕ, d = t * e → d / t = e := by
    rintro d e rfl; exact Nat.mul_div_cancel_left _ ht
  split
  · rename_i hab
    have hoc : off ≤ c := by
      by_contra hc
      have : t * c < t * off := Nat.mul_lt_mul_of_pos_left (by omega) ht
      omega
    have := key (b - a) (c - off) (by rw [Nat.mul_sub]; omega)
    rw [this]; congr 1; omega
  · rename_i hab
    have hoc : c ≤ off := by
      by_contra hc
      have : t * off < t * c := Nat.mul_lt_mul_of_pos_left (by omega) ht
      omega
    have := key (a - b) (off - c) (by rw [Nat.mul_sub]; omega)
    rw [this, if_neg (by omega)]; congr 1; omega

/-! ## Completeness -/

theorem MulParams.pow_lt [Fact p.Prime] {q : FpElem p} {k : ℕ} (h : MulParams q k) : 2 ^ (2 * q.m + k) < p :=
  lt_of_le_of_ne h.fit h.ne

theorem MulParams.pow_le [Fact p.Prime] {q : FpElem p} {k n : ℕ} (h : MulParams q k) (hn : n ≤ 2 * q.m + k) :
    2 ^ n < p := (Nat.pow_le_pow_right (by norm_num) hn).trans_lt h.pow_lt

theorem MulParams.tpm_val [Fact p.Prime] {q : FpElem p} {k : ℕ} (h : MulParams q k) : q.tpm.val = 2 ^ q.m := by
  rw [h.ok.tpm]
  have : ((2 : ZMod p) ^ q.m) = ((2 ^ q.m : ℕ) : ZMod p) := by push_cast; rfl
  rw [this]
  exact ZMod.val_natCast_of_lt (h.pow_le (by omega))

theorem MulParams.half [Fact p.Prime] {q : FpElem p} {k : ℕ} (h : MulParams q k) : q.m ≤ modulusBits p / 2 := by
  have h1 : 2 * q.m + k < Nat.size p := Nat.lt_size.2 h.fit
  have h2 := h.two
  unfold modulusBits
  omega

/-- the hints that belong to a quotient `W` and a result `z0, z1` -/
theorem eqs_complete [hp : Fact p.Prime] {q : FpElem p} {k : ℕ} (hq : MulParams q k)
    {x0 x1 y0 y1 z0 z1 : ZMod p} (hx0 : x0.val < 2 ^ q.m) (hx1 : x1.val < 2 ^ q.m) (hy0 : y0.val < 2 ^ q.m)
    (hy1 : y1.val < 2 ^ q.m) (hz0 : z0.val < 2 ^ q.m) (hz1 : z1.val < 2 ^ q.m) {W : ℕ} (hW : W < 2 ^ (2 * q.m))
    (he : z0.val + 2 ^ q.m * z1.val + W * q.int =
      (x0.val + 2 ^ q.m * x1.val) * (y0.val + 2 ^ q.m * y1.val)) :
    ∃ c0 c1 : ℕ, c0 < 2 * 2 ^ q.m ∧ c1 < 4 * 2 ^ q.m ∧
      z0.val + q.p0.val * (W % 2 ^ q.m) + 2 ^ q.m * 2 ^ q.m = x0.val * y0.val + 2 ^ q.m * c0 ∧
      z1.val + q.p0.val * (W / 2 ^ q.m) + q.p1.val * (W % 2 ^ q.m) + c0 + 2 * (2 ^ q.m * 2 ^ q.m) =
        x0.val * y1.val + x1.val * y0.val + 2 ^ q.m * c1 + 2 ^ q.m ∧
      MulHints.Ranges (p := p) ⟨(W % 2 ^ q.m : ℕ), (W / 2 ^ q.m : ℕ), z0, z1, (c0 : ℕ), (c1 : ℕ)⟩ q.m k ∧
      MulHints.Eqs (p := p) ⟨(W % 2 ^ q.m : ℕ), (W / 2 ^ q.m : ℕ), z0, z1, (c0 : ℕ), (c1 : ℕ)⟩ q x0 x1 y0 y1 := by
  have hM : 0 < 2 ^ q.m := by positivity
  have hw0 : W % 2 ^ q.m < 2 ^ q.m := Nat.mod_lt _ hM
  have hw1 : W / 2 ^ q.m < 2 ^ q.m := by
    rw [Nat.div_lt_iff_lt_mul hM, ← pow_add, ← two_mul]; exact hW
  obtain ⟨c0, c1, b0, b1, e3, e4, e5⟩ := carries_exist hx0 hx1 hy0 hy1 hq.ok.p0 hq.ok.p1 hw0 hw1 hz0 hz1 (by
    rw [Nat.mod_add_div W (2 ^ q.m)]; exact he)
  have h2 := hq.two
  have k4 : 4 * 2 ^ q.m ≤ 2 ^ (q.m + k) := by
    rw [pow_add, Nat.mul_comm]
    exact Nat.mul_le_mul_left _ (Nat.pow_le_pow_right (n := 2) (by norm_num) h2)
  have hp1 : 2 ^ q.m < p := hq.pow_le (by omega)
  have hp2 : 2 ^ (q.m + k) < p := hq.pow_le (by omega)
  have vw0 := ZMod.val_natCast_of_lt (hw0.trans hp1)
  have vw1 := ZMod.val_natCast_of_lt (hw1.trans hp1)
  have vc0 : ((c0 : ℕ) : ZMod p).val = c0 := ZMod.val_natCast_of_lt (by omega)
  have vc1 : ((c1 : ℕ) : ZMod p).val = c1 := ZMod.val_natCast_of_lt (by omega)
  have t := hq.ok.tpm
  refine ⟨c0, c1, b0, b1, e3, e4, ⟨?_, ?_, hz0, hz1, ?_, ?_⟩, ⟨?_, ?_, ?_⟩⟩
  · show ((W % 2 ^ q.m : ℕ) : ZMod p).val < _; rw [vw0]; exact hw0
  · show ((W / 2 ^ q.m : ℕ) : ZMod p).val < _; rw [vw1]; exact hw1
  · show ((c0 : ℕ) : ZMod p).val < _; rw [vc0]; omega
  · show ((c1 : ℕ) : ZMod p).val < _; rw [vc1]; omega
  · have := congrArg (Nat.cast (R := ZMod p)) e3
    push_cast at this
    simp only [ZMod.natCast_val, ZMod.cast_id', id_eq] at this
    rw [t]
    simp only
    linear_combination this
  · have := congrArg (Nat.cast (R := ZMod p)) e4
    push_cast at this
    simp only [ZMod.natCast_val, ZMod.cast_id', id_eq] at this
    rw [t]
    simp only
    linear_combination this
  · have := congrArg (Nat.cast (R := ZMod p)) e5
    push_cast at this
    simp only [ZMod.natCast_val, ZMod.cast_id', id_eq] at this
    rw [t]
    simp only
    linear_combination this

theorem FpElem.new_mul [Fact p.Prime] {q : FpElem p} {k : ℕ} (hq : MulParams q k) {n : ℕ} (hn : n < p) :
    FpElem.new ((n : ℕ) : ZMod p) q.m (some q.tpm) =
      .ok ⟨((n % 2 ^ q.m : ℕ) : ZMod p), ((n / 2 ^ q.m : ℕ) : ZMod p), q.m, q.tpm⟩ := by
  unfold FpElem.new
  rw [if_neg (by have := hq.half; omega)]
  simp only [Option.getD_some]
  rw [divRem_eq (by rw [hq.tpm_val]; positivity), ZMod.val_natCast_of_lt hn, hq.tpm_val]
  rfl

theorem q_int_lt {q : FpElem p} (h : q.OK) : q.int < 2 ^ (2 * q.m) := by
  have h1 := h.p0
  have h2 := h.p1
  unfold FpElem.int
  rw [two_mul, pow_add]
  calc _ < 2 ^ q.m + 2 ^ q.m * q.p1.val := by omega
    _ = 2 ^ q.m * (q.p1.val + 1) := by ring
    _ ≤ _ := Nat.mul_le_mul_left _ h2

/-- the result the builder stores -/
theorem mulWitness_res [Fact p.Prime] {q : FpElem p} {k : ℕ} (hq : MulParams q k) {x0 x1 y0 y1 : ℕ} {h : MulHints p}
    (hh : mulWitness q x0 x1 y0 y1 = .ok h) :
    h.z0.val = (x0 + 2 ^ q.m * x1) * (y0 + 2 ^ q.m * y1) % q.int % 2 ^ q.m ∧
      h.z1.val = (x0 + 2 ^ q.m * x1) * (y0 + 2 ^ q.m * y1) % q.int / 2 ^ q.m := by
  have hQ : q.p0.val + 2 ^ q.m * q.p1.val = q.int := rfl
  have hz : (x0 + 2 ^ q.m * x1) * (y0 + 2 ^ q.m * y1) - (x0 + 2 ^ q.m * x1) * (y0 + 2 ^ q.m * y1) / q.int * q.int
      = (x0 + 2 ^ q.m * x1) * (y0 + 2 ^ q.m * y1) % q.int := by
    rw [Nat.mod_eq_sub_div_mul]
  unfold mulWitness at hh
  simp only [hq.tpm_val, hQ, hz] at hh
  rw [if_neg hq.pos.ne'] at hh
  have hlt := (Nat.mod_lt ((x0 + 2 ^ q.m * x1) * (y0 + 2 ^ q.m * y1)) hq.pos).trans (q_int_lt hq.ok)
  have hp : 2 ^ (2 * q.m) < p := hq.pow_le (by omega)
  cases hw : FpElem.new (((x0 + 2 ^ q.m * x1) * (y0 + 2 ^ q.m * y1) / q.int : ℕ) : ZMod p) q.m (some q.tpm) with
  | error e => rw [hw] at hh; cases hh
  | ok w =>
    rw [hw, FpElem.new_mul hq (hlt.trans hp)] at hh
    simp only [bind, Except.bind] at hh
    split at hh
    · cases hh
    · split at hh
      · cases hh
      · cases hh
        refine ⟨ZMod.val_natCast_of_lt ?_, ZMod.val_natCast_of_lt ?_⟩
        · exact (Nat.mod_le _ _).trans_lt (hlt.trans hp)
        · exact (Nat.div_le_self _ _).trans_lt (hlt.trans hp)

/-- the builder finds the right hints when the quotient fits -/
theorem mulWitness_ok [Fact p.Prime] {q : FpElem p} {k : ℕ} (hq : MulParams q k) {x0 x1 y0 y1 : ZMod p}
    (hx0 : x0.val < 2 ^ q.m) (hx1 : x1.val < 2 ^ q.m) (hy0 : y0.val < 2 ^ q.m)
    (hy1 : y1.val < 2 ^ q.m)
    (hW : (x0.val + 2 ^ q.m * x1.val) * (y0.val + 2 ^ q.m * y1.val) / q.int < 2 ^ (2 * q.m)) :
    ∃ h, mulWitness q x0.val x1.val y0.val y1.val = .ok h ∧ h.Ranges q.m k ∧ h.Eqs q x0 x1 y0 y1 := by
  have hQ : q.p0.val + 2 ^ q.m * q.p1.val = q.int := rfl
  generalize hxy : (x0.val + 2 ^ q.m * x1.val) * (y0.val + 2 ^ q.m * y1.val) = N at *
  have hz : N - N / q.int * q.int = N % q.int := by rw [Nat.mod_eq_sub_div_mul]
  have hM : 0 < 2 ^ q.m := by positivity
  have hlt := (Nat.mod_lt N hq.pos).trans (q_int_lt hq.ok)
  have hp : 2 ^ (2 * q.m) < p := hq.pow_le (by omega)
  have hp1 : 2 ^ q.m < p := hq.pow_le (by omega)
  have hz0 : N % q.int % 2 ^ q.m < 2 ^ q.m := Nat.mod_lt _ hM
  have hz1 : N % q.int / 2 ^ q.m < 2 ^ q.m := by
    rw [Nat.div_lt_iff_lt_mul hM, ← pow_add, ← two_mul]; exact hlt
  have hw0 : N / q.int % 2 ^ q.m < 2 ^ q.m := Nat.mod_lt _ hM
  have hw1 : N / q.int / 2 ^ q.m < 2 ^ q.m := by
    rw [Nat.div_lt_iff_lt_mul hM, ← pow_add, ← two_mul]; exact hW
  have vz0 := ZMod.val_natCast_of_lt (hz0.trans hp1)
  have vz1 := ZMod.val_natCast_of_lt (hz1.trans hp1)
  have vw0 := ZMod.val_natCast_of_lt (hw0.trans hp1)
  have vw1 := ZMod.val_natCast_of_lt (hw1.trans hp1)
  obtain ⟨c0, c1, -, -, e3, e4, hr, he⟩ := eqs_complete hq hx0 hx1 hy0 hy1
    (z0 := ((N % q.int % 2 ^ q.m : ℕ) : ZMod p)) (z1 := ((N % q.int / 2 ^ q.m : ℕ) : ZMod p))
    (by rw [vz0]; exact hz0) (by rw [vz1]; exact hz1) hW (by
      rw [vz0, vz1, hxy, Nat.mod_add_div, Nat.mul_comm, Nat.mod_add_div])
  refine ⟨_, ?_, hr, he⟩
  unfold mulWitness
  simp only [hq.tpm_val, hQ, hxy, hz]
  rw [if_neg hq.pos.ne', FpElem.new_mul hq (hW.trans hp), FpElem.new_mul hq (hlt.trans hp)]
  rw [vz0] at e3
  rw [vz1] at e4
  simp only [bind, Except.bind, vz0, vz1, vw0, vw1]
  rw [modMulCarry_eq hM (c := c0) (by rw [e3])]
  simp only
  rw [modMulCarry_eq hM (c := c1) (by linarith)]
  rfl

/-- the numbers `x`, `y` stand for, and what the multiplication allows as a result -/
def MulOut (q : FpElem p) (X Y : ℕ) (z : ZMod p × ZMod p) : Prop :=
  z.1.val < 2 ^ q.m ∧ z.2.val < 2 ^ q.m ∧
    ∃ W, W < 2 ^ (2 * q.m) ∧ z.1.val + 2 ^ q.m * z.2.val + W * q.int = X * Y

theorem Ranges.out [Fact p.Prime] {q : FpElem p} {k : ℕ} (hq : MulParams q k) {h : MulHints p}
    {x0 x1 y0 y1 : ZMod p} (hx0 : x0.val < 2 ^ q.m) (hx1 : x1.val < 2 ^ q.m) (hy0 : y0.val < 2 ^ q.m)
    (hy1 : y1.val < 2 ^ q.m) (hr : h.Ranges q.m k) (he : h.Eqs q x0 x1 y0 y1) :
    MulOut q (x0.val + 2 ^ q.m * x1.val) (y0.val + 2 ^ q.m * y1.val) (h.z0, h.z1) := by
  refine ⟨hr.z0, hr.z1, h.w0.val + 2 ^ q.m * h.w1.val, ?_, eqs_sound hq.toMulFit hx0 hx1 hy0 hy1 hr he⟩
  have h1 := hr.w0
  have h2 := hr.w1
  rw [two_mul, pow_add]
  calc _ < 2 ^ q.m + 2 ^ q.m * h.w1.val := by omega
    _ = 2 ^ q.m * (h.w1.val + 1) := by ring
    _ ≤ _ := Nat.mul_le_mul_left _ h2

/-- both limbs are in range -/
def FpElemVar.Small (x : FpElemVar p) (q : FpElem p) (w : ℕ → ZMod p) : Prop :=
  (w x.v0).val < 2 ^ q.m ∧ (w x.v1).val < 2 ^ q.m

/-- the number the limbs stand for -/
def FpElemVar.num (x : FpElemVar p) (q : FpElem p) (w : ℕ → ZMod p) : ℕ := (w x.v0).val + 2 ^ q.m * (w x.v1).val

theorem modMul_spec [Fact p.Prime] {c : Circ p} (hc : WF c) (hr : RangeOK c) {k : ℕ} (hk : c.ultra = some k)
    (x y : FpElemVar p) (hx : x.In c) (hy : y.In c) (q : FpElem p) (mx : x.Match q) (my : y.Match q)
    (hq : MulParams q k) :
    Spec (modMul x y q) c
      (x.Small q c.val ∧ y.Small q c.val ∧ x.num q c.val * y.num q c.val / q.int < 2 ^ (2 * q.m))
      (fun v c' => v.In c' ∧ v.m = q.m ∧ v.tpm = q.tpm ∧
        (c'.val v.v0).val = x.num q c.val * y.num q c.val % q.int % 2 ^ q.m ∧
        (c'.val v.v1).val = x.num q c.val * y.num q c.val % q.int / 2 ^ q.m)
      (fun v w => x.Small q w → y.Small q w → MulOut q (x.num q w) (y.num q w) (w v.v0, w v.v1)) := by
  have h2 := hq.two
  unfold modMul
  refine Spec.of_eq (rangeBitLen_eq hk) ?_
  rw [if_neg (by rw [mx.1, my.1]; simp), if_neg (by rw [mx.2, my.2]; simp), if_neg (by omega),
    if_neg (by simp [hq.dvd])]
  apply Spec.witness_bind (fun _ => hx.1); intro _
  apply Spec.witness_bind (fun _ => hx.2); intro _
  apply Spec.witness_bind (fun _ => hy.1); intro _
  apply Spec.witness_bind (fun _ => hy.2); intro _
  refine Spec.liftE_bind' ?_ ?_
  · rintro ⟨⟨a1, a2⟩, ⟨b1, b2⟩, hW⟩
    obtain ⟨h, e, -⟩ := mulWitness_ok hq a1 a2 b1 b2 hW
    exact ⟨h, e⟩
  intro h hh
  obtain ⟨z0, z1⟩ := mulWitness_res hq hh
  refine Spec.conseq hc (modMulWith_spec hc hr x y q k h) ?_ ?_ ?_
  · rintro ⟨⟨a1, a2⟩, ⟨b1, b2⟩, hW⟩ _ _
    obtain ⟨h', e, r, s⟩ := mulWitness_ok hq a1 a2 b1 b2 hW
    rw [hh] at e
    cases e
    exact ⟨by rw [hk]; rfl, hx, hy, hq.mpos, r, s⟩
  · rintro v c' _ ⟨g1, g2, g3, g4, g5⟩
    exact ⟨g1, g2, g3, by rw [g4]; exact z0, by rw [g5]; exact z1⟩
  · rintro v w _ _ ⟨h', r, s, g1, g2⟩ ⟨a1, a2⟩ ⟨b1, b2⟩
    rw [g1, g2]
    exact Ranges.out hq a1 a2 b1 b2 r s

theorem modMulConstant_spec [Fact p.Prime] {c : Circ p} (hc : WF c) (hr : RangeOK c) {k : ℕ} (hk : c.ultra = some k)
    (x : FpElemVar p) (hx : x.In c) (y q : FpElem p) (mx : x.Match q) (my : y.m = q.m) (oy : y.OK)
    (hq : MulParams q k) :
    Spec (modMulConstant x y q) c
      (x.Small q c.val ∧ x.num q c.val * y.int / q.int < 2 ^ (2 * q.m))
      (fun v c' => v.In c' ∧ v.m = q.m ∧ v.tpm = q.tpm ∧
        (c'.val v.v0).val = x.num q c.val * y.int % q.int % 2 ^ q.m ∧
        (c'.val v.v1).val = x.num q c.val * y.int % q.int / 2 ^ q.m)
      (fun v w => x.Small q w → MulOut q (x.num q w) y.int (w v.v0, w v.v1)) := by
  have h2 := hq.two
  have b1 := oy.p0
  have b2 := oy.p1
  have ht : y.tpm = q.tpm := by rw [oy.tpm, my, hq.ok.tpm]
  have hyi : y.int = y.p0.val + 2 ^ q.m * y.p1.val := by unfold FpElem.int; rw [my]
  rw [my] at b1 b2
  rw [hyi]
  unfold modMulConstant
  refine Spec.of_eq (rangeBitLen_eq hk) ?_
  rw [if_neg (by rw [mx.1, my]; simp), if_neg (by rw [mx.2, ht]; simp), if_neg (by omega),
    if_neg (by simp [hq.dvd])]
  apply Spec.witness_bind (fun _ => hx.1); intro _
  apply Spec.witness_bind (fun _ => hx.2); intro _
  refine Spec.liftE_bind' ?_ ?_
  · rintro ⟨⟨a1, a2⟩, hW⟩
    obtain ⟨h, e, -⟩ := mulWitness_ok hq a1 a2 b1 b2 hW
    exact ⟨h, e⟩
  intro h hh
  obtain ⟨z0, z1⟩ := mulWitness_res hq hh
  refine Spec.conseq hc (modMulConstWith_spec hc hr x y q k h) ?_ ?_ ?_
  · rintro ⟨⟨a1, a2⟩, hW⟩ _ _
    obtain ⟨h', e, r, s⟩ := mulWitness_ok hq a1 a2 b1 b2 hW
    rw [hh] at e
    cases e
    exact ⟨by rw [hk]; rfl, hx, hq.mpos, r, s⟩
  · rintro v c' _ ⟨g1, g2, g3, g4, g5⟩
    exact ⟨g1, g2, g3, by rw [g4]; exact z0, by rw [g5]; exact z1⟩
  · rintro v w _ _ ⟨h', r, s, g1, g2⟩ ⟨a1, a2⟩
    rw [g1, g2]
    exact Ranges.out hq a1 a2 b1 b2 r s

/-! ## Other hints -/

theorem modMulAdv_spec [Fact p.Prime] {c : Circ p} (hc : WF c) (hr : RangeOK c) {k : ℕ} (hk : c.ultra = some k)
    (x y : FpElemVar p) (hx : x.In c) (hy : y.In c) (q : FpElem p) (hm : 0 < q.m) (h : MulHints p)
    (h1 : h.Ranges q.m k) (h2 : h.Eqs q (c.val x.v0) (c.val x.v1) (c.val y.v0) (c.val y.v1)) :
    Spec (modMulAdv x y q h) c True (fun v c' => c'.val v.v0 = h.z0 ∧ c'.val v.v1 = h.z1) (fun _ _ => True) := by
  unfold modMulAdv
  refine Spec.of_eq (rangeBitLen_eq hk) ?_
  exact Spec.conseq hc (modMulWith_spec hc hr x y q k h)
    (fun _ _ _ => ⟨by rw [hk]; rfl, hx, hy, hm, h1, h2⟩) (fun _ _ _ g => g.2.2.2) (fun _ _ _ _ _ => trivial)

theorem modMulConstAdv_spec [Fact p.Prime] {c : Circ p} (hc : WF c) (hr : RangeOK c) {k : ℕ} (hk : c.ultra = some k)
    (x : FpElemVar p) (hx : x.In c) (y q : FpElem p) (hm : 0 < q.m) (h : MulHints p)
    (h1 : h.Ranges q.m k) (h2 : h.Eqs q (c.val x.v0) (c.val x.v1) y.p0 y.p1) :
    Spec (modMulConstAdv x y q h) c True (fun v c' => c'.val v.v0 = h.z0 ∧ c'.val v.v1 = h.z1) (fun _ _ => True) := by
  unfold modMulConstAdv
  refine Spec.of_eq (rangeBitLen_eq hk) ?_
  exact Spec.conseq hc (modMulConstWith_spec hc hr x y q k h)
    (fun _ _ _ => ⟨by rw [hk]; rfl, hx, hm, h1, h2⟩) (fun _ _ _ g => g.2.2.2) (fun _ _ _ _ _ => trivial)

theorem split_adv {c : Circ p} (hc : WF c) (var m : ℕ) (tpm r0 r1 : ZMod p) (hv : var < c.numVars)
    (h : r0 + tpm * r1 = c.val var) :
    Spec (splitWith var m tpm r0 r1) c True (fun v c' => c'.val v.v0 = r0 ∧ c'.val v.v1 = r1) (fun _ _ => True) :=
  Spec.conseq hc (splitWith_spec hc var m tpm r0 r1) (fun _ _ _ => ⟨hv, h⟩) (fun _ _ _ g => g.2.2.2)
    (fun _ _ _ _ _ => trivial)

theorem modAddTailAdv_spec [Fact p.Prime] {c : Circ p} (hc : WF c) (hr : RangeOK c) {k : ℕ} (hk : c.ultra = some k)
    (vs : List ℕ) (hv : ∀ v ∈ vs, v < c.numVars) (q : FpElem p) (m : ℕ) (z r0 r1 : ZMod p) (hz : z.val < 2 ^ k)
    (he : r0 + q.tpm * r1 = (vs.map c.val).sum - q.fieldElem * z) :
    Spec (modAddAdv vs q.fieldElem (numRangeBlocks p k) z (r0 + q.tpm * r1) >>=
      fun res => splitWith res m q.tpm r0 r1) c True
      (fun v c' => c'.val v.v0 = r0 ∧ c'.val v.v1 = r1) (fun _ _ => True) := by
  obtain ⟨k0, -, -⟩ := hr k hk
  have hs : Spec (modAddAdv vs q.fieldElem (numRangeBlocks p k) z (r0 + q.tpm * r1)) c True
      (fun v c' => v < c'.numVars ∧ c'.val v = r0 + q.tpm * r1) (fun _ _ => True) := by
    unfold modAddAdv
    refine Spec.of_eq (rangeBitLen_eq hk) ?_
    exact Spec.conseq hc (modAddWith_spec hc hr vs hv _ k _ z _)
      (fun _ _ _ => ⟨by rw [hk]; rfl, k0, Nat.succ_pos _, hz, lt_numRangeBlocks k0 _, he⟩)
      (fun _ _ _ g => g) (fun _ _ _ _ _ => trivial)
  refine Spec.bind hs (fun _ _ _ => trivial) hc ?_
  rintro res c1 e1 ⟨hl, hv⟩
  exact Spec.conseq e1.wf (split_adv e1.wf res m q.tpm r0 r1 hl hv.symm) (fun _ _ _ => trivial) (fun _ _ _ g => g)
    (fun _ _ _ _ _ _ => trivial)

theorem modAddVecAdv_spec [Fact p.Prime] {c : Circ p} (hc : WF c) (hr : RangeOK c) {k : ℕ} (hk : c.ultra = some k)
    (xs : List (FpElemVar p)) (hx : ∀ x ∈ xs, x.In c) (q : FpElem p) (z r0 r1 : ZMod p) (hz : z.val < 2 ^ k)
    (he : r0 + q.tpm * r1 = (xs.map (fun x => FpElemVar.felt x c.val)).sum - q.fieldElem * z) :
    Spec (modAddVecAdv xs q z (r0 + q.tpm * r1) r0 r1) c True
      (fun v c' => c'.val v.v0 = r0 ∧ c'.val v.v1 = r1) (fun _ _ => True) := by
  unfold modAddVecAdv
  refine Spec.of_eq (rangeBitLen_eq hk) ?_
  refine Spec.bind (toVars_spec xs hc hx) (fun _ _ _ => trivial) hc ?_
  rintro vs c1 e1 ⟨h1, h2⟩
  exact Spec.conseq e1.wf (modAddTailAdv_spec e1.wf (hr.ext e1) (by rw [e1.ultra, hk]) vs h1 q q.m z r0 r1 hz
    (by rw [h2]; exact he)) (fun _ _ _ => trivial) (fun _ _ _ g => g) (fun _ _ _ _ _ _ => trivial)

theorem modAdd2Adv_spec [Fact p.Prime] {c : Circ p} (hc : WF c) (hr : RangeOK c) {k : ℕ} (hk : c.ultra = some k)
    (x y : FpElemVar p) (hx : x.In c) (hy : y.In c) (q : FpElem p) (z r0 r1 : ZMod p) (hz : z.val < 2 ^ k)
    (he : r0 + q.tpm * r1 = x.felt c.val + y.felt c.val - q.fieldElem * z) :
    Spec (modAdd2Adv x y q z (r0 + q.tpm * r1) r0 r1) c True
      (fun v c' => c'.val v.v0 = r0 ∧ c'.val v.v1 = r1) (fun _ _ => True) := by
  unfold modAdd2Adv
  refine Spec.of_eq (rangeBitLen_eq hk) ?_
  refine Spec.bind (toVar_spec hc x) (fun _ _ _ => hx) hc ?_
  rintro xv c1 e1 ⟨h1, h2⟩
  refine Spec.bind (toVar_spec e1.wf y) (fun _ _ _ => hy.ext e1) e1.wf ?_
  rintro yv c2 e2 ⟨h3, h4⟩
  refine Spec.conseq e2.wf (modAddTailAdv_spec e2.wf ((hr.ext e1).ext e2) (by rw [e2.ultra, e1.ultra, hk]) [xv, yv]
    ?_ q x.m z r0 r1 hz ?_) (fun _ _ _ => trivial) (fun _ _ _ g => g) (fun _ _ _ _ _ _ _ => trivial)
  · intro v hv
    simp only [List.mem_cons, List.not_mem_nil, or_false] at hv
    rcases hv with rfl | rfl
    · exact e2.lt h1
    · exact h3
  · simp only [List.map_cons, List.map_nil, List.sum_cons, List.sum_nil, add_zero]
    rw [e2.val _ h1, h2, h4, FpElemVar.felt_ext hy e1]
    exact he

theorem modAddConstAdv_spec [Fact p.Prime] {c : Circ p} (hc : WF c) (hr : RangeOK c) {k : ℕ} (hk : c.ultra = some k)
    (x : FpElemVar p) (hx : x.In c) (y q : FpElem p) (z r0 r1 : ZMod p) (hz : z.val < 2 ^ k)
    (he : r0 + q.tpm * r1 = x.felt c.val + y.fieldElem - q.fieldElem * z) :
    Spec (modAddConstAdv x y q z (r0 + q.tpm * r1) r0 r1) c True
      (fun v c' => c'.val v.v0 = r0 ∧ c'.val v.v1 = r1) (fun _ _ => True) := by
  unfold modAddConstAdv
  refine Spec.of_eq (rangeBitLen_eq hk) ?_
  refine Spec.bind (toVar_spec hc x) (fun _ _ _ => hx) hc ?_
  rintro xv c1 e1 ⟨h1, h2⟩
  refine Spec.bind (modAddConstWith_spec e1.wf (hr.ext e1) xv h1 _ _ k z (r0 + q.tpm * r1)) ?_ e1.wf ?_
  · rintro _ _ _
    exact ⟨by rw [e1.ultra, hk], hz, by rw [h2]; exact he⟩
  rintro rv c2 e2 ⟨h3, h4⟩
  exact Spec.conseq e2.wf (split_adv e2.wf rv x.m q.tpm r0 r1 h3 h4.symm) (fun _ _ _ => trivial) (fun _ _ _ g => g)
    (fun _ _ _ _ _ _ _ => trivial)

theorem modNegAdv_spec {c : Circ p} (hc : WF c) (x : FpElemVar p) (hx : x.In c) (q r0 r1 : ZMod p)
    (he : r0 + x.tpm * r1 = q - x.felt c.val) :
    Spec (modNegAdv x q (r0 + x.tpm * r1) r0 r1) c True
      (fun v c' => c'.val v.v0 = r0 ∧ c'.val v.v1 = r1) (fun _ _ => True) := by
  unfold modNegAdv
  refine Spec.bind (toVar_spec hc x) (fun _ _ _ => hx) hc ?_
  rintro xv c1 e1 ⟨h1, h2⟩
  refine Spec.create_bind e1.wf ?_
  intro nv c2 e2 h3 h4
  refine Spec.bind (lcGate_spec e2.wf _ _ _ _ _ _ _ _ _) ?_ e2.wf ?_
  · rintro - h0 h1'
    refine ⟨five_mem (e2.lt h1) h3 e2.wf.o e2.wf.z e2.wf.z, ?_⟩
    rw [e2.val _ h1, h2, h4, h0, h1', he]; ring
  intro _ c3 e3 _
  exact Spec.conseq e3.wf (split_adv e3.wf nv x.m x.tpm r0 r1 (e3.lt h3) (by rw [e3.val _ h3, h4]))
    (fun _ _ _ => trivial) (fun _ _ _ g => g) (fun _ _ _ _ _ _ _ => trivial)

/-! ## New elements -/

theorem newFromFpElem_spec [Fact p.Prime] {c : Circ p} (hc : WF c) (hr : RangeOK c) (e : FpElem p) (m : ℕ)
    (tpm : Option (ZMod p)) :
    Spec (newFromFpElem e m tpm) c (c.ultra.isSome = true ∧ 0 < m ∧ e.p0.val < 2 ^ m ∧ e.p1.val < 2 ^ m)
      (fun v c' => v.In c' ∧ v.m = m ∧ v.tpm = tpm.getD (2 ^ m) ∧ c'.val v.v0 = e.p0 ∧ c'.val v.v1 = e.p1)
      (fun v w => (w v.v0).val < 2 ^ m ∧ (w v.v1).val < 2 ^ m) := by
  unfold newFromFpElem
  refine Spec.create_bind hc ?_
  intro v0 c1 x1 l1 h1
  refine Spec.create_bind x1.wf ?_
  intro v1 c2 x2 l2 h2
  have hr2 := (hr.ext x1).ext x2
  have hv0 : c2.val v0 = e.p0 := by rw [x2.val _ l1, h1]
  refine Spec.range_bind x2.wf hr2 ?_ ?_
  · rintro ⟨g1, g2, g3, g4⟩
    exact ⟨by rw [x2.ultra, x1.ultra]; exact g1, x2.lt l1, g2, by rw [hv0]; exact g3⟩
  intro c3 x3
  refine Spec.range_bind x3.wf (hr2.ext x3) ?_ ?_
  · rintro ⟨g1, g2, g3, g4⟩
    exact ⟨by rw [x3.ultra, x2.ultra, x1.ultra]; exact g1, x3.lt l2, g2, by rw [x3.val _ l2, h2]; exact g4⟩
  intro c4 x4
  have e24 := x3.trans x4
  refine Spec.pure x4.wf ⟨⟨e24.lt (x2.lt l1), e24.lt l2⟩, rfl, rfl, ?_, ?_⟩ ?_
  · show c4.val v0 = _; rw [e24.val _ (x2.lt l1), hv0]
  · show c4.val v1 = _; rw [e24.val _ l2, h2]
  · intro w _ _ g1 g0
    exact ⟨g0, g1⟩

end Verif.Circuit
