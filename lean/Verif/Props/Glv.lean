import Verif.Props.GlvMul
import Verif.Props.ExactSpec

/-!
# C35: scalar multiplication with the GLV endomorphism (`relation/src/gadgets/ecc/glv.rs`)

Bandersnatch: `ord` is the order of the prime order subgroup, `lam` the eigenvalue of the endomorphism `phi`.

A decomposition `(k1, k2, pos)` of `s` stands for `k1 - lam * k2` if `pos`, else `k1 + lam * k2`. It should be `s` modulo
`ord`. The constraints check this only modulo the order `q` of the base field:

* `C35_decomposition`: exactly which halves the constraints accept, and when the honest prover is accepted.
* `C35_alias`: for **every** scalar `s` and every point of the subgroup except the neutral element, a result other than
  `s • P` is accepted, namely `(s + q) • P`.
* `C35_sound_partial`: the halves decompose some `s + j * q`, `-4 ≤ j ≤ 4`, if the quotient `t` is below `2^128`; the
  gadget does not check the range of `t`.
* `C35_reject_counterexample`: the honest prover is rejected for a scalar below `ord`.
* `C35_accept_partial`: the honest prover is accepted for all scalars from `2^250` to `ord`.
* `C35_glv_exact`: exactly which results `glv_mul` accepts, and that the honest prover's result is right.
-/

set_option linter.unusedSectionVars false

namespace Verif.Props.Glv

open Verif.Circuit Verif.Circuit.Glv Verif.Props.Ecc Verif.Props.Msm Verif.Rescue Verif.Curves
open Emulated (Agree)

/-! ## Definitions -/

/-- the order of the prime order subgroup of Bandersnatch -/
def ord : ℕ := 13108968793781547619861935127046491459309155893440570251786403306729687672801
/-- the eigenvalue of the endomorphism -/
def lam : ℕ := 8913659658109529928382530854484400854125314752504019737736543920008458395397
/-- the coefficients of the endomorphism -/
def cb : Fq := 37446463827641770816307242315180085052603635617490163568005256780843403514036
def cc : Fq := 49199877423542878313146170939139662862850515542392585932876811575731455068989
/-- a short basis of the lattice of decompositions of 0 -/
def n11 : ℕ := 113482231691339203864511368254957623327
def n12 : ℕ := 10741319382058138887739339959866629956
def n21 : ℕ := 21482638764116277775478679919733259912

/-- the endomorphism of Bandersnatch -/
noncomputable def phi (P : Fq × Fq) : Fq × Fq :=
  (cc * (1 - P.2 ^ 2) / (P.1 * P.2), cb * (P.2 ^ 2 + cb) / (P.2 ^ 2 - cb))

/-- the number a decomposition stands for -/
def number (k1 k2 : Fq) (pos : Bool) : ℤ := if pos then k1.val - lam * k2.val else k1.val + lam * k2.val

/-- the equation `s ± lam * k2 = k1 ± ord * t`, in two parts at `2^128` -/
def Equations (s k1 k2 : Fq) (pos : Bool) (t m : Fq) : Prop :=
  if pos then
    (2 ^ 128 : ℕ) * m + (ord % 2 ^ 128 : ℕ) * t + k1 = (lam % 2 ^ 128 : ℕ) * k2 + s ∧
    m + (lam / 2 ^ 128 : ℕ) * k2 = (ord / 2 ^ 128 : ℕ) * t
  else
    (lam % 2 ^ 128 : ℕ) * k2 + (2 ^ 128 : ℕ) * m + k1 = s + (ord % 2 ^ 128 : ℕ) * t ∧
    m + (ord / 2 ^ 128 : ℕ) * t = (lam / 2 ^ 128 : ℕ) * k2

/-- the halves accepted for `s` -/
def Accepts (s k1 k2 : Fq) (pos : Bool) : Prop :=
  k1.val < 2 ^ 128 ∧ k2.val < 2 ^ 128 ∧ ∃ t m : Fq, m.val < 2 ^ 128 ∧ Equations s k1 k2 pos t m

/-- the halves of the honest prover, over the integers -/
def half1 (s : ℕ) : ℤ := s - (s * n11 / ord : ℕ) * n11 - (s * n12 / ord : ℕ) * n21
def half2 (s : ℕ) : ℤ := (s * n11 / ord : ℕ) * n12 - (s * n12 / ord : ℕ) * n11

/-- the intermediate value of the honest prover: the middle of the two part equation -/
def mid (s : ℕ) : ℤ :=
  (lam * half2 s + s - half1 s) / ord * (ord / 2 ^ 128 : ℕ) - (lam / 2 ^ 128 : ℕ) * half2 s

/-- when the honest prover is accepted -/
def HonestOK (s : ℕ) : Prop := s < ord ∧ (0 ≤ half2 s ∨ 0 ≤ mid s)

/-- a point of the subgroup, not neutral, on which `phi` is multiplication by `lam` -/
def Eigen (P : bandersnatchG.Pt) : Prop := P ≠ 0 ∧ ord • P = 0 ∧ phi P.1 = (lam • P).1

/-- the variables exist; the circuit supports lookups with a usable range table -/
def GDom (s : ℕ) (base : ℕ × ℕ) (c : Circ p_ed381) : Prop := Dom [s] [base] c ∧ c.ultra ≠ none ∧ RangeOK c

/-! ## The decomposition -/

theorem half1_eq (s : ℕ) : half1 s = k1Z s := rfl
theorem half2_eq (s : ℕ) : half2 s = k2Z s := rfl

theorem mid_eq (s : ℕ) : mid s = mZ s := by
  have h := dec_eq s
  have h1 : ((lam : ℤ) * half2 s + s - half1 s) = (ord : ℤ) * tZ s := h
  have h0 : (ord : ℤ) ≠ 0 := by decide +kernel
  unfold mid mZ
  rw [h1, Int.mul_ediv_cancel_left _ h0]
  rfl

theorem equations_iff (s : Fq) (x : Wit p_ed381) : DecOK s x ↔
    x.tmp = (2 ^ 128 : ℕ) * x.tmp2 ∧ x.k1.val < 2 ^ 128 ∧ x.k2.val < 2 ^ 128 ∧ x.tmp2.val < 2 ^ 128 ∧
      Equations s x.k1 x.k2 x.pos x.t x.tmp2 := by
  have c1 : Verif.Conv.fromLeBytesModOrder p_ed381 r1B = ((ord % 2 ^ 128 : ℕ) : Fq) := by decide +kernel
  have c2 : Verif.Conv.fromLeBytesModOrder p_ed381 r2B = ((ord / 2 ^ 128 : ℕ) : Fq) := by decide +kernel
  have c3 : Verif.Conv.fromLeBytesModOrder p_ed381 lambda1B = ((lam % 2 ^ 128 : ℕ) : Fq) := by decide +kernel
  have c4 : Verif.Conv.fromLeBytesModOrder p_ed381 lambda2B = ((lam / 2 ^ 128 : ℕ) : Fq) := by decide +kernel
  obtain ⟨k1, k2, pos, t, tmp, m⟩ := x
  unfold DecOK LowEq HighEq Equations
  rw [c1, c2, c3, c4]
  cases pos
  · simp only [boolF, zero_ne_one, false_imp_iff, true_imp_iff, true_and, Bool.false_eq_true, if_false]
    constructor
    · rintro ⟨a, b, c, rfl, e, f⟩; exact ⟨rfl, a, b, c, e, f⟩
    · rintro ⟨rfl, a, b, c, e, f⟩; exact ⟨a, b, c, rfl, e, f⟩
  · simp only [boolF, one_ne_zero, false_imp_iff, true_imp_iff, and_true, if_true]
    constructor
    · rintro ⟨a, b, c, rfl, e, f⟩; exact ⟨rfl, a, b, c, e, f⟩
    · rintro ⟨rfl, a, b, c, e, f⟩; exact ⟨a, b, c, rfl, e, f⟩

theorem accepts_iff (s k1 k2 : Fq) (pos : Bool) :
    Accepts s k1 k2 pos ↔ ∃ x : Wit p_ed381, x.k1 = k1 ∧ x.k2 = k2 ∧ x.pos = pos ∧ DecOK s x := by
  constructor
  · rintro ⟨a, b, t, m, c, d⟩
    exact ⟨⟨k1, k2, pos, t, (2 ^ 128 : ℕ) * m, m⟩, rfl, rfl, rfl, (equations_iff _ _).2 ⟨rfl, a, b, c, d⟩⟩
  · rintro ⟨x, rfl, rfl, rfl, h⟩
    obtain ⟨-, a, b, c, d⟩ := (equations_iff _ _).1 h
    exact ⟨a, b, x.t, x.tmp2, c, d⟩

theorem honestOK_iff (s : Fq) : HonestOK s.val ↔ Good (values bandersnatch.r) s := by
  have hr : bandersnatch.r = R := rfl
  rw [hr]
  unfold HonestOK Good
  rw [half2_eq, mid_eq, values_eq]
  by_cases hs : s.val < R
  · rw [if_pos hs]
    constructor
    · rintro ⟨-, h⟩; exact ⟨_, rfl, (honest_iff hs).2 h⟩
    · rintro ⟨x, hx, h⟩
      cases hx
      exact ⟨hs, (honest_iff hs).1 h⟩
  · rw [if_neg hs]
    constructor
    · rintro ⟨h, -⟩; exact absurd h hs
    · rintro ⟨x, hx, -⟩; cases hx

/-- **C35, the decomposition, exactly.** For the field of Bandersnatch, `scalar_decomposition_gate` accepts exactly the
halves of `Accepts`. Called with stored values, it succeeds and is accepted exactly for the scalars of `HonestOK`, and
the halves are then those of the honest prover. -/
theorem C35_decomposition (s : ℕ) :
    Exact (scalarDecompositionGate (values bandersnatch.r) s) (fun c => s < c.numVars ∧ RangeOK c) (fun _ => True)
      (fun w v => (w v.1, w v.2.1, w v.2.2))
      (fun w y => ∃ pos, y.2.2 = boolF pos ∧ Accepts (w s) y.1 y.2.1 pos) (fun _ => True)
      (fun w => HonestOK (w s).val)
      (fun w => (((half1 (w s).val).toNat : Fq), ((half2 (w s).val).natAbs : Fq), boolF (decide (0 ≤ half2 (w s).val))))
      (fun v c' => v.1 < c'.numVars ∧ v.2.1 < c'.numVars ∧ v.2.2 < c'.numVars) := by
  have hbb : 128 ≤ bigintBits p_ed381 := by decide +kernel
  have main : ∀ (f : Fq → Except CErr (Wit p_ed381)) (c : Circ p_ed381), WF c → s < c.numVars ∧ RangeOK c →
      Spec (scalarDecompositionGate f s) c (Good f (c.val s))
        (fun v c' => (v.1 < c'.numVars ∧ v.2.1 < c'.numVars ∧ v.2.2 < c'.numVars) ∧
          ∃ x, f (c.val s) = .ok x ∧ (c'.val v.1, c'.val v.2.1, c'.val v.2.2) = (x.k1, x.k2, boolF x.pos) ∧
            ∀ pi, Sat c' pi c'.val → DecOK (c.val s) x)
        (fun v w => ∃ pos, w v.2.2 = boolF pos ∧ Accepts (w s) (w v.1) (w v.2.1) pos) := by
    intro f c hc hd
    refine Spec.conseq hc (scalarDecompositionGate_spec hc hd.2 (fun _ => hbb) hd.1 f) (fun h _ _ => h) ?_ ?_
    · rintro v c' - ⟨h1, x, hx, ⟨a, b, d⟩, h⟩
      exact ⟨h1, x, hx, by rw [a, b, d], h⟩
    · rintro v w - - ⟨y, a, b, d, h⟩
      exact ⟨y.pos, d.symm, (accepts_iff _ _ _ _).2 ⟨y, a, b, rfl, h⟩⟩
  refine Exact.of_spec (scalarDecompositionGate_rel _ _ _) (fun _ _ h => h) (fun _ _ _ _ _ h => h) ?_ ?_ ?_ ?_
  · rintro c w w' y hd ha ⟨pos, h1, h2⟩
    exact ⟨pos, h1, by rw [ha s hd.1]; exact h2⟩
  · intro c hc hd
    refine Spec.conseq hc (main _ c hc hd) (fun h _ _ => (honestOK_iff _).1 h.2) ?_ (fun _ _ _ _ h _ => h)
    rintro v c' - ⟨h1, x, hx, h2, -⟩
    refine ⟨h1, fun _ _ _ => ?_⟩
    have hr : bandersnatch.r = R := rfl
    rw [hr, values_eq] at hx
    split at hx
    · cases hx; exact h2
    · cases hx
  · rintro c ⟨k1, k2, b⟩ hc hd - ⟨pos, h1, h2⟩
    obtain ⟨x, a1, a2, a3, a4⟩ := (accepts_iff _ _ _ _).1 h2
    refine ⟨scalarDecompositionGate (fun _ => .ok x) s, scalarDecompositionGate_rel _ _ _, ?_⟩
    refine Spec.conseq hc (main _ c hc hd) (fun _ _ _ => ⟨x, rfl, a4⟩) ?_ (fun _ _ _ _ _ => trivial)
    rintro v c' - ⟨-, y, hy, h3, -⟩
    cases hy
    simp only at h1 a1 a2
    rw [h3, a1, a2, a3, h1]
  · rintro c hc hd - v c' hm pi hs
    obtain ⟨-, ⟨-, x, hx, -, h⟩, -⟩ := (main _ c hc hd).sound v c' hm
    exact (honestOK_iff _).2 ⟨x, hx, h pi hs⟩

/-- **C35, the honest prover's halves** decompose the scalar and have 128 bits. -/
theorem C35_halves (s : ℕ) : half1 s - lam * half2 s ≡ s [ZMOD ord] ∧ (0 ≤ half1 s ∧ half1 s < 2 ^ 128) ∧
    |half2 s| < 2 ^ 128 := by
  have h := dec_eq s
  have e : (2 ^ 128 : ℤ) = 340282366920938463463374607431768211456 := by norm_num
  rw [e, half1_eq, half2_eq]
  refine ⟨?_, ⟨k1Z_nonneg, k1Z_lt'⟩, abs_lt.2 ⟨by linarith [k2Z_gt' (s := s)], k2Z_lt'⟩⟩
  refine Int.modEq_iff_dvd.2 ⟨tZ s, ?_⟩
  show (s : ℤ) - (k1Z s - (L : ℤ) * k2Z s) = (R : ℤ) * tZ s
  linear_combination h

/-- **C35, completeness, partial**: the honest prover is accepted for the scalars from `2^250` to `ord`, and whenever
its second half is not negative. Not for all scalars, see `C35_reject_counterexample`. -/
theorem C35_accept_partial (s : ℕ) (hs : s < ord) : (2 ^ 250 ≤ s → HonestOK s) ∧ (0 ≤ half2 s → HonestOK s) := by
  refine ⟨fun h => ⟨hs, Or.inr ?_⟩, fun h => ⟨hs, Or.inl h⟩⟩
  rw [mid_eq]; exact mZ_large h

/-- **C35, soundness, partial**: accepted halves decompose `s + j * q` for some `-4 ≤ j ≤ 4`, provided the quotient is
below `2^128`. What is missing: the gadget does not check the quotient, and `j` need not be 0, see `C35_alias`. -/
theorem C35_sound_partial (s k1 k2 : Fq) (pos : Bool) (t m : Fq) (h1 : k1.val < 2 ^ 128) (h2 : k2.val < 2 ^ 128)
    (hm : m.val < 2 ^ 128) (ht : t.val < 2 ^ 128) (he : Equations s k1 k2 pos t m) :
    ∃ j : ℤ, -4 ≤ j ∧ j ≤ 4 ∧ number k1 k2 pos ≡ s.val + j * p_ed381 [ZMOD ord] := by
  have hs := ZMod.val_lt s
  have e0 : (2 ^ 128 : ℕ) = 340282366920938463463374607431768211456 := by norm_num
  have eo1 : ord % 2 ^ 128 = 339698375537151026184002201187337562081 := by decide +kernel
  have eo2 : ord / 2 ^ 128 = 38523796905489664107205538631725381120 := by decide +kernel
  have el1 : lam % 2 ^ 128 = 276171084342130069873717620938461404933 := by decide +kernel
  have el2 : lam / 2 ^ 128 = 26194891433150687747794787867683243819 := by decide +kernel
  have eo : (ord : ℤ) = 339698375537151026184002201187337562081 + 340282366920938463463374607431768211456 *
    38523796905489664107205538631725381120 := by decide +kernel
  have el : (lam : ℤ) = 276171084342130069873717620938461404933 + 340282366920938463463374607431768211456 *
    26194891433150687747794787867683243819 := by decide +kernel
  have eq : (p_ed381 : ℤ) = 52435875175126190479447740508185965837690552500527637822603658699938581184513 := by
    decide +kernel
  unfold Equations at he
  unfold number
  rw [eo1, eo2, el1, el2, e0] at he
  rw [e0] at h1 h2 hm ht
  have cs : ∀ x : Fq, (x.val : Fq) = x := fun x => ZMod.natCast_zmod_val x
  have hs' : (s.val : ℤ) < p_ed381 := by exact_mod_cast hs
  rw [eq] at hs'
  zify at h1 h2 hm ht
  cases pos
  · simp only [Bool.false_eq_true, if_false] at he ⊢
    obtain ⟨he1, he2⟩ := he
    have d1 : (((276171084342130069873717620938461404933 * k2.val + 340282366920938463463374607431768211456 * m.val + k1.val - s.val
        - 339698375537151026184002201187337562081 * t.val : ℤ)) : Fq) = 0 := by
      push_cast; rw [cs, cs, cs, cs, cs]; push_cast at he1; linear_combination he1
    have d2 : (((m.val + 38523796905489664107205538631725381120 * t.val - 26194891433150687747794787867683243819 * k2.val : ℤ)) : Fq) = 0 := by
      push_cast; rw [cs, cs, cs]; push_cast at he2; linear_combination he2
    rw [ZMod.intCast_zmod_eq_zero_iff_dvd] at d1 d2
    obtain ⟨j, hj⟩ := d1
    obtain ⟨i, hi⟩ := d2
    have hv1 : (0 : ℤ) ≤ k1.val := Int.natCast_nonneg _
    have hv2 : (0 : ℤ) ≤ k2.val := Int.natCast_nonneg _
    have hv3 : (0 : ℤ) ≤ m.val := Int.natCast_nonneg _
    have hv4 : (0 : ℤ) ≤ t.val := Int.natCast_nonneg _
    have hv5 : (0 : ℤ) ≤ s.val := Int.natCast_nonneg _
    rw [eq] at hj hi ⊢
    rw [eo, el]
    generalize (k1.val : ℤ) = a1 at *
    generalize (k2.val : ℤ) = a2 at *
    generalize (m.val : ℤ) = am at *
    generalize (t.val : ℤ) = at' at *
    generalize (s.val : ℤ) = as at *
    have i0 : i = 0 := by
      have g1 : i < 0 + 1 := by linarith
      have g2 : -1 < i := by linarith
      linarith [Int.lt_add_one_iff.1 g1, Int.add_one_le_iff.2 g2]
    have j4 : j < 5 := by linarith
    have j4' : -5 < j := by linarith
    refine ⟨j, by linarith [Int.add_one_le_iff.2 j4'], Int.lt_add_one_iff.1 j4, ?_⟩
    refine Int.modEq_iff_dvd.2 ⟨-at', ?_⟩
    rw [i0] at hi
    linear_combination -hj + 340282366920938463463374607431768211456 * hi
  · simp only [if_true] at he ⊢
    obtain ⟨he1, he2⟩ := he
    have d1 : (((340282366920938463463374607431768211456 * m.val + 339698375537151026184002201187337562081 * t.val + k1.val
        - 276171084342130069873717620938461404933 * k2.val - s.val : ℤ)) : Fq) = 0 := by
      push_cast; rw [cs, cs, cs, cs, cs]; push_cast at he1; linear_combination he1
    have d2 : (((m.val + 26194891433150687747794787867683243819 * k2.val - 38523796905489664107205538631725381120 * t.val : ℤ)) : Fq) = 0 := by
      push_cast; rw [cs, cs, cs]; push_cast at he2; linear_combination he2
    rw [ZMod.intCast_zmod_eq_zero_iff_dvd] at d1 d2
    obtain ⟨j, hj⟩ := d1
    obtain ⟨i, hi⟩ := d2
    have hv1 : (0 : ℤ) ≤ k1.val := Int.natCast_nonneg _
    have hv2 : (0 : ℤ) ≤ k2.val := Int.natCast_nonneg _
    have hv3 : (0 : ℤ) ≤ m.val := Int.natCast_nonneg _
    have hv4 : (0 : ℤ) ≤ t.val := Int.natCast_nonneg _
    have hv5 : (0 : ℤ) ≤ s.val := Int.natCast_nonneg _
    rw [eq] at hj hi ⊢
    rw [eo, el]
    generalize (k1.val : ℤ) = a1 at *
    generalize (k2.val : ℤ) = a2 at *
    generalize (m.val : ℤ) = am at *
    generalize (t.val : ℤ) = at' at *
    generalize (s.val : ℤ) = as at *
    have i0 : i = 0 := by
      have g1 : i < 0 + 1 := by linarith
      have g2 : -1 < i := by linarith
      linarith [Int.lt_add_one_iff.1 g1, Int.add_one_le_iff.2 g2]
    have j4 : j < 5 := by linarith
    have j4' : -5 < j := by linarith
    refine ⟨j, by linarith [Int.add_one_le_iff.2 j4'], Int.lt_add_one_iff.1 j4, ?_⟩
    refine Int.modEq_iff_dvd.2 ⟨at', ?_⟩
    rw [i0] at hi
    linear_combination -hj + 340282366920938463463374607431768211456 * hi

/-- **C35, soundness refuted at the decomposition**: for every scalar `s`, halves of `s + q` are accepted, even if the
range of the quotient were checked. -/
theorem C35_decomposition_counterexample (s : Fq) :
    (∃ k1 k2 t m : Fq, (k1.val < 2 ^ 128 ∧ k2.val < 2 ^ 128 ∧ t.val < 2 ^ 128 ∧ m.val < 2 ^ 128) ∧
      Equations s k1 k2 true t m ∧ Accepts s k1 k2 true ∧ number k1 k2 true ≡ s.val + p_ed381 [ZMOD ord]) ∧
      ¬ (p_ed381 : ℤ) ≡ 0 [ZMOD ord] := by
  have hd := alias_ok s
  obtain ⟨-, h1, h2, h3, h4⟩ := (equations_iff _ _).1 hd
  refine ⟨⟨(aliasWit s).k1, (aliasWit s).k2, (aliasWit s).t, (aliasWit s).tmp2, ⟨h1, h2, ?_, h3⟩, h4,
    (accepts_iff _ _ _ _).2 ⟨aliasWit s, rfl, rfl, rfl, hd⟩, ?_⟩, ?_⟩
  · obtain ⟨a, b⟩ := alias_t (S := s.val + p_ed381) (by omega) (by have := ZMod.val_lt s; omega)
    exact val_int a b
  · obtain ⟨j, hj⟩ := alias_val s
    refine (Int.modEq_iff_dvd.2 ⟨-j, ?_⟩)
    unfold number
    rw [if_pos rfl]
    have hj' : ((aliasWit s).k1.val : ℤ) - (lam : ℤ) * (aliasWit s).k2.val = s.val + p_ed381 + (ord : ℤ) * j := hj
    rw [hj']; ring
  · decide +kernel

/-! ## The endomorphism -/

theorem coeffB_eq : Verif.Conv.fromLeBytesModOrder p_ed381 coeffB = cb := by decide +kernel
theorem coeffC_eq : Verif.Conv.fromLeBytesModOrder p_ed381 coeffC = cc := by decide +kernel

/-- no point of the curve has `y² = cb` -/
theorem y_sq_ne {P : Fq × Fq} (h : EdOn bandersnatch.a bandersnatch.d P) : P.2 ^ 2 ≠ cb := by
  intro hy
  have hns : ¬ IsSquare (38950817870604068450930092767947596513135058623814615407163246576131829413515 : Fq) :=
    not_square (n := 38950817870604068450930092767947596513135058623814615407163246576131829413515)
      (by decide +kernel) (by decide +kernel) (by decide +kernel) (by decide +kernel) (by decide +kernel)
  apply hns
  have hk : (38950817870604068450930092767947596513135058623814615407163246576131829413515 : Fq) * (bandersnatch.a - bandersnatch.d * cb) = 1 - cb := by
    decide +kernel
  have hne : bandersnatch.a - bandersnatch.d * cb ≠ 0 := by decide +kernel
  refine ⟨P.1, ?_⟩
  apply mul_right_cancel₀ hne
  rw [hk]
  unfold EdOn at h
  rw [hy] at h
  linear_combination -h

/-- the coordinates of a point of odd order other than the neutral element are not zero -/
theorem coord_ne {P : bandersnatchG.Pt} (h0 : P ≠ 0) (ho : ord • P = 0) : P.1.1 ≠ 0 ∧ P.1.2 ≠ 0 := by
  have hon := bandersnatchG.on P.2
  have four : 4 • P = 0 → False := by
    intro h4
    apply h0
    have e : ord = 4 * (ord / 4) + 1 := by decide +kernel
    rw [e, add_nsmul, mul_nsmul, h4, nsmul_zero, zero_add, one_nsmul] at ho
    exact ho
  unfold EdOn at hon
  constructor
  · intro hx
    apply four
    have h2 : P + P = 0 := by
      apply Subtype.ext
      rw [bandersnatchG.add_val, bandersnatchG.zero_val]
      unfold edAdd edZ
      rw [hx] at hon ⊢
      have : P.1.2 * P.1.2 = 1 := by linear_combination hon
      simp [this]
    rw [show (4 : ℕ) = 2 * 2 from rfl, mul_nsmul, two_nsmul, two_nsmul, h2, add_zero]
  · intro hy
    apply four
    have hn : (P + P).1 = (0, -1) := by
      rw [bandersnatchG.add_val]
      unfold edAdd edZ
      rw [hy] at hon ⊢
      have : bandersnatchG.a * P.1.1 * P.1.1 = 1 := by linear_combination hon
      simp [this]
    have h2 : (P + P) + (P + P) = 0 := by
      apply Subtype.ext
      rw [bandersnatchG.add_val, bandersnatchG.zero_val, hn]
      unfold edAdd edZ
      simp
    rw [show (4 : ℕ) = 2 * 2 from rfl, mul_nsmul, two_nsmul, two_nsmul, h2]

theorem endoEq_iff {P Q : Fq × Fq} (hx : P.1 ≠ 0) (hy : P.2 ≠ 0) (hb : P.2 ^ 2 ≠ cb) : EndoEq P Q ↔ Q = phi P := by
  unfold EndoEq phi
  rw [coeffB_eq, coeffC_eq]
  have h1 : P.1 * P.2 ≠ 0 := mul_ne_zero hx hy
  have h2 : P.2 ^ 2 - cb ≠ 0 := sub_ne_zero.2 hb
  constructor
  · rintro ⟨a, b⟩
    refine Prod.ext ?_ ?_
    · show Q.1 = _ / _
      rw [eq_div_iff h1]; linear_combination -a
    · show Q.2 = _ / _
      rw [eq_div_iff h2]; linear_combination -b
  · rintro rfl
    simp only []
    constructor
    · rw [div_mul_cancel₀ _ h1]; ring
    · rw [← pow_two, div_mul_cancel₀ _ h2]

theorem onBand : OnTE bandersnatch bandersnatchG := ⟨rfl, rfl⟩

theorem endomorphism_of {K : TE p_ed381} {P : Fq × Fq} (hx : P.1 ≠ 0) (hy : P.2 ≠ 0) (hb : P.2 ^ 2 ≠ cb)
    (h1 : K.a * (phi P).1 ^ 2 + (phi P).2 ^ 2 = 1 + K.d * (phi P).1 ^ 2 * (phi P).2 ^ 2)
    (h2 : edSmul K K.r (phi P) = (0, 1)) : endomorphism K P = .ok (phi P) := by
  unfold endomorphism
  rw [coeffB_eq, coeffC_eq]
  have g1 : P.1 * P.2 ≠ 0 := mul_ne_zero hx hy
  have g2 : P.2 * P.2 - cb ≠ 0 := by rw [← pow_two]; exact sub_ne_zero.2 hb
  have g3 : (P.2 * P.2 - cb) * (P.1 * P.2) ≠ 0 := mul_ne_zero g2 g1
  have hq : (cc * (1 - P.2 * P.2) * (P.2 * P.2 - cb) * ((P.2 * P.2 - cb) * (P.1 * P.2))⁻¹,
      cb * (P.2 * P.2 + cb) * (P.1 * P.2) * ((P.2 * P.2 - cb) * (P.1 * P.2))⁻¹) = phi P := by
    unfold phi
    refine Prod.ext ?_ ?_
    · show _ * _⁻¹ = _ / _
      rw [← div_eq_mul_inv, div_eq_div_iff g3 g1]; ring
    · show _ * _⁻¹ = _ / _
      rw [← div_eq_mul_inv, div_eq_div_iff g3 (by rw [pow_two]; exact g2)]; ring
  rw [← hq] at h1 h2
  simp only []
  rw [if_neg g3, if_pos ⟨h1, h2⟩, hq]

theorem endomorphism_eq {P : bandersnatchG.Pt} (h : Eigen P) : endomorphism bandersnatch P.1 = .ok (phi P.1) := by
  obtain ⟨h0, ho, hp⟩ := h
  obtain ⟨hx, hy⟩ := coord_ne h0 ho
  refine endomorphism_of hx hy (y_sq_ne (bandersnatchG.on P.2)) ?_ ?_
  · rw [hp]; exact bandersnatchG.on (lam • P).2
  · rw [hp, edSmul_val onBand]
    have : bandersnatch.r • (lam • P) = 0 := by
      rw [← mul_nsmul', mul_nsmul]
      show lam • (ord • P) = 0
      rw [ho, nsmul_zero]
    rw [this]; rfl

/-- **C35, the endomorphism circuit**: for every point of the curve with coordinates different from zero the result is
`phi` and nothing else; the honest prover is accepted on the points of the subgroup. -/
theorem C35_endomorphism (base : ℕ × ℕ) :
    Exact (endomorphismCircuit (endomorphism bandersnatch) base) (Dom [] [base])
      (fun w => EdOn bandersnatch.a bandersnatch.d (pt w base) ∧ w base.1 ≠ 0 ∧ w base.2 ≠ 0)
      (fun w v => pt w v) (fun w S => S = phi (pt w base))
      (fun w => ∃ P : bandersnatchG.Pt, pt w base = P.1 ∧ Eigen P) (fun _ => True) (fun w => phi (pt w base))
      (fun v c' => v.1 < c'.numVars ∧ v.2 < c'.numVars) := by
  have hagree : ∀ (c : Circ p_ed381) (w w' : ℕ → Fq), Dom [] [base] c → Agree c w' w → pt w' base = pt w base := by
    intro c w w' hd ha
    have := hd.2 base (by simp)
    unfold pt; rw [ha _ this.1, ha _ this.2]
  refine Exact.of_spec (endomorphismCircuit_rel _ _ _) (fun _ _ h => h) ?_ ?_ ?_ ?_ ?_
  · rintro c w w' hd ha ⟨h1, h2, h3⟩
    have hb := hd.2 base (by simp)
    exact ⟨by rw [hagree c w w' hd ha]; exact h1, by rw [ha _ hb.1]; exact h2, by rw [ha _ hb.2]; exact h3⟩
  · intro c w w' y hd ha h
    rw [hagree c w w' hd ha]; exact h
  · intro c hc hd
    have hb : PIn c base := hd.2 base (by simp)
    refine Spec.conseq hc (endomorphismCircuit_spec hc hb _) ?_ ?_ ?_
    · rintro ⟨⟨P, hP, hE⟩, -⟩ - -
      obtain ⟨hx, hy⟩ := coord_ne hE.1 hE.2.1
      have hP : ptAt c.val base = P.1 := hP
      rw [hP]
      exact ⟨_, endomorphism_eq hE, (endoEq_iff hx hy (y_sq_ne (bandersnatchG.on P.2))).2 rfl⟩
    · rintro v c' - ⟨h1, h2⟩
      refine ⟨h1, ?_⟩
      rintro - - ⟨P, hP, hE⟩
      have hP' : ptAt c.val base = P.1 := hP
      rw [hP', endomorphism_eq hE] at h2
      rw [hP]
      exact (Except.ok.inj h2).symm
    · rintro v w - - h ⟨h1, h2, h3⟩
      exact (endoEq_iff h2 h3 (y_sq_ne h1)).1 h
  · rintro c y hc hd ⟨h1, h2, h3⟩ rfl
    have hb : PIn c base := hd.2 base (by simp)
    refine ⟨endomorphismCircuit (fun _ => .ok (phi (pt c.val base))) base, endomorphismCircuit_rel _ _ _, ?_⟩
    refine Spec.conseq hc (endomorphismCircuit_spec hc hb _) ?_ ?_ (fun _ _ _ _ _ => trivial)
    · rintro - - -
      exact ⟨_, rfl, (endoEq_iff h2 h3 (y_sq_ne h1)).2 rfl⟩
    · rintro v c' - ⟨-, h⟩
      exact (Except.ok.inj h).symm
  · intros; trivial

/-! ## `glv_mul` -/

theorem comb_number {P : bandersnatchG.Pt} (x : Wit p_ed381) :
    comb x P (lam • P) = number x.k1 x.k2 x.pos • P := by
  unfold comb number
  cases x.pos
  · simp only [Bool.false_eq_true, if_false]
    rw [add_zsmul, mul_comm, mul_zsmul, natCast_zsmul, natCast_zsmul, natCast_zsmul]
  · simp only [if_true]
    rw [sub_zsmul, mul_comm, mul_zsmul, natCast_zsmul, natCast_zsmul, natCast_zsmul, smul_neg]

theorem smul_congr {P : bandersnatchG.Pt} (ho : ord • P = 0) {a b : ℤ} (h : a ≡ b [ZMOD ord]) : a • P = b • P := by
  obtain ⟨j, hj⟩ := Int.modEq_iff_dvd.1 h
  have : b = a + j * ord := by linear_combination hj
  rw [this, add_zsmul, mul_zsmul, natCast_zsmul, ho, smul_zero, add_zero]

theorem honest_number {s : Fq} :
    number (honestWit s.val).k1 (honestWit s.val).k2 (honestWit s.val).pos ≡ s.val [ZMOD ord] := by
  obtain ⟨h, ⟨h1, h1'⟩, h2⟩ := C35_halves s.val
  have e : (2 ^ 128 : ℤ) = 340282366920938463463374607431768211456 := by norm_num
  rw [e] at h1' h2
  unfold number honestWit
  simp only []
  rw [toNat_cast k1Z_nonneg, int_val k1Z_nonneg k1Z_lt']
  by_cases hk : 0 ≤ k2Z s.val
  · rw [decide_eq_true hk, if_pos rfl, natAbs_cast hk, int_val hk k2Z_lt']
    exact h
  · have hk' := (not_le.1 hk).le
    rw [decide_eq_false hk, if_neg (by simp), natAbs_cast_neg hk', int_val (by linarith) k2Z_gt']
    have : k1Z s.val + (lam : ℤ) * -k2Z s.val = half1 s.val - lam * half2 s.val := by
      rw [half1_eq, half2_eq]; ring
    rw [this]; exact h

/-- the variables of the gadget -/
theorem gdom_in {s : ℕ} {base : ℕ × ℕ} {c : Circ p_ed381} (h : GDom s base c) : s < c.numVars ∧ PIn c base :=
  ⟨h.1.1 s (by simp), h.1.2 base (by simp)⟩

theorem big_lt : 2 ^ 128 < p_ed381 := by decide +kernel
theorem big_r : 16 ≤ bandersnatch.r := by decide +kernel

/-- **C35, `glv_mul` exactly.** For a base point in the subgroup, not neutral, on which `phi` is multiplication by `lam`:
the accepted results are the multiples of `P` given by the accepted halves. The honest prover is accepted exactly for
the scalars of `HonestOK`, and then the result is right. -/
theorem C35_glv_exact (s : ℕ) (base : ℕ × ℕ) :
    TableExact 2 (glvMul bandersnatch s base) (GDom s base)
      (fun w => ∃ P : bandersnatchG.Pt, pt w base = P.1 ∧ Eigen P) (fun w v => pt w v)
      (fun w S => ∃ k1 k2 pos, Accepts (w s) k1 k2 pos ∧
        ∀ P : bandersnatchG.Pt, pt w base = P.1 → S = (number k1 k2 pos • P).1)
      (fun w => HonestOK (w s).val)
      (fun w S => ∀ P : bandersnatchG.Pt, pt w base = P.1 → S = ((w s).val • P).1) := by
  have hagree : ∀ (c : Circ p_ed381) (w w' : ℕ → Fq), GDom s base c → Agree c w' w →
      pt w' base = pt w base ∧ w' s = w s := by
    intro c w w' hd ha
    obtain ⟨h1, h2⟩ := gdom_in hd
    unfold pt; exact ⟨by rw [ha _ h2.1, ha _ h2.2], ha _ h1⟩
  unfold glvMul
  -- the specification for any prover
  have main : ∀ (f : Fq → Except CErr (Wit p_ed381)) (g : Fq × Fq → Except CErr (Fq × Fq)) (c : Circ p_ed381),
      TWF 2 c → GDom s base c → (∀ P : bandersnatchG.Pt, pt c.val base = P.1 → Eigen P → g P.1 = .ok (phi P.1)) →
      TSpec 2 (glvMulOf bandersnatch f g s base) c
        ((∃ P : bandersnatchG.Pt, pt c.val base = P.1 ∧ Eigen P) ∧ Good f (c.val s))
        (fun v c' => ∀ pi, Sat c' pi c'.val → (∃ P : bandersnatchG.Pt, pt c.val base = P.1 ∧ Eigen P) →
          ∃ x, f (c.val s) = .ok x ∧ DecOK (c.val s) x ∧
            ∀ P : bandersnatchG.Pt, pt c.val base = P.1 → pt c'.val v = (number x.k1 x.k2 x.pos • P).1)
        (fun v w => (∃ P : bandersnatchG.Pt, pt w base = P.1 ∧ Eigen P) →
          ∃ k1 k2 pos, Accepts (w s) k1 k2 pos ∧
            ∀ P : bandersnatchG.Pt, pt w base = P.1 → pt w v = (number k1 k2 pos • P).1) := by
    intro f g c hc hd hg
    obtain ⟨hs, hb⟩ := gdom_in hd
    have H := glvFull_tspec (E := bandersnatchG) rfl rfl big_r big_lt f g hc hd.2.2 hs hb
    rw [glvMulOf_eq]
    have key : ∀ (w : ℕ → Fq) (v : (ℕ × ℕ × ℕ × ℕ × ℕ × ℕ) × (ℕ × ℕ) × (ℕ × ℕ)),
        (DecOK (w s) (witAt w v.1) ∧ EndoEq (pt w base) (pt w v.2.1) ∧
        ∀ P Q : bandersnatchG.Pt, pt w base = P.1 → pt w v.2.1 = Q.1 → pt w v.2.2 = (comb (witAt w v.1) P Q).1) →
        (∃ P : bandersnatchG.Pt, pt w base = P.1 ∧ Eigen P) →
        ∀ P : bandersnatchG.Pt, pt w base = P.1 →
          pt w v.2.2 = (number (witAt w v.1).k1 (witAt w v.1).k2 (witAt w v.1).pos • P).1 := by
      rintro w v ⟨-, h2, h3⟩ ⟨P', hP', hE⟩ P hP
      have : P = P' := Subtype.ext (hP.symm.trans hP')
      rw [← this] at hE
      obtain ⟨hx, hy⟩ := coord_ne hE.1 hE.2.1
      rw [hP] at h2
      have hq := (endoEq_iff hx hy (y_sq_ne (bandersnatchG.on P.2))).1 h2
      rw [h3 P (lam • P) hP (by rw [hq, hE.2.2]), comb_number]
    constructor
    · intro v c' hm
      obtain ⟨u, c1, a1, a2⟩ := bind_ok hm
      cases a2
      obtain ⟨e, ⟨hf, hg', -⟩, r⟩ := H.sound u c' a1
      refine ⟨e, ?_, ?_⟩
      · rintro pi hsat hpre
        have hr := r pi _ hsat
        have hb' : pt c'.val base = pt c.val base := ptAt_text e hb
        refine ⟨_, hf, ?_, ?_⟩
        · have := hr.1
          rwa [e.val _ hs] at this
        · intro P hP
          exact key _ u hr (by rw [hb']; exact hpre) P (by rw [hb']; exact hP)
      · intro pi w hsat hpre
        have hr := r pi w hsat
        exact ⟨_, _, _, (accepts_iff _ _ _ _).2 ⟨witAt w u.1, rfl, rfl, rfl, hr.1⟩, key w u hr hpre⟩
    · rintro ⟨⟨P, hP, hE⟩, hgood⟩ pi hsat
      obtain ⟨hx, hy⟩ := coord_ne hE.1 hE.2.1
      have hy2 := y_sq_ne (bandersnatchG.on P.2)
      obtain ⟨u, c', a1, a2⟩ := H.complete ⟨by rw [hP]; exact P.2, hgood, phi P.1,
        by rw [hP]; exact hg P hP hE, by rw [hP]; exact (endoEq_iff hx hy hy2).2 rfl,
        by rw [hE.2.2]; exact (lam • P).2⟩ pi hsat
      exact ⟨_, c', by rw [bind_of_ok a1]; rfl, a2⟩
  refine TableExact.of_spec (glvMulOf_rel _ _ _ _ _ _ _) (fun _ _ h => h)
    (fun c h => h.2.1) ?_ ?_ ?_ ?_
  · rintro c w w' hd ha ⟨P, hP, hE⟩
    exact ⟨P, by rw [(hagree c w w' hd ha).1, hP], hE⟩
  · rintro c w w' y hd ha ⟨k1, k2, pos, h1, h2⟩
    obtain ⟨e1, e2⟩ := hagree c w w' hd ha
    exact ⟨k1, k2, pos, by rw [e2]; exact h1, fun P hP => h2 P (by rw [← e1]; exact hP)⟩
  · intro c hc hd
    refine TSpec.conseq hc.wf (main _ _ c hc hd (fun P _ hE => endomorphism_eq hE)) ?_ ?_ (fun _ _ _ _ h => h)
    · rintro ⟨h1, h2⟩ - -
      exact ⟨h1, (honestOK_iff _).1 h2⟩
    · rintro v c' - h pi hsat hpre
      obtain ⟨x, hx, hdec, hres⟩ := h pi hsat hpre
      have hon : HonestOK (c.val s).val := (honestOK_iff _).2 ⟨x, hx, hdec⟩
      refine ⟨hon, fun P hP => ?_⟩
      rw [hres P hP]
      have hr : bandersnatch.r = R := rfl
      rw [hr, values_eq, if_pos (show (c.val s).val < R from hon.1)] at hx
      cases hx
      obtain ⟨P', hP', hE⟩ := hpre
      have : P = P' := Subtype.ext (hP.symm.trans hP')
      rw [← this] at hE
      rw [smul_congr hE.2.1 (honest_number), natCast_zsmul]
  · rintro c S hc hd ⟨P, hP, hE⟩ ⟨k1, k2, pos, h1, h2⟩
    obtain ⟨x, a1, a2, a3, a4⟩ := (accepts_iff _ _ _ _).1 h1
    refine ⟨glvMulOf bandersnatch (fun _ => .ok x) (fun _ => .ok (phi P.1)) s base,
      glvMulOf_rel _ _ _ _ _ _ _, ?_⟩
    refine TSpec.conseq hc.wf (main _ _ c hc hd ?_) ?_ ?_ (fun _ _ _ _ _ => trivial)
    · intro P' hP' _
      have : P' = P := Subtype.ext (hP'.symm.trans hP)
      rw [this]
    · rintro - - -
      exact ⟨⟨P, hP, hE⟩, x, rfl, a4⟩
    · rintro v c' - h pi hsat
      obtain ⟨y, hy, -, hres⟩ := h pi hsat ⟨P, hP, hE⟩
      cases hy
      rw [hres P hP, a1, a2, a3, ← h2 P hP]

/-! ## `variable_base_scalar_mul` -/

theorem checkVar_run {c : Circ p_ed381} {v : ℕ} (h : v < c.numVars) : checkVar v c = .ok ((), c) := by
  unfold checkVar; rw [if_neg (by omega)]

theorem checkPoint_run {c : Circ p_ed381} {P : ℕ × ℕ} (h : PIn c P) : checkPoint P c = .ok ((), c) := by
  unfold checkPoint
  rw [bind_of_ok (checkVar_run h.1)]
  exact checkVar_run h.2

theorem lookup_run {c : Circ p_ed381} (h : c.ultra ≠ none) : supportLookup c = .ok (true, c) := by
  unfold supportLookup
  cases hu : c.ultra with
  | none => exact absurd hu h
  | some k => rfl

/-- **C35, the caller**: for Bandersnatch, `variable_base_scalar_mul` on a circuit with lookups is `glv_mul`. -/
theorem C35_variable_base (s : ℕ) (base : ℕ × ℕ) (c : Circ p_ed381) (h : GDom s base c) :
    variableBaseScalarMul bandersnatch s base c = glvMul bandersnatch s base c := by
  obtain ⟨hs, hb⟩ := gdom_in h
  unfold variableBaseScalarMul
  rw [bind_of_ok (checkVar_run hs), bind_of_ok (checkPoint_run hb), bind_of_ok (lookup_run h.2.1)]
  have h1 : (Nat.size bandersnatch.r == 253) = true := by decide +kernel
  have h2 : (Nat.size p_ed381 == 255) = true := by decide +kernel
  rw [h1, h2]
  rfl

theorem q_smul_ne {P : bandersnatchG.Pt} (h0 : P ≠ 0) (ho : ord • P = 0) : p_ed381 • P ≠ 0 := by
  intro h
  apply h0
  have hg : Nat.gcd ord p_ed381 = 1 := by decide +kernel
  have hd := Nat.dvd_gcd (addOrderOf_dvd_of_nsmul_eq_zero ho) (addOrderOf_dvd_of_nsmul_eq_zero h)
  rw [hg, Nat.dvd_one] at hd
  exact AddMonoid.addOrderOf_eq_one_iff.1 hd

/-- **C35, refuted for every scalar and point.** Let `w` satisfy the circuit before the call. For every scalar and
every point of the subgroup other than the neutral element, `w` extends to the new variables with the result
`(s + q) • P`, which is not `s • P`. -/
theorem C35_alias (s : ℕ) (base : ℕ × ℕ) (c : Circ p_ed381) (hc : WF c) (ht : TablesOK c)
    (hr : c.tableGateIds.length + 2 < p_ed381) (hd : GDom s base c) (v : ℕ × ℕ) (c' : Circ p_ed381)
    (hm : variableBaseScalarMul bandersnatch s base c = .ok (v, c')) (pi : List Fq) (w : ℕ → Fq) (hw : Sat c pi w)
    (P : bandersnatchG.Pt) (hP : pt w base = P.1) (hE : Eigen P) :
    ∃ w' : ℕ → Fq, (∀ i, i < c.numVars → w' i = w i) ∧ Sat c' pi w' ∧ pt w' v = (((w s).val + p_ed381) • P).1 ∧
      pt w' v ≠ ((w s).val • P).1 := by
  rw [C35_variable_base s base c hd] at hm
  obtain ⟨k1, k2, t, m, -, -, h1, h2⟩ := (C35_decomposition_counterexample (w s)).1
  obtain ⟨w', a1, a2, a3⟩ := ((C35_glv_exact s base).exact c hc ht hr hd v c' hm pi w hw ⟨P, hP, hE⟩
    (number k1 k2 true • P).1).2 ⟨k1, k2, true, h1, fun P' hP' => by
      have : P' = P := Subtype.ext (hP'.symm.trans hP)
      rw [this]⟩
  have e : number k1 k2 true • P = ((w s).val + p_ed381) • P := by
    rw [smul_congr hE.2.1 h2]
    exact_mod_cast natCast_zsmul P ((w s).val + p_ed381)
  rw [e] at a3
  refine ⟨w', a1, a2, a3, ?_⟩
  rw [a3]
  intro h
  have h' : ((w s).val + p_ed381) • P = (w s).val • P := Subtype.ext h
  rw [add_nsmul] at h'
  exact q_smul_ne hE.1 hE.2.1 (by simpa using h')

/-- the stored neutral element -/
theorem endomorphism_neutral : endomorphism bandersnatch (0, 1) = .error .panic := by
  unfold endomorphism
  simp

/-- **C35, the neutral element**: `glv_mul` panics for every scalar if the stored base is the neutral element. -/
theorem C35_neutral_counterexample (s : ℕ) (base : ℕ × ℕ) (c : Circ p_ed381) (hc : WF c) (ht : TablesOK c)
    (hr : c.tableGateIds.length + 2 < p_ed381) (hd : GDom s base c) (h : pt c.val base = (0, 1)) :
    ∀ v c', variableBaseScalarMul bandersnatch s base c ≠ .ok (v, c') := by
  intro v c' hm
  rw [C35_variable_base s base c hd] at hm
  obtain ⟨hs, hb⟩ := gdom_in hd
  have H := glvFull_tspec (E := bandersnatchG) rfl rfl big_r big_lt (values bandersnatch.r)
    (endomorphism bandersnatch) (c := c) ⟨hc, ht, hd.2.1, hr⟩ hd.2.2 hs hb
  unfold glvMul at hm
  rw [glvMulOf_eq] at hm
  obtain ⟨u, c1, a1, -⟩ := bind_ok hm
  obtain ⟨-, ⟨-, hg, -⟩, -⟩ := H.sound u c1 a1
  rw [h, endomorphism_neutral] at hg
  cases hg

/-- the result of `glv_mul` is a pair of existing variables -/
theorem glvMul_in {s : ℕ} {base : ℕ × ℕ} {c : Circ p_ed381} (hc : TWF 2 c) (hd : GDom s base c) {v : ℕ × ℕ}
    {c' : Circ p_ed381} (hm : glvMul bandersnatch s base c = .ok (v, c')) : PIn c' v := by
  obtain ⟨hs, hb⟩ := gdom_in hd
  have H := glvFull_tspec (E := bandersnatchG) rfl rfl big_r big_lt (values bandersnatch.r)
    (endomorphism bandersnatch) hc hd.2.2 hs hb
  unfold glvMul at hm
  rw [glvMulOf_eq] at hm
  obtain ⟨u, c1, a1, a2⟩ := bind_ok hm
  cases a2
  exact (H.sound u c' a1).2.1.2.2

/-! ## The generator -/

/-- the endomorphism at the generator -/
def bandPhi : Fq × Fq := (9410140894439863935332762565785171069688954753118397683297156406757263156480,
  42897121562489438146646031041430560066848200730688375538592044941290600261670)

theorem bandPhi_eq : phi bandPt.1 = bandPhi := by
  have h1 : bandPt.1.1 * bandPt.1.2 ≠ 0 := by decide +kernel
  have h2 : bandPt.1.2 ^ 2 - cb ≠ 0 := by decide +kernel
  unfold phi
  refine Prod.ext ?_ ?_
  · show _ / _ = _
    rw [div_eq_iff h1]; decide +kernel
  · show _ / _ = _
    rw [div_eq_iff h2]; decide +kernel

theorem smul_eq_of_proj {E : EdGroup Fq} (P : E.Pt) (n m : ℕ) (S : Fq × Fq) (h : bitsBE (bitsOf n m) 0 = m)
    (h1 : (projMul E.a E.d (P.1.1, P.1.2, 1) (bitsOf n m) (0, 1, 1)).1 =
      S.1 * (projMul E.a E.d (P.1.1, P.1.2, 1) (bitsOf n m) (0, 1, 1)).2.2)
    (h2 : (projMul E.a E.d (P.1.1, P.1.2, 1) (bitsOf n m) (0, 1, 1)).2.1 =
      S.2 * (projMul E.a E.d (P.1.1, P.1.2, 1) (bitsOf n m) (0, 1, 1)).2.2) : (m • P).1 = S := by
  have g := Proj.mul (P := P) (S := (P.1.1, P.1.2, 1)) ⟨one_ne_zero, by simp, by simp⟩ (bitsOf n m) 0 (0, 1, 1)
    ⟨one_ne_zero, by rw [zero_nsmul, E.zero_val]; simp, by rw [zero_nsmul, E.zero_val]; simp⟩
  rw [h] at g
  obtain ⟨g0, g1, g2⟩ := g
  exact Prod.ext (mul_right_cancel₀ g0 (g1.symm.trans h1)) (mul_right_cancel₀ g0 (g2.symm.trans h2))

/-- the hypothesis on the point holds of the generator -/
theorem band_eigen : Eigen bandPt := by
  refine ⟨?_, ?_, ?_⟩
  · intro h
    have := congrArg (fun P : bandersnatchG.Pt => P.1) h
    exact absurd this (by rw [bandersnatchG.zero_val]; decide +kernel)
  · apply Subtype.ext
    rw [bandersnatchG.zero_val]
    exact smul_eq_of_proj bandPt 253 ord _ (by decide +kernel) (by decide +kernel) (by decide +kernel)
  · rw [bandPhi_eq]
    exact (smul_eq_of_proj bandPt 253 lam _ (by decide +kernel) (by decide +kernel) (by decide +kernel)).symm

theorem demo_gdom (x y s : Fq) : GDom 4 (2, 3) (demoMsm p_ed381 x y s) := by
  refine ⟨(demoMsm_dom x y s).1, (demoMsm_dom x y s).2, ?_⟩
  intro k hk
  have : k = 8 := by cases hk; rfl
  subst this
  exact ⟨by omega, by omega, by decide +kernel⟩

theorem demo_room (x y s : Fq) : (demoMsm p_ed381 x y s).tableGateIds.length + 2 < p_ed381 := by
  have : (demoMsm p_ed381 x y s).tableGateIds.length = 0 := rfl
  rw [this]; decide +kernel

theorem honest_one : HonestOK 1 := by
  unfold HonestOK
  exact ⟨by decide +kernel, Or.inl (by decide +kernel)⟩

/-- **C35, refuted for the generator and the scalar 1**, in full: the builder's circuit is accepted with the right
result, and the same constraints have a solution with the same point and scalar and another result. -/
theorem C35_mul_counterexample : ∃ v c' w,
    variableBaseScalarMul bandersnatch 4 (2, 3) (demoMsm p_ed381 bandG.1 bandG.2 1) = .ok (v, c') ∧
    checkSat c' [] = .ok () ∧ pt c'.val v = bandG ∧
    Sat c' [] w ∧ pt w (2, 3) = bandG ∧ w 4 = 1 ∧ pt w v ≠ bandG := by
  have hwf := demoMsm_wf bandG.1 bandG.2 1
  have hto := demoMsm_tables bandG.1 bandG.2 1
  have hr := demo_room bandG.1 bandG.2 1
  have hd := demo_gdom bandG.1 bandG.2 1
  have hck : checkSat (demoMsm p_ed381 bandG.1 bandG.2 1) [] = .ok () := by decide +kernel
  have hpt : pt (demoMsm p_ed381 bandG.1 bandG.2 1).val (2, 3) = bandPt.1 := rfl
  have h4 : (demoMsm p_ed381 bandG.1 bandG.2 1).val 4 = 1 := rfl
  have hv : ((demoMsm p_ed381 bandG.1 bandG.2 1).val 4).val = 1 := by rw [h4]; decide +kernel
  obtain ⟨hh, hres⟩ := (C35_glv_exact 4 (2, 3)).honest _ hwf hto hr hd [] hck ⟨bandPt, hpt, band_eigen⟩
  obtain ⟨v, c', hm, hs⟩ := hh.2 (by rw [hv]; exact honest_one)
  have h1 := hres v c' hm hs bandPt hpt
  rw [hv, one_nsmul] at h1
  rw [← C35_variable_base 4 (2, 3) _ hd] at hm
  obtain ⟨w, a1, a2, a3, a4⟩ := C35_alias 4 (2, 3) _ hwf hto hr hd v c' hm [] _ ((checkSat_ok hwf []).1 hck) bandPt hpt
    band_eigen
  rw [hv, one_nsmul] at a4
  have w5 : (demoMsm p_ed381 bandG.1 bandG.2 1).numVars = 5 := rfl
  refine ⟨v, c', w, hm, hs, h1, a2, ?_, ?_, a4⟩
  · unfold pt
    rw [a1 2 (by omega), a1 3 (by omega)]
    rfl
  · rw [a1 4 (by omega)]; exact h4

/-- a scalar below `ord` whose second half is negative and whose intermediate value is negative -/
def badScalar : ℕ := 1220424449502752296039859886330155922178

theorem bad_not : badScalar < ord ∧ ¬ HonestOK badScalar := by
  refine ⟨by decide +kernel, ?_⟩
  rintro ⟨-, h | h⟩
  · exact absurd h (by decide +kernel)
  · exact absurd h (by decide +kernel)

/-- **C35, completeness refuted**: for the generator and the scalar `badScalar < ord`, the call panics or its
circuit is not satisfied by the values it stored. -/
theorem C35_reject_counterexample : badScalar < ord ∧
    (∃ v c', variableBaseScalarMul bandersnatch 4 (2, 3) (demoMsm p_ed381 bandG.1 bandG.2 1) = .ok (v, c') ∧
      checkSat c' [] = .ok ()) ∧
    ¬ ∃ v c', variableBaseScalarMul bandersnatch 4 (2, 3) (demoMsm p_ed381 bandG.1 bandG.2 (badScalar : ℕ)) =
      .ok (v, c') ∧ checkSat c' [] = .ok () := by
  refine ⟨bad_not.1, ?_, ?_⟩
  · obtain ⟨v, c', -, h1, h2, -⟩ := C35_mul_counterexample
    exact ⟨v, c', h1, h2⟩
  · have hwf := demoMsm_wf bandG.1 bandG.2 (badScalar : ℕ)
    have hd := demo_gdom bandG.1 bandG.2 (badScalar : ℕ)
    have hck : checkSat (demoMsm p_ed381 bandG.1 bandG.2 (badScalar : ℕ)) [] = .ok () := by decide +kernel
    have hpt : pt (demoMsm p_ed381 bandG.1 bandG.2 (badScalar : ℕ)).val (2, 3) = bandPt.1 := rfl
    have hv : ((demoMsm p_ed381 bandG.1 bandG.2 (badScalar : ℕ)).val 4).val = badScalar := by
      show ((badScalar : ℕ) : Fq).val = _
      decide +kernel
    obtain ⟨hh, -⟩ := (C35_glv_exact 4 (2, 3)).honest _ hwf (demoMsm_tables _ _ _) (demo_room _ _ _) hd [] hck
      ⟨bandPt, hpt, band_eigen⟩
    rw [C35_variable_base 4 (2, 3) _ hd]
    intro h
    have := hh.1 h
    rw [hv] at this
    exact bad_not.2 this

/-! ## Examples -/

-- the decomposition of the scalar `2^250`: accepted, with halves of 128 bits
example : HonestOK (2 ^ 250) ∧ ¬ HonestOK ord :=
  ⟨(C35_accept_partial _ (by decide +kernel)).1 le_rfl, fun h => absurd h.1 (by decide +kernel)⟩

/-- the example circuit: the generator and the scalar 1 -/
def demoOne : Circ p_ed381 := demoMsm p_ed381 bandG.1 bandG.2 1

theorem demoOne_check : checkSat demoOne [] = .ok () := by decide +kernel
theorem demoOne_val : (demoOne.val 4).val = 1 := by
  show (1 : Fq).val = 1
  decide +kernel

-- the decomposition of 1 is 1 and 0; the halves of `1 + q` are accepted as well
example : ∃ v c', scalarDecompositionGate (values bandersnatch.r) 4 demoOne = .ok (v, c') ∧
    checkSat c' [] = .ok () ∧ c'.val v.1 = 1 ∧ c'.val v.2.1 = 0 ∧
    ∃ w, Sat c' [] w ∧ w 4 = 1 ∧ number (w v.1) (w v.2.1) true ≡ 1 + p_ed381 [ZMOD ord] := by
  have h := C35_decomposition 4
  have hwf : WF demoOne := demoMsm_wf bandG.1 bandG.2 1
  have hd : 4 < demoOne.numVars ∧ RangeOK demoOne := ⟨by decide, (demo_gdom bandG.1 bandG.2 1).2.2⟩
  have h4 : demoOne.val 4 = 1 := rfl
  obtain ⟨hh, hres⟩ := h.honest demoOne hwf hd [] demoOne_check trivial
  obtain ⟨v, c', hm, hs⟩ := hh.2 (by rw [demoOne_val]; exact honest_one)
  have h1 := hres v c' hm
  rw [demoOne_val] at h1
  obtain ⟨k1, k2, t, m, -, -, g1, g2⟩ := (C35_decomposition_counterexample (demoOne.val 4)).1
  obtain ⟨w, a1, a2, a3⟩ := (h.exact demoOne hwf hd v c' hm [] _ ((checkSat_ok hwf []).1 demoOne_check) trivial
    (k1, k2, 1)).2 ⟨true, rfl, g1⟩
  simp only [Prod.mk.injEq] at h1 a3
  refine ⟨v, c', hm, hs, ?_, ?_, w, a2, ?_, ?_⟩
  · rw [h1.1]; decide +kernel
  · rw [h1.2.1]; decide +kernel
  · rw [a1 4 hd.1]; exact h4
  · rw [a3.1, a3.2.1]
    rw [demoOne_val] at g2
    exact g2

-- the endomorphism circuit at the generator: one result, the multiple by `lam`
example : ∃ v c', endomorphismCircuit (endomorphism bandersnatch) (2, 3) demoOne = .ok (v, c') ∧
    checkSat c' [] = .ok () ∧ pt c'.val v = (lam • bandPt).1 ∧
    ∀ w, Sat c' [] w → pt w (2, 3) = bandG → pt w v = (lam • bandPt).1 := by
  have h := C35_endomorphism (2, 3)
  have hwf : WF demoOne := demoMsm_wf bandG.1 bandG.2 1
  have hd : Dom [] [(2, 3)] demoOne := ⟨by simp, (demo_gdom bandG.1 bandG.2 1).1.2⟩
  have hpt : pt demoOne.val (2, 3) = bandPt.1 := rfl
  obtain ⟨hh, hres⟩ := h.honest demoOne hwf hd [] demoOne_check ⟨bandPt, hpt, band_eigen⟩
  obtain ⟨v, c', hm, hs⟩ := hh.2 trivial
  refine ⟨v, c', hm, hs, (hres v c' hm).trans (by rw [hpt]; exact band_eigen.2.2), ?_⟩
  intro w hw hb
  have hb' : pt w (2, 3) = bandPt.1 := hb
  obtain ⟨hx, hy⟩ := coord_ne band_eigen.1 band_eigen.2.1
  have h3 := (h.exact demoOne hwf hd v c' hm [] w (h.old demoOne hwf hd v c' hm [] w hw)
    ⟨by rw [hb']; exact bandersnatchG.on bandPt.2, by
      have := congrArg Prod.fst hb'
      exact fun h0 => hx (this.symm.trans h0), by
      have := congrArg Prod.snd hb'
      exact fun h0 => hy (this.symm.trans h0)⟩ _).1 ⟨w, fun _ _ => rfl, hw, rfl⟩
  rw [h3, hb']
  exact band_eigen.2.2

-- the hypotheses of `C35_neutral_counterexample`
example : GDom 4 (2, 3) (demoMsm p_ed381 0 1 1) ∧ pt (demoMsm p_ed381 0 1 1).val (2, 3) = (0, 1) :=
  ⟨demo_gdom 0 1 1, rfl⟩

-- the hypotheses of `C35_sound_partial`: the halves of 1
example : Equations 1 1 0 true 0 0 := by
  unfold Equations
  decide +kernel

end Verif.Props.Glv
