import Verif.Circuit.EmulatedSpec
import Mathlib.RingTheory.Coprime.Lemmas
import Mathlib.RingTheory.Int.Basic

/-! # The relations of the emulated arithmetic gates, as statements about integers -/

set_option linter.unusedSectionVars false

namespace Verif.Circuit

open Finset Verif.Limbs

variable {p : ℕ}

/-- Side conditions on a configuration: the limbs make up `2^T`, the modulus fits, the products and
carries of one limb do not wrap around in the native field. -/
structure Emu.OK (E : Emu) (p : ℕ) : Prop where
  hT : E.T = E.B * E.n
  hB : 0 < E.B
  hn : 0 < E.n
  hq : 0 < E.q
  hqT : E.q < 2 ^ E.T
  hp : 2 ^ (2 * E.B + Nat.size (2 * E.n) + 1) ≤ p

/-- the integer with limbs `A` -/
def nat (E : Emu) (A : ℕ → ZMod p) : ℕ := num (2 ^ E.B) (fun j => (A j).val) E.n

theorem Emu.OK.pow {E : Emu} (h : E.OK p) : (2 ^ E.B) ^ E.n = 2 ^ E.T := by
  rw [h.hT, ← pow_mul]

theorem Emu.OK.two_lt {E : Emu} (h : E.OK p) : 2 < p := by
  have h1 : 2 ^ 2 ≤ 2 ^ (2 * E.B + Nat.size (2 * E.n) + 1) :=
    Nat.pow_le_pow_right (by omega) (by have := h.hB; omega)
  have := h.hp
  omega

theorem Emu.OK.add_lt {E : Emu} (h : E.OK p) : 2 * 2 ^ E.B < p := by
  have h1 : 2 ^ (E.B + 1 + 1) ≤ 2 ^ (2 * E.B + Nat.size (2 * E.n) + 1) :=
    Nat.pow_le_pow_right (by omega) (by have := h.hB; omega)
  have := h.hp
  have h2 : 0 < 2 ^ E.B := by positivity
  rw [pow_succ, pow_succ] at h1
  omega

theorem cast_cv (f g : ℕ → ℕ) (i : ℕ) :
    ((cv f g i : ℕ) : ZMod p) = cv (fun j => (f j : ZMod p)) (fun j => (g j : ZMod p)) i := by
  unfold cv; push_cast; rfl

theorem cast_num (r : ℕ) (f : ℕ → ℕ) (n : ℕ) :
    ((num r f n : ℕ) : ZMod p) = num (r : ZMod p) (fun j => (f j : ZMod p)) n := by
  unfold num; push_cast; rfl

theorem cv_congr {f g f' g' : ℕ → ZMod p} {i : ℕ} (hf : ∀ j, j ≤ i → f j = f' j)
    (hg : ∀ j, j ≤ i → g j = g' j) : cv f g i = cv f' g' i := by
  unfold cv
  apply sum_congr rfl
  intro j hj
  rw [mem_range] at hj
  rw [hf j (by omega), hg (i - j) (by omega)]

theorem cast_nat [NeZero p] (E : Emu) (A : ℕ → ZMod p) :
    ((nat E A : ℕ) : ZMod p) = num (2 ^ E.B) A E.n := by
  unfold nat
  rw [cast_num]
  simp

/-- the limbs of the product sums, as integers -/
def xs (E : Emu) (A B K : ℕ → ℕ) (j : ℕ) : ℕ := cv K (dig (2 ^ E.B) (2 ^ E.T - E.q)) j + cv A B j

theorem xs_le {E : Emu} {A B K : ℕ → ℕ} {j : ℕ} (hj : j < E.n) (hA : ∀ j, j < E.n → A j < 2 ^ E.B)
    (hB : ∀ j, j < E.n → B j < 2 ^ E.B) (hK : ∀ j, j < E.n → K j < 2 ^ E.B) :
    xs E A B K j ≤ 2 * (j + 1) * (2 ^ E.B - 1) ^ 2 := by
  have h1 : cv K (dig (2 ^ E.B) (2 ^ E.T - E.q)) j ≤ (j + 1) * (2 ^ E.B - 1) ^ 2 :=
    cv_le (fun i hi => Nat.le_sub_one_of_lt (hK i (by omega)))
      (fun i _ => Nat.le_sub_one_of_lt (dig_lt (by positivity) _ _))
  have h2 : cv A B j ≤ (j + 1) * (2 ^ E.B - 1) ^ 2 :=
    cv_le (fun i hi => Nat.le_sub_one_of_lt (hA i (by omega)))
      (fun i hi => Nat.le_sub_one_of_lt (hB i (by omega)))
  unfold xs
  calc _ ≤ (j + 1) * (2 ^ E.B - 1) ^ 2 + (j + 1) * (2 ^ E.B - 1) ^ 2 := Nat.add_le_add h1 h2
    _ = _ := by ring

/-- neither side of a limb equation wraps around -/
theorem limb_bound {E : Emu} (h : E.OK p) {x c e e' j : ℕ} (hj : j < E.n)
    (hx : x ≤ 2 * (j + 1) * (2 ^ E.B - 1) ^ 2) (hc : c < 2 ^ E.B)
    (he : e < 2 ^ (E.B + Nat.size (2 * E.n))) (he' : e' < 2 ^ (E.B + Nat.size (2 * E.n))) :
    x + e < p ∧ c + 2 ^ E.B * e' < p := by
  set s := Nat.size (2 * E.n) with hs
  have hP : 2 ^ (2 * E.B + s + 1) ≤ p := h.hp
  have hr : 1 ≤ 2 ^ E.B := Nat.one_le_two_pow
  have e1 : 2 ^ (2 * E.B + s + 1) = 2 * (2 ^ E.B * (2 ^ E.B * 2 ^ s)) := by
    rw [two_mul E.B, pow_succ, pow_add, pow_add]; ring
  have e2 : 2 ^ (E.B + s) = 2 ^ E.B * 2 ^ s := by rw [pow_add]
  have hs2 : 2 * (j + 1) < 2 ^ s := lt_of_le_of_lt (by omega) (Nat.lt_size_self (2 * E.n))
  rw [e2] at he he'
  rw [e1] at hP
  generalize 2 ^ E.B = r at *
  generalize 2 ^ s = S at *
  have hrS : r * S ≤ r * (r * S) := Nat.le_mul_of_pos_left _ hr
  have hle : r ≤ r * S := Nat.le_mul_of_pos_right _ (by omega)
  constructor
  · have : 2 * (j + 1) * (r - 1) ^ 2 ≤ S * (r * r) := by
      rw [← sq]
      exact Nat.mul_le_mul (le_of_lt hs2) (Nat.pow_le_pow_left (by omega) 2)
    have h3 : S * (r * r) = r * (r * S) := by ring
    omega
  · have h4 : r * (e' + 1) ≤ r * (r * S) := Nat.mul_le_mul_left _ he'
    rw [mul_add, mul_one] at h4
    omega

theorem carry_range {E : Emu} {j : ℕ} (hj : j < E.n) {e : ℕ} (he : e < 2 ^ carryBits E j) :
    e < 2 ^ (E.B + Nat.size (2 * E.n)) := by
  refine lt_of_lt_of_le he (Nat.pow_le_pow_right (by omega) ?_)
  unfold carryBits
  have : Nat.size (2 * j + 2) ≤ Nat.size (2 * E.n) := Nat.size_le_size (by omega)
  omega

/-- the limbs of `2^T - q` in the native field -/
def negLimbs (p : ℕ) (E : Emu) : List (ZMod p) := toLimbs p (2 ^ E.T - E.q) E.B E.n

theorem negModulus_ok {E : Emu} (h : E.OK p) : negModulus p E = .ok (negLimbs p E) := by
  unfold negModulus
  rw [if_neg (by have := h.hqT; omega)]
  rfl

theorem cast_xs [NeZero p] (E : Emu) {A B K : ℕ → ZMod p} {j : ℕ} (hj : j < E.n) :
    ((xs E (fun j => (A j).val) (fun j => (B j).val) (fun j => (K j).val) j : ℕ) : ZMod p)
      = cv K (cst (negLimbs p E)) j + cv A B j := by
  unfold xs
  push_cast
  rw [cast_cv, cast_cv]
  congr 1
  · apply cv_congr
    · intro i _; exact ZMod.natCast_zmod_val _
    · intro i hi; exact (cst_toLimbs _ _ _ _ (by omega)).symm
  · apply cv_congr <;> intro i _ <;> exact ZMod.natCast_zmod_val _

theorem eq_of_cast {a b : ℕ} (ha : a < p) (hb : b < p) (h : (a : ZMod p) = b) : a = b :=
  Nat.ModEq.eq_of_lt_of_lt ((ZMod.natCast_eq_natCast_iff a b p).1 h) ha hb

/-- sum of the limb products modulo `2^T` -/
theorem num_xs {E : Emu} (h : E.OK p) (A B K : ℕ → ℕ) :
    num (2 ^ E.B) (xs E A B K) E.n ≡ num (2 ^ E.B) K E.n * (2 ^ E.T - E.q)
      + num (2 ^ E.B) A E.n * num (2 ^ E.B) B E.n [MOD 2 ^ E.T] := by
  unfold xs
  rw [num_add, ← h.pow]
  refine Nat.ModEq.add ?_ (cv_modEq _ _ _ _)
  refine (cv_modEq _ _ _ _).trans ?_
  rw [num_dig, h.pow]
  exact (Nat.ModEq.refl _).mul (Nat.mod_modEq _ _)

theorem modEq_iff_dvd {E : Emu} (h : E.OK p) (k ab c : ℕ) :
    (k * (2 ^ E.T - E.q) + ab ≡ c [MOD 2 ^ E.T]) ↔ ((2 ^ E.T : ℕ) : ℤ) ∣ (ab : ℤ) - k * E.q - c := by
  rw [Nat.ModEq.comm, Nat.modEq_iff_dvd]
  have hq := h.hqT
  push_cast [Nat.cast_sub (le_of_lt hq)]
  have : (k : ℤ) * (2 ^ E.T - E.q) + ab - c = 2 ^ E.T * k + (ab - k * E.q - c) := by ring
  rw [this]
  exact dvd_add_right (dvd_mul_right _ _)

theorem coprime_pow {E : Emu} (h : E.OK p) (hp : p.Prime) : IsCoprime ((2 ^ E.T : ℕ) : ℤ) (p : ℤ) := by
  rw [Nat.isCoprime_iff_coprime]
  apply Nat.Coprime.pow_left
  rw [Nat.coprime_primes Nat.prime_two hp]
  have := h.two_lt
  omega

/-- The gates of a multiplication with in-range limbs force a congruence modulo `2^T p`. -/
theorem MulRel.sound [hp : Fact p.Prime] {E : Emu} (h : E.OK p) {A B C K e : ℕ → ZMod p} {bn : ZMod p}
    (hA : ∀ j, j < E.n → (A j).val < 2 ^ E.B) (hB : ∀ j, j < E.n → (B j).val < 2 ^ E.B)
    (hC : ∀ j, j < E.n → (C j).val < 2 ^ E.B) (hbn : bn = num (2 ^ E.B) B E.n)
    (hr : MulRel E (cst (negLimbs p E)) A B bn C K e) :
    ∃ k : ℕ, k < 2 ^ E.T ∧ ((2 ^ E.T * p : ℕ) : ℤ) ∣ (nat E A : ℤ) * nat E B - k * E.q - nat E C := by
  have : NeZero p := ⟨hp.out.ne_zero⟩
  refine ⟨nat E K, ?_, ?_⟩
  · rw [← h.pow]; exact num_lt hr.kr
  push_cast
  rw [← Nat.cast_ofNat, ← Nat.cast_pow]
  refine (coprime_pow h hp.out).mul_dvd ?_ ?_
  · have chain : ∀ j, j < E.n → xs E (fun j => (A j).val) (fun j => (B j).val) (fun j => (K j).val) j
        + (e j).val = (C j).val + 2 ^ E.B * (e (j + 1)).val := by
      intro j hj
      obtain ⟨s1, s2⟩ := hr.step j hj
      have hej : (e j).val < 2 ^ (E.B + Nat.size (2 * E.n)) := by
        rcases j with _ | j
        · rw [hr.e0]; simp
        · exact carry_range (by omega) (hr.step j (by omega)).2
      obtain ⟨b1, b2⟩ := limb_bound h hj (xs_le hj hA hB hr.kr) (hC j hj) hej (carry_range hj s2)
      apply eq_of_cast b1 b2
      push_cast
      rw [cast_xs E hj]
      simp only [ZMod.natCast_zmod_val]
      exact s1
    have hsum := chain_sum (e := fun j => (e j).val) (by rw [hr.e0]; simp) chain
    have hm := num_xs h (fun j => (A j).val) (fun j => (B j).val) (fun j => (K j).val)
    rw [hsum, h.pow] at hm
    have hm' : nat E K * (2 ^ E.T - E.q) + nat E A * nat E B ≡ nat E C [MOD 2 ^ E.T] := by
      refine hm.symm.trans ?_
      simp [Nat.ModEq, nat]
    have := (modEq_iff_dvd h _ _ _).1 hm'
    push_cast at this ⊢
    exact this
  · rw [← ZMod.intCast_zmod_eq_zero_iff_dvd]
    push_cast
    rw [cast_nat, cast_nat, cast_nat, cast_nat, ← hr.native, hbn]
    ring

/-- the carries of the multiplication -/
def mulCarry (E : Emu) (A B : ℕ → ℕ) (k : ℕ) : ℕ → ℕ := carry (2 ^ E.B) (xs E A B (dig (2 ^ E.B) k))

/-- Conversely, a quotient with that congruence makes the gates hold. -/
theorem MulRel.of_dvd [hp : Fact p.Prime] {E : Emu} (h : E.OK p) {A B C : ℕ → ZMod p} {bn : ZMod p}
    (hA : ∀ j, j < E.n → (A j).val < 2 ^ E.B) (hB : ∀ j, j < E.n → (B j).val < 2 ^ E.B)
    (hC : ∀ j, j < E.n → (C j).val < 2 ^ E.B) (hbn : bn = num (2 ^ E.B) B E.n) {k : ℕ}
    (hk : k < 2 ^ E.T)
    (hd : ((2 ^ E.T * p : ℕ) : ℤ) ∣ (nat E A : ℤ) * nat E B - k * E.q - nat E C) :
    MulRel E (cst (negLimbs p E)) A B bn C (cst (toLimbs p k E.B E.n))
      (fun j => (mulCarry E (fun j => (A j).val) (fun j => (B j).val) k j : ZMod p)) := by
  have : NeZero p := ⟨hp.out.ne_zero⟩
  have hrp : 2 ^ E.B < p := by have := h.add_lt; omega
  have hr0 : 0 < 2 ^ E.B := by positivity
  set K : ℕ → ZMod p := cst (toLimbs p k E.B E.n) with hK
  have hKv : ∀ j, j < E.n → (K j).val = dig (2 ^ E.B) k j := by
    intro j hj
    rw [hK, cst_toLimbs _ _ _ _ hj, ZMod.val_natCast_of_lt ((dig_lt hr0 _ _).trans hrp)]
  have hKr : ∀ j, j < E.n → (K j).val < 2 ^ E.B := by
    intro j hj; rw [hKv j hj]; exact dig_lt hr0 _ _
  have hKn : nat E K = k := by
    unfold nat
    rw [num_congr hKv]
    exact num_dig_of_lt (by rw [h.pow]; exact hk)
  set A' : ℕ → ℕ := fun j => (A j).val
  set B' : ℕ → ℕ := fun j => (B j).val
  set x := xs E A' B' (dig (2 ^ E.B) k) with hx
  have hxK : ∀ j, j < E.n → x j = xs E A' B' (fun j => (K j).val) j := by
    intro j hj
    rw [hx]
    unfold xs
    congr 1
    unfold cv
    apply sum_congr rfl
    intro i hi
    rw [mem_range] at hi
    show _ = (K i).val * _
    rw [hKv i (by omega)]
  have hle : ∀ j, j < E.n → x j ≤ 2 * (j + 1) * (2 ^ E.B - 1) ^ 2 := by
    intro j hj
    rw [hxK j hj]
    exact xs_le hj hA hB hKr
  have hcl : ∀ j, j ≤ E.n → carry (2 ^ E.B) x j ≤ 2 * j * (2 ^ E.B - 1) := by
    have := carry_le (M := 2 ^ E.B - 1) hle
    rwa [Nat.sub_add_cancel (by omega)] at this
  have hdT : ((2 ^ E.T : ℕ) : ℤ) ∣ (nat E A : ℤ) * nat E B - k * E.q - nat E C :=
    dvd_trans ⟨(p : ℤ), by push_cast; ring⟩ hd
  have hdp : (p : ℤ) ∣ (nat E A : ℤ) * nat E B - k * E.q - nat E C :=
    dvd_trans ⟨((2 ^ E.T : ℕ) : ℤ), by push_cast; ring⟩ hd
  have chain := chain_carry (r := 2 ^ E.B) (x := x) (c := fun j => (C j).val) (n := E.n) hC (by
    rw [h.pow]
    refine (num_xs h A' B' _).trans ?_
    rw [num_dig_of_lt (by rw [h.pow]; exact hk)]
    rw [← Nat.cast_mul] at hdT
    exact (modEq_iff_dvd h _ _ _).2 hdT)
  have hlt : ∀ j, j < E.n → carry (2 ^ E.B) x (j + 1) < 2 ^ carryBits E j := by
    intro j hj
    have h1 := hcl (j + 1) (by omega)
    have h2 : 2 * (j + 1) < 2 ^ Nat.size (2 * j + 2) := Nat.lt_size_self (2 * j + 2)
    unfold carryBits
    rw [pow_add]
    calc _ ≤ 2 * (j + 1) * (2 ^ E.B - 1) := h1
      _ ≤ 2 ^ Nat.size (2 * j + 2) * (2 ^ E.B - 1) := Nat.mul_le_mul_right _ h2.le
      _ < 2 ^ Nat.size (2 * j + 2) * 2 ^ E.B := Nat.mul_lt_mul_of_pos_left (by omega) (by positivity)
      _ = _ := mul_comm _ _
  have hval : ∀ j, j < E.n → ((carry (2 ^ E.B) x (j + 1) : ℕ) : ZMod p).val = carry (2 ^ E.B) x (j + 1) := by
    intro j hj
    apply ZMod.val_natCast_of_lt
    have h1 := carry_range hj (hlt j hj)
    refine lt_of_lt_of_le h1 (le_trans (Nat.pow_le_pow_right (by omega) (by omega)) h.hp)
  refine ⟨by simp [mulCarry, carry], hKr, ?_, ?_, ?_⟩
  · show ((carry (2 ^ E.B) x 1 : ℕ) : ZMod p).val < _
    rw [hval 0 h.hn]
    have := hcl 1 h.hn
    rw [pow_succ, Nat.zero_add]
    omega
  · intro j hj
    refine ⟨?_, ?_⟩
    · have := congrArg (Nat.cast : ℕ → ZMod p) (chain j hj)
      push_cast at this
      rw [hxK j hj, cast_xs E hj] at this
      rw [ZMod.natCast_zmod_val] at this
      exact this
    · show ((carry (2 ^ E.B) x (j + 1) : ℕ) : ZMod p).val < _
      rw [hval j hj]; exact hlt j hj
  · have h2 := (ZMod.intCast_zmod_eq_zero_iff_dvd _ p).2 hdp
    push_cast at h2
    rw [cast_nat, cast_nat, cast_nat, ← hKn, cast_nat] at h2
    rw [hbn]
    linear_combination h2

/-! ## Addition -/

theorem bit_val (hp : 1 < p) {x : ZMod p} (h : x = 0 ∨ x = 1) : x.val ≤ 1 := by
  have : Fact (1 < p) := ⟨hp⟩
  rcases h with rfl | rfl
  · simp
  · rw [ZMod.val_one]

/-- one addition step, as integers -/
theorem AddStep.nat [Fact p.Prime] {E : Emu} (h : 2 * 2 ^ E.B < p) {x s e e' : ZMod p} {x' : ℕ}
    (hx : (x' : ZMod p) = x) (hx2 : x' + 1 < 2 * 2 ^ E.B) (hs : s.val < 2 ^ E.B) (he : e = 0 ∨ e = 1)
    (hst : AddStep E x s e e') : x' + e.val = s.val + 2 ^ E.B * e'.val := by
  have hp : 1 < p := (Fact.out : p.Prime).one_lt
  have : NeZero p := ⟨by omega⟩
  have h1 := bit_val hp he
  have h2 := bit_val hp hst.1
  apply eq_of_cast (p := p)
  · omega
  · have : 2 ^ E.B * e'.val ≤ 2 ^ E.B * 1 := Nat.mul_le_mul_left _ h2
    omega
  · push_cast
    rw [hx, ZMod.natCast_zmod_val, ZMod.natCast_zmod_val, ZMod.natCast_zmod_val]
    exact hst.2

/-- limbs of `k q + c` -/
def qs (E : Emu) (k : ℕ) (C : ℕ → ℕ) (j : ℕ) : ℕ := k * dig (2 ^ E.B) E.q j + C j

theorem num_qs {E : Emu} (h : E.OK p) (k : ℕ) (C : ℕ → ℕ) :
    num (2 ^ E.B) (qs E k C) E.n = k * E.q + num (2 ^ E.B) C E.n := by
  unfold qs
  rw [num_add, num_mul_left, num_dig_of_lt (by rw [h.pow]; exact h.hqT)]

theorem qs_lt {E : Emu} {k : ℕ} (hk : k ≤ 1) {C : ℕ → ℕ} {j : ℕ} (hC : C j < 2 ^ E.B) :
    qs E k C j + 1 < 2 * 2 ^ E.B := by
  unfold qs
  have h1 : dig (2 ^ E.B) E.q j < 2 ^ E.B := dig_lt (by positivity) _ _
  have h2 : k * dig (2 ^ E.B) E.q j ≤ 1 * dig (2 ^ E.B) E.q j := Nat.mul_le_mul_right _ hk
  omega

theorem bit_cases {e : ℕ → ZMod p} {n : ℕ} (h0 : e 0 = 0) (h : ∀ j, j < n → e (j + 1) = 0 ∨ e (j + 1) = 1) :
    ∀ j, j ≤ n → e j = 0 ∨ e j = 1 := by
  intro j hj
  rcases j with _ | j
  · exact Or.inl h0
  · exact h j (by omega)

/-- The gates of an addition with in-range limbs force a congruence modulo `2^T`. -/
theorem AddRel.sound [hp : Fact p.Prime] {E : Emu} (h : E.OK p) {A B C S e f : ℕ → ZMod p} {k : ZMod p}
    (hA : ∀ j, j < E.n → (A j).val < 2 ^ E.B) (hB : ∀ j, j < E.n → (B j).val < 2 ^ E.B)
    (hC : ∀ j, j < E.n → (C j).val < 2 ^ E.B)
    (hr : AddRel E (cst (toLimbs p E.q E.B E.n)) A B C k S e f) :
    nat E A + nat E B ≡ k.val * E.q + nat E C [MOD 2 ^ E.T] := by
  have : NeZero p := ⟨hp.out.ne_zero⟩
  have l := chain_sum (r := 2 ^ E.B) (x := fun j => (A j).val + (B j).val) (c := fun j => (S j).val)
    (e := fun j => (e j).val) (n := E.n) (by rw [hr.e0]; simp) (fun j hj =>
      (hr.left j hj).nat h.add_lt (by push_cast; simp)
        (by have := hA j hj; have := hB j hj; omega) (hr.sr j hj)
        (bit_cases hr.e0 (fun j hj => (hr.left j hj).1) j (by omega)))
  have r := chain_sum (r := 2 ^ E.B) (x := qs E k.val (fun j => (C j).val)) (c := fun j => (S j).val)
    (e := fun j => (f j).val) (n := E.n) (by rw [hr.f0]; simp) (fun j hj =>
      (hr.right j hj).nat h.add_lt (by
        unfold qs
        push_cast
        rw [cst_toLimbs _ _ _ _ hj]
        simp only [ZMod.natCast_zmod_val]
        ring)
        (qs_lt (bit_val hp.out.one_lt hr.bit) (hC j hj)) (hr.sr j hj)
        (bit_cases hr.f0 (fun j hj => (hr.right j hj).1) j (by omega)))
  rw [num_add] at l
  rw [num_qs h] at r
  rw [h.pow] at l r
  unfold nat
  rw [l, r]
  simp [Nat.ModEq]

/-- the carries of `a + b` and of `k q + c` -/
def addCarry (E : Emu) (A B : ℕ → ℕ) : ℕ → ℕ := carry (2 ^ E.B) (fun j => A j + B j)
def subCarry (E : Emu) (k : ℕ) (C : ℕ → ℕ) : ℕ → ℕ := carry (2 ^ E.B) (qs E k C)

/-- Conversely, a bit with that congruence makes the gates hold. -/
theorem AddRel.of_modEq [hp : Fact p.Prime] {E : Emu} (h : E.OK p) {A B C : ℕ → ZMod p} (k : Bool)
    (hA : ∀ j, j < E.n → (A j).val < 2 ^ E.B) (hB : ∀ j, j < E.n → (B j).val < 2 ^ E.B)
    (hC : ∀ j, j < E.n → (C j).val < 2 ^ E.B)
    (hm : nat E A + nat E B ≡ k.toNat * E.q + nat E C [MOD 2 ^ E.T]) :
    AddRel E (cst (toLimbs p E.q E.B E.n)) A B C (boolF k)
      (cst (toLimbs p (nat E A + nat E B) E.B E.n))
      (fun j => (addCarry E (fun j => (A j).val) (fun j => (B j).val) j : ZMod p))
      (fun j => (subCarry E k.toNat (fun j => (C j).val) j : ZMod p)) := by
  have : NeZero p := ⟨hp.out.ne_zero⟩
  have hrp : 2 ^ E.B < p := by have := h.add_lt; omega
  have hr0 : 0 < 2 ^ E.B := by positivity
  have hkb : k.toNat ≤ 1 := by cases k <;> simp
  have hkc : (boolF k : ZMod p) = (k.toNat : ZMod p) := by cases k <;> simp [boolF]
  set v := nat E A + nat E B with hv
  have hsd : ∀ j, dig (2 ^ E.B) v j < 2 ^ E.B := fun j => dig_lt hr0 _ _
  have hl : ∀ j, j < E.n → (A j).val + (B j).val + 1 < 2 * 2 ^ E.B := by
    intro j hj; have := hA j hj; have := hB j hj; omega
  have hq : ∀ j, j < E.n → qs E k.toNat (fun j => (C j).val) j + 1 < 2 * 2 ^ E.B := fun j hj =>
    qs_lt hkb (hC j hj)
  have c1 := carry_le_one hr0 hl
  have c2 := carry_le_one hr0 hq
  have ch1 := chain_carry (r := 2 ^ E.B) (x := fun j => (A j).val + (B j).val)
    (c := dig (2 ^ E.B) v) (n := E.n) (fun j _ => hsd j) (by
      rw [num_add, num_dig]
      exact (Nat.mod_modEq _ _).symm)
  have ch2 := chain_carry (r := 2 ^ E.B) (x := qs E k.toNat (fun j => (C j).val))
    (c := dig (2 ^ E.B) v) (n := E.n) (fun j _ => hsd j) (by
      rw [num_qs h, num_dig, h.pow]
      exact hm.symm.trans (Nat.mod_modEq _ _).symm)
  have bit : ∀ {m : ℕ}, m ≤ 1 → ((m : ℕ) : ZMod p) = 0 ∨ ((m : ℕ) : ZMod p) = 1 := by
    intro m hm
    interval_cases m <;> simp
  refine ⟨by cases k <;> simp [boolF], by simp [addCarry, carry], by simp [subCarry, carry], ?_, ?_, ?_⟩
  · intro j hj
    rw [cst_toLimbs _ _ _ _ hj, ZMod.val_natCast_of_lt ((hsd j).trans hrp)]
    exact hsd j
  · intro j hj
    refine ⟨bit (c1 (j + 1) (by omega)), ?_⟩
    have := congrArg (Nat.cast : ℕ → ZMod p) (ch1 j hj)
    push_cast at this
    rw [ZMod.natCast_zmod_val, ZMod.natCast_zmod_val] at this
    rw [cst_toLimbs _ _ _ _ hj]
    exact this
  · intro j hj
    refine ⟨bit (c2 (j + 1) (by omega)), ?_⟩
    have := congrArg (Nat.cast : ℕ → ZMod p) (ch2 j hj)
    simp only [qs] at this
    push_cast at this
    rw [ZMod.natCast_zmod_val] at this
    rw [cst_toLimbs _ _ _ _ hj, cst_toLimbs _ _ _ _ hj, hkc, mul_comm]
    exact this

end Verif.Circuit
