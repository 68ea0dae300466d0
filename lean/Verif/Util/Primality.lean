import Mathlib.FieldTheory.Finite.Basic
import Mathlib.Data.Nat.Factorization.Basic
import Mathlib.GroupTheory.OrderOfElement
import Mathlib.Data.ZMod.Basic

/-!
# Primality certificates

The concrete fields used by the library (`rescue/src/rescue_constants`, `poseidon2/src/constants`)
are prime fields. Their moduli are shown to be prime by Pocklington's criterion; the kernel
evaluates the modular powers.
-/

namespace Verif.Primality

/-- square and multiply: `acc * b ^ e` modulo `n`, for exponents below `2 ^ fuel` -/
def powModAux (n : ℕ) : ℕ → ℕ → ℕ → ℕ → ℕ
  | 0, _, _, acc => acc
  | fuel + 1, b, e, acc =>
    if e = 0 then acc
    else powModAux n fuel (b * b % n) (e / 2) (if e % 2 = 1 then acc * b % n else acc)

theorem powModAux_cast (n fuel : ℕ) : ∀ b e acc : ℕ, e < 2 ^ fuel →
    (powModAux n fuel b e acc : ZMod n) = acc * (b : ZMod n) ^ e := by
  induction fuel with
  | zero =>
    intro b e acc he
    have : e = 0 := by simpa using he
    simp [powModAux, this]
  | succ k ih =>
    intro b e acc he
    unfold powModAux
    by_cases h0 : e = 0
    · simp [h0]
    · rw [if_neg h0, ih _ _ _ (by rw [pow_succ] at he; omega)]
      have hsq : ((b * b % n : ℕ) : ZMod n) = (b : ZMod n) ^ 2 := by
        rw [ZMod.natCast_mod]; push_cast; ring
      rw [hsq, ← pow_mul]
      rcases Nat.mod_two_eq_zero_or_one e with h | h
      · have : 2 * (e / 2) = e := by omega
        simp [h, this]
      · have h2 : e = 2 * (e / 2) + 1 := by omega
        rw [if_pos h, ZMod.natCast_mod]
        conv_rhs => rw [h2, pow_succ]
        push_cast
        ring

/-- `b ^ e` modulo `n`, for exponents below `2 ^ 512` -/
def powMod (n b e : ℕ) : ℕ := powModAux n 512 b e 1

theorem powMod_cast {n b e : ℕ} (he : e < 2 ^ 512) :
    (powMod n b e : ZMod n) = (b : ZMod n) ^ e := by
  rw [powMod, powModAux_cast n 512 b e 1 he]
  simp

theorem prime_pow_dvd_of_not_dvd_div {q k n d : ℕ} (hq : q.Prime) (hn : n ≠ 0) (hd : d ∣ n)
    (hqn : q ∣ n) (hnd : ¬ d ∣ n / q) (hk : q ^ k ∣ n) : q ^ k ∣ d := by
  obtain ⟨m, rfl⟩ := hd
  have hqm : ¬ q ∣ m := by
    rintro ⟨t, rfl⟩
    apply hnd
    have : d * (q * t) / q = d * t := by
      rw [mul_left_comm, Nat.mul_div_cancel_left _ hq.pos]
    rw [this]
    exact Dvd.intro _ rfl
  exact (Nat.Coprime.pow_left k ((Nat.Prime.coprime_iff_not_dvd hq).2 hqm)).dvd_of_dvd_mul_right hk

/-- under Pocklington's condition every prime divisor is one modulo `F` -/
theorem dvd_pred_of_cond {N F : ℕ} (hN : 1 < N) (hF : F ∣ N - 1)
    (h : ∀ q, q.Prime → q ∣ F → ∃ a : ℕ, (a : ZMod N) ^ (N - 1) = 1 ∧
      ∃ u : ℕ, (u : ZMod N) = (a : ZMod N) ^ ((N - 1) / q) - 1 ∧ Nat.gcd u N = 1)
    {r : ℕ} (hr : r.Prime) (hrN : r ∣ N) : F ∣ r - 1 := by
  have := Fact.mk hr
  rw [Nat.dvd_iff_prime_pow_dvd_dvd]
  intro q k hq hk
  rcases Nat.eq_zero_or_pos k with rfl | hkpos
  · simp
  have hqF : q ∣ F := (dvd_pow_self q (by omega)).trans hk
  obtain ⟨a, ha, u, hu, hg⟩ := h q hq hqF
  let φ : ZMod N →+* ZMod r := ZMod.castHom hrN (ZMod r)
  have ha' : (a : ZMod r) ^ (N - 1) = 1 := by
    have := congrArg φ ha
    simpa using this
  have hu' : (a : ZMod r) ^ ((N - 1) / q) ≠ 1 := by
    intro hc
    have := congrArg φ hu
    simp only [map_sub, map_pow, map_natCast, map_one, hc, sub_self] at this
    rw [ZMod.natCast_eq_zero_iff] at this
    have h1 : r ∣ Nat.gcd u N := Nat.dvd_gcd this hrN
    rw [hg] at h1
    exact hr.one_lt.ne' (Nat.dvd_one.1 h1)
  have ha0 : (a : ZMod r) ≠ 0 := by
    intro h0
    rw [h0, zero_pow (by omega)] at ha'
    exact zero_ne_one ha'
  have ho1 : orderOf (a : ZMod r) ∣ N - 1 := orderOf_dvd_of_pow_eq_one ha'
  have ho2 : ¬ orderOf (a : ZMod r) ∣ (N - 1) / q := fun hc =>
    hu' (orderOf_dvd_iff_pow_eq_one.1 hc)
  have ho3 : orderOf (a : ZMod r) ∣ r - 1 :=
    orderOf_dvd_of_pow_eq_one (ZMod.pow_card_sub_one_eq_one ha0)
  exact (prime_pow_dvd_of_not_dvd_div hq (by omega) ho1 (hqF.trans hF) ho2
    (hk.trans hF)).trans ho3

/-- Pocklington's criterion -/
theorem pocklington {N F : ℕ} (hN : 1 < N) (hF : F ∣ N - 1) (hlt : N < F * F)
    (h : ∀ q, q.Prime → q ∣ F → ∃ a : ℕ, (a : ZMod N) ^ (N - 1) = 1 ∧
      ∃ u : ℕ, (u : ZMod N) = (a : ZMod N) ^ ((N - 1) / q) - 1 ∧ Nat.gcd u N = 1) : N.Prime := by
  by_contra hnp
  have hr := Nat.minFac_prime (Nat.ne_of_gt hN)
  set r := N.minFac with hrdef
  have hrN : r ∣ N := Nat.minFac_dvd N
  have hsq : r * r ≤ N := by
    have := Nat.minFac_sq_le_self (by omega : 0 < N) hnp
    rwa [pow_two] at this
  have hFr : F ∣ r - 1 := dvd_pred_of_cond hN hF h hr hrN
  have hr1 : 0 < r - 1 := by have := hr.one_lt; omega
  have hle : F ≤ r - 1 := Nat.le_of_dvd hr1 hFr
  have : F * F < r * r := Nat.mul_lt_mul'' (by omega) (by omega)
  omega

/-- the criterion of Brillhart, Lehmer and Selfridge: a factored part above the cube root is enough
if `(N - 1) / F = s F + t` where `t ^ 2 - 4 s` is not a square -/
theorem pocklington_cube {N F s t k : ℕ} (hN : 1 < N) (hF1 : 1 < F) (hNF : N - 1 = F * (s * F + t))
    (htF : t < F) (ht : 0 < t) (hlt : N < F * F * F)
    (hk : k * k + 4 * s < t * t) (hk' : t * t < (k + 1) * (k + 1) + 4 * s)
    (h : ∀ q, q.Prime → q ∣ F → ∃ a : ℕ, (a : ZMod N) ^ (N - 1) = 1 ∧
      ∃ u : ℕ, (u : ZMod N) = (a : ZMod N) ^ ((N - 1) / q) - 1 ∧ Nat.gcd u N = 1) : N.Prime := by
  have hF : F ∣ N - 1 := ⟨_, hNF⟩
  by_contra hnp
  have hr := Nat.minFac_prime (Nat.ne_of_gt hN)
  have hrN : N.minFac ∣ N := Nat.minFac_dvd N
  have hFr : F ∣ N.minFac - 1 := dvd_pred_of_cond hN hF h hr hrN
  obtain ⟨n, hn⟩ := hrN
  have hr1 := hr.one_lt
  obtain ⟨a, ha⟩ := hFr
  set r := N.minFac with hrdef
  have hra : r = F * a + 1 := by omega
  have hn1 : 1 < n := by
    rcases Nat.lt_trichotomy n 1 with h0 | h0 | h0
    · have : n = 0 := by omega
      rw [this, mul_zero] at hn; omega
    · rw [h0, mul_one] at hn
      rw [hn] at hnp
      exact absurd hr hnp
    · exact h0
  have hmod : n ≡ 1 [MOD F] := by
    have h1 : F * (s * F + t) + 1 = (F * a + 1) * n := by rw [← hNF, ← hra, ← hn]; omega
    have h2 : (F * a + 1) * n ≡ n [MOD F] := by
      have : (F * a + 1) * n = F * (a * n) + n := by ring
      rw [this]
      simp [Nat.ModEq]
    have h3 : F * (s * F + t) + 1 ≡ 1 [MOD F] := by simp [Nat.ModEq]
    rw [← h1] at h2
    exact h2.symm.trans h3
  obtain ⟨b, hb⟩ : F ∣ n - 1 := (Nat.modEq_iff_dvd' hn1.le).1 hmod.symm
  have hnb : n = F * b + 1 := by omega
  have ha0 : 0 < a := by
    rcases Nat.eq_zero_or_pos a with h0 | h0
    · rw [h0, mul_zero] at hra; omega
    · exact h0
  have hb0 : 0 < b := by
    rcases Nat.eq_zero_or_pos b with h0 | h0
    · rw [h0, mul_zero] at hnb; omega
    · exact h0
  have hprod : N = F * F * (a * b) + F * (a + b) + 1 := by rw [hn, hra, hnb]; ring
  have hR : s * F + t = F * (a * b) + (a + b) := by
    have : F * (s * F + t) = F * (F * (a * b) + (a + b)) := by
      rw [← hNF, hprod, Nat.add_sub_cancel]; ring
    exact Nat.eq_of_mul_eq_mul_left (by omega) this
  have hab : a * b < F := by
    have : F * F * (a * b) < F * F * F := by omega
    exact Nat.lt_of_mul_lt_mul_left this
  have hle : a + b ≤ a * b + 1 := by
    obtain ⟨a', rfl⟩ := Nat.exists_eq_add_of_lt ha0
    obtain ⟨b', rfl⟩ := Nat.exists_eq_add_of_lt hb0
    ring_nf
    have := Nat.zero_le (a' * b')
    omega
  have hsum : a + b = t ∧ a * b = s := by
    have hm := congrArg (· % F) hR
    have hd := congrArg (· / F) hR
    simp only [Nat.mul_add_mod, Nat.mul_add_mod', Nat.mod_eq_of_lt htF] at hm
    have hne : a + b ≠ F := by
      intro he
      rw [he, Nat.mod_self] at hm
      omega
    have hlt' : a + b < F := by omega
    rw [Nat.mod_eq_of_lt hlt'] at hm
    refine ⟨hm.symm, ?_⟩
    rw [← hm, mul_comm s F] at hR
    exact (Nat.eq_of_mul_eq_mul_left (by omega) (Nat.add_right_cancel hR)).symm
  obtain ⟨rfl, rfl⟩ := hsum
  have hsq : ∃ d, (a + b) * (a + b) = d * d + 4 * (a * b) := by
    rcases Nat.le_total a b with hle | hle
    · obtain ⟨d, rfl⟩ := Nat.exists_eq_add_of_le hle
      exact ⟨d, by ring⟩
    · obtain ⟨d, rfl⟩ := Nat.exists_eq_add_of_le hle
      exact ⟨d, by ring⟩
  obtain ⟨d, hd⟩ := hsq
  rw [hd] at hk hk'
  have h1 : k < d := Nat.mul_self_lt_mul_self_iff.1 (by omega)
  have h2 : d < k + 1 := Nat.mul_self_lt_mul_self_iff.1 (by omega)
  omega

/-- the part of the condition about the bases, for a list of `(q, k, a)` -/
def checkBases (N : ℕ) (l : List (ℕ × ℕ × ℕ)) : Bool :=
  l.all fun t => decide (powMod N t.2.2 (N - 1) = 1 ∧
      Nat.gcd (powMod N t.2.2 ((N - 1) / t.1) + N - 1) N = 1)

theorem cond_of_checkBases {N : ℕ} (l : List (ℕ × ℕ × ℕ)) (hp : ∀ t ∈ l, t.1.Prime)
    (h1 : 1 < N) (h2 : N < 2 ^ 512) (h : checkBases N l = true) (q : ℕ) (hq : q.Prime)
    (hqF : q ∣ (l.map fun t => t.1 ^ t.2.1).prod) :
    ∃ a : ℕ, (a : ZMod N) ^ (N - 1) = 1 ∧
      ∃ u : ℕ, (u : ZMod N) = (a : ZMod N) ^ ((N - 1) / q) - 1 ∧ Nat.gcd u N = 1 := by
  simp only [checkBases, decide_eq_true_eq, List.all_eq_true] at h
  obtain ⟨x, hx, hqx⟩ := (Prime.dvd_prod_iff hq.prime).1 hqF
  obtain ⟨t, ht, rfl⟩ := List.mem_map.1 hx
  have hqt : q = t.1 := (Nat.prime_dvd_prime_iff_eq hq (hp t ht)).1 (hq.dvd_of_dvd_pow hqx)
  subst hqt
  obtain ⟨g1, g2⟩ := h t ht
  refine ⟨t.2.2, ?_, _, ?_, g2⟩
  · rw [← powMod_cast (by omega), g1]; simp
  · rw [← powMod_cast ((Nat.div_le_self _ _).trans_lt (by omega)), Nat.add_sub_assoc (by omega)]
    push_cast [Nat.cast_sub (le_of_lt h1)]
    simp [sub_eq_add_neg]

/-- the condition of the first criterion for `F = ∏ q ^ k` and a base `a` for every `q` -/
def check (N : ℕ) (l : List (ℕ × ℕ × ℕ)) : Bool :=
  let F := (l.map fun t => t.1 ^ t.2.1).prod
  decide (1 < N ∧ N < 2 ^ 512 ∧ (N - 1) % F = 0 ∧ N < F * F) && checkBases N l

theorem prime_of_check {N : ℕ} (l : List (ℕ × ℕ × ℕ)) (hp : ∀ t ∈ l, t.1.Prime)
    (h : check N l = true) : N.Prime := by
  simp only [check, Bool.and_eq_true, decide_eq_true_eq] at h
  obtain ⟨⟨h1, h2, h3, h4⟩, h5⟩ := h
  exact pocklington h1 (Nat.dvd_of_mod_eq_zero h3) h4 (cond_of_checkBases l hp h1 h2 h5)

/-- the condition of the second criterion -/
def checkCube (N k : ℕ) (l : List (ℕ × ℕ × ℕ)) : Bool :=
  let F := (l.map fun t => t.1 ^ t.2.1).prod
  let s := (N - 1) / F / F
  let t := (N - 1) / F % F
  decide (1 < N ∧ N < 2 ^ 512 ∧ 1 < F ∧ N - 1 = F * (s * F + t) ∧ t < F ∧ 0 < t ∧ N < F * F * F ∧
    k * k + 4 * s < t * t ∧ t * t < (k + 1) * (k + 1) + 4 * s) && checkBases N l

theorem prime_of_checkCube {N : ℕ} (k : ℕ) (l : List (ℕ × ℕ × ℕ)) (hp : ∀ t ∈ l, t.1.Prime)
    (h : checkCube N k l = true) : N.Prime := by
  simp only [checkCube, Bool.and_eq_true, decide_eq_true_eq] at h
  obtain ⟨⟨h1, h2, h3, h4, h5, h6, h7, h8, h9⟩, h10⟩ := h
  exact pocklington_cube h1 h3 h4 h5 h6 h7 h8 h9 (cond_of_checkBases l hp h1 h2 h10)

end Verif.Primality
