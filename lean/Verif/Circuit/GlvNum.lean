import Verif.Circuit.GlvSpec
import Verif.Circuit.Curves
import Verif.Props.Conversion

/-!
# Integer facts about the decomposition of Bandersnatch scalars
-/

namespace Verif.Circuit.Glv

open Verif.Conv Verif.Circuit Verif.Rescue

/-- the order of the prime order subgroup -/
def R : ℕ := 13108968793781547619861935127046491459309155893440570251786403306729687672801
/-- the eigenvalue -/
def L : ℕ := 8913659658109529928382530854484400854125314752504019737736543920008458395397
def N11 : ℕ := 113482231691339203864511368254957623327
def N12 : ℕ := 10741319382058138887739339959866629956
def N21 : ℕ := 21482638764116277775478679919733259912
/-- `(L * N12 + N11) / R` -/
def A1 : ℕ := 7303737369192576046425006878625960659
/-- `(L * N11 - N21) / R` -/
def A2 : ℕ := 77164116144602499312640695832143016307

/-- `R % 2^128` and so on -/
def R1 : ℕ := 339698375537151026184002201187337562081
def R2 : ℕ := 38523796905489664107205538631725381120
def L1 : ℕ := 276171084342130069873717620938461404933
def L2 : ℕ := 26194891433150687747794787867683243819

def B1 (s : ℕ) : ℕ := s * N11 / R
def B2 (s : ℕ) : ℕ := s * N12 / R
/-- the first half -/
def k1Z (s : ℕ) : ℤ := s - B1 s * N11 - B2 s * N21
/-- the second half, signed -/
def k2Z (s : ℕ) : ℤ := B1 s * N12 - B2 s * N11
/-- the quotient -/
def tZ (s : ℕ) : ℤ := B1 s * A1 - B2 s * A2
/-- `tmp2` -/
def mZ (s : ℕ) : ℤ := tZ s * R2 - L2 * k2Z s

theorem k1Z_nonneg {s : ℕ} : 0 ≤ k1Z s := by
  unfold k1Z B1 B2 N11 N12 N21 R
  omega

theorem k1Z_lt {s : ℕ} : k1Z s < N11 + N21 := by
  unfold k1Z B1 B2 N11 N12 N21 R
  omega

theorem k2Z_gt {s : ℕ} : -(N12 : ℤ) < k2Z s := by
  unfold k2Z B1 B2 N11 N12 R
  omega

theorem k2Z_lt {s : ℕ} : k2Z s < N11 := by
  unfold k2Z B1 B2 N11 N12 R
  omega

/-- the decomposition over the integers -/
theorem dec_eq (s : ℕ) : L * k2Z s + s - k1Z s = R * tZ s := by
  unfold k1Z k2Z tZ L R N11 N12 N21 A1 A2
  push_cast
  ring

/-- the low half of the equation -/
theorem low_eq (s : ℕ) : L1 * k2Z s + s - tZ s * R1 - k1Z s = 2 ^ 128 * mZ s := by
  have h := dec_eq s
  unfold mZ
  have e1 : (L : ℤ) = L1 + 2 ^ 128 * L2 := by decide +kernel
  have e2 : (R : ℤ) = R1 + 2 ^ 128 * R2 := by decide +kernel
  rw [e1, e2] at h
  linear_combination h

/-- `tmp2` in terms of both parts -/
theorem m_eq (s : ℕ) : (R : ℤ) * mZ s = R2 * (s - k1Z s) +
    1740796697151752842205211964275049958161943697378252608161361130124701037621 * k2Z s := by
  have h := dec_eq s
  have e : (R2 * L - R * L2 : ℤ) = 1740796697151752842205211964275049958161943697378252608161361130124701037621 := by
    decide +kernel
  rw [← e]
  unfold mZ
  linear_combination -(R2 : ℤ) * h

/-! ## The honest prover -/

theorem sd_one {s b1 b2 : ℕ} (h1 : (0 : ℤ) ≤ s - b1 * N11 - b2 * N21) : ¬ s < b1 * N11 + b2 * N21 := by
  generalize N11 = a at *
  generalize N21 = b at *
  zify; linarith

theorem sd_two {s b1 b2 : ℕ} (h1 : (0 : ℤ) ≤ s - b1 * N11 - b2 * N21)
    (h2 : (s - b1 * N11 - b2 * N21 : ℤ) < N11 + N21) :
    (s - (b1 * N11 + b2 * N21)) % R = ((s : ℤ) - b1 * N11 - b2 * N21).toNat := by
  have e : s - (b1 * N11 + b2 * N21) = ((s : ℤ) - b1 * N11 - b2 * N21).toNat := by
    generalize N11 = a at *
    generalize N21 = b at *
    generalize hx : b1 * a = x at *
    generalize hy : b2 * b = y at *
    have hx' : (b1 : ℤ) * a = x := by exact_mod_cast hx
    have hy' : (b2 : ℤ) * b = y := by exact_mod_cast hy
    rw [hx', hy'] at *
    omega
  rw [e, Nat.mod_eq_of_lt]
  have h3 : (N11 + N21 : ℤ) < R := by decide +kernel
  generalize (R : ℕ) = r at *
  omega

theorem sd_pos {b1 b2 : ℕ} (h4 : (b1 * N12 - b2 * N11 : ℤ) < N11) (hk : (0 : ℤ) ≤ b1 * N12 - b2 * N11) :
    (b1 * N12 + b2 * (R - N11)) % R = (b1 * N12 - b2 * N11 : ℤ).natAbs ∧
      (b1 * N12 - b2 * N11 : ℤ).natAbs < R / 2 := by
  have e : b1 * N12 + b2 * (R - N11) = (b1 * N12 - b2 * N11 : ℤ).natAbs + R * b2 := by
    unfold N11 N12 R at *; omega
  have hlt : (b1 * N12 - b2 * N11 : ℤ).natAbs < R / 2 := by unfold N11 N12 R at *; omega
  refine ⟨?_, hlt⟩
  rw [e, Nat.add_mul_mod_self_left, Nat.mod_eq_of_lt (hlt.trans_le (Nat.div_le_self _ _))]

theorem sd_neg {b1 b2 : ℕ} (h3 : -(N12 : ℤ) < b1 * N12 - b2 * N11) (hk : (b1 * N12 - b2 * N11 : ℤ) < 0) :
    (b1 * N12 + b2 * (R - N11)) % R = R - (b1 * N12 - b2 * N11 : ℤ).natAbs ∧
      ¬ R - (b1 * N12 - b2 * N11 : ℤ).natAbs < R / 2 ∧
      (R - (R - (b1 * N12 - b2 * N11 : ℤ).natAbs)) % R = (b1 * N12 - b2 * N11 : ℤ).natAbs := by
  obtain ⟨b, rfl⟩ : ∃ b, b2 = b + 1 := ⟨b2 - 1, by unfold N11 N12 at *; omega⟩
  have e : b1 * N12 + (b + 1) * (R - N11) = (R - (b1 * N12 - (b + 1 : ℕ) * N11 : ℤ).natAbs) + R * b := by
    unfold N11 N12 R at *; omega
  have hlt : (b1 * N12 - (b + 1 : ℕ) * N11 : ℤ).natAbs < R / 2 := by unfold N11 N12 R at *; omega
  have h0 : 0 < (b1 * N12 - (b + 1 : ℕ) * N11 : ℤ).natAbs := by
    rw [Int.natAbs_pos]; exact hk.ne
  rw [e, Nat.add_mul_mod_self_left]
  generalize (b1 * N12 - (b + 1 : ℕ) * N11 : ℤ).natAbs = x at *
  generalize R = r at *
  refine ⟨Nat.mod_eq_of_lt (by omega), by omega, ?_⟩
  rw [Nat.sub_sub_self (by omega), Nat.mod_eq_of_lt (by omega)]

theorem scalarDecomposition_eq (s : ℕ) :
    scalarDecomposition R s = .ok ((k1Z s).toNat, (k2Z s).natAbs, decide (0 ≤ k2Z s)) := by
  have h1 := k1Z_nonneg (s := s)
  have h2 := k1Z_lt (s := s)
  have h3 := k2Z_gt (s := s)
  have h4 := k2Z_lt (s := s)
  unfold scalarDecomposition
  have e1 : leNat n11B % R = N11 := by decide +kernel
  have e2 : leNat n12B % R = N12 := by decide +kernel
  have e3 : leNat n21B % R = N21 := by decide +kernel
  have e4 : leNat n22B % R = R - N11 := by decide +kernel
  rw [e1, e2, e3, e4]
  simp only []
  have hB1 : s * N11 / R = B1 s := rfl
  have hB2 : s * N12 / R = B2 s := rfl
  rw [hB1, hB2]
  unfold k1Z at h1 h2 ⊢
  unfold k2Z at h3 h4 ⊢
  generalize B1 s = b1 at *
  generalize B2 s = b2 at *
  rw [if_neg (sd_one h1), sd_two h1 h2]
  by_cases hk : (0 : ℤ) ≤ b1 * N12 - b2 * N11
  · obtain ⟨a, b⟩ := sd_pos h4 hk
    rw [a, decide_eq_true b, decide_eq_true hk, if_pos rfl]
  · obtain ⟨a, b, c⟩ := sd_neg h3 (not_le.1 hk)
    rw [a, decide_eq_false b, decide_eq_false hk, if_neg (by simp), c]

theorem integers_of {p r s k1 k2 l l1 r1 : ℕ} {pos : Bool} {k2s t m : ℤ}
    (h : scalarDecomposition r (s % r) = .ok (k1, k2, pos)) (hl : leNat lambdaB % p = l)
    (hl1 : leNat lambda1B % p = l1) (hr1 : leNat r1B % p = r1)
    (hk : (if pos then (k2 : ℤ) else -k2) = k2s) (ht : l * k2s + s - k1 = r * t) (hr : (r : ℤ) ≠ 0)
    (hm : l1 * k2s + s - t * r1 - k1 = 2 ^ 128 * m) :
    integers p r s = .ok (k1, k2, pos, t, 2 ^ 128 * m, m) := by
  have h2 : (2 ^ 128 : ℤ) ≠ 0 := by norm_num
  unfold integers
  rw [h]
  simp only []
  rw [hl, hl1, hr1, hk, ht, Int.mul_tdiv_cancel_left _ hr, hm, Int.mul_tdiv_cancel_left _ h2]

theorem integers_eq {s : ℕ} (hs : s < R) :
    integers p_ed381 R s = .ok ((k1Z s).toNat, (k2Z s).natAbs, decide (0 ≤ k2Z s), tZ s, 2 ^ 128 * mZ s, mZ s) := by
  have hk1 : ((k1Z s).toNat : ℤ) = k1Z s := Int.toNat_of_nonneg k1Z_nonneg
  refine integers_of (l := L) (l1 := L1) (r1 := R1) (k2s := k2Z s) ?_ (by decide +kernel) (by decide +kernel)
    (by decide +kernel) ?_ ?_ (by decide +kernel) ?_
  · rw [Nat.mod_eq_of_lt hs, scalarDecomposition_eq]
  · generalize k2Z s = k
    by_cases h : 0 ≤ k
    · rw [decide_eq_true h, if_pos rfl, Int.natAbs_of_nonneg h]
    · rw [decide_eq_false h, if_neg (by simp), Int.ofNat_natAbs_of_nonpos (not_le.1 h).le, neg_neg]
  · rw [hk1, dec_eq]
  · rw [hk1, low_eq]

theorem k1Z_le {s : ℕ} : k1Z s ≤ s := by
  unfold k1Z
  have h1 : 0 ≤ (B1 s : ℤ) * N11 := mul_nonneg (Int.natCast_nonneg _) (Int.natCast_nonneg _)
  have h2 : 0 ≤ (B2 s : ℤ) * N21 := mul_nonneg (Int.natCast_nonneg _) (Int.natCast_nonneg _)
  linarith

theorem tZ_nonneg {s : ℕ} (h : 0 ≤ k2Z s) : 0 ≤ tZ s := by
  have h1 := dec_eq s
  have h2 := k1Z_le (s := s)
  generalize k1Z s = k1 at *
  generalize k2Z s = k2 at *
  generalize tZ s = t at *
  unfold L R at h1
  push_cast at h1
  omega

theorem tZ_nonpos {s : ℕ} (hs : s < R) (h : k2Z s < 0) : tZ s ≤ 0 := by
  have h1 := dec_eq s
  have h2 := k1Z_nonneg (s := s)
  generalize k1Z s = k1 at *
  generalize k2Z s = k2 at *
  generalize tZ s = t at *
  unfold L R at h1
  unfold R at hs
  push_cast at h1
  omega

theorem mZ_nonneg {s : ℕ} (h : 0 ≤ k2Z s) : 0 ≤ mZ s := by
  have h1 := m_eq s
  have h2 := k1Z_le (s := s)
  generalize k1Z s = k1 at *
  generalize k2Z s = k2 at *
  generalize mZ s = m at *
  unfold R R2 at h1
  push_cast at h1
  linarith

theorem mZ_bound {s : ℕ} (hs : s < R) :
    -340282366920938463463374607431768211456 < mZ s ∧ mZ s < 340282366920938463463374607431768211456 := by
  have h1 := m_eq s
  have h2 := k1Z_nonneg (s := s)
  have h3 := k1Z_lt (s := s)
  have h4 := k2Z_lt (s := s)
  have h5 := k2Z_gt (s := s)
  generalize k1Z s = k1 at *
  generalize k2Z s = k2 at *
  generalize mZ s = m at *
  unfold R R2 at h1
  have hs : (s : ℤ) < R := by exact_mod_cast hs
  unfold R at hs
  unfold N11 N12 N21 at *
  push_cast at *
  constructor <;> linarith

theorem mZ_large {s : ℕ} (h : 2 ^ 250 ≤ s) : 0 ≤ mZ s := by
  have h1 := m_eq s
  have h3 := k1Z_lt (s := s)
  have h5 := k2Z_gt (s := s)
  generalize k1Z s = k1 at *
  generalize k2Z s = k2 at *
  generalize mZ s = m at *
  unfold R R2 at h1
  unfold N11 N12 N21 at *
  have h : (2 ^ 250 : ℤ) ≤ s := by exact_mod_cast h
  push_cast at *
  norm_num at h
  linarith

/-! ## In the field -/

open Verif.Curves

/-- the base field -/
abbrev Fq := ZMod p_ed381

theorem cR1 : fromLeBytesModOrder p_ed381 r1B = ((R1 : ℤ) : Fq) := by decide +kernel
theorem cR2 : fromLeBytesModOrder p_ed381 r2B = ((R2 : ℤ) : Fq) := by decide +kernel
theorem cL1 : fromLeBytesModOrder p_ed381 lambda1B = ((L1 : ℤ) : Fq) := by decide +kernel
theorem cL2 : fromLeBytesModOrder p_ed381 lambda2B = ((L2 : ℤ) : Fq) := by decide +kernel

theorem val_int {k : ℤ} (h0 : 0 ≤ k) (h : k < 340282366920938463463374607431768211456) :
    ((k : Fq)).val < 2 ^ 128 := by
  obtain ⟨n, rfl⟩ := Int.eq_ofNat_of_zero_le h0
  have hn : n < 2 ^ 128 := by norm_num; exact_mod_cast h
  have hq : 2 ^ 128 < p_ed381 := by decide +kernel
  have : ((n : ℤ) : Fq).val = n := by
    rw [Int.cast_natCast, ZMod.val_natCast_of_lt (hn.trans hq)]
  show ((n : ℤ) : Fq).val < _
  rw [this]; exact hn

theorem decOK_pos {s : Fq} {S k1 k2 t m : ℤ} (hS : (S : Fq) = s) (h1 : 0 ≤ k1)
    (h1' : k1 < 340282366920938463463374607431768211456) (h2 : 0 ≤ k2)
    (h2' : k2 < 340282366920938463463374607431768211456) (h3 : 0 ≤ m)
    (h3' : m < 340282366920938463463374607431768211456) (hl : L1 * k2 + S - t * R1 - k1 = 2 ^ 128 * m)
    (hm : m = t * R2 - L2 * k2) :
    DecOK s ⟨(k1 : Fq), (k2 : Fq), true, (t : Fq), ((2 ^ 128 * m : ℤ) : Fq), (m : Fq)⟩ := by
  have el := congrArg (fun z : ℤ => (z : Fq)) hl
  have em := congrArg (fun z : ℤ => (z : Fq)) hm
  push_cast at el em
  refine ⟨val_int h1 h1', val_int h2 h2', val_int h3 h3', by push_cast; rfl, ⟨?_, ?_⟩, ⟨?_, ?_⟩⟩
  · intro _
    rw [cR1, cL1, ← hS]
    push_cast
    linear_combination -el
  · intro h; exact absurd h (by simp [boolF])
  · intro _
    rw [cR2, cL2]
    push_cast
    linear_combination em
  · intro h; exact absurd h (by simp [boolF])

theorem decOK_neg {s : Fq} {S k1 k2 t m : ℤ} (hS : (S : Fq) = s) (h1 : 0 ≤ k1)
    (h1' : k1 < 340282366920938463463374607431768211456) (h2 : k2 ≤ 0)
    (h2' : -k2 < 340282366920938463463374607431768211456) (h3 : 0 ≤ m)
    (h3' : m < 340282366920938463463374607431768211456) (hl : L1 * k2 + S - t * R1 - k1 = 2 ^ 128 * m)
    (hm : m = t * R2 - L2 * k2) :
    DecOK s ⟨(k1 : Fq), ((-k2 : ℤ) : Fq), false, ((-t : ℤ) : Fq), ((2 ^ 128 * m : ℤ) : Fq), (m : Fq)⟩ := by
  have el := congrArg (fun z : ℤ => (z : Fq)) hl
  have em := congrArg (fun z : ℤ => (z : Fq)) hm
  push_cast at el em
  refine ⟨val_int h1 h1', val_int (by linarith) h2', val_int h3 h3', by push_cast; rfl, ⟨?_, ?_⟩, ⟨?_, ?_⟩⟩
  · intro h; exact absurd h (by simp [boolF])
  · intro _
    rw [cR1, cL1, ← hS]
    push_cast
    linear_combination -el
  · intro h; exact absurd h (by simp [boolF])
  · intro _
    rw [cR2, cL2]
    push_cast
    linear_combination em

theorem natAbs_cast {z : ℤ} (h : 0 ≤ z) : ((z.natAbs : ℕ) : Fq) = (z : Fq) := by
  rw [← Int.cast_natCast, Int.natAbs_of_nonneg h]

theorem natAbs_cast_neg {z : ℤ} (h : z ≤ 0) : ((z.natAbs : ℕ) : Fq) = ((-z : ℤ) : Fq) := by
  rw [← Int.cast_natCast, Int.ofNat_natAbs_of_nonpos h]

/-- the values of the honest prover -/
def honestWit (s : ℕ) : Wit p_ed381 :=
  ⟨((k1Z s).toNat : Fq), ((k2Z s).natAbs : Fq), decide (0 ≤ k2Z s), ((tZ s).natAbs : Fq),
    ((2 ^ 128 * mZ s).natAbs : Fq), ((mZ s).natAbs : Fq)⟩

theorem values_of {p r : ℕ} {s : ZMod p} {y : ZMod r} {k1 k2 : ℕ} {pos : Bool} {t tmp m : ℤ}
    (h : fieldSwitching r s = .ok y) (hi : integers p r s.val = .ok (k1, k2, pos, t, tmp, m)) :
    values r s = .ok ⟨k1, k2, pos, (t.natAbs : ZMod p), (tmp.natAbs : ZMod p), (m.natAbs : ZMod p)⟩ := by
  unfold values; rw [h, hi]

theorem values_panic {p r : ℕ} {s : ZMod p} {e : Panic} (h : fieldSwitching r s = .error e) :
    values r s = .error .panic := by
  unfold values; rw [h]

theorem values_eq (s : Fq) : values R s = if s.val < R then .ok (honestWit s.val) else .error .panic := by
  have : NeZero R := ⟨by decide +kernel⟩
  have hsw := Verif.Props.Conv.C45_switch_partial p_ed381 R (by decide +kernel) (by decide +kernel) s
  by_cases hs : s.val < R
  · obtain ⟨y, hy, -⟩ := hsw.1 hs
    rw [if_pos hs]
    exact values_of hy (integers_eq hs)
  · rw [if_neg hs]
    exact values_panic (hsw.2 (not_lt.1 hs))

theorem toNat_cast {z : ℤ} (h : 0 ≤ z) : ((z.toNat : ℕ) : Fq) = (z : Fq) := by
  rw [← Int.cast_natCast, Int.toNat_of_nonneg h]

theorem k1Z_lt' {s : ℕ} : k1Z s < 340282366920938463463374607431768211456 := by
  have := k1Z_lt (s := s)
  have h : (N11 + N21 : ℤ) < 340282366920938463463374607431768211456 := by decide +kernel
  exact this.trans h

theorem k2Z_lt' {s : ℕ} : k2Z s < 340282366920938463463374607431768211456 := by
  have := k2Z_lt (s := s)
  have h : (N11 : ℤ) < 340282366920938463463374607431768211456 := by decide +kernel
  exact this.trans h

theorem k2Z_gt' {s : ℕ} : -k2Z s < 340282366920938463463374607431768211456 := by
  have := k2Z_gt (s := s)
  have h : (N12 : ℤ) < 340282366920938463463374607431768211456 := by decide +kernel
  linarith

/-- the constraints accept the values of the honest prover exactly when `k2` or `tmp2` is not negative -/
theorem honest_iff {s : Fq} (hs : s.val < R) :
    DecOK s (honestWit s.val) ↔ 0 ≤ k2Z s.val ∨ 0 ≤ mZ s.val := by
  have hS : ((s.val : ℤ) : Fq) = s := by rw [Int.cast_natCast, ZMod.natCast_zmod_val]
  have hk1 := k1Z_nonneg (s := s.val)
  have hlow := low_eq s.val
  obtain ⟨hb1, hb2⟩ := mZ_bound hs
  by_cases hk : 0 ≤ k2Z s.val
  · have ht := tZ_nonneg hk
    have hm := mZ_nonneg hk
    refine ⟨fun _ => Or.inl hk, fun _ => ?_⟩
    have := decOK_pos hS hk1 k1Z_lt' hk k2Z_lt' hm hb2 hlow rfl
    unfold honestWit
    rw [toNat_cast hk1, natAbs_cast hk, natAbs_cast ht, natAbs_cast hm, natAbs_cast (mul_nonneg (by norm_num) hm),
      decide_eq_true hk]
    exact this
  · have hk' := (not_le.1 hk).le
    have ht := tZ_nonpos hs (not_le.1 hk)
    by_cases hm : 0 ≤ mZ s.val
    · refine ⟨fun _ => Or.inr hm, fun _ => ?_⟩
      have := decOK_neg hS hk1 k1Z_lt' hk' k2Z_gt' hm hb2 hlow rfl
      unfold honestWit
      rw [toNat_cast hk1, natAbs_cast_neg hk', natAbs_cast_neg ht, natAbs_cast hm,
        natAbs_cast (mul_nonneg (by norm_num) hm), decide_eq_false hk]
      exact this
    · refine ⟨fun h => ?_, fun h => by tauto⟩
      exfalso
      have hm' := (not_le.1 hm).le
      have hl := h.2.2.2.2.1.2
      unfold honestWit at hl
      rw [decide_eq_false hk] at hl
      have hl := hl rfl
      simp only [] at hl
      rw [toNat_cast hk1, natAbs_cast_neg hk', natAbs_cast_neg ht,
        natAbs_cast_neg (mul_nonpos_of_nonneg_of_nonpos (by norm_num) hm'), cR1, cL1] at hl
      have el := congrArg (fun z : ℤ => (z : Fq)) hlow
      push_cast at el hl
      rw [ZMod.natCast_zmod_val] at el
      have hz : (((2 : ℤ) ^ 129 * mZ s.val : ℤ) : Fq) = 0 := by
        push_cast
        linear_combination -el - hl
      push_cast at hz
      rcases mul_eq_zero.1 hz with h2 | h2
      · exact absurd h2 (by decide +kernel)
      · rw [ZMod.intCast_zmod_eq_zero_iff_dvd] at h2
        have h3 := Int.le_of_dvd (by linarith) ((dvd_neg (α := ℤ)).2 h2)
        have h4 : (340282366920938463463374607431768211456 : ℤ) < p_ed381 := by decide +kernel
        linarith

/-! ## Decompositions of `s + q` -/

/-- a positive decomposition of `S` -/
def aK1 (S : ℕ) : ℤ := k1Z (S % R) + N21
def aK2 (S : ℕ) : ℤ := k2Z (S % R) + N11
def aT (S : ℕ) : ℤ := tZ (S % R) + A2 + (S / R : ℕ)
def aM (S : ℕ) : ℤ := aT S * R2 - L2 * aK2 S

theorem alias_eq (S : ℕ) : L * aK2 S + S - aK1 S = R * aT S := by
  have h := dec_eq (S % R)
  have e : (S : ℤ) = R * (S / R : ℕ) + (S % R : ℕ) := by exact_mod_cast (Nat.div_add_mod S R).symm
  have c : (L * N11 - N21 : ℤ) = R * A2 := by decide +kernel
  unfold aK1 aK2 aT
  rw [e]
  linear_combination h + c

theorem alias_low (S : ℕ) : L1 * aK2 S + S - aT S * R1 - aK1 S = 2 ^ 128 * aM S := by
  have h := alias_eq S
  have e1 : (L : ℤ) = L1 + 2 ^ 128 * L2 := by decide +kernel
  have e2 : (R : ℤ) = R1 + 2 ^ 128 * R2 := by decide +kernel
  unfold aM
  rw [e1, e2] at h
  linear_combination h

theorem alias_m (S : ℕ) : (R : ℤ) * aM S = R2 * (S - aK1 S) + 1740796697151752842205211964275049958161943697378252608161361130124701037621 * aK2 S := by
  have h := alias_eq S
  have e : (R2 * L - R * L2 : ℤ) = 1740796697151752842205211964275049958161943697378252608161361130124701037621 := by decide +kernel
  unfold aM
  rw [← e]
  linear_combination -(R2 : ℤ) * h

theorem alias_bounds {S : ℕ} (h1 : p_ed381 ≤ S) (h2 : S < 2 * p_ed381) :
    (0 ≤ aK1 S ∧ aK1 S < 340282366920938463463374607431768211456) ∧
    (0 ≤ aK2 S ∧ aK2 S < 340282366920938463463374607431768211456) ∧
    (0 ≤ aM S ∧ aM S < 340282366920938463463374607431768211456) := by
  have hm := alias_m S
  have a1 := k1Z_nonneg (s := S % R)
  have a2 := k1Z_lt (s := S % R)
  have a3 := k2Z_gt (s := S % R)
  have a4 := k2Z_lt (s := S % R)
  have g1 : (p_ed381 : ℤ) ≤ S := by exact_mod_cast h1
  have g2 : (S : ℤ) < 2 * p_ed381 := by exact_mod_cast h2
  unfold aK1 aK2 at *
  generalize k1Z (S % R) = k1 at *
  generalize k2Z (S % R) = k2 at *
  generalize aM S = m at *
  clear h1 h2
  unfold R R2 at hm
  unfold N11 N12 N21 at *
  unfold p_ed381 at g1 g2
  push_cast at *
  refine ⟨⟨?_, ?_⟩, ⟨?_, ?_⟩, ?_, ?_⟩ <;> linarith

theorem alias_t {S : ℕ} (h1 : p_ed381 ≤ S) (h2 : S < 2 * p_ed381) :
    0 ≤ aT S ∧ aT S < 340282366920938463463374607431768211456 := by
  have hm := alias_eq S
  have a1 := k1Z_nonneg (s := S % R)
  have a2 := k1Z_lt (s := S % R)
  have a3 := k2Z_gt (s := S % R)
  have a4 := k2Z_lt (s := S % R)
  have g1 : (p_ed381 : ℤ) ≤ S := by exact_mod_cast h1
  have g2 : (S : ℤ) < 2 * p_ed381 := by exact_mod_cast h2
  unfold aK1 aK2 at *
  generalize k1Z (S % R) = k1 at *
  generalize k2Z (S % R) = k2 at *
  generalize aT S = t at *
  clear h1 h2
  unfold R L at hm
  unfold N11 N12 N21 at *
  unfold p_ed381 at g1 g2
  push_cast at *
  refine ⟨?_, ?_⟩ <;> linarith

/-- the values accepted for `s` that decompose `s + q` -/
def aliasWit (s : Fq) : Wit p_ed381 :=
  ⟨(aK1 (s.val + p_ed381) : Fq), (aK2 (s.val + p_ed381) : Fq), true, (aT (s.val + p_ed381) : Fq),
    ((2 ^ 128 * aM (s.val + p_ed381) : ℤ) : Fq), (aM (s.val + p_ed381) : Fq)⟩

theorem alias_ok (s : Fq) : DecOK s (aliasWit s) := by
  obtain ⟨⟨a, b⟩, ⟨c, d⟩, e, f⟩ := alias_bounds (S := s.val + p_ed381) (by omega) (by
    have := ZMod.val_lt s; omega)
  refine decOK_pos (S := ((s.val + p_ed381 : ℕ) : ℤ)) ?_ a b c d e f (alias_low _) rfl
  rw [Int.cast_natCast]; push_cast
  rw [ZMod.natCast_zmod_val, ZMod.natCast_self, add_zero]

theorem int_val {k : ℤ} (h0 : 0 ≤ k) (h : k < 340282366920938463463374607431768211456) :
    (((k : Fq)).val : ℤ) = k := by
  obtain ⟨n, rfl⟩ := Int.eq_ofNat_of_zero_le h0
  have hn : n < 2 ^ 128 := by norm_num; exact_mod_cast h
  have hq : 2 ^ 128 < p_ed381 := by decide +kernel
  have : ((n : ℤ) : Fq).val = n := by
    rw [Int.cast_natCast, ZMod.val_natCast_of_lt (hn.trans hq)]
  show ((((n : ℤ) : Fq).val : ℕ) : ℤ) = _
  rw [this]

theorem alias_val (s : Fq) :
    ∃ j : ℤ, ((aliasWit s).k1.val : ℤ) - L * (aliasWit s).k2.val = s.val + p_ed381 + R * j := by
  obtain ⟨⟨a, b⟩, ⟨c, d⟩, e, f⟩ := alias_bounds (S := s.val + p_ed381) (by omega) (by
    have := ZMod.val_lt s; omega)
  refine ⟨-aT (s.val + p_ed381), ?_⟩
  have h := alias_eq (s.val + p_ed381)
  unfold aliasWit
  simp only []
  rw [int_val a b, int_val c d]
  push_cast at h ⊢
  linear_combination -h

end Verif.Circuit.Glv
