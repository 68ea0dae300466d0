import Verif.Circuit.VerifierSpec

/-! # Specifications of the functions of `Circuit/VerifierPoly.lean` -/

set_option linter.unusedSectionVars false

namespace Verif.Circuit.VerifierPoly

open Verif.Circuit Verif.Conv

variable {p : ℕ} [hp : Fact p.Prime] {Q : ℕ} [hQ : Fact Q.Prime] {I : Info p} {k : ℕ} {H : Prop}

theorem val_one' : (1 : ZMod Q).val = 1 := by
  haveI : Fact (1 < Q) := ⟨hQ.out.one_lt⟩
  exact ZMod.val_one Q

theorem two_pow_k (h : Par I Q k) : 4 ≤ 2 ^ k := by
  calc 4 = 2 ^ 2 := rfl
    _ ≤ _ := Nat.pow_le_pow_right (by norm_num) h.mul.two

theorem powLoop_spec (h : Par I Q k) {n j : ℕ} (hn : n = 2 ^ j) : ∀ (fuel i : ℕ), i ≤ j → j - i ≤ fuel →
    ∀ {c : Circ p} (_ : Ctx H k c) {x : FpElemVar p} {a : ZMod Q}, Hol H I.mod a x c →
    Spec (powLoop I.mod n fuel (2 ^ i) x) c H (fun v c' => Hol H I.mod (a ^ 2 ^ (j - i)) v c')
      (fun v w => x.Small I.mod w → v.Small I.mod w ∧ El Q I.mod w v = El Q I.mod w x ^ 2 ^ (j - i)) := by
  intro fuel
  induction fuel with
  | zero =>
    intro i hi hf c hc x a hx
    have : j - i = 0 := by omega
    rw [this]
    exact Spec.pure hc.wf (by simpa using hx) (fun w _ _ sx => ⟨sx, by simp⟩)
  | succ fuel ih =>
    intro i hi hf c hc x a hx
    rw [powLoop]
    by_cases hij : i = j
    · subst hij
      rw [if_neg (by rw [hn]; simp), Nat.sub_self]
      exact Spec.pure hc.wf (by simpa using hx) (fun w _ _ sx => ⟨sx, by simp⟩)
    · have hlt : i < j := by omega
      rw [if_pos (by rw [hn]; exact Nat.pow_lt_pow_right (by norm_num) hlt)]
      refine hbind hc.wf (mul_spec h hc hx hx) ?_
      intro y c1 e1 hy
      have e2 : 2 * 2 ^ i = 2 ^ (i + 1) := by ring
      have e3 : ∀ z : ZMod Q, (z * z) ^ 2 ^ (j - (i + 1)) = z ^ 2 ^ (j - i) := by
        intro z
        have : j - i = j - (i + 1) + 1 := by omega
        rw [this, pow_succ', pow_mul, sq]
      rw [e2]
      refine Spec.conseq e1.wf (ih (i + 1) hlt (by omega) (hc.ext e1) hy) (fun hH _ _ => hH) ?_ ?_
      · intro v c' _ g
        rwa [e3] at g
      · intro v w _ _ g g1 sx
        obtain ⟨s1, s2⟩ := g1 sx sx
        obtain ⟨s3, s4⟩ := g s1
        exact ⟨s3, by rw [s4, s2, e3]⟩

/-- the difference of an element and a constant, proved by an addition -/
theorem diff_eq (h : Par I Q k) {w : ℕ → ZMod p} {x y r : FpElemVar p} {b : ZMod Q} (sx : x.Small I.mod w)
    (sy : y.Small I.mod w) (he : w x.v0 = w r.v0 ∧ w x.v1 = w r.v1)
    (hr : ∃ d < 2 ^ k, ((r.num I.mod w + d * Q : ℕ) : ZMod p) = ((y.num I.mod w + b.val : ℕ) : ZMod p)) :
    El Q I.mod w y = El Q I.mod w x - b := by
  obtain ⟨d, hd, hh⟩ := hr
  rw [← num_congr he] at hh
  have h4 := two_pow_k h
  have l1 := num_lt sx
  have l2 := num_lt sy
  have l3 := (ZMod.val_lt b).trans h.q_lt
  have := sum_eq h (A := x.num I.mod w) (B := y.num I.mod w + b.val) (d := d) (e := 0) (by nlinarith) (by nlinarith)
    (by omega) (by omega) (by simpa using hh)
  unfold El
  rw [this]
  push_cast
  rw [ZMod.natCast_val, ZMod.cast_id]
  ring

/-- `evaluate_poly_helper` -/
theorem evalHelper_spec (h : Par I Q k) {c : Circ p} (hc : Ctx H k c) {ζ : FpElemVar p} {a : ZMod Q}
    (hζ : Hol H I.mod a ζ c) {n j : ℕ} (hn : n = 2 ^ j) (hnQ : n < Q) (ha : H → a ≠ 1) :
    Spec (evalHelper Q I ζ n) c H
      (fun v c' => Hol H I.mod (a ^ n) v.1 c' ∧ Hol H I.mod (a ^ n - 1) v.2.1 c' ∧
        Hol H I.mod ((a ^ n - 1) * ((n : ZMod Q) * (a - 1))⁻¹) v.2.2 c')
      (fun v w => ζ.Small I.mod w → v.1.Small I.mod w ∧ v.2.1.Small I.mod w ∧ v.2.2.Small I.mod w ∧
        El Q I.mod w v.1 = El Q I.mod w ζ ^ n ∧ El Q I.mod w v.2.1 = El Q I.mod w ζ ^ n - 1 ∧
        (n : ZMod Q) * El Q I.mod w v.2.2 * (El Q I.mod w ζ - 1) = El Q I.mod w ζ ^ n - 1) := by
  have hQp := h.q_lt_p
  have hn0 : (n : ZMod Q) ≠ 0 := by
    intro h0
    have : n = 0 := by
      have := congrArg ZMod.val h0
      rwa [ZMod.val_natCast_of_lt hnQ, ZMod.val_zero] at this
    rw [hn] at this
    exact absurd this (by positivity)
  have hjn : j ≤ n := by rw [hn]; exact Nat.lt_two_pow_self.le
  haveI : Fact (1 < p) := ⟨hp.out.one_lt⟩
  unfold evalHelper
  refine const_bind h (b := (n : ZMod Q))
    (by rw [ZMod.val_natCast_of_lt hnQ, ZMod.val_natCast_of_lt (hnQ.trans hQp)]) ?_
  intro nE hnE
  refine read_bind h hζ ?_
  intro ζr hζr
  have hpow := powLoop_spec (I := I) (H := H) h hn n 0 (Nat.zero_le _) (by omega) hc hζ
  rw [pow_zero, Nat.sub_zero, ← hn] at hpow
  refine hbind hc.wf hpow ?_
  intro zn c1 e1 hzn
  have hc1 := hc.ext e1
  refine read_bind h hzn ?_
  intro znr hznr
  have hl1 : (znr - 1).val < p := (ZMod.val_lt _).trans hQp
  refine switch_bind (fun _ => hl1) ?_
  intro zm1 hzm1
  refine hbind e1.wf (newFrom_spec h hc1 (a := a ^ n - 1) (fun hH => by rw [hzm1 hl1, hznr hH])) ?_
  intro zm1v c2 e2 hzm1v
  have hc2 := hc1.ext e2
  refine const_bind h (b := (1 : ZMod Q)) (by rw [val_one', ZMod.val_one]) ?_
  intro one hone
  refine hbind e2.wf (addConst_spec h hc2 hzm1v hone) ?_
  intro znRec c3 e3 hznRec
  have hc3 := hc2.ext e3
  refine hbind e3.wf (eq_spec hc3 (hzn.ext (e2.trans e3)) hznRec (fun _ => by ring)) ?_
  intro _ c4 e4 _
  have hc4 := hc3.ext e4
  refine switch_bind (fun hH => by rw [hzm1 hl1]; exact ZMod.val_lt _) ?_
  intro zm1r hzm1r
  have hz : H → zm1r = a ^ n - 1 := fun hH => by
    apply ZMod.val_injective
    rw [hzm1r (by rw [hzm1 hl1]; exact ZMod.val_lt _), hzm1 hl1, hznr hH]
  refine Spec.guard (fun hH h0 => ?_) ?_
  · rw [hζr hH] at h0
    exact (mul_ne_zero hn0 (sub_ne_zero.2 (ha hH))) h0
  intro _
  refine hbind e4.wf (newElem_spec h hc4 (a := (a ^ n - 1) * ((n : ZMod Q) * (a - 1))⁻¹)
    (fun hH => by rw [hz hH, hζr hH])) ?_
  intro l1v c5 e5 hl1v
  have hc5 := hc4.ext e5
  refine hbind e5.wf (newElem_spec h hc5 (a := a - 1) (fun hH => by rw [hζr hH])) ?_
  intro zv c6 e6 hzv
  have hc6 := hc5.ext e6
  refine hbind e6.wf (addConst_spec h hc6 hzv hone) ?_
  intro ζRec c7 e7 hζRec
  have hc7 := hc6.ext e7
  have e17 := e2.trans (e3.trans (e4.trans (e5.trans (e6.trans e7))))
  refine hbind e7.wf (eq_spec hc7 (hζ.ext (e1.trans e17)) hζRec (fun _ => by ring)) ?_
  intro _ c8 e8 _
  have hc8 := hc7.ext e8
  refine hbind e8.wf (mulConst_spec h hc8 (hl1v.ext (e6.trans (e7.trans e8))) hnE) ?_
  intro left c9 e9 hleft
  have hc9 := hc8.ext e9
  refine hbind e9.wf (mul_spec h hc9 hleft (hzv.ext (e7.trans (e8.trans e9)))) ?_
  intro left2 c10 e10 hleft2
  have hc10 := hc9.ext e10
  have e2' := e3.trans (e4.trans (e5.trans (e6.trans (e7.trans (e8.trans (e9.trans e10))))))
  refine hbind e10.wf (eq_spec hc10 hleft2 (hzm1v.ext e2') (fun hH => ?_)) ?_
  · have h1 : a - 1 ≠ 0 := sub_ne_zero.2 (ha hH)
    field_simp
  intro _ c11 e11 _
  have e1' := e2.trans (e2'.trans e11)
  have e5' := e6.trans (e7.trans (e8.trans (e9.trans (e10.trans e11))))
  refine Spec.pure e11.wf ⟨hzn.ext e1', hzm1v.ext (e2'.trans e11), hl1v.ext e5'⟩ ?_
  intro w _ _ q1 q2 q3 q4 q5 q6 q7 q8 q9 q10 q11 sζ
  obtain ⟨s1, v1⟩ := q11 sζ
  have v2 := diff_eq h s1 q10 q8 q9
  have v3 := diff_eq h sζ q6 q4 q5
  obtain ⟨s2, v4⟩ := q3 q7
  obtain ⟨s3, v5⟩ := q2 s2 q6
  have v6 : El Q I.mod w left2 = El Q I.mod w zm1v := by
    unfold El; rw [num_congr q1]
  refine ⟨s1, q10, q7, v1, by rw [v2, v1], ?_⟩
  have : El Q I.mod w zm1v = El Q I.mod w l1v * (n : ZMod Q) * (El Q I.mod w ζ - 1) := by
    rw [← v6, v5, v4, v3]
  rw [v1] at v2
  rw [← v2, this]
  ring

end Verif.Circuit.VerifierPoly
