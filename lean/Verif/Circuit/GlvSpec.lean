import Verif.Circuit.Glv
import Verif.Circuit.MsmLoop
import Verif.Circuit.TruncSpec

/-!
# Specification of the GLV gadgets
-/

set_option linter.unusedSectionVars false

namespace Verif.Circuit.Glv

open Verif.Conv Verif.Circuit

variable {p : ℕ} [Fact p.Prime]

/-- equation (f) -/
def LowEq (s k1 k2 sign t tmp : ZMod p) : Prop :=
  (sign = 1 → tmp + fromLeBytesModOrder p r1B * t + k1 = fromLeBytesModOrder p lambda1B * k2 + s) ∧
  (sign = 0 → fromLeBytesModOrder p lambda1B * k2 + tmp + k1 = s + fromLeBytesModOrder p r1B * t)

/-- equation (g) -/
def HighEq (k2 sign t tmp2 : ZMod p) : Prop :=
  (sign = 1 → tmp2 + fromLeBytesModOrder p lambda2B * k2 = fromLeBytesModOrder p r2B * t) ∧
  (sign = 0 → tmp2 + fromLeBytesModOrder p r2B * t = fromLeBytesModOrder p lambda2B * k2)

/-- all conditions on the values -/
def DecOK (s : ZMod p) (x : Wit p) : Prop :=
  x.k1.val < 2 ^ 128 ∧ x.k2.val < 2 ^ 128 ∧ x.tmp2.val < 2 ^ 128 ∧ x.tmp = ((2 ^ 128 : ℕ) : ZMod p) * x.tmp2 ∧
    LowEq s x.k1 x.k2 (boolF x.pos) x.t x.tmp ∧ HighEq x.k2 (boolF x.pos) x.t x.tmp2

theorem select_one {b x0 x1 : ZMod p} (hb : b = 0 ∨ b = 1) :
    ((1 - b) * x0 + b * x1 = 1) ↔ ((b = 1 → x1 = 1) ∧ (b = 0 → x0 = 1)) := by
  rcases hb with rfl | rfl <;> simp

theorem ite_one {P : Prop} [Decidable P] : (if P then (1 : ZMod p) else 0) = 1 ↔ P := by
  split <;> simp_all

theorem checkLow_spec {c : Circ p} (hc : WF c) {s k1 k2 sign t tmp : ℕ} (hs : s < c.numVars) (h1 : k1 < c.numVars)
    (h2 : k2 < c.numVars) (hg : sign < c.numVars) (ht : t < c.numVars) (hm : tmp < c.numVars) :
    Spec (checkLow s k1 k2 sign t tmp) c
      ((c.val sign = 0 ∨ c.val sign = 1) ∧
        LowEq (c.val s) (c.val k1) (c.val k2) (c.val sign) (c.val t) (c.val tmp))
      (fun _ _ => True)
      (fun _ w => (w sign = 0 ∨ w sign = 1) → LowEq (w s) (w k1) (w k2) (w sign) (w t) (w tmp)) := by
  unfold checkLow
  have h0 := hc.z
  refine Spec.bind (lc_spec hc tmp t k1 0 1 _ 1 0) (fun _ _ _ => by simp [hm, ht, h1, h0]) hc ?_
  rintro l c1 e1 hl
  refine Spec.bind (lc_spec e1.wf k2 s 0 0 _ 1 0 0) (fun _ _ _ => by simp [e1.lt h2, e1.lt hs, e1.lt h0]) e1.wf ?_
  rintro r c2 e2 hr
  refine Spec.bind (isEqual_spec e2.wf l r) (fun _ _ _ => ⟨e2.lt hl, hr⟩) e2.wf ?_
  rintro ps c3 e3 hps
  have e03 := (e1.trans e2).trans e3
  refine Spec.bind (lc_spec e3.wf k2 tmp k1 0 _ 1 1 0)
    (fun _ _ _ => by simp [e03.lt h2, e03.lt hm, e03.lt h1, e03.lt h0]) e3.wf ?_
  rintro l' c4 e4 hl'
  have e04 := e03.trans e4
  refine Spec.bind (lc_spec e4.wf s t 0 0 1 _ 0 0) (fun _ _ _ => by simp [e04.lt hs, e04.lt ht, e04.lt h0]) e4.wf ?_
  rintro r' c5 e5 hr'
  refine Spec.bind (isEqual_spec e5.wf l' r') (fun _ _ _ => ⟨e5.lt hl', hr'⟩) e5.wf ?_
  rintro ns c6 e6 hns
  have e06 := (e04.trans e5).trans e6
  refine Spec.bind (conditionalSelect_spec e6.wf sign ns ps)
    (fun h _ _ => ⟨⟨e06.lt hg, hns, e6.lt (e5.lt (e4.lt hps))⟩, ?_⟩) e6.wf ?_
  · rw [e06.val _ hg]; exact h.1.1.1.1.1.1.1
  rintro u c7 e7 hu
  have e07 := e06.trans e7
  refine Spec.conseq e7.wf (enforceTrue_spec e7.wf u) ?_ (fun _ _ _ h => h) ?_
  · rintro ⟨⟨⟨⟨⟨⟨⟨⟨hb, hL⟩, q1⟩, q2⟩, q3⟩, q4⟩, q5⟩, q6⟩, q7⟩ z0 -
    refine ⟨hu, ?_⟩
    rw [q7, e7.val _ (e06.lt hg), e7.val _ hns, e7.val _ (e6.lt (e5.lt (e4.lt hps))), e06.val _ hg, select_one hb]
    have v0 : c1.val 0 = 0 ∧ c2.val 0 = 0 := by
      have i0 : c7.val 0 = c.val 0 := e07.val 0 h0
      exact ⟨by rw [e1.val 0 h0, ← i0, z0], by rw [(e1.trans e2).val 0 h0, ← i0, z0]⟩
    constructor
    · intro hb1
      have := hL.1 hb1
      rw [show c6.val ps = c3.val ps from ((e4.trans e5).trans e6).val _ hps, q3, ite_one, e3.val _ (e2.lt hl),
        e2.val _ hl, e3.val _ hr, q1, q2, e1.val _ hm, e1.val _ ht, e1.val _ h1, (e1.trans e2).val _ h2,
        (e1.trans e2).val _ hs, v0.1, v0.2]
      linear_combination this
    · intro hb1
      have := hL.2 hb1
      rw [q6, ite_one, e6.val _ (e5.lt hl'), e5.val _ hl', e6.val _ hr', q4, q5]
      have e05 := e04.trans e5
      rw [e04.val _ h2, e04.val _ hm, e04.val _ h1, e05.val _ hs, e05.val _ ht]
      linear_combination this
  · rintro _ w w0 - q8 q7 q6 q5 q4 q3 q2 q1 hb
    rw [q7, select_one hb] at q8
    constructor
    · intro hb1
      have := q8.1 hb1
      rw [q3, ite_one, q1, q2, w0] at this
      linear_combination this
    · intro hb1
      have := q8.2 hb1
      rw [q6, ite_one, q4, q5, w0] at this
      linear_combination this

theorem checkHigh_spec {c : Circ p} (hc : WF c) {k2 sign t tmp2 : ℕ}
    (h2 : k2 < c.numVars) (hg : sign < c.numVars) (ht : t < c.numVars) (hm : tmp2 < c.numVars) :
    Spec (checkHigh k2 sign t tmp2) c
      ((c.val sign = 0 ∨ c.val sign = 1) ∧ HighEq (c.val k2) (c.val sign) (c.val t) (c.val tmp2))
      (fun _ _ => True)
      (fun _ w => (w sign = 0 ∨ w sign = 1) → HighEq (w k2) (w sign) (w t) (w tmp2)) := by
  unfold checkHigh
  have h0 := hc.z
  refine Spec.bind (lc_spec hc tmp2 k2 0 0 1 _ 0 0) (fun _ _ _ => by simp [hm, h2, h0]) hc ?_
  rintro l c1 e1 hl
  refine Spec.bind (mulConstant_spec e1.wf t _) (fun _ _ _ => e1.lt ht) e1.wf ?_
  rintro r c2 e2 hr
  refine Spec.bind (isEqual_spec e2.wf l r) (fun _ _ _ => ⟨e2.lt hl, hr⟩) e2.wf ?_
  rintro ps c3 e3 hps
  have e03 := (e1.trans e2).trans e3
  refine Spec.bind (lc_spec e3.wf tmp2 t 0 0 1 _ 0 0)
    (fun _ _ _ => by simp [e03.lt ht, e03.lt hm, e03.lt h0]) e3.wf ?_
  rintro l' c4 e4 hl'
  have e04 := e03.trans e4
  refine Spec.bind (mulConstant_spec e4.wf k2 _) (fun _ _ _ => e04.lt h2) e4.wf ?_
  rintro r' c5 e5 hr'
  refine Spec.bind (isEqual_spec e5.wf l' r') (fun _ _ _ => ⟨e5.lt hl', hr'⟩) e5.wf ?_
  rintro ns c6 e6 hns
  have e06 := (e04.trans e5).trans e6
  refine Spec.bind (conditionalSelect_spec e6.wf sign ns ps)
    (fun h _ _ => ⟨⟨e06.lt hg, hns, e6.lt (e5.lt (e4.lt hps))⟩, ?_⟩) e6.wf ?_
  · rw [e06.val _ hg]; exact h.1.1.1.1.1.1.1
  rintro u c7 e7 hu
  have e07 := e06.trans e7
  refine Spec.conseq e7.wf (enforceTrue_spec e7.wf u) ?_ (fun _ _ _ h => h) ?_
  · rintro ⟨⟨⟨⟨⟨⟨⟨⟨hb, hL⟩, q1⟩, q2⟩, q3⟩, q4⟩, q5⟩, q6⟩, q7⟩ z0 -
    refine ⟨hu, ?_⟩
    rw [q7, e7.val _ (e06.lt hg), e7.val _ hns, e7.val _ (e6.lt (e5.lt (e4.lt hps))), e06.val _ hg, select_one hb]
    have e02 := e1.trans e2
    have e05 := e04.trans e5
    constructor
    · intro hb1
      have := hL.1 hb1
      rw [show c6.val ps = c3.val ps from ((e4.trans e5).trans e6).val _ hps, q3, ite_one, e3.val _ (e2.lt hl),
        e2.val _ hl, e3.val _ hr, q1, q2, e1.val _ hm, e1.val _ h2, e02.val _ ht]
      linear_combination this
    · intro hb1
      have := hL.2 hb1
      rw [q6, ite_one, e6.val _ (e5.lt hl'), e5.val _ hl', e6.val _ hr', q4, q5,
        e04.val _ hm, e04.val _ ht, e05.val _ h2]
      linear_combination this
  · rintro _ w w0 - q8 q7 q6 q5 q4 q3 q2 q1 hb
    rw [q7, select_one hb] at q8
    constructor
    · intro hb1
      have := q8.1 hb1
      rw [q3, ite_one, q1, q2] at this
      linear_combination this
    · intro hb1
      have := q8.2 hb1
      rw [q6, ite_one, q4, q5] at this
      linear_combination this

theorem rangeChecks_spec {c : Circ p} (hc : WF c) (hr : RangeOK c) (hb : c.ultra = none → 128 ≤ bigintBits p)
    {k1 k2 tmp tmp2 : ℕ} (h1 : k1 < c.numVars) (h2 : k2 < c.numVars) (hm : tmp < c.numVars) (hm2 : tmp2 < c.numVars) :
    Spec (rangeChecks k1 k2 tmp tmp2) c
      ((c.val k1).val < 2 ^ 128 ∧ (c.val k2).val < 2 ^ 128 ∧ (c.val tmp2).val < 2 ^ 128 ∧
        c.val tmp = ((2 ^ 128 : ℕ) : ZMod p) * c.val tmp2)
      (fun _ _ => True)
      (fun _ w => (w k1).val < 2 ^ 128 ∧ (w k2).val < 2 ^ 128 ∧ (w tmp2).val < 2 ^ 128 ∧
        w tmp = ((2 ^ 128 : ℕ) : ZMod p) * w tmp2) := by
  unfold rangeChecks
  refine Spec.bind (enforceInRange_spec hc hr k1 128) (fun h _ _ => ⟨h1, by norm_num, hb, h.1⟩) hc ?_
  rintro _ c1 e1 -
  refine Spec.bind (enforceInRange_spec e1.wf (hr.ext e1) k2 128)
    (fun h _ _ => ⟨e1.lt h2, by norm_num, by rw [e1.ultra]; exact hb, by rw [e1.val _ h2]; exact h.1.2.1⟩) e1.wf ?_
  rintro _ c2 e2 -
  have e02 := e1.trans e2
  refine Spec.bind (mulConstantGate_spec e2.wf tmp2 _ tmp)
    (fun h _ _ => ⟨⟨e02.lt hm2, e02.lt hm⟩, by rw [e02.val _ hm, e02.val _ hm2]; exact h.1.1.2.2.2⟩) e2.wf ?_
  rintro _ c3 e3 -
  have e03 := e02.trans e3
  refine Spec.conseq e3.wf (enforceInRange_spec e3.wf (hr.ext e03) tmp2 128) ?_ (fun _ _ _ h => h) ?_
  · rintro ⟨⟨⟨h, -⟩, -⟩, -⟩ - -
    exact ⟨e03.lt hm2, by norm_num, by rw [e03.ultra]; exact hb, by rw [e03.val _ hm2]; exact h.2.2.1⟩
  · rintro _ w - - q4 q3 q2 q1
    exact ⟨q1, q2, q4, q3⟩

theorem createVarsOf_spec {c : Circ p} (hc : WF c) (x : Wit p) :
    Spec (createVarsOf x) c True
      (fun v c' => (v.1 < c'.numVars ∧ v.2.1 < c'.numVars ∧ v.2.2.1 < c'.numVars ∧ v.2.2.2.1 < c'.numVars ∧
          v.2.2.2.2.1 < c'.numVars ∧ v.2.2.2.2.2 < c'.numVars) ∧
        c'.val v.1 = x.k1 ∧ c'.val v.2.1 = x.k2 ∧ c'.val v.2.2.1 = boolF x.pos ∧ c'.val v.2.2.2.1 = x.t ∧
          c'.val v.2.2.2.2.1 = x.tmp ∧ c'.val v.2.2.2.2.2 = x.tmp2)
      (fun v w => w v.2.2.1 = 0 ∨ w v.2.2.1 = 1) := by
  unfold createVarsOf
  refine Spec.bind (createVariable_spec hc _ True) (fun _ _ _ => trivial) hc ?_
  rintro k1 c1 e1 ⟨h1, v1⟩
  refine Spec.bind (createVariable_spec e1.wf _ True) (fun _ _ _ => trivial) e1.wf ?_
  rintro k2 c2 e2 ⟨h2, v2⟩
  refine Spec.bind (createBooleanVariable_spec e2.wf _) (fun _ _ _ => trivial) e2.wf ?_
  rintro sg c3 e3 ⟨h3, v3⟩
  refine Spec.bind (createVariable_spec e3.wf _ True) (fun _ _ _ => trivial) e3.wf ?_
  rintro t c4 e4 ⟨h4, v4⟩
  refine Spec.bind (createVariable_spec e4.wf _ True) (fun _ _ _ => trivial) e4.wf ?_
  rintro m c5 e5 ⟨h5, v5⟩
  refine Spec.bind (createVariable_spec e5.wf _ True) (fun _ _ _ => trivial) e5.wf ?_
  rintro m2 c6 e6 ⟨h6, v6⟩
  have e56 := e5.trans e6
  have e46 := e4.trans e56
  have e36 := e3.trans e46
  have e26 := e2.trans e36
  refine Spec.pure e6.wf ⟨⟨e26.lt h1, e36.lt h2, e46.lt h3, e56.lt h4, e6.lt h5, h6⟩, ?_⟩ ?_
  · exact ⟨by rw [e26.val _ h1, v1], by rw [e36.val _ h2, v2], by rw [e46.val _ h3, v3], by rw [e56.val _ h4, v4],
      by rw [e6.val _ h5, v5], v6⟩
  · rintro w - - - - - q - -
    exact q

/-- the values of the variables of the decomposition in `w` -/
noncomputable def witAt (w : ℕ → ZMod p) (v : ℕ × ℕ × ℕ × ℕ × ℕ × ℕ) : Wit p :=
  ⟨w v.1, w v.2.1, asBit (w v.2.2.1), w v.2.2.2.1, w v.2.2.2.2.1, w v.2.2.2.2.2⟩

/-- `decompositionGateOf` returning all variables -/
def decompositionFull (s : ℕ) (x : Wit p) : Build p (ℕ × ℕ × ℕ × ℕ × ℕ × ℕ) := do
  let v ← createVarsOf x
  rangeChecks v.1 v.2.1 v.2.2.2.2.1 v.2.2.2.2.2
  checkLow s v.1 v.2.1 v.2.2.1 v.2.2.2.1 v.2.2.2.2.1
  checkHigh v.2.1 v.2.2.1 v.2.2.2.1 v.2.2.2.2.2
  pure v

theorem decompositionGateOf_eq (s : ℕ) (x : Wit p) :
    decompositionGateOf s x = (decompositionFull s x >>= fun v => pure (v.1, v.2.1, v.2.2.1)) := by
  unfold decompositionGateOf decompositionFull
  simp only [build_bind_assoc, build_pure_bind]

theorem decompositionFull_spec {c : Circ p} (hc : WF c) (hr : RangeOK c) (hb : c.ultra = none → 128 ≤ bigintBits p)
    {s : ℕ} (hs : s < c.numVars) (x : Wit p) :
    Spec (decompositionFull s x) c (DecOK (c.val s) x)
      (fun v c' => (v.1 < c'.numVars ∧ v.2.1 < c'.numVars ∧ v.2.2.1 < c'.numVars) ∧
        (v.2.2.2.1 < c'.numVars ∧ v.2.2.2.2.1 < c'.numVars ∧ v.2.2.2.2.2 < c'.numVars) ∧ witAt c'.val v = x ∧
        c'.val v.2.2.1 = boolF x.pos)
      (fun v w => (w v.2.2.1 = 0 ∨ w v.2.2.1 = 1) ∧ DecOK (w s) (witAt w v)) := by
  unfold decompositionFull
  refine Spec.bind (createVarsOf_spec hc x) (fun _ _ _ => trivial) hc ?_
  rintro v c1 e1 ⟨⟨h1, h2, h3, h4, h5, h6⟩, v1, v2, v3, v4, v5, v6⟩
  have hs1 := e1.lt hs
  refine Spec.bind (rangeChecks_spec e1.wf (hr.ext e1) (by rw [e1.ultra]; exact hb) h1 h2 h5 h6) ?_ e1.wf ?_
  · rintro ⟨h, -⟩ - -
    rw [v1, v2, v5, v6]
    exact ⟨h.1, h.2.1, h.2.2.1, h.2.2.2.1⟩
  rintro _ c2 e2 -
  refine Spec.bind (checkLow_spec e2.wf (e2.lt hs1) (e2.lt h1) (e2.lt h2) (e2.lt h3) (e2.lt h4) (e2.lt h5)) ?_ e2.wf ?_
  · rintro ⟨⟨h, h'⟩, -⟩ - -
    rw [e2.val _ hs1, e1.val _ hs, e2.val _ h1, e2.val _ h2, e2.val _ h3, e2.val _ h4, e2.val _ h5, v1, v2, v3, v4, v5]
    exact ⟨boolF_cases _, h.2.2.2.2.1⟩
  rintro _ c3 e3 -
  have e23 := e2.trans e3
  refine Spec.bind (checkHigh_spec e3.wf (e23.lt h2) (e23.lt h3) (e23.lt h4) (e23.lt h6)) ?_ e3.wf ?_
  · rintro ⟨⟨⟨h, h'⟩, -⟩, -⟩ - -
    rw [e23.val _ h2, e23.val _ h3, e23.val _ h4, e23.val _ h6, v2, v3, v4, v6]
    exact ⟨boolF_cases _, h.2.2.2.2.2⟩
  rintro _ c4 e4 -
  have e24 := e23.trans e4
  refine Spec.pure e4.wf ⟨⟨e24.lt h1, e24.lt h2, e24.lt h3⟩, ⟨e24.lt h4, e24.lt h5, e24.lt h6⟩, ?_,
    by rw [e24.val _ h3, v3]⟩ ?_
  · unfold witAt
    rw [e24.val _ h1, e24.val _ h2, e24.val _ h3, e24.val _ h4, e24.val _ h5, e24.val _ h6, v1, v2, v3, v4, v5, v6,
      asBit_boolF]
  · rintro w - - q4 q3 q2 q1
    refine ⟨q1, q2.1, q2.2.1, q2.2.2.1, q2.2.2.2, ?_, ?_⟩
    · show LowEq _ _ _ (boolF (asBit (w v.2.2.1))) _ _
      rw [boolF_asBit q1]; exact q3 q1
    · show HighEq _ (boolF (asBit (w v.2.2.1))) _ _
      rw [boolF_asBit q1]; exact q4 q1

/-- the decomposition gate for given values -/
theorem decompositionGateOf_spec {c : Circ p} (hc : WF c) (hr : RangeOK c) (hb : c.ultra = none → 128 ≤ bigintBits p)
    {s : ℕ} (hs : s < c.numVars) (x : Wit p) :
    Spec (decompositionGateOf s x) c (DecOK (c.val s) x)
      (fun v c' => (v.1 < c'.numVars ∧ v.2.1 < c'.numVars ∧ v.2.2 < c'.numVars) ∧
        (c'.val v.1 = x.k1 ∧ c'.val v.2.1 = x.k2 ∧ c'.val v.2.2 = boolF x.pos) ∧
        ∀ pi, Sat c' pi c'.val → DecOK (c.val s) x)
      (fun v w => ∃ y : Wit p, y.k1 = w v.1 ∧ y.k2 = w v.2.1 ∧ boolF y.pos = w v.2.2 ∧ DecOK (w s) y) := by
  rw [decompositionGateOf_eq]
  have h := decompositionFull_spec hc hr hb hs x
  constructor
  · intro v c' hm
    obtain ⟨u, c1, a1, a2⟩ := bind_ok hm
    cases a2
    obtain ⟨e, ⟨⟨g1, g2, g3⟩, -, gw, gs⟩, r⟩ := h.sound u c' a1
    refine ⟨e, ⟨⟨g1, g2, g3⟩, ⟨congrArg Wit.k1 gw, congrArg Wit.k2 gw, gs⟩, ?_⟩, ?_⟩
    · intro pi hsat
      have := (r pi _ hsat).2
      rwa [gw, e.val _ hs] at this
    · intro pi w hsat
      obtain ⟨r1, r2⟩ := r pi w hsat
      exact ⟨witAt w u, rfl, rfl, boolF_asBit r1, r2⟩
  · intro hC pi hsat
    obtain ⟨u, c', a1, a2⟩ := h.complete hC pi hsat
    exact ⟨_, c', by rw [bind_of_ok a1]; rfl, a2⟩

theorem decompositionGateOf_rel (s : ℕ) (x y : Wit p) : Rel (decompositionGateOf s x) (decompositionGateOf s y) := by
  unfold decompositionGateOf createVarsOf rangeChecks checkLow checkHigh enforceTrue
  have h1 : ∀ x y : Wit p, Rel (createVarsOf x) (createVarsOf y) := by
    intro x y
    unfold createVarsOf
    exact Rel.bind (Rel.createVariable _ _) fun _ => Rel.bind (Rel.createVariable _ _) fun _ =>
      Rel.bind (createBooleanVariable_rel _ _) fun _ => Rel.bind (Rel.createVariable _ _) fun _ =>
      Rel.bind (Rel.createVariable _ _) fun _ => Rel.bind (Rel.createVariable _ _) fun _ => Rel.pure _
  refine Rel.bind (h1 x y) fun v => ?_
  refine Rel.bind ?_ fun _ => Rel.bind ?_ fun _ => Rel.bind ?_ fun _ => Rel.pure _
  · exact Rel.bind (enforceInRange_rel _ _) fun _ => Rel.bind (enforceInRange_rel _ _) fun _ =>
      Rel.bind (mulConstantGate_rel _ _ _) fun _ => enforceInRange_rel _ _
  · exact Rel.bind (lc_rel _ _ _ _ _ _ _ _) fun _ => Rel.bind (lc_rel _ _ _ _ _ _ _ _) fun _ =>
      Rel.bind (isEqual_rel _ _) fun _ => Rel.bind (lc_rel _ _ _ _ _ _ _ _) fun _ =>
      Rel.bind (lc_rel _ _ _ _ _ _ _ _) fun _ => Rel.bind (isEqual_rel _ _) fun _ =>
      Rel.bind (conditionalSelect_rel _ _ _) fun _ => enforceConstant_rel _ _
  · exact Rel.bind (lc_rel _ _ _ _ _ _ _ _) fun _ => Rel.bind (mulConstant_rel _ _) fun _ =>
      Rel.bind (isEqual_rel _ _) fun _ => Rel.bind (lc_rel _ _ _ _ _ _ _ _) fun _ =>
      Rel.bind (mulConstant_rel _ _) fun _ => Rel.bind (isEqual_rel _ _) fun _ =>
      Rel.bind (conditionalSelect_rel _ _ _) fun _ => enforceConstant_rel _ _

theorem scalarDecompositionGate_rel (f g : ZMod p → Except CErr (Wit p)) (s : ℕ) :
    Rel (scalarDecompositionGate f s) (scalarDecompositionGate g s) := by
  unfold scalarDecompositionGate
  exact Rel.witness_bind fun _ _ => Rel.liftE_bind2 fun _ _ => decompositionGateOf_rel _ _ _

/-- what the stored witness must satisfy -/
def Good (f : ZMod p → Except CErr (Wit p)) (s : ZMod p) : Prop := ∃ x, f s = .ok x ∧ DecOK s x

theorem scalarDecompositionGate_spec {c : Circ p} (hc : WF c) (hr : RangeOK c)
    (hb : c.ultra = none → 128 ≤ bigintBits p) {s : ℕ} (hs : s < c.numVars) (f : ZMod p → Except CErr (Wit p)) :
    Spec (scalarDecompositionGate f s) c (Good f (c.val s))
      (fun v c' => (v.1 < c'.numVars ∧ v.2.1 < c'.numVars ∧ v.2.2 < c'.numVars) ∧
        ∃ x, f (c.val s) = .ok x ∧
        (c'.val v.1 = x.k1 ∧ c'.val v.2.1 = x.k2 ∧ c'.val v.2.2 = boolF x.pos) ∧
        ∀ pi, Sat c' pi c'.val → DecOK (c.val s) x)
      (fun v w => ∃ y : Wit p, y.k1 = w v.1 ∧ y.k2 = w v.2.1 ∧ boolF y.pos = w v.2.2 ∧ DecOK (w s) y) := by
  unfold scalarDecompositionGate
  refine Spec.of_eq (v := c.val s) (by unfold witness; rw [if_neg (by omega)]) ?_
  have h := decompositionGateOf_spec hc hr hb hs
  cases hf : f (c.val s) with
  | error e =>
    constructor
    · intro v c' hm
      obtain ⟨u, c1, a1, a2⟩ := bind_ok hm
      cases a1
    · rintro ⟨x, hx, -⟩
      rw [hf] at hx; cases hx
  | ok x =>
    refine Spec.liftE_bind rfl ?_
    refine Spec.conseq hc (h x) ?_ ?_ (fun _ _ _ _ h => h)
    · rintro ⟨y, hy, hd⟩ - -
      rw [hf] at hy; cases hy; exact hd
    · rintro v c' - ⟨a, b, d⟩
      exact ⟨a, x, rfl, b, d⟩

/-- `scalarDecompositionGate` returning all variables -/
def scalarFull (f : ZMod p → Except CErr (Wit p)) (s : ℕ) : Build p (ℕ × ℕ × ℕ × ℕ × ℕ × ℕ) := do
  let v ← witness s
  let x ← liftE (f v)
  decompositionFull s x

theorem scalarDecompositionGate_eq (f : ZMod p → Except CErr (Wit p)) (s : ℕ) :
    scalarDecompositionGate f s = (scalarFull f s >>= fun v => pure (v.1, v.2.1, v.2.2.1)) := by
  unfold scalarDecompositionGate scalarFull
  simp only [build_bind_assoc, decompositionGateOf_eq]

theorem scalarFull_spec {c : Circ p} (hc : WF c) (hr : RangeOK c)
    (hb : c.ultra = none → 128 ≤ bigintBits p) {s : ℕ} (hs : s < c.numVars) (f : ZMod p → Except CErr (Wit p)) :
    Spec (scalarFull f s) c (Good f (c.val s))
      (fun v c' => (v.1 < c'.numVars ∧ v.2.1 < c'.numVars ∧ v.2.2.1 < c'.numVars) ∧
        v.2.2.2.1 < c'.numVars ∧ v.2.2.2.2.1 < c'.numVars ∧ v.2.2.2.2.2 < c'.numVars ∧
        f (c.val s) = .ok (witAt c'.val v))
      (fun v w => (w v.2.2.1 = 0 ∨ w v.2.2.1 = 1) ∧ DecOK (w s) (witAt w v)) := by
  unfold scalarFull
  refine Spec.of_eq (v := c.val s) (by unfold witness; rw [if_neg (by omega)]) ?_
  cases hf : f (c.val s) with
  | error e =>
    constructor
    · intro v c' hm
      obtain ⟨u, c1, a1, a2⟩ := bind_ok hm
      cases a1
    · rintro ⟨x, hx, -⟩
      rw [hf] at hx; cases hx
  | ok x =>
    refine Spec.liftE_bind rfl ?_
    refine Spec.conseq hc (decompositionFull_spec hc hr hb hs x) ?_ ?_ (fun _ _ _ _ h => h)
    · rintro ⟨y, hy, hd⟩ - -
      rw [hf] at hy; cases hy; exact hd
    · rintro v c' - ⟨a, b, d⟩
      exact ⟨a, b.1, b.2.1, b.2.2, by rw [d.1]⟩

/-! ## The endomorphism -/

/-- the constraints of the endomorphism -/
def EndoEq (P Q : ZMod p × ZMod p) : Prop :=
  fromLeBytesModOrder p coeffC * (1 - P.2 * P.2) = Q.1 * (P.1 * P.2) ∧
  fromLeBytesModOrder p coeffB * (P.2 * P.2 + fromLeBytesModOrder p coeffB) =
    Q.2 * (P.2 * P.2 - fromLeBytesModOrder p coeffB)

theorem endomorphismCircuit_spec {c : Circ p} (hc : WF c) {P : ℕ × ℕ} (hP : PIn c P)
    (f : ZMod p × ZMod p → Except CErr (ZMod p × ZMod p)) :
    Spec (endomorphismCircuit f P) c (∃ Q, f (ptAt c.val P) = .ok Q ∧ EndoEq (ptAt c.val P) Q)
      (fun v c' => PIn c' v ∧ f (ptAt c.val P) = .ok (ptAt c'.val v))
      (fun v w => EndoEq (ptAt w P) (ptAt w v)) := by
  unfold endomorphismCircuit
  apply Spec.pointWitness_bind hP
  cases hf : f (ptAt c.val P) with
  | error e =>
    constructor
    · intro v c' hm
      obtain ⟨u, c1, a1, a2⟩ := bind_ok hm
      cases a1
    · rintro ⟨x, hx, -⟩
      cases hx
  | ok x =>
    refine Spec.liftE_bind rfl ?_
    refine Spec.bind (createPointVariable_spec hc x True) (fun _ _ _ => trivial) hc ?_
    rintro Q c1 e1 ⟨hQ, hQv⟩
    have hP1 := hP.ext e1
    refine Spec.bind (mul_spec e1.wf P.1 P.2) (fun _ _ _ => hP1) e1.wf ?_
    rintro xy c2 e2 hxy
    have hP2 := hP1.ext e2
    refine Spec.bind (genQuadPoly_spec e2.wf P.2 P.2 0 0 _ _ _ _ _ _ _)
      (fun _ _ _ => by simp [hP2.2, e2.wf.z]) e2.wf ?_
    rintro fy c3 e3 hfy
    have hP3 := hP2.ext e3
    refine Spec.bind (genQuadPoly_spec e3.wf P.2 P.2 0 0 _ _ _ _ _ _ _)
      (fun _ _ _ => by simp [hP3.2, e3.wf.z]) e3.wf ?_
    rintro gy c4 e4 hgy
    have hP4 := hP3.ext e4
    refine Spec.bind (genQuadPoly_spec e4.wf P.2 P.2 0 0 _ _ _ _ _ _ _)
      (fun _ _ _ => by simp [hP4.2, e4.wf.z]) e4.wf ?_
    rintro hy c5 e5 hhy
    have e25 := (e3.trans e4).trans e5
    have e15 := e2.trans e25
    have e05 := e1.trans e15
    have hQ5 := hQ.ext e15
    have vP : ptAt c5.val P = ptAt c.val P := ptAt_ext e05 hP
    have vQ : ptAt c5.val Q = x := by rw [ptAt_ext e15 hQ, hQv]
    have vP1 : c5.val P.1 = (ptAt c.val P).1 := congrArg Prod.fst vP
    have vP2 : c5.val P.2 = (ptAt c.val P).2 := congrArg Prod.snd vP
    have vQ1 : c5.val Q.1 = x.1 := congrArg Prod.fst vQ
    have vQ2 : c5.val Q.2 = x.2 := congrArg Prod.snd vQ
    refine Spec.bind (mulGate_spec e5.wf Q.1 xy fy) ?_ e5.wf ?_
    · rintro ⟨⟨⟨⟨⟨⟨Q', hQ', hE⟩, -⟩, q2⟩, q3⟩, q4⟩, q5⟩ z0 -
      cases hQ'
      refine ⟨⟨hQ5.1, e25.lt hxy, (e4.trans e5).lt hfy⟩, ?_⟩
      have z3 : c3.val 0 = 0 := by rw [← (e4.trans e5).val 0 e3.wf.z, z0]
      rw [(e4.trans e5).val _ hfy, q3, z3, e25.val _ hxy, q2, ← (e4.trans e5).val _ hP3.2, ← e25.val _ hP2.1,
        ← e25.val _ hP2.2, vP1, vP2, vQ1]
      linear_combination hE.1
    rintro _ c6 e6 -
    refine Spec.bind (mulGate_spec e6.wf Q.2 hy gy) ?_ e6.wf ?_
    · rintro ⟨⟨⟨⟨⟨⟨⟨Q', hQ', hE⟩, -⟩, q2⟩, q3⟩, q4⟩, q5⟩, -⟩ z0 -
      cases hQ'
      have z5 : c5.val 0 = 0 := by rw [← e6.val 0 e5.wf.z, z0]
      have z4 : c4.val 0 = 0 := by rw [← e5.val 0 e4.wf.z, z5]
      refine ⟨⟨e6.lt hQ5.2, e6.lt hhy, (e5.trans e6).lt hgy⟩, ?_⟩
      rw [(e5.trans e6).val _ hgy, q4, z4, ← e5.val _ hP4.2, e6.val _ hhy, q5, z5, e6.val _ hQ5.2, vP2, vQ2]
      linear_combination hE.2
    rintro _ c7 e7 -
    have e57 := e6.trans e7
    refine Spec.pure e7.wf ⟨hQ5.ext e57, by rw [ptAt_ext e57 hQ5, vQ]⟩ ?_
    rintro w w0 - q7 q6 q5 q4 q3 q2 -
    rw [q3, q2, w0] at q6
    rw [q4, q5, w0] at q7
    constructor
    · show _ * (1 - w P.2 * w P.2) = w Q.1 * (w P.1 * w P.2)
      linear_combination q6
    · show _ * (w P.2 * w P.2 + _) = w Q.2 * (w P.2 * w P.2 - _)
      linear_combination q7

theorem pointWitness_bind_rel {α : Type} (P : ℕ × ℕ) {f g : ZMod p × ZMod p → Build p α}
    (h : ∀ x y, Rel (f x) (g y)) : Rel (pointWitness P >>= f) (pointWitness P >>= g) := by
  unfold pointWitness
  simp only [build_bind_assoc, build_pure_bind]
  exact Rel.bind (checkPoint_rel _) fun _ => Rel.witness_bind fun _ _ => Rel.witness_bind fun _ _ => h _ _

theorem endomorphismCircuit_rel (f g : ZMod p × ZMod p → Except CErr (ZMod p × ZMod p)) (P : ℕ × ℕ) :
    Rel (endomorphismCircuit f P) (endomorphismCircuit g P) := by
  unfold endomorphismCircuit
  exact pointWitness_bind_rel _ fun _ _ => Rel.liftE_bind2 fun _ _ => Rel.bind (createPointVariable_rel _ _) fun _ =>
    Rel.bind (mul_rel _ _) fun _ => Rel.bind (genQuadPoly_rel _ _ _ _ _ _ _ _ _ _ _) fun _ =>
    Rel.bind (genQuadPoly_rel _ _ _ _ _ _ _ _ _ _ _) fun _ =>
    Rel.bind (genQuadPoly_rel _ _ _ _ _ _ _ _ _ _ _) fun _ => Rel.bind (mulGate_rel _ _ _) fun _ =>
    Rel.bind (mulGate_rel _ _ _) fun _ => Rel.pure _

/-! ## Scalar multiplication -/

/-- `glvMulOf` returning all variables -/
def glvFull (K : TE p) (f : ZMod p → Except CErr (Wit p)) (g : ZMod p × ZMod p → Except CErr (ZMod p × ZMod p))
    (s : ℕ) (base : ℕ × ℕ) : Build p ((ℕ × ℕ × ℕ × ℕ × ℕ × ℕ) × (ℕ × ℕ) × (ℕ × ℕ)) := do
  checkVar s
  checkPoint base
  let v ← scalarFull f s
  let endo ← endomorphismCircuit g base
  let S ← multiScalarMulCircuit K base v.1 endo v.2.1 v.2.2.1
  pure (v, endo, S)

theorem glvMulOf_eq (K : TE p) (f : ZMod p → Except CErr (Wit p))
    (g : ZMod p × ZMod p → Except CErr (ZMod p × ZMod p)) (s : ℕ) (base : ℕ × ℕ) :
    glvMulOf K f g s base = (glvFull K f g s base >>= fun v => pure v.2.2) := by
  unfold glvMulOf glvFull
  simp only [build_bind_assoc, build_pure_bind, scalarDecompositionGate_eq, build_bind_pure]

end Verif.Circuit.Glv
