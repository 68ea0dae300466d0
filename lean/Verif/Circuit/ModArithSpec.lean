import Verif.Circuit.ModArith
import Verif.Circuit.EmulatedFns

/-! # Specifications of the gadgets of `mod_arith.rs`: the builder level -/

set_option linter.unusedSectionVars false

namespace Verif.Circuit

variable {p : ℕ} {α β : Type}

theorem Spec.create_bind {x : ZMod p} {f : ℕ → Build p β} {c : Circ p} {C : Prop}
    {B : β → Circ p → Prop} {R : β → (ℕ → ZMod p) → Prop} (hc : WF c)
    (h : ∀ v c1, Ext c c1 → v < c1.numVars → c1.val v = x → Spec (f v) c1 C B R) :
    Spec (createVariable x >>= f) c C B R := by
  refine Spec.bind (createVariable_spec hc x C) (fun h _ _ => h) hc ?_
  rintro v c1 e1 ⟨h1, h2⟩
  exact Spec.conseq e1.wf (h v c1 e1 h1 h2) (fun h _ _ => h.1) (fun _ _ _ h => h) (fun _ _ _ _ h _ => h)

theorem Spec.range_bind [Fact p.Prime] {a n : ℕ} {f : Unit → Build p β} {c : Circ p} {C : Prop}
    {B : β → Circ p → Prop} {R : β → (ℕ → ZMod p) → Prop} (hc : WF c) (hr : RangeOK c)
    (hC : C → c.ultra.isSome = true ∧ a < c.numVars ∧ 0 < n ∧ (c.val a).val < 2 ^ n)
    (h : ∀ c1, Ext c c1 → Spec (f ()) c1 C B (fun u w => (w a).val < 2 ^ n → R u w)) :
    Spec (rangeGateWithLookup a n >>= f) c C B R := by
  refine Spec.bind (rangeGateWithLookup_spec hc hr a n) (fun h _ _ => hC h) hc ?_
  rintro _ c1 e1 -
  refine Spec.conseq e1.wf (h c1 e1) (fun h _ _ => h.1) (fun _ _ _ h => h) ?_
  rintro u w _ _ h ⟨N, h1, h2⟩
  exact h (val_lt_of_natCast h1 h2)

theorem five_mem {c : Circ p} {a0 a1 a2 a3 a4 : ℕ} (h0 : a0 < c.numVars) (h1 : a1 < c.numVars)
    (h2 : a2 < c.numVars) (h3 : a3 < c.numVars) (h4 : a4 < c.numVars) :
    ∀ v ∈ [a0, a1, a2, a3, a4], v < c.numVars := by
  intro v hv
  simp only [List.mem_cons, List.not_mem_nil, or_false] at hv
  rcases hv with rfl | rfl | rfl | rfl | rfl <;> assumption

/-! ## Multiplication -/

/-- the variables of an element exist -/
def FpElemVar.In (x : FpElemVar p) (c : Circ p) : Prop := x.v0 < c.numVars ∧ x.v1 < c.numVars

theorem FpElemVar.In.ext {x : FpElemVar p} {c c' : Circ p} (h : x.In c) (e : Ext c c') : x.In c' :=
  ⟨e.lt h.1, e.lt h.2⟩

/-- range checks of the hints -/
structure MulHints.Ranges (h : MulHints p) (m k : ℕ) : Prop where
  w0 : h.w0.val < 2 ^ m
  w1 : h.w1.val < 2 ^ m
  z0 : h.z0.val < 2 ^ m
  z1 : h.z1.val < 2 ^ m
  c0 : h.c0.val < 2 ^ (m + k)
  c1 : h.c1.val < 2 ^ (m + k)

/-- the three equations -/
structure MulHints.Eqs (h : MulHints p) (q : FpElem p) (x0 x1 y0 y1 : ZMod p) : Prop where
  e3 : h.z0 = x0 * y0 - q.p0 * h.w0 + q.tpm * h.c0 - q.tpm * q.tpm
  e4 : h.z1 = x0 * y1 + x1 * y0 - (q.p0 * h.w1 + q.p1 * h.w0) - h.c0 + q.tpm * h.c1 + q.tpm
    - 2 * (q.tpm * q.tpm)
  e5 : h.c1 = x1 * y1 - q.p1 * h.w1 + 2 * q.tpm

/-- the values of the six hint variables -/
def hintsOf (w : ℕ → ZMod p) (v : ℕ × ℕ × ℕ × ℕ × ℕ × ℕ) : MulHints p :=
  ⟨w v.1, w v.2.1, w v.2.2.1, w v.2.2.2.1, w v.2.2.2.2.1, w v.2.2.2.2.2⟩

/-- six variables exist -/
def In6 (v : ℕ × ℕ × ℕ × ℕ × ℕ × ℕ) (c : Circ p) : Prop :=
  v.1 < c.numVars ∧ v.2.1 < c.numVars ∧ v.2.2.1 < c.numVars ∧ v.2.2.2.1 < c.numVars ∧
    v.2.2.2.2.1 < c.numVars ∧ v.2.2.2.2.2 < c.numVars

theorem hintsOf_ext {v : ℕ × ℕ × ℕ × ℕ × ℕ × ℕ} {c c' : Circ p} (h : In6 v c) (e : Ext c c') :
    hintsOf c'.val v = hintsOf c.val v := by
  obtain ⟨h1, h2, h3, h4, h5, h6⟩ := h
  simp only [hintsOf, e.val _ h1, e.val _ h2, e.val _ h3, e.val _ h4, e.val _ h5, e.val _ h6]

theorem In6.ext {v : ℕ × ℕ × ℕ × ℕ × ℕ × ℕ} {c c' : Circ p} (h : In6 v c) (e : Ext c c') : In6 v c' := by
  obtain ⟨h1, h2, h3, h4, h5, h6⟩ := h
  exact ⟨e.lt h1, e.lt h2, e.lt h3, e.lt h4, e.lt h5, e.lt h6⟩

theorem mulVars_spec [Fact p.Prime] {c : Circ p} (hc : WF c) (hr : RangeOK c) (m k : ℕ) (h : MulHints p) :
    Spec (mulVars m k h) c (c.ultra.isSome = true ∧ 0 < m ∧ h.Ranges m k)
      (fun v c' => In6 v c' ∧ hintsOf c'.val v = h)
      (fun v w => (hintsOf w v).Ranges m k) := by
  unfold mulVars
  refine Spec.create_bind hc ?_
  intro w0 c1 e1 l1 v1
  refine Spec.create_bind e1.wf ?_
  intro w1 c2 e2 l2 v2
  refine Spec.create_bind e2.wf ?_
  intro z0 c3 e3 l3 v3
  refine Spec.create_bind e3.wf ?_
  intro z1 c4 e4 l4 v4
  refine Spec.create_bind e4.wf ?_
  intro y0 c5 e5 l5 v5
  refine Spec.create_bind e5.wf ?_
  intro y1 c6 e6 l6 v6
  have f1 := e2.trans (e3.trans (e4.trans (e5.trans e6)))
  have f2 := e3.trans (e4.trans (e5.trans e6))
  have f3 := e4.trans (e5.trans e6)
  have f4 := e5.trans e6
  have hin : In6 (w0, w1, z0, z1, y0, y1) c6 :=
    ⟨f1.lt l1, f2.lt l2, f3.lt l3, f4.lt l4, e6.lt l5, l6⟩
  have hv : hintsOf c6.val (w0, w1, z0, z1, y0, y1) = h := by
    simp only [hintsOf]
    rw [f1.val _ l1, f2.val _ l2, f3.val _ l3, f4.val _ l4, e6.val _ l5, v1, v2, v3, v4, v5, v6]
  have hu : c6.ultra = c.ultra := by
    rw [e6.ultra, e5.ultra, e4.ultra, e3.ultra, e2.ultra, e1.ultra]
  have hr6 : RangeOK c6 := (hr.ext e1).ext f1
  clear f1 f2 f3 f4 l1 l2 l3 l4 l5 l6 v1 v2 v3 v4 v5 v6
  refine Spec.range_bind e6.wf hr6 ?_ ?_
  · rintro ⟨g1, g2, g3⟩
    rw [← hv] at g3
    exact ⟨by rw [hu]; exact g1, hin.1, g2, g3.w0⟩
  intro c7 e7
  have hin7 := hin.ext e7
  have hv7 := (hintsOf_ext hin e7).trans hv
  refine Spec.range_bind e7.wf (hr6.ext e7) ?_ ?_
  · rintro ⟨g1, g2, g3⟩
    rw [← hv7] at g3
    exact ⟨by rw [e7.ultra, hu]; exact g1, hin7.2.1, g2, g3.w1⟩
  intro c8 e8
  have hin8 := hin7.ext e8
  have hv8 := (hintsOf_ext hin7 e8).trans hv7
  have hr8 := (hr6.ext e7).ext e8
  refine Spec.range_bind e8.wf hr8 ?_ ?_
  · rintro ⟨g1, g2, g3⟩
    rw [← hv8] at g3
    exact ⟨by rw [e8.ultra, e7.ultra, hu]; exact g1, hin8.2.2.1, g2, g3.z0⟩
  intro c9 e9
  have hin9 := hin8.ext e9
  have hv9 := (hintsOf_ext hin8 e9).trans hv8
  have hr9 := hr8.ext e9
  refine Spec.range_bind e9.wf hr9 ?_ ?_
  · rintro ⟨g1, g2, g3⟩
    rw [← hv9] at g3
    exact ⟨by rw [e9.ultra, e8.ultra, e7.ultra, hu]; exact g1, hin9.2.2.2.1, g2, g3.z1⟩
  intro c10 e10
  have hin10 := hin9.ext e10
  have hv10 := (hintsOf_ext hin9 e10).trans hv9
  have hr10 := hr9.ext e10
  refine Spec.range_bind e10.wf hr10 ?_ ?_
  · rintro ⟨g1, g2, g3⟩
    rw [← hv10] at g3
    exact ⟨by rw [e10.ultra, e9.ultra, e8.ultra, e7.ultra, hu]; exact g1, hin10.2.2.2.2.1, by omega, g3.c0⟩
  intro c11 e11
  have hin11 := hin10.ext e11
  have hv11 := (hintsOf_ext hin10 e11).trans hv10
  have hr11 := hr10.ext e11
  refine Spec.range_bind e11.wf hr11 ?_ ?_
  · rintro ⟨g1, g2, g3⟩
    rw [← hv11] at g3
    exact ⟨by rw [e11.ultra, e10.ultra, e9.ultra, e8.ultra, e7.ultra, hu]; exact g1, hin11.2.2.2.2.2,
      by omega, g3.c1⟩
  intro c12 e12
  refine Spec.pure e12.wf ⟨hin11.ext e12, (hintsOf_ext hin11 e12).trans hv11⟩ ?_
  intro w _ _ r6 r5 r4 r3 r2 r1
  exact ⟨r1, r2, r3, r4, r5, r6⟩

theorem modMulWith_spec [Fact p.Prime] {c : Circ p} (hc : WF c) (hr : RangeOK c) (x y : FpElemVar p)
    (q : FpElem p) (k : ℕ) (h : MulHints p) :
    Spec (modMulWith x y q k h) c
      (c.ultra.isSome = true ∧ x.In c ∧ y.In c ∧ 0 < q.m ∧ h.Ranges q.m k ∧
        h.Eqs q (c.val x.v0) (c.val x.v1) (c.val y.v0) (c.val y.v1))
      (fun v c' => v.In c' ∧ v.m = q.m ∧ v.tpm = q.tpm ∧ c'.val v.v0 = h.z0 ∧ c'.val v.v1 = h.z1)
      (fun v w => ∃ h' : MulHints p, h'.Ranges q.m k ∧
        h'.Eqs q (w x.v0) (w x.v1) (w y.v0) (w y.v1) ∧ w v.v0 = h'.z0 ∧ w v.v1 = h'.z1) := by
  unfold modMulWith
  refine Spec.bind (mulVars_spec hc hr q.m k h) (fun g _ _ => ⟨g.1, g.2.2.2.1, g.2.2.2.2.1⟩) hc ?_
  rintro ⟨w0, w1, z0, z1, c0, c1⟩ d1 e1 ⟨⟨i1, i2, i3, i4, i5, i6⟩, hv⟩
  simp only at i1 i2 i3 i4 i5 i6
  simp only [hintsOf] at hv
  subst hv
  refine Spec.bind (quadPolyGate_spec e1.wf _ _ _ _ _ _ _ _ _ _ _ _ _) ?_ e1.wf ?_
  · rintro ⟨⟨g1, gx, gy, g2, g3, g4⟩, -⟩ _ _
    refine ⟨five_mem (e1.lt gx.1) (e1.lt gy.1) i1 i5 i3, ?_⟩
    rw [e1.val _ gx.1, e1.val _ gy.1]
    have := g4.e3
    simp only at this
    rw [this]; ring
  intro _ d2 e2 _
  refine Spec.bind (mulAdd_spec e2.wf _ _ _ _ _ _) ?_ e2.wf ?_
  · rintro ⟨⟨⟨g1, gx, gy, g2, g3, g4⟩, -⟩, -⟩ _ _
    have e := e1.trans e2
    exact four_mem (e.lt gx.1) (e.lt gy.2) (e.lt gx.2) (e.lt gy.1)
  intro t1 d3 e3 ht1
  refine Spec.bind (lc_spec e3.wf _ _ _ _ _ _ _ _) ?_ e3.wf ?_
  · rintro - _ _
    have e := e2.trans e3
    exact four_mem (e.lt i2) (e.lt i1) e3.wf.z e3.wf.z
  intro t2 d4 e4 ht2
  have f1 := e2.trans (e3.trans e4)
  refine Spec.bind (quadPolyGate_spec e4.wf _ _ _ _ _ _ _ _ _ _ _ _ _) ?_ e4.wf ?_
  · rintro ⟨⟨⟨⟨⟨g1, gx, gy, g2, g3, g4⟩, -⟩, -⟩, ht⟩, ht'⟩ h0 _
    refine ⟨five_mem (e4.lt ht1) ht2 (f1.lt i5) (f1.lt i6) (f1.lt i4), ?_⟩
    have e := e1.trans (e2.trans e3)
    rw [e4.val _ ht1, ht, ht', h0, f1.val _ i5, f1.val _ i6, f1.val _ i4, e.val _ gx.1, e.val _ gx.2,
      e.val _ gy.1, e.val _ gy.2, f1.val _ i1, f1.val _ i2]
    have := g4.e4
    simp only at this
    rw [this]; ring
  intro _ d5 e5 _
  have f2 := f1.trans e5
  refine Spec.bind (quadPolyGate_spec e5.wf _ _ _ _ _ _ _ _ _ _ _ _ _) ?_ e5.wf ?_
  · rintro ⟨⟨⟨⟨⟨⟨g1, gx, gy, g2, g3, g4⟩, -⟩, -⟩, -⟩, -⟩, -⟩ h0 _
    have e := e1.trans f2
    refine ⟨five_mem (e.lt gx.2) (e.lt gy.2) (f2.lt i2) e5.wf.z (f2.lt i6), ?_⟩
    rw [e.val _ gx.2, e.val _ gy.2, f2.val _ i2, f2.val _ i6]
    have := g4.e5
    simp only at this
    rw [this]; ring
  intro _ d6 e6 _
  have f3 := f2.trans e6
  refine Spec.pure e6.wf ⟨⟨f3.lt i3, f3.lt i4⟩, rfl, rfl, f3.val _ i3, f3.val _ i4⟩ ?_
  intro w h0 _ q5 q4 r2 r1 q3 hrg
  refine ⟨_, hrg, ⟨?_, ?_, ?_⟩, rfl, rfl⟩
  · simp only [hintsOf]
    linear_combination q3
  · simp only [hintsOf]
    rw [r1, r2, h0] at q4
    linear_combination q4
  · simp only [hintsOf]
    linear_combination q5

theorem modMulConstWith_spec [Fact p.Prime] {c : Circ p} (hc : WF c) (hr : RangeOK c) (x : FpElemVar p)
    (y q : FpElem p) (k : ℕ) (h : MulHints p) :
    Spec (modMulConstWith x y q k h) c
      (c.ultra.isSome = true ∧ x.In c ∧ 0 < q.m ∧ h.Ranges q.m k ∧
        h.Eqs q (c.val x.v0) (c.val x.v1) y.p0 y.p1)
      (fun v c' => v.In c' ∧ v.m = q.m ∧ v.tpm = q.tpm ∧ c'.val v.v0 = h.z0 ∧ c'.val v.v1 = h.z1)
      (fun v w => ∃ h' : MulHints p, h'.Ranges q.m k ∧
        h'.Eqs q (w x.v0) (w x.v1) y.p0 y.p1 ∧ w v.v0 = h'.z0 ∧ w v.v1 = h'.z1) := by
  unfold modMulConstWith
  refine Spec.bind (mulVars_spec hc hr q.m k h) (fun g _ _ => ⟨g.1, g.2.2.1, g.2.2.2.1⟩) hc ?_
  rintro ⟨w0, w1, z0, z1, c0, c1⟩ d1 e1 ⟨⟨i1, i2, i3, i4, i5, i6⟩, hv⟩
  simp only at i1 i2 i3 i4 i5 i6
  simp only [hintsOf] at hv
  subst hv
  refine Spec.bind (quadPolyGate_spec e1.wf _ _ _ _ _ _ _ _ _ _ _ _ _) ?_ e1.wf ?_
  · rintro ⟨⟨g1, gx, g2, g3, g4⟩, -⟩ _ _
    refine ⟨five_mem (e1.lt gx.1) i1 i5 i3 e1.wf.z, ?_⟩
    rw [e1.val _ gx.1]
    have := g4.e3
    simp only at this
    rw [this]; ring
  intro _ d2 e2 _
  refine Spec.bind (lc_spec e2.wf _ _ _ _ _ _ _ _) ?_ e2.wf ?_
  · rintro ⟨⟨⟨g1, gx, g2, g3, g4⟩, -⟩, -⟩ _ _
    have e := e1.trans e2
    exact four_mem (e.lt gx.1) (e.lt gx.2) (e2.lt i2) (e2.lt i1)
  intro t1 d3 e3 ht1
  have f1 := e2.trans e3
  refine Spec.bind (quadPolyGate_spec e3.wf _ _ _ _ _ _ _ _ _ _ _ _ _) ?_ e3.wf ?_
  · rintro ⟨⟨⟨⟨g1, gx, g2, g3, g4⟩, -⟩, -⟩, ht⟩ h0 _
    refine ⟨five_mem ht1 (f1.lt i4) (f1.lt i5) (f1.lt i6) e3.wf.z, ?_⟩
    have e := e1.trans f1
    rw [ht, f1.val _ i5, f1.val _ i6, f1.val _ i4, e.val _ gx.1, e.val _ gx.2, f1.val _ i1, f1.val _ i2]
    have := g4.e4
    simp only at this
    rw [this]; ring
  intro _ d5 e5 _
  have f2 := f1.trans e5
  refine Spec.bind (quadPolyGate_spec e5.wf _ _ _ _ _ _ _ _ _ _ _ _ _) ?_ e5.wf ?_
  · rintro ⟨⟨⟨⟨⟨g1, gx, g2, g3, g4⟩, -⟩, -⟩, -⟩, -⟩ h0 _
    have e := e1.trans f2
    refine ⟨five_mem (e.lt gx.2) (f2.lt i2) (f2.lt i6) e5.wf.z e5.wf.z, ?_⟩
    rw [e.val _ gx.2, f2.val _ i2, f2.val _ i6]
    have := g4.e5
    simp only at this
    rw [this]; ring
  intro _ d6 e6 _
  have f3 := f2.trans e6
  refine Spec.pure e6.wf ⟨⟨f3.lt i3, f3.lt i4⟩, rfl, rfl, f3.val _ i3, f3.val _ i4⟩ ?_
  intro w h0 _ q5 q4 r1 q3 hrg
  refine ⟨_, hrg, ⟨?_, ?_, ?_⟩, rfl, rfl⟩
  · simp only [hintsOf]
    linear_combination q3
  · simp only [hintsOf]
    rw [r1] at q4
    linear_combination q4
  · simp only [hintsOf]
    linear_combination q5

end Verif.Circuit
