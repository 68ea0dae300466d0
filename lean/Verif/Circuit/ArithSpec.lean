import Verif.Circuit.Spec
import Verif.Circuit.Gadgets
import Mathlib.Tactic.FieldSimp
import Mathlib.Algebra.BigOperators.Group.List.Basic
import Mathlib.Tactic.IntervalCases

/-!
# Specifications of the arithmetic and logic gadgets
-/

namespace Verif.Circuit

variable {p : ℕ} {α β : Type}

theorem WF.z {c : Circ p} (h : WF c) : 0 < c.numVars := by have := h.two; omega
theorem WF.o {c : Circ p} (h : WF c) : 1 < c.numVars := by have := h.two; omega

/-! ## single gates -/

theorem enforceConstant_spec {c : Circ p} (hc : WF c) (v : ℕ) (x : ZMod p) :
    Spec (enforceConstant v x) c (v < c.numVars ∧ c.val v = x) (fun _ _ => True)
      (fun _ w => w v = x) := by
  unfold enforceConstant
  apply Spec.checkVar_bind (fun h => h.1)
  intro hv
  refine Spec.conseq hc (insertGate_spec hc rfl rfl ⟨hc.z, hc.z, hc.z, hc.z, hv⟩) ?_
    (fun _ _ _ h => h) ?_
  · rintro ⟨_, h⟩ - -
    simp [Sel.output, constantGate, h]
  · intro _ w _ _ h
    simp [Sel.output, constantGate] at h
    exact h.symm

theorem createConstantVariable_spec {c : Circ p} (hc : WF c) (x : ZMod p) :
    Spec (createConstantVariable x) c True (fun v c' => v < c'.numVars) (fun v w => w v = x) := by
  unfold createConstantVariable
  refine Spec.bind (createVariable_spec hc x True) (fun _ _ _ => trivial) hc ?_
  rintro v c1 e1 ⟨hv, hx⟩
  refine Spec.bind (enforceConstant_spec e1.wf v x) (fun _ _ _ => ⟨hv, hx⟩) e1.wf ?_
  rintro _ c2 e2 -
  exact Spec.pure e2.wf (e2.lt hv) (fun w _ _ h _ => h)

theorem enforceBool_spec [Fact p.Prime] {c : Circ p} (hc : WF c) (a : ℕ) :
    Spec (enforceBool a) c (a < c.numVars ∧ (c.val a = 0 ∨ c.val a = 1)) (fun _ _ => True)
      (fun _ w => w a = 0 ∨ w a = 1) := by
  unfold enforceBool
  apply Spec.checkVar_bind (fun h => h.1)
  intro hv
  refine Spec.conseq hc (insertGate_spec hc rfl rfl ⟨hv, hv, hc.z, hc.z, hv⟩) ?_
    (fun _ _ _ h => h) ?_
  · rintro ⟨_, h | h⟩ - - <;> simp [Sel.output, boolGate, h]
  · intro _ w _ _ h
    simp [Sel.output, boolGate] at h
    have : w a * (w a - 1) = 0 := by linear_combination h
    rcases mul_eq_zero.1 this with h | h
    · exact Or.inl h
    · right; linear_combination h

theorem boolF_cases (b : Bool) : (boolF b : ZMod p) = 0 ∨ (boolF b : ZMod p) = 1 := by
  cases b <;> simp [boolF]

theorem createBooleanVariable_spec [Fact p.Prime] {c : Circ p} (hc : WF c) (b : Bool) :
    Spec (createBooleanVariable b) c True (fun v c' => v < c'.numVars ∧ c'.val v = boolF b)
      (fun v w => w v = 0 ∨ w v = 1) := by
  unfold createBooleanVariable
  refine Spec.bind (createVariable_spec hc _ True) (fun _ _ _ => trivial) hc ?_
  rintro v c1 e1 ⟨hv, hx⟩
  refine Spec.bind (enforceBool_spec e1.wf v)
    (fun _ _ _ => ⟨hv, by rw [hx]; exact boolF_cases b⟩) e1.wf ?_
  rintro _ c2 e2 -
  exact Spec.pure e2.wf ⟨e2.lt hv, by rw [e2.val v hv, hx]⟩ (fun w _ _ h _ => h)

theorem enforceEqual_spec {c : Circ p} (hc : WF c) (a b : ℕ) :
    Spec (enforceEqual a b) c ((a < c.numVars ∧ b < c.numVars) ∧ c.val a = c.val b)
      (fun _ _ => True) (fun _ w => w a = w b) := by
  unfold enforceEqual
  apply Spec.checkVar_bind (fun h => h.1.1)
  intro ha
  apply Spec.checkVar_bind (fun h => h.1.2)
  intro hb
  refine Spec.conseq hc (insertGate_spec hc rfl rfl ⟨ha, hb, hc.z, hc.z, hc.z⟩) ?_
    (fun _ _ _ h => h) ?_
  · rintro ⟨_, h⟩ h0 -
    simp [Sel.output, equalityGate, h, h0]
  · intro _ w h0 _ h
    simp [Sel.output, equalityGate, h0] at h
    linear_combination h

theorem addGate_spec {c : Circ p} (hc : WF c) (a b y : ℕ) :
    Spec (addGate a b y) c
      ((a < c.numVars ∧ b < c.numVars ∧ y < c.numVars) ∧ c.val y = c.val a + c.val b)
      (fun _ _ => True) (fun _ w => w y = w a + w b) := by
  unfold addGate
  apply Spec.checkVar_bind (fun h => h.1.1)
  intro ha
  apply Spec.checkVar_bind (fun h => h.1.2.1)
  intro hb
  apply Spec.checkVar_bind (fun h => h.1.2.2)
  intro hy
  refine Spec.conseq hc (insertGate_spec hc rfl rfl ⟨ha, hb, hc.z, hc.z, hy⟩) ?_
    (fun _ _ _ h => h) ?_
  · rintro ⟨_, h⟩ - -
    simp [Sel.output, additionGate, h]
  · intro _ w _ _ h
    simp [Sel.output, additionGate] at h
    exact h.symm

theorem subGate_spec {c : Circ p} (hc : WF c) (a b y : ℕ) :
    Spec (subGate a b y) c
      ((a < c.numVars ∧ b < c.numVars ∧ y < c.numVars) ∧ c.val y = c.val a - c.val b)
      (fun _ _ => True) (fun _ w => w y = w a - w b) := by
  unfold subGate
  apply Spec.checkVar_bind (fun h => h.1.1)
  intro ha
  apply Spec.checkVar_bind (fun h => h.1.2.1)
  intro hb
  apply Spec.checkVar_bind (fun h => h.1.2.2)
  intro hy
  refine Spec.conseq hc (insertGate_spec hc rfl rfl ⟨ha, hb, hc.z, hc.z, hy⟩) ?_
    (fun _ _ _ h => h) ?_
  · rintro ⟨_, h⟩ - -
    simp [Sel.output, subtractionGate, h]; ring
  · intro _ w _ _ h
    simp [Sel.output, subtractionGate] at h
    linear_combination -h

theorem mulGate_spec {c : Circ p} (hc : WF c) (a b y : ℕ) :
    Spec (mulGate a b y) c
      ((a < c.numVars ∧ b < c.numVars ∧ y < c.numVars) ∧ c.val y = c.val a * c.val b)
      (fun _ _ => True) (fun _ w => w y = w a * w b) := by
  unfold mulGate
  apply Spec.checkVar_bind (fun h => h.1.1)
  intro ha
  apply Spec.checkVar_bind (fun h => h.1.2.1)
  intro hb
  apply Spec.checkVar_bind (fun h => h.1.2.2)
  intro hy
  refine Spec.conseq hc (insertGate_spec hc rfl rfl ⟨ha, hb, hc.z, hc.z, hy⟩) ?_
    (fun _ _ _ h => h) ?_
  · rintro ⟨_, h⟩ - -
    simp [Sel.output, multiplicationGate, h]
  · intro _ w _ _ h
    simp [Sel.output, multiplicationGate] at h
    exact h.symm

theorem add_spec {c : Circ p} (hc : WF c) (a b : ℕ) :
    Spec (add a b) c (a < c.numVars ∧ b < c.numVars) (fun v c' => v < c'.numVars)
      (fun v w => w v = w a + w b) := by
  unfold add
  apply Spec.checkVar_bind (fun h => h.1); intro ha
  apply Spec.checkVar_bind (fun h => h.2); intro hb
  apply Spec.witness_bind (fun h => h.1); intro _
  apply Spec.witness_bind (fun h => h.2); intro _
  refine Spec.bind (createVariable_spec hc _ True) (fun _ _ _ => trivial) hc ?_
  rintro v c1 e1 ⟨hv, hx⟩
  refine Spec.bind (addGate_spec e1.wf a b v)
    (fun _ _ _ => ⟨⟨e1.lt ha, e1.lt hb, hv⟩, by rw [hx, e1.val a ha, e1.val b hb]⟩) e1.wf ?_
  rintro _ c2 e2 -
  exact Spec.pure e2.wf (e2.lt hv) (fun w _ _ h _ => h)

theorem sub_spec {c : Circ p} (hc : WF c) (a b : ℕ) :
    Spec (sub a b) c (a < c.numVars ∧ b < c.numVars) (fun v c' => v < c'.numVars)
      (fun v w => w v = w a - w b) := by
  unfold sub
  apply Spec.checkVar_bind (fun h => h.1); intro ha
  apply Spec.checkVar_bind (fun h => h.2); intro hb
  apply Spec.witness_bind (fun h => h.1); intro _
  apply Spec.witness_bind (fun h => h.2); intro _
  refine Spec.bind (createVariable_spec hc _ True) (fun _ _ _ => trivial) hc ?_
  rintro v c1 e1 ⟨hv, hx⟩
  refine Spec.bind (subGate_spec e1.wf a b v)
    (fun _ _ _ => ⟨⟨e1.lt ha, e1.lt hb, hv⟩, by rw [hx, e1.val a ha, e1.val b hb]⟩) e1.wf ?_
  rintro _ c2 e2 -
  exact Spec.pure e2.wf (e2.lt hv) (fun w _ _ h _ => h)

theorem mul_spec {c : Circ p} (hc : WF c) (a b : ℕ) :
    Spec (mul a b) c (a < c.numVars ∧ b < c.numVars) (fun v c' => v < c'.numVars)
      (fun v w => w v = w a * w b) := by
  unfold mul
  apply Spec.checkVar_bind (fun h => h.1); intro ha
  apply Spec.checkVar_bind (fun h => h.2); intro hb
  apply Spec.witness_bind (fun h => h.1); intro _
  apply Spec.witness_bind (fun h => h.2); intro _
  refine Spec.bind (createVariable_spec hc _ True) (fun _ _ _ => trivial) hc ?_
  rintro v c1 e1 ⟨hv, hx⟩
  refine Spec.bind (mulGate_spec e1.wf a b v)
    (fun _ _ _ => ⟨⟨e1.lt ha, e1.lt hb, hv⟩, by rw [hx, e1.val a ha, e1.val b hb]⟩) e1.wf ?_
  rintro _ c2 e2 -
  exact Spec.pure e2.wf (e2.lt hv) (fun w _ _ h _ => h)

/-! ## gadgets/arithmetic.rs -/

theorem quadPolyGate_spec {c : Circ p} (hc : WF c) (a0 a1 a2 a3 y : ℕ)
    (q0 q1 q2 q3 m0 m1 o k : ZMod p) :
    Spec (quadPolyGateB a0 a1 a2 a3 y q0 q1 q2 q3 m0 m1 o k) c
      ((∀ v ∈ [a0, a1, a2, a3, y], v < c.numVars) ∧
        o * c.val y = q0 * c.val a0 + q1 * c.val a1 + q2 * c.val a2 + q3 * c.val a3
          + m0 * c.val a0 * c.val a1 + m1 * c.val a2 * c.val a3 + k)
      (fun _ _ => True)
      (fun _ w => o * w y = q0 * w a0 + q1 * w a1 + q2 * w a2 + q3 * w a3
          + m0 * w a0 * w a1 + m1 * w a2 * w a3 + k) := by
  unfold quadPolyGateB
  apply Spec.checkVars_bind (fun h => h.1)
  intro hv
  simp only [List.mem_cons, List.not_mem_nil, or_false, forall_eq_or_imp, forall_eq] at hv
  refine Spec.conseq hc (insertGate_spec hc rfl rfl hv) ?_ (fun _ _ _ h => h) ?_
  · rintro ⟨_, h⟩ - -
    simp [Sel.output, quadPolyGate, h]
  · intro _ w _ _ h
    simp [Sel.output, quadPolyGate] at h
    linear_combination -h

theorem genQuadPoly_spec {c : Circ p} (hc : WF c) (a0 a1 a2 a3 : ℕ)
    (q0 q1 q2 q3 m0 m1 k : ZMod p) :
    Spec (genQuadPoly a0 a1 a2 a3 q0 q1 q2 q3 m0 m1 k) c
      (∀ v ∈ [a0, a1, a2, a3], v < c.numVars) (fun v c' => v < c'.numVars)
      (fun v w => w v = q0 * w a0 + q1 * w a1 + q2 * w a2 + q3 * w a3
          + m0 * w a0 * w a1 + m1 * w a2 * w a3 + k) := by
  unfold genQuadPoly
  apply Spec.checkVars_bind (fun h => h)
  intro hv
  have hv' := hv
  simp only [List.mem_cons, List.not_mem_nil, or_false, forall_eq_or_imp, forall_eq] at hv
  obtain ⟨h0, h1, h2, h3⟩ := hv
  apply Spec.witness_bind (fun _ => h0); intro _
  apply Spec.witness_bind (fun _ => h1); intro _
  apply Spec.witness_bind (fun _ => h2); intro _
  apply Spec.witness_bind (fun _ => h3); intro _
  refine Spec.bind (createVariable_spec hc _ True) (fun _ _ _ => trivial) hc ?_
  rintro v c1 e1 ⟨hv, hx⟩
  refine Spec.bind (insertGate_spec e1.wf rfl rfl ⟨e1.lt h0, e1.lt h1, e1.lt h2, e1.lt h3, hv⟩)
    ?_ e1.wf ?_
  · intro _ _ _
    simp [Sel.output, quadPolyGate, hx, e1.val _ h0, e1.val _ h1, e1.val _ h2, e1.val _ h3]
  rintro _ c2 e2 -
  refine Spec.pure e2.wf (e2.lt hv) ?_
  intro w _ _ h _
  simp [Sel.output, quadPolyGate] at h
  linear_combination -h

theorem lcGate_spec {c : Circ p} (hc : WF c) (a0 a1 a2 a3 y : ℕ) (q0 q1 q2 q3 : ZMod p) :
    Spec (lcGate a0 a1 a2 a3 y q0 q1 q2 q3) c
      ((∀ v ∈ [a0, a1, a2, a3, y], v < c.numVars) ∧
        c.val y = q0 * c.val a0 + q1 * c.val a1 + q2 * c.val a2 + q3 * c.val a3)
      (fun _ _ => True)
      (fun _ w => w y = q0 * w a0 + q1 * w a1 + q2 * w a2 + q3 * w a3) := by
  unfold lcGate
  apply Spec.checkVars_bind (fun h => h.1)
  intro hv
  simp only [List.mem_cons, List.not_mem_nil, or_false, forall_eq_or_imp, forall_eq] at hv
  refine Spec.conseq hc (insertGate_spec hc rfl rfl hv) ?_ (fun _ _ _ h => h) ?_
  · rintro ⟨_, h⟩ - -
    simp [Sel.output, linCombGate, h]
  · intro _ w _ _ h
    simp [Sel.output, linCombGate] at h
    linear_combination -h

theorem lc_spec {c : Circ p} (hc : WF c) (a0 a1 a2 a3 : ℕ) (q0 q1 q2 q3 : ZMod p) :
    Spec (lc a0 a1 a2 a3 q0 q1 q2 q3) c
      (∀ v ∈ [a0, a1, a2, a3], v < c.numVars) (fun v c' => v < c'.numVars)
      (fun v w => w v = q0 * w a0 + q1 * w a1 + q2 * w a2 + q3 * w a3) := by
  unfold lc
  apply Spec.checkVars_bind (fun h => h)
  intro hv
  simp only [List.mem_cons, List.not_mem_nil, or_false, forall_eq_or_imp, forall_eq] at hv
  obtain ⟨h0, h1, h2, h3⟩ := hv
  apply Spec.witness_bind (fun _ => h0); intro _
  apply Spec.witness_bind (fun _ => h1); intro _
  apply Spec.witness_bind (fun _ => h2); intro _
  apply Spec.witness_bind (fun _ => h3); intro _
  refine Spec.bind (createVariable_spec hc _ True) (fun _ _ _ => trivial) hc ?_
  rintro v c1 e1 ⟨hv, hx⟩
  refine Spec.bind (lcGate_spec e1.wf a0 a1 a2 a3 v q0 q1 q2 q3) ?_ e1.wf ?_
  · intro _ _ _
    refine ⟨?_, ?_⟩
    · simp [e1.lt h0, e1.lt h1, e1.lt h2, e1.lt h3, hv]
    · rw [hx, e1.val _ h0, e1.val _ h1, e1.val _ h2, e1.val _ h3]; ring
  rintro _ c2 e2 -
  exact Spec.pure e2.wf (e2.lt hv) (fun w _ _ h _ => h)

theorem mulAddGate_spec {c : Circ p} (hc : WF c) (a0 a1 a2 a3 y : ℕ) (m0 m1 : ZMod p) :
    Spec (mulAddGate a0 a1 a2 a3 y m0 m1) c
      ((∀ v ∈ [a0, a1, a2, a3, y], v < c.numVars) ∧
        c.val y = m0 * c.val a0 * c.val a1 + m1 * c.val a2 * c.val a3)
      (fun _ _ => True)
      (fun _ w => w y = m0 * w a0 * w a1 + m1 * w a2 * w a3) := by
  unfold mulAddGate
  apply Spec.checkVars_bind (fun h => h.1)
  intro hv
  simp only [List.mem_cons, List.not_mem_nil, or_false, forall_eq_or_imp, forall_eq] at hv
  refine Spec.conseq hc (insertGate_spec hc rfl rfl hv) ?_ (fun _ _ _ h => h) ?_
  · rintro ⟨_, h⟩ - -
    simp [Sel.output, mulAddGateSel, h]
  · intro _ w _ _ h
    simp [Sel.output, mulAddGateSel] at h
    linear_combination -h

theorem mulAdd_spec {c : Circ p} (hc : WF c) (a0 a1 a2 a3 : ℕ) (m0 m1 : ZMod p) :
    Spec (mulAdd a0 a1 a2 a3 m0 m1) c
      (∀ v ∈ [a0, a1, a2, a3], v < c.numVars) (fun v c' => v < c'.numVars)
      (fun v w => w v = m0 * w a0 * w a1 + m1 * w a2 * w a3) := by
  unfold mulAdd
  apply Spec.checkVars_bind (fun h => h)
  intro hv
  simp only [List.mem_cons, List.not_mem_nil, or_false, forall_eq_or_imp, forall_eq] at hv
  obtain ⟨h0, h1, h2, h3⟩ := hv
  apply Spec.witness_bind (fun _ => h0); intro _
  apply Spec.witness_bind (fun _ => h1); intro _
  apply Spec.witness_bind (fun _ => h2); intro _
  apply Spec.witness_bind (fun _ => h3); intro _
  refine Spec.bind (createVariable_spec hc _ True) (fun _ _ _ => trivial) hc ?_
  rintro v c1 e1 ⟨hv, hx⟩
  refine Spec.bind (mulAddGate_spec e1.wf a0 a1 a2 a3 v m0 m1) ?_ e1.wf ?_
  · intro _ _ _
    refine ⟨?_, ?_⟩
    · simp [e1.lt h0, e1.lt h1, e1.lt h2, e1.lt h3, hv]
    · rw [hx, e1.val _ h0, e1.val _ h1, e1.val _ h2, e1.val _ h3]
  rintro _ c2 e2 -
  exact Spec.pure e2.wf (e2.lt hv) (fun w _ _ h _ => h)

/-! ### sum -/

theorem Spec.witnesses_bind {vs : List ℕ} {f : List (ZMod p) → Build p β} {c : Circ p} {C : Prop}
    {B : β → Circ p → Prop} {R : β → (ℕ → ZMod p) → Prop}
    (hC : C → ∀ v ∈ vs, v < c.numVars)
    (h : (∀ v ∈ vs, v < c.numVars) → Spec (f (vs.map c.val)) c C B R) :
    Spec (witnesses vs >>= f) c C B R := by
  have key : ∀ vs : List ℕ, (∀ v ∈ vs, v < c.numVars) →
      (witnesses vs : Build p _) c = .ok (vs.map c.val, c) := by
    intro vs
    induction vs with
    | nil => intro _; rfl
    | cons v vs ih =>
      intro hv
      have h1 : (witness v : Build p _) c = .ok (c.val v, c) := by
        unfold witness; rw [if_neg]; have := hv v (by simp); omega
      unfold witnesses
      rw [bind_of_ok h1, bind_of_ok (ih (fun x hx => hv x (by simp [hx])))]
      rfl
  have key2 : ∀ (vs : List ℕ) u c', (witnesses vs : Build p _) c = .ok (u, c') →
      ∀ v ∈ vs, v < c.numVars := by
    intro vs
    induction vs with
    | nil => intro _ _ _ v hv; simp at hv
    | cons v vs ih =>
      intro u c' hu
      unfold witnesses at hu
      obtain ⟨x, c1, h1, h2⟩ := bind_ok hu
      unfold witness at h1
      split at h1
      · cases h1
      · cases h1
        obtain ⟨y, c2, h3, _⟩ := bind_ok h2
        intro z hz
        rcases List.mem_cons.1 hz with rfl | hz
        · omega
        · exact ih y c2 h3 z hz
  constructor
  · intro u c' hu
    obtain ⟨u1, c1, h1, h2⟩ := bind_ok hu
    have hv := key2 vs u1 c1 h1
    rw [key vs hv] at h1
    cases h1
    exact (h hv).sound u c' h2
  · intro hCC pi hs
    rw [bind_of_ok (key vs (hC hCC))]
    exact (h (hC hCC)).complete hCC pi hs

theorem Spec.liftE_bind {x : Except CErr α} {f : α → Build p β} {c : Circ p} {C : Prop}
    {B : β → Circ p → Prop} {R : β → (ℕ → ZMod p) → Prop} {v : α} (hx : x = .ok v)
    (h : Spec (f v) c C B R) : Spec (liftE x >>= f) c C B R := by
  have : (liftE x : Build p α) c = .ok (v, c) := by rw [hx]; rfl
  exact ⟨fun u c' hu => h.sound u c' (by rwa [bind_of_ok this] at hu),
    fun hC pi hs => by rw [bind_of_ok this]; exact h.complete hC pi hs⟩

theorem nextMultiple_three (n : ℕ) : ∃ m, nextMultiple n 3 = .ok (3 * m) ∧ 1 ≤ m ∧ n ≤ 3 * m := by
  unfold nextMultiple
  rw [if_neg (by omega)]
  by_cases h1 : n = 3
  · exact ⟨1, by simp [h1], le_refl _, by omega⟩
  · rw [if_neg h1]
    by_cases h2 : n < 3
    · exact ⟨1, by simp [h2], le_refl _, by omega⟩
    · rw [if_neg h2]
      exact ⟨n / 3 + 1, by rw [mul_comm], by omega, by omega⟩

theorem getD_lt {c : Circ p} (hc : WF c) {l : List ℕ} (h : ∀ v ∈ l, v < c.numVars) (i : ℕ) :
    l.getD i 0 < c.numVars := by
  rw [List.getD_eq_getElem?_getD]
  rcases hi : l[i]? with _ | v
  · exact hc.z
  · exact h v (List.mem_of_getElem? hi)

/-- partial sums of a list of values -/
theorem sumLoop_spec (padded : List ℕ) (n : ℕ) : ∀ (i acc : ℕ) {c : Circ p} (_ : WF c),
    (∀ v ∈ padded, v < c.numVars) → acc < c.numVars → 1 ≤ i →
    Spec (sumLoop padded n i acc) c True (fun v c' => v < c'.numVars)
      (fun v w => w v = w acc + ((List.range (3 * n)).map
        (fun j => w (padded.getD (3 * i - 2 + j) 0))).sum) := by
  induction n with
  | zero =>
    intro i acc c hc hp ha _
    unfold sumLoop
    exact Spec.pure hc ha (fun w _ _ => by simp)
  | succ n ih =>
    intro i acc c hc hp ha hi
    unfold sumLoop
    refine Spec.bind (lc_spec hc acc _ _ _ 1 1 1 1) ?_ hc ?_
    · intro _ _ _
      simp [ha, getD_lt hc hp, -List.getD_eq_getElem?_getD]
    rintro v c1 e1 hv
    refine Spec.conseq e1.wf
      (ih (i + 1) v e1.wf (fun x hx => e1.lt (hp x hx)) hv (by omega)) (fun _ _ _ => trivial)
      (fun _ _ _ h => h) ?_
    intro u w _ _ h1 h2
    rw [h1, h2]
    have : 3 * (n + 1) = 3 + 3 * n := by ring
    rw [this, List.range_add, List.map_append, List.sum_append, List.map_map]
    have h3 : List.range 3 = [0, 1, 2] := rfl
    have e1' : 3 * i - 2 + 1 = 3 * i - 1 := by omega
    have e2' : 3 * i - 2 + 2 = 3 * i := by omega
    have e3' : ∀ j, 3 * (i + 1) - 2 + j = 3 * i - 2 + (3 + j) := by intro j; omega
    simp only [h3, List.map_cons, List.map_nil, List.sum_cons, List.sum_nil, add_zero, e1', e2',
      Function.comp_def, e3', one_mul]
    ring

theorem resizeZero_getD (l : List ℕ) (len i : ℕ) : (resizeZero l len).getD i 0 = l.getD i 0 := by
  unfold resizeZero
  simp only [List.getD_eq_getElem?_getD]
  by_cases h : i < l.length
  · rw [List.getElem?_append_left h]
  · rw [List.getElem?_append_right (by omega), List.getElem?_eq_none (l := l) (by omega)]
    rw [List.getElem?_replicate]
    split <;> simp

theorem sum_range_getD (l : List ℕ) (w : ℕ → ZMod p) (h0 : w 0 = 0) (n : ℕ) (h : l.length ≤ n) :
    ((List.range n).map (fun j => w (l.getD j 0))).sum = (l.map w).sum := by
  induction l generalizing n with
  | nil =>
    simp [h0]
  | cons a l ih =>
    obtain ⟨m, rfl⟩ : ∃ m, n = m + 1 := ⟨n - 1, by simp at h; omega⟩
    rw [List.range_succ_eq_map, List.map_cons, List.sum_cons, List.map_map]
    have : ((fun j => w ((a :: l).getD j 0)) ∘ Nat.succ) = fun j => w (l.getD j 0) := by
      funext j; simp
    rw [this, ih m (by simp at h; omega)]
    simp

theorem resizeZero_lt {c : Circ p} (hc : WF c) {l : List ℕ} (h : ∀ v ∈ l, v < c.numVars)
    (n : ℕ) : ∀ v ∈ resizeZero l n, v < c.numVars := by
  intro v hv
  rcases List.mem_append.1 hv with hv | hv
  · exact h v hv
  · rw [(List.mem_replicate.1 hv).2]; exact hc.z

theorem sum_spec {c : Circ p} (hc : WF c) (elems : List ℕ) :
    Spec (sum elems) c (elems ≠ [] ∧ ∀ v ∈ elems, v < c.numVars) (fun v c' => v < c'.numVars)
      (fun v w => w v = (elems.map w).sum) := by
  unfold sum
  split
  · rename_i h; exact Spec.fail (fun hC => hC.1 h)
  rename_i hne
  apply Spec.checkVars_bind (fun h => h.2)
  intro hv
  apply Spec.witnesses_bind (fun h => h.2)
  intro _
  refine Spec.bind (createVariable_spec hc _ True) (fun _ _ _ => trivial) hc ?_
  rintro s c1 e1 ⟨hs, hx⟩
  obtain ⟨m, hm, hm1, hm2⟩ := nextMultiple_three (elems.length - 1)
  refine Spec.liftE_bind hm ?_
  simp only
  have hp : ∀ v ∈ resizeZero elems (3 * m + 1), v < c1.numVars :=
    resizeZero_lt e1.wf (fun x hx => e1.lt (hv x hx)) _
  have hlen : 0 < elems.length := List.length_pos_of_ne_nil hne
  refine Spec.bind (sumLoop_spec _ _ 1 _ e1.wf hp (getD_lt e1.wf hp 0) (le_refl _))
    (fun _ _ _ => trivial) e1.wf ?_
  rintro acc c2 e2 hacc
  have hn : (3 * m + 1) / 3 - 1 = m - 1 := by omega
  have halg : ∀ w : ℕ → ZMod p, w 0 = 0 →
      w acc = w ((resizeZero elems (3 * m + 1)).getD 0 0)
        + ((List.range (3 * ((3 * m + 1) / 3 - 1))).map
            (fun j => w ((resizeZero elems (3 * m + 1)).getD (3 * 1 - 2 + j) 0))).sum →
      w acc + w ((resizeZero elems (3 * m + 1)).getD (3 * m + 1 - 3) 0)
        + w ((resizeZero elems (3 * m + 1)).getD (3 * m + 1 - 2) 0)
        + w ((resizeZero elems (3 * m + 1)).getD (3 * m + 1 - 1) 0) = (elems.map w).sum := by
    intro w h0 hw
    rw [hw, hn]
    simp only [resizeZero_getD]
    rw [← sum_range_getD elems w h0 (3 * m + 1) (by omega)]
    have hsplit : 3 * m + 1 = (1 + 3 * (m - 1)) + 3 := by omega
    have h3 : List.range 3 = [0, 1, 2] := rfl
    have h1 : List.range 1 = [0] := rfl
    rw [show List.range (3 * m + 1) = List.range ((1 + 3 * (m - 1)) + 3) by rw [← hsplit],
      List.range_add, List.range_add, List.map_append, List.map_append, List.sum_append,
      List.sum_append, List.map_map, List.map_map, h3, h1]
    have k0 : 3 * m + 1 - 3 = 1 + 3 * (m - 1) + 0 := by omega
    have k1 : 3 * m + 1 - 2 = 1 + 3 * (m - 1) + 1 := by omega
    have k2 : 3 * m + 1 - 1 = 1 + 3 * (m - 1) + 2 := by omega
    rw [k0, k1, k2]
    simp only [List.map_cons, List.map_nil, List.sum_cons, List.sum_nil, add_zero,
      Function.comp_def, show 3 * 1 - 2 = 1 from rfl]
    ring
  refine Spec.bind (lcGate_spec e2.wf _ _ _ _ s 1 1 1 1) ?_ e2.wf ?_
  · rintro ⟨_, hacc'⟩ h0 -
    have hp2 : ∀ v ∈ resizeZero elems (3 * m + 1), v < c2.numVars := fun x hx => e2.lt (hp x hx)
    refine ⟨?_, ?_⟩
    · simp [hacc, getD_lt e2.wf hp2, e2.lt hs, -List.getD_eq_getElem?_getD]
    · have := halg c2.val h0 hacc'
      rw [one_mul, one_mul, one_mul, one_mul, this, e2.val s hs, hx]
      congr 1
      apply List.map_congr_left
      intro x hx
      rw [e2.val x (e1.lt (hv x hx)), e1.val x (hv x hx)]
  rintro _ c3 e3 -
  refine Spec.pure e3.wf (e3.lt (e2.lt hs)) ?_
  intro w h0 _ h1 h2 _
  rw [h1, ← halg w h0 h2]
  ring

/-! ### constants and powers -/

theorem addConstantGate_spec {c : Circ p} (hc : WF c) (x : ℕ) (k : ZMod p) (y : ℕ) :
    Spec (addConstantGate x k y) c
      ((x < c.numVars ∧ y < c.numVars) ∧ c.val y = c.val x + k)
      (fun _ _ => True) (fun _ w => w y = w x + k) := by
  unfold addConstantGate
  apply Spec.checkVar_bind (fun h => h.1.1); intro hx
  apply Spec.checkVar_bind (fun h => h.1.2); intro hy
  refine Spec.conseq hc (insertGate_spec hc rfl rfl ⟨hx, hc.o, hc.z, hc.z, hy⟩) ?_
    (fun _ _ _ h => h) ?_
  · rintro ⟨_, h⟩ - -
    simp [Sel.output, constantAdditionGate, h]
  · intro _ w _ _ h
    simp [Sel.output, constantAdditionGate] at h
    exact h.symm

theorem addConstant_spec {c : Circ p} (hc : WF c) (x : ℕ) (k : ZMod p) :
    Spec (addConstant x k) c (x < c.numVars) (fun v c' => v < c'.numVars)
      (fun v w => w v = w x + k) := by
  unfold addConstant
  apply Spec.checkVar_bind (fun h => h); intro hx
  apply Spec.witness_bind (fun h => h); intro _
  refine Spec.bind (createVariable_spec hc _ True) (fun _ _ _ => trivial) hc ?_
  rintro v c1 e1 ⟨hv, hval⟩
  refine Spec.bind (addConstantGate_spec e1.wf x k v)
    (fun _ _ _ => ⟨⟨e1.lt hx, hv⟩, by rw [hval, e1.val x hx]; ring⟩) e1.wf ?_
  rintro _ c2 e2 -
  exact Spec.pure e2.wf (e2.lt hv) (fun w _ _ h _ => h)

theorem mulConstantGate_spec {c : Circ p} (hc : WF c) (x : ℕ) (k : ZMod p) (y : ℕ) :
    Spec (mulConstantGate x k y) c
      ((x < c.numVars ∧ y < c.numVars) ∧ c.val y = k * c.val x)
      (fun _ _ => True) (fun _ w => w y = k * w x) := by
  unfold mulConstantGate
  apply Spec.checkVar_bind (fun h => h.1.1); intro hx
  apply Spec.checkVar_bind (fun h => h.1.2); intro hy
  refine Spec.conseq hc (insertGate_spec hc rfl rfl ⟨hx, hc.z, hc.z, hc.z, hy⟩) ?_
    (fun _ _ _ h => h) ?_
  · rintro ⟨_, h⟩ - -
    simp [Sel.output, constantMultiplicationGate, h]
  · intro _ w _ _ h
    simp [Sel.output, constantMultiplicationGate] at h
    exact h.symm

theorem mulConstant_spec {c : Circ p} (hc : WF c) (x : ℕ) (k : ZMod p) :
    Spec (mulConstant x k) c (x < c.numVars) (fun v c' => v < c'.numVars)
      (fun v w => w v = k * w x) := by
  unfold mulConstant
  apply Spec.checkVar_bind (fun h => h); intro hx
  apply Spec.witness_bind (fun h => h); intro _
  refine Spec.bind (createVariable_spec hc _ True) (fun _ _ _ => trivial) hc ?_
  rintro v c1 e1 ⟨hv, hval⟩
  refine Spec.bind (mulConstantGate_spec e1.wf x k v)
    (fun _ _ _ => ⟨⟨e1.lt hx, hv⟩, by rw [hval, e1.val x hx]⟩) e1.wf ?_
  rintro _ c2 e2 -
  exact Spec.pure e2.wf (e2.lt hv) (fun w _ _ h _ => h)

theorem fifthRoot_spec {c : Circ p} (hc : WF c) (x y : ℕ) (hx : x < c.numVars)
    (hy : y < c.numVars) :
    Spec (insertGate x 0 0 0 y fifthRootGate) c (c.val y = c.val x ^ 5)
      (fun _ _ => True) (fun _ w => w y = w x ^ 5) := by
  refine Spec.conseq hc (insertGate_spec hc rfl rfl ⟨hx, hc.z, hc.z, hc.z, hy⟩) ?_
    (fun _ _ _ h => h) ?_
  · rintro h - -
    simp [Sel.output, fifthRootGate, h]
  · intro _ w _ _ h
    simp [Sel.output, fifthRootGate] at h
    exact h.symm

theorem power11Gen_spec {c : Circ p} (hc : WF c) (x : ℕ) :
    Spec (power11Gen x) c (x < c.numVars) (fun v c' => v < c'.numVars)
      (fun v w => w v = w x ^ 11) := by
  unfold power11Gen
  apply Spec.checkVar_bind (fun h => h); intro hx
  apply Spec.witness_bind (fun h => h); intro _
  refine Spec.bind (createVariable_spec hc _ True) (fun _ _ _ => trivial) hc ?_
  rintro x5 c1 e1 ⟨h5, hval⟩
  refine Spec.bind (fifthRoot_spec e1.wf x x5 (e1.lt hx) h5)
    (fun _ _ _ => by rw [hval, e1.val x hx]) e1.wf ?_
  rintro _ c2 e2 -
  refine Spec.bind (mul_spec e2.wf x5 x5) (fun _ _ _ => ⟨e2.lt h5, e2.lt h5⟩) e2.wf ?_
  rintro x10 c3 e3 h10
  refine Spec.conseq e3.wf (mul_spec e3.wf x10 x)
    (fun _ _ _ => ⟨h10, e3.lt (e2.lt (e1.lt hx))⟩) (fun _ _ _ h => h) ?_
  intro v w _ _ h1 h2 h3 _
  rw [h1, h2, h3]; ring

theorem power11Gate_spec {c : Circ p} (hc : WF c) (x y : ℕ) :
    Spec (power11Gate x y) c ((x < c.numVars ∧ y < c.numVars) ∧ c.val y = c.val x ^ 11)
      (fun _ _ => True) (fun _ w => w y = w x ^ 11) := by
  unfold power11Gate
  apply Spec.checkVar_bind (fun h => h.1.1); intro hx
  apply Spec.checkVar_bind (fun h => h.1.2); intro hy
  apply Spec.witness_bind (fun h => h.1.1); intro _
  refine Spec.bind (createVariable_spec hc _ True) (fun _ _ _ => trivial) hc ?_
  rintro x5 c1 e1 ⟨h5, hval⟩
  refine Spec.bind (fifthRoot_spec e1.wf x x5 (e1.lt hx) h5)
    (fun _ _ _ => by rw [hval, e1.val x hx]) e1.wf ?_
  rintro _ c2 e2 -
  refine Spec.bind (mul_spec e2.wf x5 x5) (fun _ _ _ => ⟨e2.lt h5, e2.lt h5⟩) e2.wf ?_
  rintro x10 c3 e3 h10
  have e := (e1.trans e2).trans e3
  refine Spec.conseq e3.wf (mulGate_spec e3.wf x10 x y) ?_ (fun _ _ _ h => h) ?_
  · rintro ⟨⟨⟨⟨_, hC⟩, _⟩, hr5⟩, hr10⟩ - -
    refine ⟨⟨h10, e.lt hx, e.lt hy⟩, ?_⟩
    rw [e.val y hy, e.val x hx, hC, hr10, e3.val x5 (e2.lt h5), hr5, e2.val x (e1.lt hx), e1.val x hx]
    ring
  · intro v w _ _ h1 h2 h3 _
    rw [h1, h2, h3]; ring

/-! ## gadgets/logic.rs -/

theorem logicOrGate_spec [Fact p.Prime] {c : Circ p} (hc : WF c) (a b : ℕ) :
    Spec (logicOrGate a b) c
      ((a < c.numVars ∧ b < c.numVars) ∧ (c.val a = 1 ∨ c.val b = 1))
      (fun _ _ => True) (fun _ w => w a = 1 ∨ w b = 1) := by
  unfold logicOrGate
  apply Spec.checkVar_bind (fun h => h.1.1); intro ha
  apply Spec.checkVar_bind (fun h => h.1.2); intro hb
  refine Spec.conseq hc (insertGate_spec hc rfl rfl ⟨ha, hb, hc.z, hc.z, hc.z⟩) ?_
    (fun _ _ _ h => h) ?_
  · rintro ⟨_, h | h⟩ - - <;> simp [Sel.output, logicOrGateSel, h]
  · intro _ w _ _ h
    simp [Sel.output, logicOrGateSel] at h
    have : (w a - 1) * (w b - 1) = 0 := by linear_combination -h
    rcases mul_eq_zero.1 this with h | h
    · left; linear_combination h
    · right; linear_combination h

theorem isZero_spec [Fact p.Prime] {c : Circ p} (hc : WF c) (a : ℕ) :
    Spec (isZero a) c (a < c.numVars) (fun v c' => v < c'.numVars)
      (fun v w => w v = if w a = 0 then 1 else 0) := by
  unfold isZero createBooleanVariableUnchecked
  apply Spec.checkVar_bind (fun h => h); intro ha
  apply Spec.witness_bind (fun h => h); intro _
  refine Spec.bind (createVariable_spec hc _ True) (fun _ _ _ => trivial) hc ?_
  rintro y c1 e1 ⟨hy, hyv⟩
  refine Spec.bind (createVariable_spec e1.wf _ True) (fun _ _ _ => trivial) e1.wf ?_
  rintro i c2 e2 ⟨hi, hiv⟩
  have e := e1.trans e2
  refine Spec.bind (mulAddGate_spec e2.wf a i 1 y 1 1 1) ?_ e2.wf ?_
  · rintro - - h1
    refine ⟨?_, ?_⟩
    · simp [e.lt ha, hi, e2.wf.o, e2.lt hy]
    · rw [h1, e.val a ha, hiv, e2.val y hy, hyv]
      by_cases h : c.val a = 0
      · simp [h]
      · simp [h]
  rintro _ c3 e3 -
  have e' := e.trans e3
  have hy3 := e3.lt (e2.lt hy)
  refine Spec.bind (mulGate_spec e3.wf y a 0) ?_ e3.wf ?_
  · rintro - h0 -
    refine ⟨⟨hy3, e'.lt ha, e3.wf.z⟩, ?_⟩
    rw [h0, e'.val a ha, e3.val y (e2.lt hy), e2.val y hy, hyv]
    by_cases h : c.val a = 0 <;> simp [h]
  rintro _ c4 e4 -
  refine Spec.pure e4.wf (e4.lt hy3) ?_
  intro w h0 h1 h2 h3 _ _
  rw [h0] at h2
  rw [h1] at h3
  by_cases h : w a = 0
  · rw [if_pos h]; rw [h] at h3; linear_combination -h3
  · rw [if_neg h]
    rcases mul_eq_zero.1 h2.symm with h | h'
    · exact h
    · exact absurd h' h

theorem isEqual_spec [Fact p.Prime] {c : Circ p} (hc : WF c) (a b : ℕ) :
    Spec (isEqual a b) c (a < c.numVars ∧ b < c.numVars) (fun v c' => v < c'.numVars)
      (fun v w => w v = if w a = w b then 1 else 0) := by
  unfold isEqual
  apply Spec.checkVar_bind (fun h => h.1); intro ha
  apply Spec.checkVar_bind (fun h => h.2); intro hb
  refine Spec.bind (sub_spec hc a b) (fun h _ _ => h) hc ?_
  rintro d c1 e1 hd
  refine Spec.conseq e1.wf (isZero_spec e1.wf d) (fun _ _ _ => hd) (fun _ _ _ h => h) ?_
  intro v w _ _ h1 h2
  rw [h1, h2]
  simp only [sub_eq_zero]

theorem nonZeroGate_spec [Fact p.Prime] {c : Circ p} (hc : WF c) (a : ℕ) :
    Spec (nonZeroGate a) c (a < c.numVars ∧ c.val a ≠ 0) (fun _ _ => True)
      (fun _ w => w a ≠ 0) := by
  unfold nonZeroGate
  apply Spec.witness_bind (fun h => h.1); intro ha
  refine Spec.bind (createVariable_spec hc _ True) (fun _ _ _ => trivial) hc ?_
  rintro i c1 e1 ⟨hi, hiv⟩
  refine Spec.conseq e1.wf (mulGate_spec e1.wf a i 1) ?_ (fun _ _ _ h => h) ?_
  · rintro ⟨⟨_, h⟩, _⟩ - h1
    refine ⟨⟨e1.lt ha, hi, e1.wf.o⟩, ?_⟩
    rw [h1, e1.val a ha, hiv, if_neg h]
    exact (mul_inv_cancel₀ h).symm
  · intro _ w _ h1 h _ h0
    rw [h1, h0] at h
    simp at h

theorem logicNeg_spec [Fact p.Prime] {c : Circ p} (hc : WF c) (a : ℕ) :
    Spec (logicNeg a) c (a < c.numVars) (fun v c' => v < c'.numVars)
      (fun v w => w v = if w a = 0 then 1 else 0) := isZero_spec hc a

theorem logicAnd_spec {c : Circ p} (hc : WF c) (a b : ℕ) :
    Spec (logicAnd a b) c (a < c.numVars ∧ b < c.numVars) (fun v c' => v < c'.numVars)
      (fun v w => w v = w a * w b) := by
  unfold logicAnd createBooleanVariableUnchecked
  apply Spec.witness_bind (fun h => h.1); intro ha
  apply Spec.witness_bind (fun h => h.2); intro hb
  refine Spec.bind (createVariable_spec hc _ True) (fun _ _ _ => trivial) hc ?_
  rintro v c1 e1 ⟨hv, hx⟩
  refine Spec.bind (mulGate_spec e1.wf a b v)
    (fun _ _ _ => ⟨⟨e1.lt ha, e1.lt hb, hv⟩, by rw [hx, e1.val a ha, e1.val b hb]⟩) e1.wf ?_
  rintro _ c2 e2 -
  exact Spec.pure e2.wf (e2.lt hv) (fun w _ _ h _ => h)

theorem logicAndLoop_spec (vs : List ℕ) : ∀ (res : ℕ) {c : Circ p} (_ : WF c),
    res < c.numVars →
    Spec (logicAndLoop vs res) c (∀ v ∈ vs, v < c.numVars) (fun v c' => v < c'.numVars)
      (fun v w => w v = w res * (vs.map w).prod) := by
  induction vs with
  | nil =>
    intro res c hc hr
    exact Spec.pure hc hr (fun w _ _ => by simp)
  | cons v vs ih =>
    intro res c hc hr
    unfold logicAndLoop
    refine Spec.bind (logicAnd_spec hc res v) (fun h _ _ => ⟨hr, h v (by simp)⟩) hc ?_
    rintro r c1 e1 hr1
    refine Spec.conseq e1.wf (ih r e1.wf hr1)
      (fun h _ _ x hx => e1.lt (h.1 x (by simp [hx]))) (fun _ _ _ h => h) ?_
    intro u w _ _ h1 h2
    rw [h1, h2]; simp [mul_assoc]

theorem logicAndAll_spec {c : Circ p} (hc : WF c) (vs : List ℕ) :
    Spec (logicAndAll vs) c (vs ≠ [] ∧ ∀ v ∈ vs, v < c.numVars)
      (fun v c' => vs.head? = some v ∨ v < c'.numVars) (fun v w => w v = (vs.map w).prod) := by
  cases vs with
  | nil => exact Spec.fail (by simp)
  | cons v vs =>
    unfold logicAndAll
    by_cases hv : v < c.numVars
    · refine Spec.conseq hc (logicAndLoop_spec vs v hc hv)
        (fun h _ _ x hx => h.2 x (by simp [hx])) (fun _ _ _ h => Or.inr h) ?_
      intro u w _ _ h; simpa using h
    · cases vs with
      | nil =>
        constructor
        · intro u c' hu
          cases hu
          exact ⟨Ext.refl hc, by simp, fun _ w _ => by simp⟩
        · intro h; exact absurd (h.2 v (by simp)) hv
      | cons v2 vs =>
        constructor
        · intro u c' hu
          exfalso
          unfold logicAndLoop at hu
          obtain ⟨u1, c1, h1, _⟩ := bind_ok hu
          unfold logicAnd at h1
          obtain ⟨u2, c2, h2, _⟩ := bind_ok h1
          unfold witness at h2
          rw [if_pos (by omega)] at h2
          cases h2
        · intro h; exact absurd (h.2 v (by simp)) hv

theorem logicOr_spec {c : Circ p} (hc : WF c) (a b : ℕ) :
    Spec (logicOr a b) c (a < c.numVars ∧ b < c.numVars) (fun v c' => v < c'.numVars)
      (fun v w => w v = w a + w b - w a * w b) := by
  unfold logicOr createBooleanVariableUnchecked
  apply Spec.checkVar_bind (fun h => h.1); intro ha
  apply Spec.checkVar_bind (fun h => h.2); intro hb
  apply Spec.witness_bind (fun h => h.1); intro _
  apply Spec.witness_bind (fun h => h.2); intro _
  refine Spec.bind (createVariable_spec hc _ True) (fun _ _ _ => trivial) hc ?_
  rintro v c1 e1 ⟨hv, hx⟩
  refine Spec.bind (insertGate_spec e1.wf rfl rfl ⟨e1.lt ha, e1.lt hb, e1.wf.z, e1.wf.z, hv⟩)
    ?_ e1.wf ?_
  · rintro - - -
    simp [Sel.output, logicOrOutputGate, hx, e1.val a ha, e1.val b hb]
    ring
  rintro _ c2 e2 -
  refine Spec.pure e2.wf (e2.lt hv) ?_
  intro w _ _ h _
  simp [Sel.output, logicOrOutputGate] at h
  linear_combination -h

theorem enforceTrue_spec {c : Circ p} (hc : WF c) (v : ℕ) :
    Spec (enforceTrue v) c (v < c.numVars ∧ c.val v = 1) (fun _ _ => True)
      (fun _ w => w v = 1) := enforceConstant_spec hc v 1

theorem enforceFalse_spec {c : Circ p} (hc : WF c) (v : ℕ) :
    Spec (enforceFalse v) c (v < c.numVars ∧ c.val v = 0) (fun _ _ => True)
      (fun _ w => w v = 0) := enforceConstant_spec hc v 0

theorem conditionalSelect_spec [Fact p.Prime] {c : Circ p} (hc : WF c) (b x0 x1 : ℕ) :
    Spec (conditionalSelect b x0 x1) c
      ((b < c.numVars ∧ x0 < c.numVars ∧ x1 < c.numVars) ∧ (c.val b = 0 ∨ c.val b = 1))
      (fun v c' => v < c'.numVars)
      (fun v w => w v = (1 - w b) * w x0 + w b * w x1) := by
  unfold conditionalSelect
  apply Spec.checkVar_bind (fun h => h.1.1); intro hb
  apply Spec.checkVar_bind (fun h => h.1.2.1); intro h0
  apply Spec.checkVar_bind (fun h => h.1.2.2); intro h1
  apply Spec.witness_bind (fun h => h.1.1); intro _
  have hy : Spec (if c.val b = 0 then do
      let v ← witness x0
      createVariable v
    else if c.val b = 1 then do
      let v ← witness x1
      createVariable v
    else Build.fail .parameter) c (c.val b = 0 ∨ c.val b = 1)
      (fun v c' => v < c'.numVars ∧ c'.val v = (1 - c.val b) * c.val x0 + c.val b * c.val x1)
      (fun _ _ => True) := by
    split
    · rename_i h
      apply Spec.witness_bind (fun _ => h0); intro _
      refine Spec.conseq hc (createVariable_spec hc _ True) (fun _ _ _ => trivial) ?_
        (fun _ _ _ _ h => h)
      intro v c' _ hv
      refine ⟨hv.1, ?_⟩
      rw [hv.2, h]; ring
    · split
      · rename_i h
        apply Spec.witness_bind (fun _ => h1); intro _
        refine Spec.conseq hc (createVariable_spec hc _ True) (fun _ _ _ => trivial) ?_
          (fun _ _ _ _ h => h)
        intro v c' _ hv
        refine ⟨hv.1, ?_⟩
        rw [hv.2, h]; ring
      · rename_i n0 n1
        exact Spec.fail (by rintro (h | h); exacts [n0 h, n1 h])
  refine Spec.bind hy (fun h _ _ => h.2) hc ?_
  rintro y c1 e1 ⟨hyl, hyv⟩
  refine Spec.bind (insertGate_spec e1.wf rfl rfl
    ⟨e1.lt hb, e1.lt h0, e1.lt hb, e1.lt h1, hyl⟩) ?_ e1.wf ?_
  · rintro - - -
    simp [Sel.output, condSelectGate, hyv, e1.val b hb, e1.val x0 h0, e1.val x1 h1]
    ring
  rintro _ c2 e2 -
  refine Spec.pure e2.wf (e2.lt hyl) ?_
  intro w _ _ h _
  simp [Sel.output, condSelectGate] at h
  linear_combination -h

end Verif.Circuit
