import Verif.Circuit.Ecc
import Verif.Circuit.RangeSpec
import Verif.Circuit.Indep
import Mathlib.Tactic.FieldSimp
import Mathlib.Data.List.GetD

/-!
# Specifications of the elliptic curve gadgets
-/

set_option linter.unusedSectionVars false
set_option linter.unnecessarySeqFocus false

namespace Verif.Circuit

variable {p : ℕ} {β : Type}

/-- the value of a point variable -/
def ptAt (w : ℕ → ZMod p) (P : ℕ × ℕ) : ZMod p × ZMod p := (w P.1, w P.2)

/-- a point variable of the circuit -/
def PIn (c : Circ p) (P : ℕ × ℕ) : Prop := P.1 < c.numVars ∧ P.2 < c.numVars

theorem PIn.ext {c c' : Circ p} (e : Ext c c') {P : ℕ × ℕ} (h : PIn c P) : PIn c' P :=
  ⟨e.lt h.1, e.lt h.2⟩

theorem ptAt_ext {c c' : Circ p} (e : Ext c c') {P : ℕ × ℕ} (h : PIn c P) :
    ptAt c'.val P = ptAt c.val P := by
  unfold ptAt; rw [e.val _ h.1, e.val _ h.2]

theorem PIn.neutral {c : Circ p} (hc : WF c) : PIn c neutralPoint := ⟨hc.z, hc.o⟩

theorem ptAt_neutral {w : ℕ → ZMod p} (h0 : w 0 = 0) (h1 : w 1 = 1) : ptAt w neutralPoint = (0, 1) := by
  unfold ptAt neutralPoint; rw [h0, h1]

theorem Spec.checkPoint_bind {P : ℕ × ℕ} {f : Unit → Build p β} {c : Circ p} {C : Prop}
    {B : β → Circ p → Prop} {R : β → (ℕ → ZMod p) → Prop}
    (hC : C → PIn c P) (h : PIn c P → Spec (f ()) c C B R) :
    Spec (checkPoint P >>= f) c C B R := by
  have : (checkPoint P >>= f) = (checkVar P.1 >>= fun _ => checkVar P.2 >>= f) := by
    funext c
    unfold checkPoint
    simp only [bind_eq]
    rcases (checkVar P.1 : Build p Unit) c with e | ⟨u, c1⟩ <;> rfl
  rw [this]
  apply Spec.checkVar_bind (fun h => (hC h).1); intro h1
  apply Spec.checkVar_bind (fun h => (hC h).2); intro h2
  exact h ⟨h1, h2⟩

theorem checkPoint_rel (P : ℕ × ℕ) : Rel (checkPoint P : Build p Unit) (checkPoint P) := by
  unfold checkPoint; rel

theorem createPointVariable_spec {c : Circ p} (hc : WF c) (P : ZMod p × ZMod p) (C : Prop) :
    Spec (createPointVariable P) c C (fun v c' => PIn c' v ∧ ptAt c'.val v = P) (fun _ _ => True) := by
  unfold createPointVariable
  refine Spec.bind (createVariable_spec hc _ True) (fun _ _ _ => trivial) hc ?_
  rintro x c1 e1 ⟨hx, hxv⟩
  refine Spec.bind (createVariable_spec e1.wf _ True) (fun _ _ _ => trivial) e1.wf ?_
  rintro y c2 e2 ⟨hy, hyv⟩
  refine Spec.pure e2.wf ⟨⟨e2.lt hx, hy⟩, ?_⟩ (fun _ _ _ _ _ => trivial)
  simp only [ptAt, e2.val x hx, hxv, hyv]

theorem createPointVariable_rel (P Q : ZMod p × ZMod p) :
    Rel (createPointVariable P) (createPointVariable Q) := by
  unfold createPointVariable; rel

theorem createConstantPointVariable_spec {c : Circ p} (hc : WF c) (P : ZMod p × ZMod p) :
    Spec (createConstantPointVariable P) c True (fun v c' => PIn c' v) (fun v w => ptAt w v = P) := by
  unfold createConstantPointVariable
  refine Spec.bind (createConstantVariable_spec hc P.1) (fun _ _ _ => trivial) hc ?_
  rintro x c1 e1 hx
  refine Spec.bind (createConstantVariable_spec e1.wf P.2) (fun _ _ _ => trivial) e1.wf ?_
  rintro y c2 e2 hy
  refine Spec.pure e2.wf ⟨e2.lt hx, hy⟩ ?_
  intro w _ _ h1 h2
  simp only [ptAt, h1, h2]

theorem createConstantPointVariable_rel (P : ZMod p × ZMod p) :
    Rel (createConstantPointVariable P) (createConstantPointVariable P) := by
  unfold createConstantPointVariable
  exact Rel.bind (createConstantVariable_rel _) fun _ => Rel.bind (createConstantVariable_rel _) fun _ => Rel.pure _

/-! ## Selection -/

/-- selection of one of four points -/
def quatSel {α : Type} (b0 b1 : Bool) (P0 P1 P2 P3 : α) : α :=
  if b1 then (if b0 then P3 else P2) else (if b0 then P1 else P0)

theorem quaternaryPointSelect_spec [Fact p.Prime] {c : Circ p} (hc : WF c) (b0 b1 : ℕ)
    (P1 P2 P3 : ZMod p × ZMod p) :
    Spec (quaternaryPointSelect b0 b1 P1 P2 P3) c
      ((b0 < c.numVars ∧ b1 < c.numVars) ∧ ∃ x y : Bool, c.val b0 = boolF x ∧ c.val b1 = boolF y)
      (fun v c' => PIn c' v)
      (fun v w => ∀ x y : Bool, w b0 = boolF x → w b1 = boolF y →
        ptAt w v = quatSel x y (0, 1) P1 P2 P3) := by
  unfold quaternaryPointSelect
  apply Spec.checkVar_bind (fun h => h.1.1); intro h0
  apply Spec.checkVar_bind (fun h => h.1.2); intro h1
  apply Spec.witness_bind (fun h => h.1.1); intro _
  apply Spec.witness_bind (fun h => h.1.2); intro _
  refine Spec.bind (createPointVariable_spec hc _ True) (fun _ _ _ => trivial) hc ?_
  rintro S c1 e1 ⟨hS, hSv⟩
  have hx : c1.val S.1 = _ := congrArg Prod.fst hSv
  have hy : c1.val S.2 = _ := congrArg Prod.snd hSv
  refine Spec.bind (insertGate_spec e1.wf rfl rfl ⟨e1.lt h0, e1.lt h1, e1.wf.z, e1.wf.z, hS.1⟩) ?_ e1.wf ?_
  · rintro ⟨⟨_, x, y, hx0, hy0⟩, _⟩ - -
    rw [hx, e1.val b0 h0, e1.val b1 h1, hx0, hy0]
    cases x <;> cases y <;> simp [Sel.output, quatXGate, boolF] <;> try ring
  rintro _ c2 e2 -
  refine Spec.bind (insertGate_spec e2.wf rfl rfl ⟨e2.lt (e1.lt h0), e2.lt (e1.lt h1), e2.wf.z, e2.wf.z, e2.lt hS.2⟩) ?_
    e2.wf ?_
  · rintro ⟨⟨⟨_, x, y, hx0, hy0⟩, _⟩, _⟩ - -
    rw [e2.val S.2 hS.2, hy, e2.val b0 (e1.lt h0), e2.val b1 (e1.lt h1), e1.val b0 h0, e1.val b1 h1, hx0, hy0]
    cases x <;> cases y <;> simp [Sel.output, quatYGate, boolF] <;> try ring
  rintro _ c3 e3 -
  refine Spec.pure e3.wf (hS.ext (e2.trans e3)) ?_
  intro w _ _ g2 g1 _ x y hx0 hy0
  rw [hx0, hy0] at g1 g2
  have a1 : w S.1 = (quatSel x y (0, 1) P1 P2 P3).1 := by
    rw [show w S.1 = 1 * w S.1 by ring]
    refine (Eq.symm g1).trans ?_
    cases x <;> cases y <;> simp [Sel.output, quatXGate, boolF, quatSel] <;> try ring
  have a2 : w S.2 = (quatSel x y (0, 1) P1 P2 P3).2 := by
    rw [show w S.2 = 1 * w S.2 by ring]
    refine (Eq.symm g2).trans ?_
    cases x <;> cases y <;> simp [Sel.output, quatYGate, boolF, quatSel] <;> try ring
  exact Prod.ext a1 a2

theorem quaternaryPointSelect_rel (b0 b1 : ℕ) (P1 P2 P3 : ZMod p × ZMod p) :
    Rel (quaternaryPointSelect b0 b1 P1 P2 P3) (quaternaryPointSelect b0 b1 P1 P2 P3) := by
  unfold quaternaryPointSelect createPointVariable; rel

theorem binaryPointVarsSelect_spec [Fact p.Prime] {c : Circ p} (hc : WF c) (b : ℕ) (P0 P1 : ℕ × ℕ) :
    Spec (binaryPointVarsSelect b P0 P1) c
      ((b < c.numVars ∧ PIn c P0 ∧ PIn c P1) ∧ ∃ x : Bool, c.val b = boolF x)
      (fun v c' => PIn c' v)
      (fun v w => ∀ x : Bool, w b = boolF x → ptAt w v = if x then ptAt w P1 else ptAt w P0) := by
  unfold binaryPointVarsSelect
  apply Spec.checkVar_bind (fun h => h.1.1); intro hb
  apply Spec.checkPoint_bind (fun h => h.1.2.1); intro h0
  apply Spec.checkPoint_bind (fun h => h.1.2.2); intro h1
  refine Spec.bind (conditionalSelect_spec hc b P0.1 P1.1) ?_ hc ?_
  · rintro ⟨_, x, hx⟩ - -
    exact ⟨⟨hb, h0.1, h1.1⟩, by rw [hx]; exact boolF_cases x⟩
  rintro x c1 e1 hx
  refine Spec.bind (conditionalSelect_spec e1.wf b P0.2 P1.2) ?_ e1.wf ?_
  · rintro ⟨⟨_, x, hx⟩, _⟩ - -
    exact ⟨⟨e1.lt hb, e1.lt h0.2, e1.lt h1.2⟩, by rw [e1.val b hb, hx]; exact boolF_cases x⟩
  rintro y c2 e2 hy
  refine Spec.pure e2.wf ⟨e2.lt hx, hy⟩ ?_
  intro w _ _ g2 g1 x hx0
  rw [hx0] at g1 g2
  unfold ptAt
  cases x <;> simp [boolF] at g1 g2 <;> simp [g1, g2]

theorem binaryPointVarsSelect_rel (b : ℕ) (P0 P1 : ℕ × ℕ) :
    Rel (binaryPointVarsSelect b P0 P1 : Build p (ℕ × ℕ)) (binaryPointVarsSelect b P0 P1) := by
  unfold binaryPointVarsSelect
  exact Rel.bind (Rel.checkVar _) fun _ => Rel.bind (checkPoint_rel _) fun _ => Rel.bind (checkPoint_rel _) fun _ =>
    Rel.bind (conditionalSelect_rel _ _ _) fun _ => Rel.bind (conditionalSelect_rel _ _ _) fun _ => Rel.pure _

/-! ## Equality -/

theorem enforcePointEqual_spec {c : Circ p} (hc : WF c) (P0 P1 : ℕ × ℕ) :
    Spec (enforcePointEqual P0 P1) c ((PIn c P0 ∧ PIn c P1) ∧ ptAt c.val P0 = ptAt c.val P1)
      (fun _ _ => True) (fun _ w => ptAt w P0 = ptAt w P1) := by
  unfold enforcePointEqual
  apply Spec.checkPoint_bind (fun h => h.1.1); intro h0
  apply Spec.checkPoint_bind (fun h => h.1.2); intro h1
  refine Spec.bind (enforceEqual_spec hc P0.1 P1.1) ?_ hc ?_
  · rintro ⟨_, h⟩ - -
    exact ⟨⟨h0.1, h1.1⟩, congrArg Prod.fst h⟩
  rintro _ c1 e1 -
  refine Spec.conseq e1.wf (enforceEqual_spec e1.wf P0.2 P1.2) ?_ (fun _ _ _ _ => trivial) ?_
  · rintro ⟨⟨_, h⟩, _⟩ - -
    refine ⟨⟨e1.lt h0.2, e1.lt h1.2⟩, ?_⟩
    rw [e1.val _ h0.2, e1.val _ h1.2]
    exact congrArg Prod.snd h
  · intro _ w _ _ g2 g1
    exact Prod.ext g1 g2

theorem enforcePointEqual_rel (P0 P1 : ℕ × ℕ) :
    Rel (enforcePointEqual P0 P1 : Build p Unit) (enforcePointEqual P0 P1) := by
  unfold enforcePointEqual
  exact Rel.bind (checkPoint_rel _) fun _ => Rel.bind (checkPoint_rel _) fun _ =>
    Rel.bind (enforceEqual_rel _ _) fun _ => enforceEqual_rel _ _

theorem isPointEqual_spec [Fact p.Prime] {c : Circ p} (hc : WF c) (P0 P1 : ℕ × ℕ) :
    Spec (isPointEqual P0 P1) c (PIn c P0 ∧ PIn c P1) (fun v c' => v < c'.numVars)
      (fun v w => w v = if ptAt w P0 = ptAt w P1 then 1 else 0) := by
  unfold isPointEqual
  apply Spec.checkPoint_bind (fun h => h.1); intro h0
  apply Spec.checkPoint_bind (fun h => h.2); intro h1
  refine Spec.bind (isEqual_spec hc P0.1 P1.1) (fun _ _ _ => ⟨h0.1, h1.1⟩) hc ?_
  rintro x c1 e1 hx
  refine Spec.bind (isEqual_spec e1.wf P0.2 P1.2) (fun _ _ _ => ⟨e1.lt h0.2, e1.lt h1.2⟩) e1.wf ?_
  rintro y c2 e2 hy
  refine Spec.conseq e2.wf (logicAnd_spec e2.wf x y) (fun _ _ _ => ⟨e2.lt hx, hy⟩) (fun _ _ _ h => h) ?_
  intro v w _ _ g3 g2 g1
  rw [g3, g1, g2]
  simp only [ptAt, Prod.mk.injEq]
  by_cases a : w P0.1 = w P1.1 <;> by_cases b : w P0.2 = w P1.2 <;> simp [a, b]

theorem isPointEqual_rel (P0 P1 : ℕ × ℕ) :
    Rel (isPointEqual P0 P1 : Build p ℕ) (isPointEqual P0 P1) := by
  unfold isPointEqual
  exact Rel.bind (checkPoint_rel _) fun _ => Rel.bind (checkPoint_rel _) fun _ =>
    Rel.bind (isEqual_rel _ _) fun _ => Rel.bind (isEqual_rel _ _) fun _ => logicAnd_rel _ _

theorem inversePoint_spec {c : Circ p} (hc : WF c) (P : ℕ × ℕ) :
    Spec (inversePoint P) c (PIn c P) (fun v c' => v.1 < c'.numVars ∧ v.2 = P.2)
      (fun v w => ptAt w v = (-w P.1, w P.2)) := by
  unfold inversePoint
  refine Spec.bind (sub_spec hc 0 P.1) (fun h _ _ => ⟨hc.z, h.1⟩) hc ?_
  rintro x c1 e1 hx
  refine Spec.pure e1.wf ⟨hx, rfl⟩ ?_
  intro w h0 _ g
  simp [ptAt, g, h0]

theorem inversePoint_rel (P : ℕ × ℕ) : Rel (inversePoint P : Build p (ℕ × ℕ)) (inversePoint P) := by
  unfold inversePoint
  exact Rel.bind (sub_rel _ _) fun _ => Rel.pure _

theorem neutralPointGate_spec [Fact p.Prime] {c : Circ p} (hc : WF c) (P : ℕ × ℕ) (b : ℕ) :
    Spec (neutralPointGate P b) c
      ((PIn c P ∧ b < c.numVars) ∧ c.val b = if ptAt c.val P = (0, 1) then 1 else 0) (fun _ _ => True)
      (fun _ w => w b = if ptAt w P = (0, 1) then 1 else 0) := by
  unfold neutralPointGate
  apply Spec.checkPoint_bind (fun h => h.1.1); intro hP
  apply Spec.checkVar_bind (fun h => h.1.2); intro hb
  refine Spec.bind (isEqual_spec hc P.1 0) (fun _ _ _ => ⟨hP.1, hc.z⟩) hc ?_
  rintro x c1 e1 hx
  refine Spec.bind (isEqual_spec e1.wf P.2 1) (fun _ _ _ => ⟨e1.lt hP.2, e1.wf.o⟩) e1.wf ?_
  rintro y c2 e2 hy
  have e := e1.trans e2
  refine Spec.conseq e2.wf (mulGate_spec e2.wf x y b) ?_ (fun _ _ _ _ => trivial) ?_
  · rintro ⟨⟨⟨_, h⟩, g1⟩, g2⟩ z0 z1
    refine ⟨⟨e2.lt hx, hy, e.lt hb⟩, ?_⟩
    rw [e.val b hb, h, g2, e2.val x hx, g1, e2.val P.2 (e1.lt hP.2), e1.val P.2 hP.2, e1.val P.1 hP.1, z1]
    rw [e1.val 0 hc.z]
    rw [e2.val 0 e1.wf.z, e1.val 0 hc.z] at z0
    rw [z0]
    simp only [ptAt, Prod.mk.injEq]
    by_cases a : c.val P.1 = 0 <;> by_cases b : c.val P.2 = 1 <;> simp [a, b]
  · intro _ w z0 z1 g3 g2 g1
    rw [z0] at g1
    rw [z1] at g2
    rw [g3, g1, g2]
    simp only [ptAt, Prod.mk.injEq]
    by_cases a : w P.1 = 0 <;> by_cases b : w P.2 = 1 <;> simp [a, b]

theorem neutralPointGate_rel (P : ℕ × ℕ) (b : ℕ) :
    Rel (neutralPointGate P b : Build p Unit) (neutralPointGate P b) := by
  unfold neutralPointGate
  exact Rel.bind (checkPoint_rel _) fun _ => Rel.bind (Rel.checkVar _) fun _ =>
    Rel.bind (isEqual_rel _ _) fun _ => Rel.bind (isEqual_rel _ _) fun _ => mulGate_rel _ _ _

theorem pointWitness_eq {c : Circ p} {P : ℕ × ℕ} (h : PIn c P) :
    (pointWitness P : Build p _) c = .ok (ptAt c.val P, c) := by
  have h1 : ¬ c.numVars ≤ P.1 := by have := h.1; omega
  have h2 : ¬ c.numVars ≤ P.2 := by have := h.2; omega
  simp [pointWitness, checkPoint, bind_eq, checkVar, witness, h1, h2, ptAt, pure_eq]

theorem Spec.pointWitness_bind {P : ℕ × ℕ} {f : ZMod p × ZMod p → Build p β} {c : Circ p} {C : Prop}
    {B : β → Circ p → Prop} {R : β → (ℕ → ZMod p) → Prop}
    (hP : PIn c P) (h : Spec (f (ptAt c.val P)) c C B R) :
    Spec (pointWitness P >>= f) c C B R := by
  constructor
  · intro u c' hu
    rw [bind_of_ok (pointWitness_eq hP)] at hu
    exact h.sound u c' hu
  · intro hC pi hs
    rw [bind_of_ok (pointWitness_eq hP)]
    exact h.complete hC pi hs

theorem isNeutralPoint_spec [Fact p.Prime] {c : Circ p} (hc : WF c) (P : ℕ × ℕ) :
    Spec (isNeutralPoint P) c (PIn c P) (fun v c' => v < c'.numVars)
      (fun v w => w v = if ptAt w P = (0, 1) then 1 else 0) := by
  unfold isNeutralPoint
  apply Spec.checkPoint_bind (fun h => h); intro hP
  apply Spec.pointWitness_bind hP
  refine Spec.bind (createBooleanVariable_spec hc _) (fun _ _ _ => trivial) hc ?_
  rintro b c1 e1 ⟨hb, hbv⟩
  refine Spec.bind (neutralPointGate_spec e1.wf P b) ?_ e1.wf ?_
  · rintro - - -
    refine ⟨⟨hP.ext e1, hb⟩, ?_⟩
    rw [hbv, ptAt_ext e1 hP]
    by_cases h : ptAt c.val P = (0, 1) <;> simp [h, boolF]
  rintro _ c2 e2 -
  refine Spec.pure e2.wf (e2.lt hb) ?_
  intro w _ _ g _
  exact g

theorem isNeutralPoint_rel (P : ℕ × ℕ) : Rel (isNeutralPoint P : Build p ℕ) (isNeutralPoint P) := by
  unfold isNeutralPoint pointWitness
  refine Rel.bind (checkPoint_rel _) fun _ => ?_
  have : ∀ f : ZMod p × ZMod p → Build p ℕ, (∀ x y, Rel (f x) (f y)) →
      Rel ((do checkPoint P; let x ← witness P.1; let y ← witness P.2; pure (x, y)) >>= f)
        ((do checkPoint P; let x ← witness P.1; let y ← witness P.2; pure (x, y)) >>= f) := by
    intro f hf c d hcd v c' v' d' h1 h2
    obtain ⟨u, c1, a1, a2⟩ := bind_ok h1
    obtain ⟨u', d1, a3, a4⟩ := bind_ok h2
    have hk : ∀ {c c1 : Circ p} {u}, (do checkPoint P; let x ← witness P.1; let y ← witness P.2; pure (x, y) :
        Build p (ZMod p × ZMod p)) c = .ok (u, c1) → c1 = c := by
      intro c c1 u h
      obtain ⟨_, c2, b1, b2⟩ := bind_ok h
      obtain ⟨_, c3, b3, b4⟩ := bind_ok b2
      obtain ⟨_, c4, b5, b6⟩ := bind_ok b4
      unfold checkPoint at b1
      obtain ⟨_, c5, b7, b8⟩ := bind_ok b1
      unfold checkVar at b7 b8
      unfold witness at b3 b5
      split at b7 <;> cases b7
      split at b8 <;> cases b8
      split at b3 <;> cases b3
      split at b5 <;> cases b5
      cases b6
      rfl
    rw [hk a1] at a2
    rw [hk a3] at a4
    exact hf _ _ c d hcd v c' v' d' a2 a4
  refine this _ fun x y => ?_
  exact Rel.bind (createBooleanVariable_rel _ _) fun _ => Rel.bind (neutralPointGate_rel _ _) fun _ => Rel.pure _

/-! ## Curve equation and addition -/

theorem enforceOnCurve_spec [Fact p.Prime] {c : Circ p} (hc : WF c) (K : TE p) (P : ℕ × ℕ) :
    Spec (enforceOnCurve K P) c (PIn c P ∧ EdOn K.a K.d (ptAt c.val P)) (fun _ _ => True)
      (fun _ w => EdOn K.a K.d (ptAt w P)) := by
  unfold enforceOnCurve
  apply Spec.checkPoint_bind (fun h => h.1); intro hP
  refine Spec.conseq hc (insertGate_spec hc rfl rfl ⟨hP.1, hP.1, hP.2, hP.2, hc.o⟩) ?_ (fun _ _ _ _ => trivial) ?_
  · rintro ⟨_, h⟩ - h1
    unfold EdOn ptAt at h
    simp [Sel.output, curveEqGate, h1]
    linear_combination -h
  · intro _ w _ h1 h
    unfold EdOn ptAt
    simp [Sel.output, curveEqGate, h1] at h
    linear_combination -h

theorem enforceOnCurve_rel (K : TE p) (P : ℕ × ℕ) : Rel (enforceOnCurve K P) (enforceOnCurve K P) := by
  unfold enforceOnCurve checkPoint; rel

/-- the two equations enforced by the addition gates -/
def AddEqs [Fact p.Prime] (K : TE p) (P Q S : ZMod p × ZMod p) : Prop :=
  (1 + edZ K.d P Q) * S.1 = P.1 * Q.2 + Q.1 * P.2 ∧ (1 - edZ K.d P Q) * S.2 = P.2 * Q.2 - K.a * P.1 * Q.1

theorem addEqs_iff [Fact p.Prime] {K : TE p} {P Q S : ZMod p × ZMod p} (h : EdDef K.d P Q) :
    AddEqs K P Q S ↔ S = edAdd K.a K.d P Q := by
  obtain ⟨h1, h2⟩ := h
  unfold AddEqs edAdd
  constructor
  · rintro ⟨a, b⟩
    refine Prod.ext ?_ ?_
    · simp only; rw [eq_div_iff h1]; linear_combination a
    · simp only; rw [eq_div_iff h2]; linear_combination b
  · rintro rfl
    simp only
    constructor
    · rw [mul_div_cancel₀ _ h1]
    · rw [mul_div_cancel₀ _ h2]

theorem eccAddGate_spec [Fact p.Prime] {c : Circ p} (hc : WF c) (K : TE p) (A B S : ℕ × ℕ) :
    Spec (eccAddGate K A B S) c
      ((PIn c A ∧ PIn c B ∧ PIn c S) ∧ AddEqs K (ptAt c.val A) (ptAt c.val B) (ptAt c.val S)) (fun _ _ => True)
      (fun _ w => AddEqs K (ptAt w A) (ptAt w B) (ptAt w S)) := by
  unfold eccAddGate
  apply Spec.checkPoint_bind (fun h => h.1.1); intro hA
  apply Spec.checkPoint_bind (fun h => h.1.2.1); intro hB
  apply Spec.checkPoint_bind (fun h => h.1.2.2); intro hS
  refine Spec.bind (insertGate_spec hc rfl rfl ⟨hA.1, hB.2, hB.1, hA.2, hS.1⟩) ?_ hc ?_
  · rintro ⟨_, h, _⟩ - -
    unfold ptAt edZ at h
    simp [Sel.output, xAddGate]
    simp only at h
    linear_combination -h
  rintro _ c1 e1 -
  refine Spec.conseq e1.wf (insertGate_spec e1.wf rfl rfl ⟨e1.lt hA.1, e1.lt hB.1, e1.lt hA.2, e1.lt hB.2, e1.lt hS.2⟩)
    ?_ (fun _ _ _ _ => trivial) ?_
  · rintro ⟨⟨_, _, h⟩, _⟩ - -
    unfold ptAt edZ at h
    simp [Sel.output, yAddGate, e1.val _ hA.1, e1.val _ hA.2, e1.val _ hB.1, e1.val _ hB.2, e1.val _ hS.2]
    simp only at h
    linear_combination -h
  · intro _ w _ _ g2 g1
    simp [Sel.output, xAddGate] at g1
    simp [Sel.output, yAddGate] at g2
    unfold AddEqs edZ ptAt
    constructor
    · linear_combination -g1
    · linear_combination -g2

theorem eccAddGate_rel (K : TE p) (A B S : ℕ × ℕ) : Rel (eccAddGate K A B S) (eccAddGate K A B S) := by
  unfold eccAddGate checkPoint; rel

theorem eccAdd_spec [Fact p.Prime] {c : Circ p} (hc : WF c) (K : TE p) (A B : ℕ × ℕ) :
    Spec (eccAdd K A B) c ((PIn c A ∧ PIn c B) ∧ EdDef K.d (ptAt c.val A) (ptAt c.val B))
      (fun v c' => PIn c' v) (fun v w => AddEqs K (ptAt w A) (ptAt w B) (ptAt w v)) := by
  unfold eccAdd
  apply Spec.witness_bind (fun h => h.1.1.1); intro hA1
  apply Spec.witness_bind (fun h => h.1.1.2); intro hA2
  apply Spec.witness_bind (fun h => h.1.2.1); intro hB1
  apply Spec.witness_bind (fun h => h.1.2.2); intro hB2
  have hA : PIn c A := ⟨hA1, hA2⟩
  have hB : PIn c B := ⟨hB1, hB2⟩
  have hz : K.d * c.val A.1 * c.val A.2 * c.val B.1 * c.val B.2 = edZ K.d (ptAt c.val A) (ptAt c.val B) := by
    unfold edZ ptAt; ring
  simp only [hz]
  split
  · rename_i h
    refine Spec.fail ?_
    rintro ⟨_, h1, h2⟩
    rcases h with h | h
    · exact h1 h
    · exact h2 h
  · rename_i h
    push Not at h
    refine Spec.bind (createPointVariable_spec hc _ True) (fun _ _ _ => trivial) hc ?_
    rintro S c1 e1 ⟨hS, hSv⟩
    refine Spec.bind (eccAddGate_spec e1.wf K A B S) ?_ e1.wf ?_
    · rintro - - -
      refine ⟨⟨hA.ext e1, hB.ext e1, hS⟩, ?_⟩
      rw [ptAt_ext e1 hA, ptAt_ext e1 hB, hSv]
      refine (addEqs_iff ⟨h.1, h.2⟩).2 ?_
      unfold edAdd
      refine Prod.ext ?_ ?_
      · simp only [ptAt]; rw [div_eq_mul_inv]
      · simp only [ptAt]; rw [div_eq_mul_inv]; unfold edZ; ring
    rintro _ c2 e2 -
    refine Spec.pure e2.wf (hS.ext e2) ?_
    intro w _ _ g _
    exact g

theorem eccAdd_rel (K : TE p) (A B : ℕ × ℕ) : Rel (eccAdd K A B) (eccAdd K A B) := by
  unfold eccAdd
  apply Rel.witness_bind; intro _ _
  apply Rel.witness_bind; intro _ _
  apply Rel.witness_bind; intro _ _
  apply Rel.witness_bind; intro _ _
  simp only
  refine Rel.guard ?_
  exact Rel.bind (createPointVariable_rel _ _) fun _ => Rel.bind (eccAddGate_rel _ _ _ _) fun _ => Rel.pure _

end Verif.Circuit
