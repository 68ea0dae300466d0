import Verif.Circuit.EmulatedCurve
import Verif.Props.EmulatedCmp

/-!
# Points over an emulated field: constants, selection and equality (property C76)
-/

namespace Verif.Props.Emulated

open Verif.Circuit Verif.Props.Circuit

set_option linter.unusedSectionVars false

variable {p : ℕ}

/-- in the assignment `w` the limbs of the coordinates are in range and make up the point `A` -/
structure SwVal (E : Emu) (w : ℕ → ZMod p) (P : SwVar) (A : SwPoint) : Prop where
  rx : Ranged E w P.x
  ry : Ranged E w P.y
  x : value E.B w P.x = A.x
  y : value E.B w P.y = A.y
  inf : w P.inf = if A.inf then 1 else 0

/-- the three parts of a point variable are variables of the circuit -/
structure IsSw (E : Emu) (P : SwVar) (c : Circ p) : Prop where
  x : IsVar E P.x c
  y : IsVar E P.y c
  inf : P.inf < c.numVars

/-- the same for points without an infinity mark -/
structure TeVal (E : Emu) (w : ℕ → ZMod p) (P : TeVar) (A : ℕ × ℕ) : Prop where
  rx : Ranged E w P.x
  ry : Ranged E w P.y
  x : value E.B w P.x = A.1
  y : value E.B w P.y = A.2

/-- the two parts of a point variable are variables of the circuit -/
structure IsTe (E : Emu) (P : TeVar) (c : Circ p) : Prop where
  x : IsVar E P.x c
  y : IsVar E P.y c

theorem IsVar.ext {E : Emu} {v : List ℕ} {c c' : Circ p} (h : IsVar E v c) (e : Ext c c') : IsVar E v c' :=
  ⟨h.1, fun x hx => e.lt (h.2 x hx)⟩

variable [hp : Fact p.Prime]

theorem SwVal.congr {E : Emu} {P : SwVar} {A : SwPoint} {c : Circ p} {w w' : ℕ → ZMod p} (h : SwVal E w P A)
    (hd : IsSw E P c) (ha : ∀ i, i < c.numVars → w' i = w i) : SwVal E w' P A :=
  ⟨h.rx.congr hd.x ha, h.ry.congr hd.y ha, by rw [value_agree hd.x ha, h.x], by rw [value_agree hd.y ha, h.y],
    by rw [ha _ hd.inf, h.inf]⟩

theorem TeVal.congr {E : Emu} {P : TeVar} {A : ℕ × ℕ} {c : Circ p} {w w' : ℕ → ZMod p} (h : TeVal E w P A)
    (hd : IsTe E P c) (ha : ∀ i, i < c.numVars → w' i = w i) : TeVal E w' P A :=
  ⟨h.rx.congr hd.x ha, h.ry.congr hd.y ha, by rw [value_agree hd.x ha, h.x], by rw [value_agree hd.y ha, h.y]⟩

/-- a selected pair of limbs lists -/
theorem select_map {E : Emu} {c : Circ p} {b : ℕ} {xs ys v : List ℕ} {w : ℕ → ZMod p} (hx : IsVar E xs c)
    (hy : IsVar E ys c) (h : v.map w = List.zipWith (fun x y => (1 - w b) * w x + w b * w y) xs ys) :
    (w b = 0 → v.map w = xs.map w) ∧ (w b = 1 → v.map w = ys.map w) := by
  have hl : xs.length = ys.length := by rw [hx.1, hy.1]
  constructor
  · intro hb
    rwa [zip_left (w := w) (by intro x y; simp [hb]) hl] at h
  · intro hb
    rwa [zip_right (w := w) (by intro x y; simp [hb]) hl] at h

/-- **C76, selection**, short Weierstrass form: the first point for bit 0, the second for bit 1. -/
theorem C76_sw_select (E : Emu) (b : ℕ) (P Q : SwVar) :
    Correct (selectSw b P Q : Build p SwVar) (fun c => b < c.numVars ∧ IsSw E P c ∧ IsSw E Q c)
      (fun w => w b = 0 ∨ w b = 1)
      (fun v w => (w b = 0 → ∀ A, SwVal E w P A → SwVal E w v A) ∧
        (w b = 1 → ∀ A, SwVal E w Q A → SwVal E w v A)) := by
  refine Correct.of_spec (B := fun _ v c' => InV v.x c' ∧ InV v.y c' ∧ v.inf < c'.numVars) ?_ ?_ ?_ ?_
  · unfold selectSw
    exact Rel.bind (conditionalSelectEmulated_rel _ _ _) fun _ => Rel.bind (conditionalSelectEmulated_rel _ _ _) fun _ =>
      Rel.bind (conditionalSelect_rel _ _ _) fun _ => Rel.pure _
  · rintro c w ⟨h1, h2, h3⟩
    exact ⟨h1, ⟨h2.x, h2.y, h2.inf⟩, ⟨h3.x, h3.y, h3.inf⟩⟩
  · rintro c w w' ⟨hb, _, _⟩ ha hw
    rwa [ha b hb]
  · rintro c hc ⟨hb, hP, hQ⟩
    unfold selectSw
    refine Spec.bind (conditionalSelectEmulated_spec b P.x Q.x hc) (fun h _ _ => ⟨hb, hP.x.2, hQ.x.2, h⟩) hc ?_
    intro v1 c1 e1 b1
    refine Spec.bind (conditionalSelectEmulated_spec b P.y Q.y e1.wf)
      (fun h _ _ => ⟨e1.lt hb, (hP.y.ext e1).2, (hQ.y.ext e1).2, by rw [e1.val b hb]; exact h.1⟩) e1.wf ?_
    intro v2 c2 e2 b2
    have e12 := e1.trans e2
    refine Spec.bind (conditionalSelect_spec e2.wf b P.inf Q.inf)
      (fun h _ _ => ⟨⟨e12.lt hb, e12.lt hP.inf, e12.lt hQ.inf⟩, by rw [e12.val b hb]; exact h.1.1⟩) e2.wf ?_
    intro v3 c3 e3 b3
    refine Spec.pure e3.wf ⟨fun x hx => e3.lt (e2.lt (b1 x hx)), fun x hx => e3.lt (b2 x hx), b3⟩ ?_
    intro w _ _ h3 h2 h1
    obtain ⟨x0, x1⟩ := select_map hP.x hQ.x h1
    obtain ⟨y0, y1⟩ := select_map hP.y hQ.y h2
    constructor
    · intro h0 A hA
      have mx := same_map (E := E) (x0 h0)
      have my := same_map (E := E) (y0 h0)
      exact ⟨mx.1 hA.rx, my.1 hA.ry, mx.2.trans hA.x, my.2.trans hA.y, by rw [h3, h0]; simpa using hA.inf⟩
    · intro h0 A hA
      have mx := same_map (E := E) (x1 h0)
      have my := same_map (E := E) (y1 h0)
      exact ⟨mx.1 hA.rx, my.1 hA.ry, mx.2.trans hA.x, my.2.trans hA.y, by rw [h3, h0]; simpa using hA.inf⟩

/-- **C76, selection**, twisted Edwards form. -/
theorem C76_te_select (E : Emu) (b : ℕ) (P Q : TeVar) :
    Correct (selectTe b P Q : Build p TeVar) (fun c => b < c.numVars ∧ IsTe E P c ∧ IsTe E Q c)
      (fun w => w b = 0 ∨ w b = 1)
      (fun v w => (w b = 0 → ∀ A, TeVal E w P A → TeVal E w v A) ∧
        (w b = 1 → ∀ A, TeVal E w Q A → TeVal E w v A)) := by
  refine Correct.of_spec (B := fun _ v c' => InV v.x c' ∧ InV v.y c') ?_ ?_ ?_ ?_
  · unfold selectTe
    exact Rel.bind (conditionalSelectEmulated_rel _ _ _) fun _ => Rel.bind (conditionalSelectEmulated_rel _ _ _) fun _ =>
      Rel.pure _
  · rintro c w ⟨h1, h2, h3⟩
    exact ⟨h1, ⟨h2.x, h2.y⟩, ⟨h3.x, h3.y⟩⟩
  · rintro c w w' ⟨hb, _, _⟩ ha hw
    rwa [ha b hb]
  · rintro c hc ⟨hb, hP, hQ⟩
    unfold selectTe
    refine Spec.bind (conditionalSelectEmulated_spec b P.x Q.x hc) (fun h _ _ => ⟨hb, hP.x.2, hQ.x.2, h⟩) hc ?_
    intro v1 c1 e1 b1
    refine Spec.bind (conditionalSelectEmulated_spec b P.y Q.y e1.wf)
      (fun h _ _ => ⟨e1.lt hb, (hP.y.ext e1).2, (hQ.y.ext e1).2, by rw [e1.val b hb]; exact h.1⟩) e1.wf ?_
    intro v2 c2 e2 b2
    refine Spec.pure e2.wf ⟨fun x hx => e2.lt (b1 x hx), b2⟩ ?_
    intro w _ _ h2 h1
    obtain ⟨x0, x1⟩ := select_map hP.x hQ.x h1
    obtain ⟨y0, y1⟩ := select_map hP.y hQ.y h2
    constructor
    · intro h0 A hA
      have mx := same_map (E := E) (x0 h0)
      have my := same_map (E := E) (y0 h0)
      exact ⟨mx.1 hA.rx, my.1 hA.ry, mx.2.trans hA.x, my.2.trans hA.y⟩
    · intro h0 A hA
      have mx := same_map (E := E) (x1 h0)
      have my := same_map (E := E) (y1 h0)
      exact ⟨mx.1 hA.rx, my.1 hA.ry, mx.2.trans hA.x, my.2.trans hA.y⟩

theorem maps_eq {E : Emu} {c : Circ p} {xs ys : List ℕ} {w : ℕ → ZMod p} (hx : IsVar E xs c) (hy : IsVar E ys c)
    (rx : Ranged E w xs) (ry : Ranged E w ys) : xs.map w = ys.map w ↔ value E.B w xs = value E.B w ys := by
  have : NeZero p := ⟨hp.out.ne_zero⟩
  exact (value_inj (by rw [hx.1, hy.1]) rx ry).symm

/-- **C76, enforced equality**, short Weierstrass form: it holds exactly for equal points (infinity marks included). -/
theorem C76_sw_enforce_equal (E : Emu) (P Q : SwVar) :
    Correct (enforceSwEqual P Q : Build p Unit) (fun c => IsSw E P c ∧ IsSw E Q c)
      (fun w => ∃ A, SwVal E w P A ∧ SwVal E w Q A)
      (fun _ w => ∀ A, SwVal E w P A ↔ SwVal E w Q A) := by
  refine Correct.of_spec (B := fun _ _ _ => True) ?_ ?_ ?_ ?_
  · unfold enforceSwEqual
    exact Rel.bind (enforceEmulatedEqual_rel _ _) fun _ => Rel.bind (enforceEmulatedEqual_rel _ _) fun _ =>
      enforceEqual_rel _ _
  · rintro c w ⟨h2, h3⟩
    exact ⟨⟨h2.x, h2.y, h2.inf⟩, ⟨h3.x, h3.y, h3.inf⟩⟩
  · rintro c w w' ⟨hP, hQ⟩ ha ⟨A, h1, h2⟩
    exact ⟨A, h1.congr hP ha, h2.congr hQ ha⟩
  · rintro c hc ⟨hP, hQ⟩
    have lx : P.x.length = Q.x.length := by rw [hP.x.1, hQ.x.1]
    have ly : P.y.length = Q.y.length := by rw [hP.y.1, hQ.y.1]
    unfold enforceSwEqual
    refine Spec.bind (enforceEmulatedEqual_spec P.x Q.x hc lx) ?_ hc ?_
    · rintro ⟨A, h1, h2⟩ _ _
      exact ⟨hP.x.2, hQ.x.2, (maps_eq hP.x hQ.x h1.rx h2.rx).2 (h1.x.trans h2.x.symm)⟩
    intro _ c1 e1 _
    refine Spec.bind (enforceEmulatedEqual_spec P.y Q.y e1.wf ly) ?_ e1.wf ?_
    · rintro ⟨⟨A, h1, h2⟩, -⟩ _ _
      have h1 := h1.congr hP e1.val
      have h2 := h2.congr hQ e1.val
      exact ⟨(hP.y.ext e1).2, (hQ.y.ext e1).2,
        (maps_eq hP.y hQ.y h1.ry h2.ry).2 (h1.y.trans h2.y.symm)⟩
    intro _ c2 e2 _
    have e12 := e1.trans e2
    refine Spec.conseq e2.wf (enforceEqual_spec e2.wf P.inf Q.inf) ?_ (fun _ _ _ _ => trivial) ?_
    · rintro ⟨⟨⟨A, h1, h2⟩, -⟩, -⟩ _ _
      have h1 := h1.congr hP e12.val
      have h2 := h2.congr hQ e12.val
      exact ⟨⟨e12.lt hP.inf, e12.lt hQ.inf⟩, h1.inf.trans h2.inf.symm⟩
    · intro _ w _ _ h3 h2 h1 A
      have mx := same_map (E := E) h1
      have mx' := same_map (E := E) h1.symm
      have my := same_map (E := E) h2
      have my' := same_map (E := E) h2.symm
      constructor
      · intro h
        exact ⟨mx'.1 h.rx, my'.1 h.ry, mx'.2.trans h.x, my'.2.trans h.y, h3.symm.trans h.inf⟩
      · intro h
        exact ⟨mx.1 h.rx, my.1 h.ry, mx.2.trans h.x, my.2.trans h.y, h3.trans h.inf⟩

/-- **C76, enforced equality**, twisted Edwards form. -/
theorem C76_te_enforce_equal (E : Emu) (P Q : TeVar) :
    Correct (enforceTeEqual P Q : Build p Unit) (fun c => IsTe E P c ∧ IsTe E Q c)
      (fun w => ∃ A, TeVal E w P A ∧ TeVal E w Q A)
      (fun _ w => ∀ A, TeVal E w P A ↔ TeVal E w Q A) := by
  refine Correct.of_spec (B := fun _ _ _ => True) ?_ ?_ ?_ ?_
  · unfold enforceTeEqual
    exact Rel.bind (enforceEmulatedEqual_rel _ _) fun _ => enforceEmulatedEqual_rel _ _
  · rintro c w ⟨h2, h3⟩
    exact ⟨⟨h2.x, h2.y⟩, ⟨h3.x, h3.y⟩⟩
  · rintro c w w' ⟨hP, hQ⟩ ha ⟨A, h1, h2⟩
    exact ⟨A, h1.congr hP ha, h2.congr hQ ha⟩
  · rintro c hc ⟨hP, hQ⟩
    have lx : P.x.length = Q.x.length := by rw [hP.x.1, hQ.x.1]
    have ly : P.y.length = Q.y.length := by rw [hP.y.1, hQ.y.1]
    unfold enforceTeEqual
    refine Spec.bind (enforceEmulatedEqual_spec P.x Q.x hc lx) ?_ hc ?_
    · rintro ⟨A, h1, h2⟩ _ _
      exact ⟨hP.x.2, hQ.x.2, (maps_eq hP.x hQ.x h1.rx h2.rx).2 (h1.x.trans h2.x.symm)⟩
    intro _ c1 e1 _
    refine Spec.conseq e1.wf (enforceEmulatedEqual_spec P.y Q.y e1.wf ly) ?_ (fun _ _ _ _ => trivial) ?_
    · rintro ⟨⟨A, h1, h2⟩, -⟩ _ _
      have h1 := h1.congr hP e1.val
      have h2 := h2.congr hQ e1.val
      exact ⟨(hP.y.ext e1).2, (hQ.y.ext e1).2,
        (maps_eq hP.y hQ.y h1.ry h2.ry).2 (h1.y.trans h2.y.symm)⟩
    · intro _ w _ _ h2 h1 A
      have mx := same_map (E := E) h1
      have mx' := same_map (E := E) h1.symm
      have my := same_map (E := E) h2
      have my' := same_map (E := E) h2.symm
      exact ⟨fun h => ⟨mx'.1 h.rx, my'.1 h.ry, mx'.2.trans h.x, my'.2.trans h.y⟩,
        fun h => ⟨mx.1 h.rx, my.1 h.ry, mx.2.trans h.x, my.2.trans h.y⟩⟩

theorem IsVar.cons {E : Emu} (hn : 0 < E.n) {v : List ℕ} {c : Circ p} (h : IsVar E v c) : v ≠ [] := by
  rintro rfl
  have := h.1
  simp at this
  omega

/-- **C76, equality test**, short Weierstrass form: 1 for equal points (infinity marks included), 0 otherwise. -/
theorem C76_sw_is_equal {E : Emu} (hn : 0 < E.n) (P Q : SwVar) :
    Correct (isSwEqual P Q : Build p ℕ) (fun c => IsSw E P c ∧ IsSw E Q c) (fun _ => True)
      (fun v w => ∀ A B, SwVal E w P A → SwVal E w Q B → w v = if A = B then 1 else 0) := by
  refine Correct.of_spec (B := fun _ v c' => v < c'.numVars) ?_ ?_ (fun _ _ _ _ _ h => h) ?_
  · unfold isSwEqual
    exact Rel.bind (isEmulatedEqual_rel _ _) fun _ => Rel.bind (isEmulatedEqual_rel _ _) fun _ =>
      Rel.bind (isEqual_rel _ _) fun _ => Rel.bind (mul_rel _ _) fun _ => mul_rel _ _
  · rintro c w ⟨h2, h3⟩
    exact ⟨⟨h2.x, h2.y, h2.inf⟩, ⟨h3.x, h3.y, h3.inf⟩⟩
  · rintro c hc ⟨hP, hQ⟩
    have lx : P.x.length = Q.x.length := by rw [hP.x.1, hQ.x.1]
    have ly : P.y.length = Q.y.length := by rw [hP.y.1, hQ.y.1]
    unfold isSwEqual
    refine Spec.bind (isEmulatedEqual_spec P.x Q.x hc lx) (fun _ _ _ => ⟨hP.x.cons hn, hP.x.2, hQ.x.2⟩) hc ?_
    intro v1 c1 e1 b1
    refine Spec.bind (isEmulatedEqual_spec P.y Q.y e1.wf ly)
      (fun _ _ _ => ⟨hP.y.cons hn, (hP.y.ext e1).2, (hQ.y.ext e1).2⟩) e1.wf ?_
    intro v2 c2 e2 b2
    have e12 := e1.trans e2
    refine Spec.bind (isEqual_spec e2.wf P.inf Q.inf) (fun _ _ _ => ⟨e12.lt hP.inf, e12.lt hQ.inf⟩) e2.wf ?_
    intro v3 c3 e3 b3
    refine Spec.bind (mul_spec e3.wf v1 v2) (fun _ _ _ => ⟨e3.lt (e2.lt b1), e3.lt b2⟩) e3.wf ?_
    intro v4 c4 e4 b4
    refine Spec.conseq e4.wf (mul_spec e4.wf v4 v3) (fun _ _ _ => ⟨b4, e4.lt b3⟩) (fun _ _ _ h => h) ?_
    intro v w _ _ h5 h4 h3 h2 h1 A B hA hB
    rw [h5, h4, h3, h2, h1]
    simp only [maps_eq hP.x hQ.x hA.rx hB.rx, maps_eq hP.y hQ.y hA.ry hB.ry, hA.x, hA.y, hB.x, hB.y, hA.inf, hB.inf]
    obtain ⟨ax, ay, ai⟩ := A
    obtain ⟨bx, bY, bi⟩ := B
    simp only [SwPoint.mk.injEq]
    by_cases h1 : ax = bx <;> by_cases h2 : ay = bY <;> cases ai <;> cases bi <;> simp [h1, h2]

/-- **C76, equality test**, twisted Edwards form. -/
theorem C76_te_is_equal {E : Emu} (hn : 0 < E.n) (P Q : TeVar) :
    Correct (isTeEqual P Q : Build p ℕ) (fun c => IsTe E P c ∧ IsTe E Q c) (fun _ => True)
      (fun v w => ∀ A B, TeVal E w P A → TeVal E w Q B → w v = if A = B then 1 else 0) := by
  refine Correct.of_spec (B := fun _ v c' => v < c'.numVars) ?_ ?_ (fun _ _ _ _ _ h => h) ?_
  · unfold isTeEqual
    exact Rel.bind (isEmulatedEqual_rel _ _) fun _ => Rel.bind (isEmulatedEqual_rel _ _) fun _ => mul_rel _ _
  · rintro c w ⟨h2, h3⟩
    exact ⟨⟨h2.x, h2.y⟩, ⟨h3.x, h3.y⟩⟩
  · rintro c hc ⟨hP, hQ⟩
    have lx : P.x.length = Q.x.length := by rw [hP.x.1, hQ.x.1]
    have ly : P.y.length = Q.y.length := by rw [hP.y.1, hQ.y.1]
    unfold isTeEqual
    refine Spec.bind (isEmulatedEqual_spec P.x Q.x hc lx) (fun _ _ _ => ⟨hP.x.cons hn, hP.x.2, hQ.x.2⟩) hc ?_
    intro v1 c1 e1 b1
    refine Spec.bind (isEmulatedEqual_spec P.y Q.y e1.wf ly)
      (fun _ _ _ => ⟨hP.y.cons hn, (hP.y.ext e1).2, (hQ.y.ext e1).2⟩) e1.wf ?_
    intro v2 c2 e2 b2
    refine Spec.conseq e2.wf (mul_spec e2.wf v1 v2) (fun _ _ _ => ⟨e2.lt b1, b2⟩) (fun _ _ _ h => h) ?_
    intro v w _ _ h3 h2 h1 A B hA hB
    rw [h3, h2, h1]
    simp only [maps_eq hP.x hQ.x hA.rx hB.rx, maps_eq hP.y hQ.y hA.ry hB.ry, hA.x, hA.y, hB.x, hB.y]
    obtain ⟨ax, ay⟩ := A
    obtain ⟨bx, bY⟩ := B
    simp only [Prod.mk.injEq]
    by_cases h1 : ax = bx <;> by_cases h2 : ay = bY <;> simp [h1, h2]

/-- what a constant emulated element is -/
theorem constant_spec {E : Emu} (h : E.OK p) {x : ℕ} (hx : x < E.q) {c : Circ p} (hc : WF c) :
    Spec (createConstantEmulated E x) c True (fun v c' => InV v c')
      (fun v w => Ranged E w v ∧ value E.B w v = x) := by
  refine Spec.conseq hc (createConstants_spec _ hc) (fun _ _ _ => trivial) (fun _ _ _ h => h) ?_
  intro v w h0 _ hv
  refine ⟨?_, value_map h h0 (hx.trans h.hqT) hv⟩
  intro y hy
  have : w y ∈ fromEmulated p E x := by rw [← hv]; exact List.mem_map_of_mem hy
  exact toLimbs_val_lt _ _ _ _ this

/-- **C76, constants**, short Weierstrass form. -/
theorem C76_sw_constant {E : Emu} (h : E.OK p) (A : SwPoint) (hx : A.x < E.q) (hy : A.y < E.q) :
    Correct (createConstantSw E A : Build p SwVar) (fun _ => True) (fun _ => True) (fun v w => SwVal E w v A) := by
  refine Correct.of_spec (B := fun _ v c' => InV v.x c' ∧ InV v.y c') ?_ (fun _ _ h => h) (fun _ _ _ _ _ h => h) ?_
  · unfold createConstantSw
    exact Rel.bind (createConstants_rel _) fun _ => Rel.bind (createConstants_rel _) fun _ => Rel.pure _
  · intro c hc _
    unfold createConstantSw
    refine Spec.bind (constant_spec h hx hc) (fun _ _ _ => trivial) hc ?_
    intro v1 c1 e1 b1
    refine Spec.bind (constant_spec h hy e1.wf) (fun _ _ _ => trivial) e1.wf ?_
    intro v2 c2 e2 b2
    refine Spec.pure e2.wf ⟨fun x hx => e2.lt (b1 x hx), b2⟩ ?_
    intro w w0 w1 h2 h1
    refine ⟨h1.1, h2.1, h1.2, h2.2, ?_⟩
    cases A.inf <;> simp [w0, w1]

/-- **C76, constants**, twisted Edwards form. -/
theorem C76_te_constant {E : Emu} (h : E.OK p) (A : ℕ × ℕ) (hx : A.1 < E.q) (hy : A.2 < E.q) :
    Correct (createConstantTe E A : Build p TeVar) (fun _ => True) (fun _ => True) (fun v w => TeVal E w v A) := by
  refine Correct.of_spec (B := fun _ v c' => InV v.x c' ∧ InV v.y c') ?_ (fun _ _ h => h) (fun _ _ _ _ _ h => h) ?_
  · unfold createConstantTe
    exact Rel.bind (createConstants_rel _) fun _ => Rel.bind (createConstants_rel _) fun _ => Rel.pure _
  · intro c hc _
    unfold createConstantTe
    refine Spec.bind (constant_spec h hx hc) (fun _ _ _ => trivial) hc ?_
    intro v1 c1 e1 b1
    refine Spec.bind (constant_spec h hy e1.wf) (fun _ _ _ => trivial) e1.wf ?_
    intro v2 c2 e2 b2
    refine Spec.pure e2.wf ⟨fun x hx => e2.lt (b1 x hx), b2⟩ ?_
    intro w w0 w1 h2 h1
    exact ⟨h1.1, h2.1, h1.2, h2.2⟩

/-! ## Examples -/

/-- two constant points, compared with each other and with themselves, and one of them selected by the bit 1 -/
def pointsProgram (A B : SwPoint) : Build 257 (SwVar × SwVar × ℕ × ℕ × SwVar) := do
  let P ← createConstantSw toy A
  let Q ← createConstantSw toy B
  let r ← isSwEqual P Q
  let s ← isSwEqual P P
  let S ← selectSw 1 P Q
  enforceSwEqual S Q
  pure (P, Q, r, s, S)

/-- The circuit is satisfied by the builder's own assignment, with the tests 0 and 1. -/
example : (match pointsProgram ⟨6, 3, false⟩ ⟨6, 3, true⟩ (Circ.new 257 none) with
    | .ok ((P, Q, r, s, S), c) => decide (checkSat c [] = .ok () ∧ c.val r = 0 ∧ c.val s = 1 ∧
        value 2 c.val P.x = 6 ∧ value 2 c.val S.y = 3 ∧ c.val S.inf = 1 ∧ (∀ v ∈ P.x ++ P.y ++ Q.x ++ Q.y, v < c.numVars))
    | .error _ => false) = true := by
  decide +kernel

end Verif.Props.Emulated
