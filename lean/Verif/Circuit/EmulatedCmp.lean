import Verif.Circuit.EmulatedAdd

/-! # Selection and comparison of emulated variables, and constants: specifications -/

set_option linter.unusedSectionVars false

namespace Verif.Circuit

open Finset Verif.Limbs

variable {p : ℕ} {α β : Type}

theorem map_ext {vs : List ℕ} {c c' : Circ p} (h : ∀ v ∈ vs, v < c.numVars) (e : Ext c c') :
    vs.map c'.val = vs.map c.val := List.map_congr_left (fun v hv => e.val v (h v hv))

theorem selectLoop_spec [Fact p.Prime] (b : ℕ) (xs : List ℕ) : ∀ (ys : List ℕ) {c : Circ p} (_ : WF c),
    Spec (selectLoop b xs ys) c
      (b < c.numVars ∧ InV xs c ∧ InV ys c ∧ (c.val b = 0 ∨ c.val b = 1))
      (fun v c' => InV v c')
      (fun v w => v.map w = List.zipWith (fun x y => (1 - w b) * w x + w b * w y) xs ys) := by
  induction xs with
  | nil => intro ys c hc; cases ys <;> exact Spec.pure hc (by simp [InV]) (fun w _ _ => by simp)
  | cons x xs ih =>
    intro ys c hc
    rcases ys with _ | ⟨y, ys⟩
    · exact Spec.pure hc (by simp [InV]) (fun w _ _ => by simp)
    unfold selectLoop
    refine Spec.bind (conditionalSelect_spec hc b x y)
      (fun h _ _ => ⟨⟨h.1, h.2.1 x (by simp), h.2.2.1 y (by simp)⟩, h.2.2.2⟩) hc ?_
    intro v c1 e1 hv
    refine Spec.bind (ih ys e1.wf) ?_ e1.wf ?_
    · rintro ⟨⟨h1, h2, h3, h4⟩, -⟩ _ _
      refine ⟨e1.lt h1, fun z hz => e1.lt (h2 z (by simp [hz])), fun z hz => e1.lt (h3 z (by simp [hz])), ?_⟩
      rwa [e1.val b h1]
    intro vs c2 e2 hvs
    refine Spec.pure e2.wf ?_ (fun w _ _ h1 h2 => by simp [h1, h2])
    intro z hz
    rcases List.mem_cons.1 hz with rfl | hz
    · exact e2.lt hv
    · exact hvs z hz

theorem selectLoop_rel (b : ℕ) (xs : List ℕ) : ∀ ys : List ℕ,
    Rel (selectLoop b xs ys : Build p (List ℕ)) (selectLoop b xs ys) := by
  induction xs with
  | nil => intro ys; cases ys <;> exact Rel.pure _
  | cons x xs ih =>
    intro ys
    rcases ys with _ | ⟨y, ys⟩
    · exact Rel.pure _
    exact Rel.bind (conditionalSelect_rel _ _ _) (fun _ => Rel.bind (ih _) (fun _ => Rel.pure _))

theorem conditionalSelectEmulated_spec [Fact p.Prime] (b : ℕ) (xs ys : List ℕ) {c : Circ p} (hc : WF c) :
    Spec (conditionalSelectEmulated b xs ys) c
      (b < c.numVars ∧ InV xs c ∧ InV ys c ∧ (c.val b = 0 ∨ c.val b = 1))
      (fun v c' => InV v c')
      (fun v w => v.map w = List.zipWith (fun x y => (1 - w b) * w x + w b * w y) xs ys) := by
  unfold conditionalSelectEmulated
  refine Spec.checkVar_bind (fun h => h.1) (fun _ => ?_)
  refine Spec.checkVars_bind (fun h => h.2.1) (fun _ => ?_)
  exact Spec.checkVars_bind (fun h => h.2.2.1) (fun _ => selectLoop_spec b xs ys hc)

theorem conditionalSelectEmulated_rel (b : ℕ) (xs ys : List ℕ) :
    Rel (conditionalSelectEmulated b xs ys : Build p (List ℕ)) (conditionalSelectEmulated b xs ys) := by
  unfold conditionalSelectEmulated
  exact Rel.bind (Rel.checkVar _) (fun _ => Rel.bind (Rel.checkVars _) (fun _ =>
    Rel.bind (Rel.checkVars _) (fun _ => selectLoop_rel b xs ys)))

theorem equalLoop_spec (xs : List ℕ) : ∀ (ys : List ℕ) {c : Circ p} (_ : WF c), xs.length = ys.length →
    Spec (equalLoop xs ys) c (InV xs c ∧ InV ys c ∧ xs.map c.val = ys.map c.val)
      (fun _ _ => True) (fun _ w => xs.map w = ys.map w) := by
  induction xs with
  | nil =>
    intro ys c hc hl
    cases ys
    · exact Spec.pure hc trivial (fun w _ _ => rfl)
    · simp at hl
  | cons x xs ih =>
    intro ys c hc hl
    rcases ys with _ | ⟨y, ys⟩
    · simp at hl
    unfold equalLoop
    refine Spec.bind (enforceEqual_spec hc x y) ?_ hc ?_
    · rintro ⟨h1, h2, h3⟩ _ _
      simp only [List.map_cons, List.cons.injEq] at h3
      exact ⟨⟨h1 x (by simp), h2 y (by simp)⟩, h3.1⟩
    rintro _ c1 e1 -
    refine Spec.conseq e1.wf (ih ys e1.wf (by simpa using hl)) ?_ (fun _ _ _ h => h) ?_
    · rintro ⟨⟨h1, h2, h3⟩, -⟩ _ _
      have h1' : InV xs c := fun z hz => h1 z (by simp [hz])
      have h2' : InV ys c := fun z hz => h2 z (by simp [hz])
      refine ⟨h1'.ext e1, h2'.ext e1, ?_⟩
      simp only [List.map_cons, List.cons.injEq] at h3
      rw [map_ext h1' e1, map_ext h2' e1, h3.2]
    · intro _ w _ _ h1 h2
      simp [h1, h2]

theorem equalLoop_rel (xs : List ℕ) : ∀ ys : List ℕ,
    Rel (equalLoop xs ys : Build p Unit) (equalLoop xs ys) := by
  induction xs with
  | nil => intro ys; cases ys <;> exact Rel.pure _
  | cons x xs ih =>
    intro ys
    rcases ys with _ | ⟨y, ys⟩
    · exact Rel.pure _
    exact Rel.bind (enforceEqual_rel _ _) (fun _ => ih _)

theorem enforceEmulatedEqual_spec (xs ys : List ℕ) {c : Circ p} (hc : WF c) (hl : xs.length = ys.length) :
    Spec (enforceEmulatedEqual xs ys) c (InV xs c ∧ InV ys c ∧ xs.map c.val = ys.map c.val)
      (fun _ _ => True) (fun _ w => xs.map w = ys.map w) := by
  unfold enforceEmulatedEqual
  refine Spec.checkVars_bind (fun h => h.1) (fun _ => ?_)
  exact Spec.checkVars_bind (fun h => h.2.1) (fun _ => equalLoop_spec xs ys hc hl)

theorem enforceEmulatedEqual_rel (xs ys : List ℕ) :
    Rel (enforceEmulatedEqual xs ys : Build p Unit) (enforceEmulatedEqual xs ys) := by
  unfold enforceEmulatedEqual
  exact Rel.bind (Rel.checkVars _) (fun _ => Rel.bind (Rel.checkVars _) (fun _ => equalLoop_rel _ _))

theorem isEqualLoop_spec [Fact p.Prime] (xs : List ℕ) : ∀ (ys : List ℕ) {c : Circ p} (_ : WF c),
    Spec (isEqualLoop xs ys) c (InV xs c ∧ InV ys c)
      (fun v c' => InV v c' ∧ v.length = min xs.length ys.length)
      (fun v w => v.map w = List.zipWith (fun x y => if w x = w y then 1 else 0) xs ys) := by
  induction xs with
  | nil => intro ys c hc; cases ys <;> exact Spec.pure hc (by simp [InV]) (fun w _ _ => by simp)
  | cons x xs ih =>
    intro ys c hc
    rcases ys with _ | ⟨y, ys⟩
    · exact Spec.pure hc (by simp [InV]) (fun w _ _ => by simp)
    unfold isEqualLoop
    refine Spec.bind (isEqual_spec hc x y)
      (fun h _ _ => ⟨h.1 x (by simp), h.2 y (by simp)⟩) hc ?_
    intro v c1 e1 hv
    refine Spec.bind (ih ys e1.wf) ?_ e1.wf ?_
    · rintro ⟨⟨h2, h3⟩, -⟩ _ _
      exact ⟨fun z hz => e1.lt (h2 z (by simp [hz])), fun z hz => e1.lt (h3 z (by simp [hz]))⟩
    rintro vs c2 e2 ⟨hvs, hlv⟩
    refine Spec.pure e2.wf ⟨?_, by simp [hlv]⟩ (fun w _ _ h1 h2 => by simp [h1, h2])
    intro z hz
    rcases List.mem_cons.1 hz with rfl | hz
    · exact e2.lt hv
    · exact hvs z hz

theorem isEqualLoop_rel (xs : List ℕ) : ∀ ys : List ℕ,
    Rel (isEqualLoop xs ys : Build p (List ℕ)) (isEqualLoop xs ys) := by
  induction xs with
  | nil => intro ys; cases ys <;> exact Rel.pure _
  | cons x xs ih =>
    intro ys
    rcases ys with _ | ⟨y, ys⟩
    · exact Rel.pure _
    exact Rel.bind (isEqual_rel _ _) (fun _ => Rel.bind (ih _) (fun _ => Rel.pure _))

theorem isZeroLoop_spec [Fact p.Prime] (xs : List ℕ) : ∀ {c : Circ p} (_ : WF c),
    Spec (isZeroLoop xs) c (InV xs c) (fun v c' => InV v c' ∧ v.length = xs.length)
      (fun v w => v.map w = xs.map (fun x => if w x = 0 then 1 else 0)) := by
  induction xs with
  | nil => intro c hc; exact Spec.pure hc (by simp [InV]) (fun w _ _ => by simp)
  | cons x xs ih =>
    intro c hc
    unfold isZeroLoop
    refine Spec.bind (isZero_spec hc x) (fun h _ _ => h x (by simp)) hc ?_
    intro v c1 e1 hv
    refine Spec.bind (ih e1.wf) ?_ e1.wf ?_
    · rintro ⟨h2, -⟩ _ _
      exact fun z hz => e1.lt (h2 z (by simp [hz]))
    rintro vs c2 e2 ⟨hvs, hlv⟩
    refine Spec.pure e2.wf ⟨?_, by simp [hlv]⟩ (fun w _ _ h1 h2 => by simp [h1, h2])
    intro z hz
    rcases List.mem_cons.1 hz with rfl | hz
    · exact e2.lt hv
    · exact hvs z hz

theorem isZeroLoop_rel (xs : List ℕ) :
    Rel (isZeroLoop xs : Build p (List ℕ)) (isZeroLoop xs) := by
  induction xs with
  | nil => exact Rel.pure _
  | cons x xs ih => exact Rel.bind (isZero_rel _) (fun _ => Rel.bind ih (fun _ => Rel.pure _))

theorem prod_if_zip [Fact p.Prime] (w : ℕ → ZMod p) (xs : List ℕ) : ∀ ys : List ℕ, xs.length = ys.length →
    (List.zipWith (fun x y => if w x = w y then (1 : ZMod p) else 0) xs ys).prod
      = if xs.map w = ys.map w then 1 else 0 := by
  induction xs with
  | nil => intro ys hl; cases ys <;> simp at hl ⊢
  | cons x xs ih =>
    intro ys hl
    rcases ys with _ | ⟨y, ys⟩
    · simp at hl
    rw [List.zipWith_cons_cons, List.prod_cons, ih ys (by simpa using hl)]
    by_cases h1 : w x = w y <;> by_cases h2 : xs.map w = ys.map w <;> simp [h1, h2]

theorem prod_if_zero [Fact p.Prime] (w : ℕ → ZMod p) (xs : List ℕ) :
    (xs.map (fun x => if w x = 0 then (1 : ZMod p) else 0)).prod
      = if ∀ x ∈ xs, w x = 0 then 1 else 0 := by
  induction xs with
  | nil => simp
  | cons x xs ih =>
    rw [List.map_cons, List.prod_cons, ih]
    by_cases h1 : w x = 0 <;> by_cases h2 : ∀ x ∈ xs, w x = 0 <;> simp [h1, h2]

theorem isEmulatedEqual_spec [Fact p.Prime] (xs ys : List ℕ) {c : Circ p} (hc : WF c)
    (hl : xs.length = ys.length) :
    Spec (isEmulatedEqual xs ys) c (xs ≠ [] ∧ InV xs c ∧ InV ys c) (fun v c' => v < c'.numVars)
      (fun v w => w v = if xs.map w = ys.map w then 1 else 0) := by
  unfold isEmulatedEqual
  refine Spec.checkVars_bind (fun h => h.2.1) (fun _ => ?_)
  refine Spec.checkVars_bind (fun h => h.2.2) (fun _ => ?_)
  refine Spec.bind (isEqualLoop_spec xs ys hc) (fun h _ _ => h.2) hc ?_
  rintro vs c1 e1 ⟨hvs, hlv⟩
  refine Spec.conseq e1.wf (logicAndAll_spec e1.wf vs) ?_ ?_ ?_
  · rintro ⟨⟨h1, _, _⟩, -⟩ _ _
    refine ⟨?_, hvs⟩
    rintro rfl
    have : xs.length ≠ 0 := by simpa using h1
    simp at hlv
    omega
  · rintro v c' e' (h | h)
    · exact e'.lt (hvs v (List.mem_of_head? h))
    · exact h
  · intro v w _ _ h1 h2
    rw [h1, h2, prod_if_zip w xs ys hl]

theorem isEmulatedEqual_rel (xs ys : List ℕ) :
    Rel (isEmulatedEqual xs ys : Build p ℕ) (isEmulatedEqual xs ys) := by
  unfold isEmulatedEqual
  exact Rel.bind (Rel.checkVars _) (fun _ => Rel.bind (Rel.checkVars _) (fun _ =>
    Rel.bind (isEqualLoop_rel _ _) (fun _ => logicAndAll_rel _)))

theorem isEmulatedZero_spec [Fact p.Prime] (xs : List ℕ) {c : Circ p} (hc : WF c) :
    Spec (isEmulatedZero xs) c (xs ≠ [] ∧ InV xs c) (fun v c' => v < c'.numVars)
      (fun v w => w v = if ∀ x ∈ xs, w x = 0 then 1 else 0) := by
  unfold isEmulatedZero
  refine Spec.checkVars_bind (fun h => h.2) (fun _ => ?_)
  refine Spec.bind (isZeroLoop_spec xs hc) (fun h _ _ => h.2) hc ?_
  rintro vs c1 e1 ⟨hvs, hlv⟩
  refine Spec.conseq e1.wf (logicAndAll_spec e1.wf vs) ?_ ?_ ?_
  · rintro ⟨⟨h1, _⟩, -⟩ _ _
    refine ⟨?_, hvs⟩
    rintro rfl
    have : xs.length ≠ 0 := by simpa using h1
    simp at hlv
    omega
  · rintro v c' e' (h | h)
    · exact e'.lt (hvs v (List.mem_of_head? h))
    · exact h
  · intro v w _ _ h1 h2
    rw [h1, h2, prod_if_zero]

theorem isEmulatedZero_rel (xs : List ℕ) :
    Rel (isEmulatedZero xs : Build p ℕ) (isEmulatedZero xs) := by
  unfold isEmulatedZero
  exact Rel.bind (Rel.checkVars _) (fun _ => Rel.bind (isZeroLoop_rel _) (fun _ => logicAndAll_rel _))

theorem createConstants_spec (xs : List (ZMod p)) : ∀ {c : Circ p} (_ : WF c),
    Spec (createConstants xs) c True (fun v c' => InV v c') (fun v w => v.map w = xs) := by
  induction xs with
  | nil => intro c hc; exact Spec.pure hc (by simp [InV]) (fun w _ _ => by simp)
  | cons x xs ih =>
    intro c hc
    unfold createConstants
    refine Spec.bind (createConstantVariable_spec hc x) (fun _ _ _ => trivial) hc ?_
    intro v c1 e1 hv
    refine Spec.bind (ih e1.wf) (fun _ _ _ => trivial) e1.wf ?_
    intro vs c2 e2 hvs
    refine Spec.pure e2.wf ?_ (fun w _ _ h1 h2 => by simp [h1, h2])
    intro z hz
    rcases List.mem_cons.1 hz with rfl | hz
    · exact e2.lt hv
    · exact hvs z hz

theorem createConstants_rel (xs : List (ZMod p)) :
    Rel (createConstants xs : Build p (List ℕ)) (createConstants xs) := by
  induction xs with
  | nil => exact Rel.pure _
  | cons x xs ih =>
    exact Rel.bind (createConstantVariable_rel _) (fun _ => Rel.bind ih (fun _ => Rel.pure _))

end Verif.Circuit
