import Verif.Circuit.VerifierAggSpec

/-!
# The circuit that merges keys
-/

set_option linter.unusedSectionVars false

namespace Verif.Circuit.VerifierAgg

open Verif.Circuit.TranscriptVar

variable {p Q : ℕ} [hp : Fact p.Prime] {E : EdGroup (ZMod p)} {T : TE p}

/-- a point is the sum of two points of the group, if they are in the group -/
def Adds (E : EdGroup (ZMod p)) (w : ℕ → ZMod p) (P : ℕ × ℕ) (x : (ℕ × ℕ) × (ℕ × ℕ)) : Prop :=
  ∀ A B : E.Pt, ptAt w x.1 = A.1 → ptAt w x.2 = B.1 → ptAt w P = (A + B).1

/-- a pair of points of the group -/
def OnPair (E : EdGroup (ZMod p)) (w : ℕ → ZMod p) (x : (ℕ × ℕ) × (ℕ × ℕ)) : Prop :=
  ∃ A B : E.Pt, ptAt w x.1 = A.1 ∧ ptAt w x.2 = B.1

theorem OnPair.ext {c c' : Circ p} {x : (ℕ × ℕ) × (ℕ × ℕ)} (h : OnPair E c.val x) (hi : PIn c x.1 ∧ PIn c x.2) (e : Ext c c') :
    OnPair E c'.val x := by
  obtain ⟨A, B, h1, h2⟩ := h
  exact ⟨A, B, by rw [ptAt_ext e hi.1]; exact h1, by rw [ptAt_ext e hi.2]; exact h2⟩

theorem addAll_spec (hE : OnTE T E) : ∀ {l : List ((ℕ × ℕ) × (ℕ × ℕ))} {c : Circ p}, WF c →
    (∀ x ∈ l, PIn c x.1 ∧ PIn c x.2) →
    Spec (addAll T l) c (∀ x ∈ l, OnPair E c.val x) (fun r c' => PtsIn r c') (fun r w => List.Forall₂ (Adds E w) r l)
  | [], c, hc, _ => by
    unfold addAll
    exact Spec.pure hc (fun _ h => by simp at h) fun _ _ _ => .nil
  | x :: l, c, hc, hi => by
    unfold addAll
    refine Spec.bind (eccAdd_group hc hE x.1 x.2) (fun h _ _ => ⟨hi x (by simp), h x (by simp)⟩) hc fun P c1 e1 b1 => ?_
    refine Spec.bind (addAll_spec hE (l := l) e1.wf fun y hy => ⟨(hi y (by simp [hy])).1.ext e1, (hi y (by simp [hy])).2.ext e1⟩)
      (fun h _ _ y hy => (h.1 y (by simp [hy])).ext (hi y (by simp [hy])) e1) e1.wf fun r c2 e2 b2 => ?_
    refine Spec.pure e2.wf (fun y hy => ?_) fun w _ _ hr hP => .cons hP hr
    rcases List.mem_cons.1 hy with rfl | hy
    · exact b1.ext e2
    · exact b2 y hy

/-- the points of a key exist -/
def KeyIn (x : VkVar Q) (c : Circ p) : Prop := PtsIn x.sigmas c ∧ PtsIn x.selectors c

theorem KeyIn.ext {x : VkVar Q} {c c' : Circ p} (h : KeyIn x c) (e : Ext c c') : KeyIn x c' := ⟨h.1.ext e, h.2.ext e⟩

/-- the keys can be merged -/
def CanMerge (a b : VkVar Q) : Prop :=
  a.merged = false ∧ b.merged = false ∧ a.domSize = b.domSize ∧ a.numInputs = b.numInputs

/-- the numbers of a merged key -/
def Numbers (v : VkVar Q) (x : VkVar Q × VkVar Q) : Prop :=
  CanMerge x.1 x.2 ∧ v.merged = true ∧ v.domSize = x.1.domSize ∧ v.numInputs = x.1.numInputs + x.2.numInputs ∧ v.k = x.1.k

/-- the points of a merged key -/
def Sum (E : EdGroup (ZMod p)) (w : ℕ → ZMod p) (v : VkVar Q) (x : VkVar Q × VkVar Q) : Prop :=
  List.Forall₂ (Adds E w) v.sigmas (x.1.sigmas.zip x.2.sigmas) ∧ List.Forall₂ (Adds E w) v.selectors (x.1.selectors.zip x.2.selectors)

/-- the keys have points of the group -/
def OnKeys (E : EdGroup (ZMod p)) (w : ℕ → ZMod p) (x : VkVar Q × VkVar Q) : Prop :=
  (∀ y ∈ x.1.sigmas.zip x.2.sigmas, OnPair E w y) ∧ ∀ y ∈ x.1.selectors.zip x.2.selectors, OnPair E w y

theorem zip_in {l m : List (ℕ × ℕ)} {c : Circ p} (hl : PtsIn l c) (hm : PtsIn m c) : ∀ x ∈ l.zip m, PIn c x.1 ∧ PIn c x.2 :=
  fun _ hx => ⟨hl _ (List.of_mem_zip hx).1, hm _ (List.of_mem_zip hx).2⟩

theorem OnKeys.ext {x : VkVar Q × VkVar Q} {c c' : Circ p} (h : OnKeys E c.val x) (h1 : KeyIn x.1 c) (h2 : KeyIn x.2 c) (e : Ext c c') :
    OnKeys E c'.val x :=
  ⟨fun y hy => (h.1 y hy).ext (zip_in h1.1 h2.1 y hy) e, fun y hy => (h.2 y hy).ext (zip_in h1.2 h2.2 y hy) e⟩

theorem mergeKeys_spec (hE : OnTE T E) {a b : VkVar Q} {c : Circ p} (hc : WF c) (ha : KeyIn a c) (hb : KeyIn b c) :
    Spec (mergeKeys T a b) c (CanMerge a b ∧ OnKeys E c.val (a, b)) (fun v c' => KeyIn v c' ∧ Numbers v (a, b))
      (fun v w => Sum E w v (a, b)) := by
  unfold mergeKeys
  by_cases h1 : (a.merged || b.merged) = true
  · rw [if_pos h1]
    exact Spec.fail fun h => by rw [h.1.1, h.1.2.1] at h1; simp at h1
  rw [if_neg h1]
  by_cases h2 : a.domSize = b.domSize
  swap
  · rw [if_pos h2]
    exact Spec.fail fun h => h2 h.1.2.2.1
  rw [if_neg (not_not.2 h2)]
  by_cases h3 : a.numInputs = b.numInputs
  swap
  · rw [if_pos h3]
    exact Spec.fail fun h => h3 h.1.2.2.2
  rw [if_neg (not_not.2 h3)]
  have hm : a.merged = false ∧ b.merged = false := by
    cases ha : a.merged <;> cases hb : b.merged <;> simp [ha, hb] at h1 <;> exact ⟨rfl, rfl⟩
  refine Spec.bind (addAll_spec hE hc (zip_in ha.1 hb.1)) (fun h _ _ => h.2.1) hc fun σ c1 e1 b1 => ?_
  refine Spec.bind (addAll_spec hE e1.wf (zip_in (ha.ext e1).2 (hb.ext e1).2)) (fun h _ _ => (h.1.2.ext ha hb e1).2) e1.wf
    fun s c2 e2 b2 => ?_
  exact Spec.pure e2.wf ⟨⟨b1.ext e2, b2⟩, ⟨hm.1, hm.2, h2, h3⟩, rfl, rfl, rfl, rfl⟩ fun w _ _ h1 h2 => ⟨h2, h1⟩

theorem mergeAll_spec (hE : OnTE T E) : ∀ {l : List (VkVar Q × VkVar Q)} {c : Circ p}, WF c →
    (∀ x ∈ l, KeyIn x.1 c ∧ KeyIn x.2 c) →
    Spec (mergeAll T l) c (∀ x ∈ l, CanMerge x.1 x.2 ∧ OnKeys E c.val x)
      (fun r c' => (∀ v ∈ r, KeyIn v c') ∧ List.Forall₂ Numbers r l) (fun r w => List.Forall₂ (Sum E w) r l)
  | [], c, hc, _ => by
    unfold mergeAll
    exact Spec.pure hc ⟨fun _ h => by simp at h, .nil⟩ fun _ _ _ => .nil
  | x :: l, c, hc, hi => by
    unfold mergeAll
    refine Spec.bind (mergeKeys_spec hE hc (hi x (by simp)).1 (hi x (by simp)).2) (fun h _ _ => h x (by simp)) hc
      fun v c1 e1 b1 => ?_
    refine Spec.bind (mergeAll_spec hE (l := l) e1.wf fun y hy => ⟨(hi y (by simp [hy])).1.ext e1, (hi y (by simp [hy])).2.ext e1⟩)
      (fun h _ _ y hy => ⟨(h.1 y (by simp [hy])).1, (h.1 y (by simp [hy])).2.ext (hi y (by simp [hy])).1 (hi y (by simp [hy])).2 e1⟩)
      e1.wf fun r c2 e2 b2 => ?_
    refine Spec.pure e2.wf ⟨fun y hy => ?_, .cons b1.2 b2.2⟩ fun w _ _ hr hP => .cons hP hr
    rcases List.mem_cons.1 hy with rfl | hy
    · exact b1.1.ext e2
    · exact b2.1 y hy

end Verif.Circuit.VerifierAgg
