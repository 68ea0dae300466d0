import Verif.Props.Emulated

/-!
# Selection, equality and zero test of emulated variables (property C71)
-/

set_option linter.unusedSectionVars false

namespace Verif.Props.Emulated

open Verif.Circuit Verif.Props.Circuit Verif.Limbs

variable {p : ℕ}

theorem zip_left {w : ℕ → ZMod p} {f : ℕ → ℕ → ZMod p} (hf : ∀ x y, f x y = w x) {xs : List ℕ} :
    ∀ {ys : List ℕ}, xs.length = ys.length → List.zipWith f xs ys = xs.map w := by
  induction xs with
  | nil => intro ys _; simp
  | cons x xs ih =>
    intro ys hl
    rcases ys with _ | ⟨y, ys⟩
    · simp at hl
    rw [List.zipWith_cons_cons, ih (by simpa using hl), hf, List.map_cons]

theorem zip_right {w : ℕ → ZMod p} {f : ℕ → ℕ → ZMod p} (hf : ∀ x y, f x y = w y) {xs : List ℕ} :
    ∀ {ys : List ℕ}, xs.length = ys.length → List.zipWith f xs ys = ys.map w := by
  induction xs with
  | nil => intro ys hl; have h2 : ys = [] := by simpa using hl.symm
           simp [h2]
  | cons x xs ih =>
    intro ys hl
    rcases ys with _ | ⟨y, ys⟩
    · simp at hl
    rw [List.zipWith_cons_cons, ih (by simpa using hl), hf, List.map_cons]

theorem same_map {E : Emu} {w : ℕ → ZMod p} {v xs : List ℕ} (h : v.map w = xs.map w) :
    (Ranged E w xs → Ranged E w v) ∧ value E.B w v = value E.B w xs := by
  constructor
  · intro hr x hx
    have : w x ∈ xs.map w := by rw [← h]; exact List.mem_map_of_mem hx
    obtain ⟨z, hz, he⟩ := List.mem_map.1 this
    rw [← he]; exact hr z hz
  · induction v generalizing xs with
    | nil => have : xs = [] := by simpa using h.symm
             rw [this]
    | cons a v ih =>
      rcases xs with _ | ⟨x, xs⟩
      · simp at h
      simp only [List.map_cons, List.cons.injEq] at h
      unfold value
      rw [ih h.2, h.1]

/-- Limbs in range make up the integer in one way only. -/
theorem value_inj [NeZero p] {b : ℕ} {w : ℕ → ZMod p} {xs : List ℕ} : ∀ {ys : List ℕ}, xs.length = ys.length →
    (∀ v ∈ xs, (w v).val < 2 ^ b) → (∀ v ∈ ys, (w v).val < 2 ^ b) →
    (value b w xs = value b w ys ↔ xs.map w = ys.map w) := by
  induction xs with
  | nil =>
    intro ys hl _ _
    have h2 : ys = [] := by simpa using hl.symm
    simp [h2]
  | cons x xs ih =>
    intro ys hl h1 h2
    rcases ys with _ | ⟨y, ys⟩
    · simp at hl
    have hx := h1 x (by simp)
    have hy := h2 y (by simp)
    simp only [value, List.map_cons, List.cons.injEq]
    rw [← ih (by simpa using hl) (fun v hv => h1 v (by simp [hv])) (fun v hv => h2 v (by simp [hv]))]
    constructor
    · intro he
      have hm := congrArg (· % 2 ^ b) he
      simp only [Nat.add_mul_mod_self_left] at hm
      rw [Nat.mod_eq_of_lt hx, Nat.mod_eq_of_lt hy] at hm
      rw [hm] at he
      exact ⟨ZMod.val_injective p hm, Nat.eq_of_mul_eq_mul_left (by positivity) (Nat.add_left_cancel he)⟩
    · rintro ⟨h3, h4⟩
      rw [h3, h4]

theorem value_zero {b : ℕ} {w : ℕ → ZMod p} {xs : List ℕ} :
    value b w xs = 0 ↔ ∀ x ∈ xs, w x = 0 := by
  induction xs with
  | nil => simp [value]
  | cons x xs ih =>
    simp only [value, List.mem_cons, forall_eq_or_imp, ← ih, Nat.add_eq_zero_iff, ZMod.val_eq_zero,
      Nat.mul_eq_zero]
    have : (2 : ℕ) ^ b ≠ 0 := by positivity
    tauto

/-- **C71, selection**: the result is `p0` if the bit is 0, `p1` if it is 1; its limbs are again in range. -/
theorem C71_conditional_select [Fact p.Prime] (E : Emu) (b : ℕ) (p0 p1 : List ℕ) :
    Correct (conditionalSelectEmulated b p0 p1 : Build p (List ℕ))
      (fun c => b < c.numVars ∧ IsVar E p0 c ∧ IsVar E p1 c)
      (fun w => w b = 0 ∨ w b = 1)
      (fun v w => (w b = 0 → Ranged E w p0 → Ranged E w v ∧ value E.B w v = value E.B w p0) ∧
        (w b = 1 → Ranged E w p1 → Ranged E w v ∧ value E.B w v = value E.B w p1)) := by
  refine Correct.of_spec (B := fun _ v c' => InV v c') (conditionalSelectEmulated_rel _ _ _) (fun _ _ h => h) ?_ ?_
  · rintro c w w' ⟨hb, _, _⟩ ha hw
    rwa [ha b hb]
  · rintro c hc ⟨hb, h0, h1⟩
    refine Spec.conseq hc (conditionalSelectEmulated_spec b p0 p1 hc) (fun h _ _ => ⟨hb, h0.2, h1.2, h⟩)
      (fun _ _ _ h => h) ?_
    intro v w _ _ hv
    have hl : p0.length = p1.length := by rw [h0.1, h1.1]
    constructor
    · intro hb hr
      rw [zip_left (w := w) (by intro x y; simp [hb]) hl] at hv
      exact ⟨(same_map hv).1 hr, (same_map (E := E) hv).2⟩
    · intro hb hr
      rw [zip_right (w := w) (by intro x y; simp [hb]) hl] at hv
      exact ⟨(same_map hv).1 hr, (same_map (E := E) hv).2⟩

/-- **C71, equality constraint**: it holds exactly when the integers are equal. -/
theorem C71_enforce_equal [hp : Fact p.Prime] (E : Emu) (a b : List ℕ) :
    Correct (enforceEmulatedEqual a b : Build p Unit)
      (fun c => IsVar E a c ∧ IsVar E b c)
      (fun w => Ranged E w a ∧ Ranged E w b ∧ value E.B w a = value E.B w b)
      (fun _ w => (Ranged E w a ↔ Ranged E w b) ∧ value E.B w a = value E.B w b) := by
  have : NeZero p := ⟨hp.out.ne_zero⟩
  refine Correct.of_spec (B := fun _ _ _ => True) (enforceEmulatedEqual_rel _ _) (fun _ _ h => h) ?_ ?_
  · rintro c w w' ⟨h1, h2⟩ ha ⟨r1, r2, he⟩
    refine ⟨r1.congr h1 ha, r2.congr h2 ha, ?_⟩
    rwa [value_agree h1 ha, value_agree h2 ha]
  · rintro c hc ⟨h1, h2⟩
    have hl : a.length = b.length := by rw [h1.1, h2.1]
    refine Spec.conseq hc (enforceEmulatedEqual_spec a b hc hl) ?_ (fun _ _ _ h => h) ?_
    · rintro ⟨r1, r2, he⟩ _ _
      exact ⟨h1.2, h2.2, (value_inj hl r1 r2).1 he⟩
    · intro _ w _ _ he
      exact ⟨⟨(same_map he.symm).1, (same_map he).1⟩, (same_map (E := E) he).2⟩

/-- **C71, equality test**: for limbs in range the result is 1 if the integers are equal and 0 otherwise. -/
theorem C71_is_equal [hp : Fact p.Prime] {E : Emu} (hn : 0 < E.n) (a b : List ℕ) :
    Correct (isEmulatedEqual a b : Build p ℕ)
      (fun c => IsVar E a c ∧ IsVar E b c)
      (fun _ => True)
      (fun v w => Ranged E w a → Ranged E w b → w v = if value E.B w a = value E.B w b then 1 else 0) := by
  have : NeZero p := ⟨hp.out.ne_zero⟩
  refine Correct.of_spec (B := fun _ v c' => v < c'.numVars) (isEmulatedEqual_rel _ _) (fun _ _ h => h)
    (fun _ _ _ _ _ h => h) ?_
  rintro c hc ⟨h1, h2⟩
  have hl : a.length = b.length := by rw [h1.1, h2.1]
  refine Spec.conseq hc (isEmulatedEqual_spec a b hc hl) ?_ (fun _ _ _ h => h) ?_
  · intro _ _ _
    refine ⟨?_, h1.2, h2.2⟩
    rintro rfl
    have := h1.1
    simp at this
    omega
  · intro v w _ _ hv r1 r2
    rw [hv]
    simp only [value_inj hl r1 r2]

/-- **C71, zero test**: the result is 1 if the integer is zero and 0 otherwise. -/
theorem C71_is_zero [hp : Fact p.Prime] {E : Emu} (hn : 0 < E.n) (a : List ℕ) :
    Correct (isEmulatedZero a : Build p ℕ)
      (fun c => IsVar E a c)
      (fun _ => True)
      (fun v w => w v = if value E.B w a = 0 then 1 else 0) := by
  refine Correct.of_spec (B := fun _ v c' => v < c'.numVars) (isEmulatedZero_rel _) (fun _ _ h => h)
    (fun _ _ _ _ _ h => h) ?_
  rintro c hc h1
  refine Spec.conseq hc (isEmulatedZero_spec a hc) ?_ (fun _ _ _ h => h) ?_
  · intro _ _ _
    refine ⟨?_, h1.2⟩
    rintro rfl
    have := h1.1
    simp at this
    omega
  · intro v w _ _ hv
    rw [hv]
    simp only [value_zero]

/-- **C71, constants**: `create_constant_emulated_variable` forces the constant. -/
theorem C71_constant [hp : Fact p.Prime] {E : Emu} (h : E.OK p) (x : ℕ) (hx : x < E.q) :
    Correct (createConstantEmulated E x : Build p (List ℕ)) (fun _ => True) (fun _ => True)
      (fun v w => v.length = E.n ∧ Ranged E w v ∧ value E.B w v = x) := by
  refine Correct.of_spec (B := fun _ v c' => InV v c') (createConstants_rel _) (fun _ _ h => h)
    (fun _ _ _ _ _ h => h) ?_
  intro c hc _
  refine Spec.conseq hc (createConstants_spec _ hc) (fun _ _ _ => trivial) (fun _ _ _ h => h) ?_
  intro v w h0 _ hv
  have hl : v.length = E.n := by
    have := congrArg List.length hv
    simpa [fromEmulated, toLimbs_length] using this
  refine ⟨hl, ?_, value_map h h0 (hx.trans h.hqT) hv⟩
  intro y hy
  have : w y ∈ fromEmulated p E x := by rw [← hv]; exact List.mem_map_of_mem hy
  exact toLimbs_val_lt _ _ _ _ this

/-- **C71, new variables**: `create_emulated_variable` forces limbs in range, and only that: every integer below
`2^T` is accepted, also those that are not below `q`. -/
theorem C71_create [hp : Fact p.Prime] {E : Emu} (h : E.OK p) (x : ℕ) :
    Computes E (createEmulated E x : Build p (List ℕ)) RangeOK (fun _ => True) (fun _ _ => True)
      (fun _ => x < 2 ^ E.T) (fun _ => True) (fun _ => x) := by
  refine Computes.of_spec h.hT (createEmulated_rel _ _ _) (fun _ _ h => h) (fun _ _ _ _ _ h => h)
    (fun _ _ _ _ _ _ h => h) ?_ ?_ ?_
  · intro c hc hr
    refine Spec.conseq hc (createEmulated_spec E x hc hr) (fun _ _ _ => ⟨h.hB, fun _ => h.bits'⟩) ?_ ?_
    · rintro v c' - ⟨lv, hv, hm⟩
      exact ⟨⟨lv, hv⟩, fun h0 hx => value_map h h0 hx hm⟩
    · intro v w _ _ hv
      exact ⟨hv, fun _ _ => trivial⟩
  · intro c y hc hr _ hy _
    refine ⟨_, createEmulated_rel E x y, ?_⟩
    exact Spec.conseq hc (createEmulated_spec E y hc hr) (fun _ _ _ => ⟨h.hB, fun _ => h.bits'⟩)
      (fun v c' _ hm h0 => value_map h h0 hy hm.2.2) (fun _ _ _ _ _ => trivial)
  · exact fun _ _ _ _ _ _ _ _ _ => trivial

/-- The hypotheses are met: in the small configuration, variables holding 5 and 7. -/
example : ∃ (a b : List ℕ) (c : Circ 257), WF c ∧ IsVar toy a c ∧ IsVar toy b c ∧ Ranged toy c.val a ∧
    Ranged toy c.val b ∧ value toy.B c.val a = 5 ∧ value toy.B c.val b = 7 ∧ checkSat c [] = .ok () := by
  obtain ⟨a, b, c1, c, -, -, hc, hr, ha, hb, hck, ra, rb, va, vb⟩ :=
    two_vars toy_ok (u := 5) (v := 7) (by decide) (by decide)
  exact ⟨a, b, c, hc, ha, hb, ra, rb, va, vb, hck⟩

/-- selection between `[1, 2, 0]` and `[0, 1, 1]`, the bit being variable 0 or 1 -/
example :
    let c : Circ 257 := { Circ.new 257 none with numVars := 8, witness := [0, 1, 1, 2, 0, 0, 0, 0] }
    ((conditionalSelectEmulated 0 [2, 3, 4] [0, 1, 1] c).toOption.map fun r => r.1.map r.2.val) = some [1, 2, 0] ∧
    ((conditionalSelectEmulated 1 [2, 3, 4] [0, 1, 1] c).toOption.map fun r => r.1.map r.2.val) = some [0, 1, 1] := by
  decide +kernel

/-- the gadgets at work over `ZMod 257`: `[1, 2, 0]` stands for 9 -/
example :
    let c : Circ 257 := { Circ.new 257 none with numVars := 8, witness := [0, 1, 1, 2, 0, 0, 0, 0] }
    runVal (isEmulatedEqual [2, 3, 4] [1, 3, 0]) c = some 1 ∧
    runVal (isEmulatedEqual [2, 3, 4] [2, 4, 3]) c = some 0 ∧
    runVal (isEmulatedZero [5, 6, 7]) c = some 1 ∧ runVal (isEmulatedZero [5, 6, 2]) c = some 0 ∧
    runOk (enforceEmulatedEqual [2, 3, 4] [1, 3, 0]) c = true ∧
    runOk (enforceEmulatedEqual [2, 3, 4] [1, 3, 1]) c = false := by decide +kernel

end Verif.Props.Emulated
