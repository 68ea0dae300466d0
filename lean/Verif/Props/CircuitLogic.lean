import Verif.Props.CircuitArith
import Mathlib.Tactic.NormNum.Prime

/-!
# C19: logic gadgets
-/

namespace Verif.Props.Circuit

open Verif.Circuit

variable {p : ℕ}

/-- the wire value is a boolean -/
abbrev IsBit (x : ZMod p) : Prop := x = 0 ∨ x = 1

/-- **C19**, `logic_or_gate`: enforces that one of two boolean wires is true (the gate
forces a one among any two wires) -/
theorem C19_logic_or_gate [Fact p.Prime] (a b : ℕ) :
    Correct (logicOrGate a b : Build p Unit) (fun c => In a c ∧ In b c)
      (fun w => w a = 1 ∨ w b = 1) (fun _ w => w a = 1 ∨ w b = 1) :=
  .of_spec (logicOrGate_rel a b) (fun _ _ h => h)
    (fun _ _ _ h e hp => by rw [e _ h.1, e _ h.2]; exact hp)
    (fun _ hc hd => (logicOrGate_spec hc a b).weaken (fun h => ⟨hd, h⟩))

example : runOk (logicOrGate 4 5) demo = true ∧ runOk (logicOrGate 4 4) demo = false := by decide +kernel

/-- **C19**, `is_zero`: the output is one exactly for zero, for every value of the inverse
hint -/
theorem C19_is_zero [Fact p.Prime] (a : ℕ) :
    Correct (isZero a : Build p ℕ) (In a) (fun _ => True)
      (fun v w => IsBit (w v) ∧ (w v = 1 ↔ w a = 0)) :=
  .of_spec (isZero_rel a) (fun _ _ h => h) (fun _ _ _ _ _ h => h)
    (fun _ hc hd => Spec.conseq hc (isZero_spec hc a) (fun _ _ _ => hd) (fun _ _ _ h => h) (by
      intro v w _ _ h
      rw [h]; by_cases h0 : w a = 0 <;> simp [h0, IsBit]))

instance : Fact (Nat.Prime 7) := ⟨by norm_num⟩

example : runVal (isZero 4) demo = some 1 ∧ runVal (isZero 3) demo = some 0 := by decide +kernel

/-- **C19**, `is_equal` -/
theorem C19_is_equal [Fact p.Prime] (a b : ℕ) :
    Correct (isEqual a b : Build p ℕ) (fun c => In a c ∧ In b c) (fun _ => True)
      (fun v w => IsBit (w v) ∧ (w v = 1 ↔ w a = w b)) :=
  .of_spec (isEqual_rel a b) (fun _ _ h => h) (fun _ _ _ _ _ h => h)
    (fun _ hc hd => Spec.conseq hc (isEqual_spec hc a b) (fun _ _ _ => hd) (fun _ _ _ h => h) (by
      intro v w _ _ h
      rw [h]; by_cases h0 : w a = w b <;> simp [h0, IsBit]))

example : runVal (isEqual 1 5) demo = some 1 ∧ runVal (isEqual 2 3) demo = some 0 := by decide +kernel

/-- **C19**, `non_zero_gate` -/
theorem C19_non_zero_gate [Fact p.Prime] (a : ℕ) :
    Correct (nonZeroGate a : Build p Unit) (In a) (fun w => w a ≠ 0) (fun _ w => w a ≠ 0) :=
  .of_spec (nonZeroGate_rel a) (fun _ _ h => h)
    (fun _ _ _ h e hp => by rw [e _ h]; exact hp)
    (fun _ hc hd => (nonZeroGate_spec hc a).weaken (fun h => ⟨hd, h⟩))

example : runOk (nonZeroGate 3) demo = true ∧ runOk (nonZeroGate 4) demo = false := by decide +kernel

/-- **C19**, `logic_neg` -/
theorem C19_logic_neg [Fact p.Prime] (a : ℕ) :
    Correct (logicNeg a : Build p ℕ) (In a) (fun _ => True)
      (fun v w => IsBit (w a) → IsBit (w v) ∧ (w v = 1 ↔ ¬ w a = 1)) :=
  .of_spec (logicNeg_rel a) (fun _ _ h => h) (fun _ _ _ _ _ h => h)
    (fun _ hc hd => Spec.conseq hc (logicNeg_spec hc a) (fun _ _ _ => hd) (fun _ _ _ h => h) (by
      rintro v w _ _ h (h0 | h0) <;> rw [h] <;> simp [h0, IsBit]))

example : runVal (logicNeg 4) demo = some 1 ∧ runVal (logicNeg 5) demo = some 0 := by decide +kernel

/-- **C19**, `logic_and` -/
theorem C19_logic_and [Fact p.Prime] (a b : ℕ) :
    Correct (logicAnd a b : Build p ℕ) (fun c => In a c ∧ In b c) (fun _ => True)
      (fun v w => IsBit (w a) → IsBit (w b) → IsBit (w v) ∧ (w v = 1 ↔ w a = 1 ∧ w b = 1)) :=
  .of_spec (logicAnd_rel a b) (fun _ _ h => h) (fun _ _ _ _ _ h => h)
    (fun _ hc hd => Spec.conseq hc (logicAnd_spec hc a b) (fun _ _ _ => hd) (fun _ _ _ h => h) (by
      rintro v w _ _ h (h0 | h0) (h1 | h1) <;> rw [h] <;> simp [h0, h1, IsBit]))

example : runVal (logicAnd 4 5) demo = some 0 ∧ runVal (logicAnd 5 5) demo = some 1 := by decide +kernel

theorem prod_bits [Fact p.Prime] (l : List (ZMod p)) (h : ∀ x ∈ l, IsBit x) :
    IsBit l.prod ∧ (l.prod = 1 ↔ ∀ x ∈ l, x = 1) := by
  induction l with
  | nil => simp [IsBit]
  | cons a l ih =>
    obtain ⟨h1, h2⟩ := ih (fun x hx => h x (by simp [hx]))
    rw [List.prod_cons]
    rcases h a (by simp) with h0 | h0
    · simp [h0, IsBit]
    · simp only [h0, one_mul, List.mem_cons, forall_eq_or_imp, true_and]
      exact ⟨h1, h2⟩

/-- **C19**, `logic_and_all`: any non-empty list of boolean wires -/
theorem C19_logic_and_all [Fact p.Prime] (vs : List ℕ) :
    Correct (logicAndAll vs : Build p ℕ) (fun c => vs ≠ [] ∧ AllIn vs c) (fun _ => True)
      (fun v w => (∀ u ∈ vs, IsBit (w u)) → IsBit (w v) ∧ (w v = 1 ↔ ∀ u ∈ vs, w u = 1)) :=
  .of_spec (logicAndAll_rel vs) (fun _ _ h => h) (fun _ _ _ _ _ h => h)
    (fun _ hc hd => Spec.conseq hc (logicAndAll_spec hc vs) (fun _ _ _ => hd) (fun _ _ _ h => h) (by
      intro v w _ _ h hb
      rw [h]
      have := prod_bits (vs.map w) (by simpa using hb)
      refine ⟨this.1, this.2.trans ?_⟩
      simp))

example : runVal (logicAndAll [5, 5, 5]) demo = some 1 ∧ runVal (logicAndAll [5, 4, 5]) demo = some 0 ∧
    runVal (logicAndAll []) demo = none := by decide +kernel

/-- **C19**, `logic_or` -/
theorem C19_logic_or [Fact p.Prime] (a b : ℕ) :
    Correct (logicOr a b : Build p ℕ) (fun c => In a c ∧ In b c) (fun _ => True)
      (fun v w => IsBit (w a) → IsBit (w b) → IsBit (w v) ∧ (w v = 1 ↔ w a = 1 ∨ w b = 1)) :=
  .of_spec (logicOr_rel a b) (fun _ _ h => h) (fun _ _ _ _ _ h => h)
    (fun _ hc hd => Spec.conseq hc (logicOr_spec hc a b) (fun _ _ _ => hd) (fun _ _ _ h => h) (by
      rintro v w _ _ h (h0 | h0) (h1 | h1) <;> rw [h] <;> simp [h0, h1, IsBit]))

example : runVal (logicOr 4 5) demo = some 1 ∧ runVal (logicOr 4 4) demo = some 0 ∧
    runVal (logicOr 5 5) demo = some 1 := by decide +kernel

/-- **C19**, `enforce_true` -/
theorem C19_enforce_true (a : ℕ) :
    Correct (enforceTrue a : Build p Unit) (In a) (fun w => w a = 1) (fun _ w => w a = 1) :=
  C18_enforce_constant a 1

example : runOk (enforceTrue 5) demo = true ∧ runOk (enforceTrue 4) demo = false := by decide +kernel

/-- **C19**, `enforce_false` -/
theorem C19_enforce_false (a : ℕ) :
    Correct (enforceFalse a : Build p Unit) (In a) (fun w => w a = 0) (fun _ w => w a = 0) :=
  C18_enforce_constant a 0

example : runOk (enforceFalse 4) demo = true ∧ runOk (enforceFalse 5) demo = false := by decide +kernel

/-- **C19**, `conditional_select`: for a boolean selector -/
theorem C19_conditional_select [Fact p.Prime] (b x0 x1 : ℕ) :
    Correct (conditionalSelect b x0 x1 : Build p ℕ) (fun c => In b c ∧ In x0 c ∧ In x1 c)
      (fun w => IsBit (w b))
      (fun v w => (w b = 0 → w v = w x0) ∧ (w b = 1 → w v = w x1)) :=
  .of_spec (conditionalSelect_rel b x0 x1) (fun _ _ h => h)
    (fun _ _ _ h e hp => by rw [e _ h.1]; exact hp)
    (fun _ hc hd => Spec.conseq hc (conditionalSelect_spec hc b x0 x1) (fun h _ _ => ⟨hd, h⟩)
      (fun _ _ _ h => h) (by
      intro v w _ _ h
      constructor <;> intro h0 <;> rw [h, h0] <;> ring))

example : runVal (conditionalSelect 4 2 3) demo = some 3 ∧
    runVal (conditionalSelect 5 2 3) demo = some 5 := by decide +kernel

end Verif.Props.Circuit
