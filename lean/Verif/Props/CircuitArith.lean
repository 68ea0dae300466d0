import Verif.Props.CircuitSpec

/-!
# C18: arithmetic gadgets

For every prime `p`, all wires and coefficients.  `Correct` is defined in
`Verif.Props.CircuitSpec`: soundness for all assignments, completeness for all
assignments, the honest witness, and independence of the circuit from the witness.
-/

namespace Verif.Props.Circuit

open Verif.Circuit

variable {p : ℕ}

/-- `v` is a variable of the circuit -/
abbrev In (v : ℕ) (c : Circ p) : Prop := v < c.numVars

/-- **C18**, `enforce_constant` -/
theorem C18_enforce_constant (v : ℕ) (k : ZMod p) :
    Correct (enforceConstant v k) (In v) (fun w => w v = k) (fun _ w => w v = k) :=
  .of_spec (enforceConstant_rel v k) (fun _ _ h => h)
    (fun _ _ _ h e hp => by rw [e _ h]; exact hp)
    (fun _ hc hd => (enforceConstant_spec hc v k).weaken (fun h => ⟨hd, h⟩))

example : runOk (enforceConstant 2 3) demo = true ∧ runOk (enforceConstant 2 4) demo = false := by
  decide

/-- **C18**, `create_constant_variable` -/
theorem C18_create_constant_variable (k : ZMod p) :
    Correct (createConstantVariable k) (fun _ => True) (fun _ => True) (fun v w => w v = k) :=
  .of_spec (createConstantVariable_rel k) (fun _ _ h => h) (fun _ _ _ _ _ h => h)
    (fun _ hc _ => createConstantVariable_spec hc k)

example : runVal (createConstantVariable 4) demo = some 4 := by decide

/-- **C18**, `enforce_bool` -/
theorem C18_enforce_bool [Fact p.Prime] (v : ℕ) :
    Correct (enforceBool v : Build p Unit) (In v) (fun w => w v = 0 ∨ w v = 1)
      (fun _ w => w v = 0 ∨ w v = 1) :=
  .of_spec (enforceBool_rel v) (fun _ _ h => h)
    (fun _ _ _ h e hp => by rw [e _ h]; exact hp)
    (fun _ hc hd => (enforceBool_spec hc v).weaken (fun h => ⟨hd, h⟩))

example : runOk (enforceBool 4) demo = true ∧ runOk (enforceBool 5) demo = true ∧
    runOk (enforceBool 2) demo = false := by decide

/-- **C18**, `create_boolean_variable` -/
theorem C18_create_boolean_variable [Fact p.Prime] (b : Bool) :
    Correct (createBooleanVariable b : Build p ℕ) (fun _ => True) (fun _ => True)
      (fun v w => w v = 0 ∨ w v = 1) :=
  .of_spec (createBooleanVariable_rel b b) (fun _ _ h => h) (fun _ _ _ _ _ h => h)
    (fun _ hc _ => createBooleanVariable_spec hc b)

example : runVal (createBooleanVariable true) demo = some 1 := by decide

/-- **C18**, `enforce_equal` -/
theorem C18_enforce_equal (a b : ℕ) :
    Correct (enforceEqual a b : Build p Unit) (fun c => In a c ∧ In b c) (fun w => w a = w b)
      (fun _ w => w a = w b) :=
  .of_spec (enforceEqual_rel a b) (fun _ _ h => h)
    (fun _ _ _ h e hp => by rw [e _ h.1, e _ h.2]; exact hp)
    (fun _ hc hd => (enforceEqual_spec hc a b).weaken (fun h => ⟨hd, h⟩))

example : runOk (enforceEqual 1 5) demo = true ∧ runOk (enforceEqual 2 3) demo = false := by decide

/-- **C18**, `add_gate` -/
theorem C18_add_gate (a b y : ℕ) :
    Correct (addGate a b y : Build p Unit) (fun c => In a c ∧ In b c ∧ In y c)
      (fun w => w y = w a + w b) (fun _ w => w y = w a + w b) :=
  .of_spec (addGate_rel a b y) (fun _ _ h => h)
    (fun _ _ _ h e hp => by rw [e _ h.1, e _ h.2.1, e _ h.2.2]; exact hp)
    (fun _ hc hd => (addGate_spec hc a b y).weaken (fun h => ⟨hd, h⟩))

example : runOk (addGate 2 3 5) demo = true ∧ runOk (addGate 2 3 4) demo = false := by decide

/-- **C18**, `add` -/
theorem C18_add (a b : ℕ) :
    Correct (add a b : Build p ℕ) (fun c => In a c ∧ In b c) (fun _ => True)
      (fun v w => w v = w a + w b) :=
  .of_spec (add_rel a b) (fun _ _ h => h) (fun _ _ _ _ _ h => h)
    (fun _ hc hd => (add_spec hc a b).weaken (fun _ => hd))

example : runVal (add 2 3) demo = some 1 := by decide

/-- **C18**, `sub_gate` -/
theorem C18_sub_gate (a b y : ℕ) :
    Correct (subGate a b y : Build p Unit) (fun c => In a c ∧ In b c ∧ In y c)
      (fun w => w y = w a - w b) (fun _ w => w y = w a - w b) :=
  .of_spec (subGate_rel a b y) (fun _ _ h => h)
    (fun _ _ _ h e hp => by rw [e _ h.1, e _ h.2.1, e _ h.2.2]; exact hp)
    (fun _ hc hd => (subGate_spec hc a b y).weaken (fun h => ⟨hd, h⟩))

example : runOk (subGate 2 4 2) demo = true ∧ runOk (subGate 2 3 4) demo = false := by decide

/-- **C18**, `sub` -/
theorem C18_sub (a b : ℕ) :
    Correct (sub a b : Build p ℕ) (fun c => In a c ∧ In b c) (fun _ => True)
      (fun v w => w v = w a - w b) :=
  .of_spec (sub_rel a b) (fun _ _ h => h) (fun _ _ _ _ _ h => h)
    (fun _ hc hd => (sub_spec hc a b).weaken (fun _ => hd))

example : runVal (sub 2 3) demo = some 5 := by decide

/-- **C18**, `mul_gate` -/
theorem C18_mul_gate (a b y : ℕ) :
    Correct (mulGate a b y : Build p Unit) (fun c => In a c ∧ In b c ∧ In y c)
      (fun w => w y = w a * w b) (fun _ w => w y = w a * w b) :=
  .of_spec (mulGate_rel a b y) (fun _ _ h => h)
    (fun _ _ _ h e hp => by rw [e _ h.1, e _ h.2.1, e _ h.2.2]; exact hp)
    (fun _ hc hd => (mulGate_spec hc a b y).weaken (fun h => ⟨hd, h⟩))

example : runOk (mulGate 2 3 5) demo = true ∧ runOk (mulGate 2 3 4) demo = false := by decide

/-- **C18**, `mul` -/
theorem C18_mul (a b : ℕ) :
    Correct (mul a b : Build p ℕ) (fun c => In a c ∧ In b c) (fun _ => True)
      (fun v w => w v = w a * w b) :=
  .of_spec (mul_rel a b) (fun _ _ h => h) (fun _ _ _ _ _ h => h)
    (fun _ hc hd => (mul_spec hc a b).weaken (fun _ => hd))

example : runVal (mul 2 2) demo = some 2 := by decide

/-- all wires of a list exist -/
abbrev AllIn (l : List ℕ) (c : Circ p) : Prop := ∀ v ∈ l, v < c.numVars

/-- **C18**, `quad_poly_gate` -/
theorem C18_quad_poly_gate (a0 a1 a2 a3 y : ℕ) (q0 q1 q2 q3 m0 m1 o k : ZMod p) :
    Correct (quadPolyGateB a0 a1 a2 a3 y q0 q1 q2 q3 m0 m1 o k) (AllIn [a0, a1, a2, a3, y])
      (fun w => o * w y = q0 * w a0 + q1 * w a1 + q2 * w a2 + q3 * w a3
          + m0 * w a0 * w a1 + m1 * w a2 * w a3 + k)
      (fun _ w => o * w y = q0 * w a0 + q1 * w a1 + q2 * w a2 + q3 * w a3
          + m0 * w a0 * w a1 + m1 * w a2 * w a3 + k) :=
  .of_spec (quadPolyGateB_rel a0 a1 a2 a3 y q0 q1 q2 q3 m0 m1 o k) (fun _ _ h => h)
    (fun _ _ _ h e hp => by
      rw [e a0 (h _ (by simp)), e a1 (h _ (by simp)), e a2 (h _ (by simp)), e a3 (h _ (by simp)),
        e y (h _ (by simp))]; exact hp)
    (fun _ hc hd => (quadPolyGate_spec hc a0 a1 a2 a3 y q0 q1 q2 q3 m0 m1 o k).weaken
      (fun h => ⟨hd, h⟩))

example : runOk (quadPolyGateB 2 3 4 5 2 1 2 3 4 1 1 4 2) demo = false ∧
    runOk (quadPolyGateB 2 3 4 5 2 1 2 3 4 1 1 4 1) demo = true := by decide

/-- **C18**, `gen_quad_poly` -/
theorem C18_gen_quad_poly (a0 a1 a2 a3 : ℕ) (q0 q1 q2 q3 m0 m1 k : ZMod p) :
    Correct (genQuadPoly a0 a1 a2 a3 q0 q1 q2 q3 m0 m1 k) (AllIn [a0, a1, a2, a3])
      (fun _ => True)
      (fun v w => w v = q0 * w a0 + q1 * w a1 + q2 * w a2 + q3 * w a3
          + m0 * w a0 * w a1 + m1 * w a2 * w a3 + k) :=
  .of_spec (genQuadPoly_rel a0 a1 a2 a3 q0 q1 q2 q3 m0 m1 k) (fun _ _ h => h)
    (fun _ _ _ _ _ h => h)
    (fun _ hc hd => (genQuadPoly_spec hc a0 a1 a2 a3 q0 q1 q2 q3 m0 m1 k).weaken (fun _ => hd))

example : runVal (genQuadPoly 2 3 5 5 1 2 3 4 1 1 2) demo = some 3 := by decide

/-- **C18**, `lc_gate` -/
theorem C18_lc_gate (a0 a1 a2 a3 y : ℕ) (q0 q1 q2 q3 : ZMod p) :
    Correct (lcGate a0 a1 a2 a3 y q0 q1 q2 q3) (AllIn [a0, a1, a2, a3, y])
      (fun w => w y = q0 * w a0 + q1 * w a1 + q2 * w a2 + q3 * w a3)
      (fun _ w => w y = q0 * w a0 + q1 * w a1 + q2 * w a2 + q3 * w a3) :=
  .of_spec (lcGate_rel a0 a1 a2 a3 y q0 q1 q2 q3) (fun _ _ h => h)
    (fun _ _ _ h e hp => by
      rw [e a0 (h _ (by simp)), e a1 (h _ (by simp)), e a2 (h _ (by simp)), e a3 (h _ (by simp)),
        e y (h _ (by simp))]; exact hp)
    (fun _ hc hd => (lcGate_spec hc a0 a1 a2 a3 y q0 q1 q2 q3).weaken (fun h => ⟨hd, h⟩))

example : runOk (lcGate 2 3 5 5 2 1 2 3 1) demo = true ∧
    runOk (lcGate 2 3 5 5 3 1 2 3 1) demo = false := by decide

/-- **C18**, `lc` -/
theorem C18_lc (a0 a1 a2 a3 : ℕ) (q0 q1 q2 q3 : ZMod p) :
    Correct (lc a0 a1 a2 a3 q0 q1 q2 q3) (AllIn [a0, a1, a2, a3]) (fun _ => True)
      (fun v w => w v = q0 * w a0 + q1 * w a1 + q2 * w a2 + q3 * w a3) :=
  .of_spec (lc_rel a0 a1 a2 a3 q0 q1 q2 q3) (fun _ _ h => h) (fun _ _ _ _ _ h => h)
    (fun _ hc hd => (lc_spec hc a0 a1 a2 a3 q0 q1 q2 q3).weaken (fun _ => hd))

example : runVal (lc 2 3 5 5 1 2 3 1) demo = some 3 := by decide

/-- **C18**, `mul_add_gate` -/
theorem C18_mul_add_gate (a0 a1 a2 a3 y : ℕ) (m0 m1 : ZMod p) :
    Correct (mulAddGate a0 a1 a2 a3 y m0 m1) (AllIn [a0, a1, a2, a3, y])
      (fun w => w y = m0 * w a0 * w a1 + m1 * w a2 * w a3)
      (fun _ w => w y = m0 * w a0 * w a1 + m1 * w a2 * w a3) :=
  .of_spec (mulAddGate_rel a0 a1 a2 a3 y m0 m1) (fun _ _ h => h)
    (fun _ _ _ h e hp => by
      rw [e a0 (h _ (by simp)), e a1 (h _ (by simp)), e a2 (h _ (by simp)), e a3 (h _ (by simp)),
        e y (h _ (by simp))]; exact hp)
    (fun _ hc hd => (mulAddGate_spec hc a0 a1 a2 a3 y m0 m1).weaken (fun h => ⟨hd, h⟩))

example : runOk (mulAddGate 2 2 3 5 4 1 1) demo = true ∧
    runOk (mulAddGate 2 2 3 5 5 1 1) demo = false := by decide

/-- **C18**, `mul_add` -/
theorem C18_mul_add (a0 a1 a2 a3 : ℕ) (m0 m1 : ZMod p) :
    Correct (mulAdd a0 a1 a2 a3 m0 m1) (AllIn [a0, a1, a2, a3]) (fun _ => True)
      (fun v w => w v = m0 * w a0 * w a1 + m1 * w a2 * w a3) :=
  .of_spec (mulAdd_rel a0 a1 a2 a3 m0 m1) (fun _ _ h => h) (fun _ _ _ _ _ h => h)
    (fun _ hc hd => (mulAdd_spec hc a0 a1 a2 a3 m0 m1).weaken (fun _ => hd))

example : runVal (mulAdd 2 2 3 5 2 3) demo = some 5 := by decide

/-- **C18**, `sum`: any non-empty list of wires (the empty list is rejected) -/
theorem C18_sum (elems : List ℕ) :
    Correct (sum elems : Build p ℕ) (fun c => elems ≠ [] ∧ AllIn elems c) (fun _ => True)
      (fun v w => w v = (elems.map w).sum) :=
  .of_spec (sum_rel elems) (fun _ _ h => h) (fun _ _ _ _ _ h => h)
    (fun _ hc hd => (sum_spec hc elems).weaken (fun _ => hd))

example : runVal (sum [2, 3, 5, 2, 2, 5, 3]) demo = some 0 ∧ runVal (sum [2]) demo = some 3 ∧
    runVal (sum []) demo = none := by decide +kernel

/-- **C18**, `add_constant_gate` -/
theorem C18_add_constant_gate (x : ℕ) (k : ZMod p) (y : ℕ) :
    Correct (addConstantGate x k y) (fun c => In x c ∧ In y c) (fun w => w y = w x + k)
      (fun _ w => w y = w x + k) :=
  .of_spec (addConstantGate_rel x k y) (fun _ _ h => h)
    (fun _ _ _ h e hp => by rw [e _ h.1, e _ h.2]; exact hp)
    (fun _ hc hd => (addConstantGate_spec hc x k y).weaken (fun h => ⟨hd, h⟩))

example : runOk (addConstantGate 2 5 5) demo = true ∧ runOk (addConstantGate 2 4 5) demo = false := by
  decide

/-- **C18**, `add_constant` -/
theorem C18_add_constant (x : ℕ) (k : ZMod p) :
    Correct (addConstant x k) (In x) (fun _ => True) (fun v w => w v = w x + k) :=
  .of_spec (addConstant_rel x k) (fun _ _ h => h) (fun _ _ _ _ _ h => h)
    (fun _ hc hd => (addConstant_spec hc x k).weaken (fun _ => hd))

example : runVal (addConstant 2 6) demo = some 2 := by decide

/-- **C18**, `mul_constant_gate` -/
theorem C18_mul_constant_gate (x : ℕ) (k : ZMod p) (y : ℕ) :
    Correct (mulConstantGate x k y) (fun c => In x c ∧ In y c) (fun w => w y = k * w x)
      (fun _ w => w y = k * w x) :=
  .of_spec (mulConstantGate_rel x k y) (fun _ _ h => h)
    (fun _ _ _ h e hp => by rw [e _ h.1, e _ h.2]; exact hp)
    (fun _ hc hd => (mulConstantGate_spec hc x k y).weaken (fun h => ⟨hd, h⟩))

example : runOk (mulConstantGate 2 5 5) demo = true ∧ runOk (mulConstantGate 2 4 5) demo = false := by
  decide

/-- **C18**, `mul_constant` -/
theorem C18_mul_constant (x : ℕ) (k : ZMod p) :
    Correct (mulConstant x k) (In x) (fun _ => True) (fun v w => w v = k * w x) :=
  .of_spec (mulConstant_rel x k) (fun _ _ h => h) (fun _ _ _ _ _ h => h)
    (fun _ hc hd => (mulConstant_spec hc x k).weaken (fun _ => hd))

example : runVal (mulConstant 2 6) demo = some 4 := by decide

/-- **C18**, `power_11_gen` -/
theorem C18_power_11_gen (x : ℕ) :
    Correct (power11Gen x : Build p ℕ) (In x) (fun _ => True) (fun v w => w v = w x ^ 11) :=
  .of_spec (power11Gen_rel x) (fun _ _ h => h) (fun _ _ _ _ _ h => h)
    (fun _ hc hd => (power11Gen_spec hc x).weaken (fun _ => hd))

example : runVal (power11Gen 2) demo = some 5 := by decide

/-- **C18**, `power_11_gate` -/
theorem C18_power_11_gate (x y : ℕ) :
    Correct (power11Gate x y : Build p Unit) (fun c => In x c ∧ In y c) (fun w => w y = w x ^ 11)
      (fun _ w => w y = w x ^ 11) :=
  .of_spec (power11Gate_rel x y) (fun _ _ h => h)
    (fun _ _ _ h e hp => by rw [e _ h.1, e _ h.2]; exact hp)
    (fun _ hc hd => (power11Gate_spec hc x y).weaken (fun h => ⟨hd, h⟩))

example : runOk (power11Gate 2 3) demo = true ∧ runOk (power11Gate 3 2) demo = true ∧
    runOk (power11Gate 2 2) demo = false := by decide

/-- the circuits are not trivially unsatisfiable: an enforcing gadget accepts exactly the
assignments with the enforced relation (here for `add_gate`) -/
example {c c' : Circ p} (hc : WF c) (a b y : ℕ) (hd : In a c ∧ In b c ∧ In y c)
    (hm : addGate a b y c = .ok ((), c')) {pi : List (ZMod p)} {w : ℕ → ZMod p}
    (hw : Sat c pi w) :
    (∃ w' : ℕ → ZMod p, (∀ i, i < c.numVars → w' i = w i) ∧ Sat c' pi w') ↔ w y = w a + w b :=
  (C18_add_gate a b y).exact_iff hc hd
    (fun w w' e h => by rwa [e _ hd.1, e _ hd.2.1, e _ hd.2.2] at h) hm hw

end Verif.Props.Circuit
