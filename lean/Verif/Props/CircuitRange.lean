import Verif.Props.CircuitLogic

/-!
# C20, C21, C22: range checks, comparison, truncation
-/

namespace Verif.Props.Circuit

open Verif.Circuit

variable {p : ℕ}

/-! ## C20 -/

/-- **C20**, `unpack`: for every odd prime field and every bit length up to
`MODULUS_BIT_SIZE` (also exactly `MODULUS_BIT_SIZE`, where the canonical check is needed)
the returned wires are the little-endian bits of the canonical integer, in every
satisfying assignment. -/
theorem C20_unpack [Fact p.Prime] (hp : p ≠ 2) (a n : ℕ) (hn0 : 0 < n) (hn : n ≤ Nat.size p) :
    Correct (unpack a n : Build p (List ℕ)) (In a) (fun w => (w a).val < 2 ^ n)
      (fun vs w => (w a).val < 2 ^ n ∧ vs.length = n ∧
        ∀ i (h : i < vs.length), w vs[i] = if (w a).val.testBit i then 1 else 0) :=
  .of_spec (B := fun _ vs _ => vs.length = n) (unpack_rel a n) (fun _ _ h => h)
    (fun _ _ _ h e hp => by rw [e _ h]; exact hp)
    (fun c hc hd => by
      have h1 := unpack_spec hp hc a n hn
      constructor
      · intro vs c' hm
        obtain ⟨e, ⟨b1, _, _⟩, r⟩ := h1.sound vs c' hm
        refine ⟨e, b1, fun pi w hs => ?_⟩
        obtain ⟨r1, r2⟩ := r pi w hs
        refine ⟨r1, b1, fun i hi => ?_⟩
        have := congrArg (fun l => l[i]?) r2
        simp only [List.getElem?_map, bitsLE] at this
        rw [List.getElem?_eq_getElem hi, List.getElem?_range (by omega)] at this
        simpa [boolF] using this
      · intro h
        exact h1.complete ⟨hd, hn0, h⟩)

/-- the value 2 unpacked to exactly `MODULUS_BIT_SIZE = 3` bits; too large a value fails -/
example : advOk (unpack 2 3) demo [0, 1, 3, 5, 0, 1, 1, 1, 0] (fun vs => vs == [6, 7, 8]) = false ∧
    runOk (unpack 2 3) demo = true ∧ runOk (unpack 3 2) demo = false := by decide +kernel

/-- **C20**, the bit length must not exceed `MODULUS_BIT_SIZE`: longer unpackings are
accepted by the code (up to the size of the big integer) but not canonical.  Here
`2 = 9 (mod 7)` is unpacked to the four bits of `9`. -/
theorem C20_unpack_too_long_counterexample :
    ¬ ∀ (p : ℕ) [Fact p.Prime] (_ : p ≠ 2) (a n : ℕ) (_ : 0 < n) (c : Circ p) (_ : WF c)
      (_ : In a c) (vs : List ℕ) (c' : Circ p) (_ : unpack a n c = .ok (vs, c'))
      (w : ℕ → ZMod p) (_ : Sat c' [] w) (i : ℕ) (h : i < vs.length),
        w vs[i] = if (w a).val.testBit i then 1 else 0 := by
  intro hall
  let c : Circ 7 := { Circ.new 7 none with numVars := 3, witness := [0, 1, 2] }
  have hc : WF c := by
    refine ⟨rfl, rfl, by decide, ⟨[], rfl⟩, ?_, by simp [c, Circ.new], by simp [c, Circ.new]⟩
    intro r hr
    simp [c, Circ.new] at hr
    rcases hr with rfl | rfl <;> simp [c]
  obtain ⟨vs, c', hm, hs, ht⟩ := advOk_sat (m := unpack 2 4) (c := c)
    (adv := [0, 1, 2, 1, 0, 0, 1]) (test := fun vs => vs == [3, 4, 5, 6])
    (by decide +kernel) (by
      intro v c' hm
      have : unpack 2 4 c = rangeGateInternal 2 4 c := rfl
      rw [this] at hm
      exact ((rangeGateInternal_spec hc 2 4).sound v c' hm).1.wf)
  have hv : vs = [3, 4, 5, 6] := by simpa using ht
  subst hv
  have := hall 7 (by decide) 2 4 (by decide) c hc (by decide) _ c' hm _ hs 0 (by decide)
  revert this
  decide

/-- **C20**, `enforce_in_range` for TurboPlonk and UltraPlonk circuits: satisfiable exactly
for values below `2^n`.  For TurboPlonk the length is bounded by the size of the big
integer; for UltraPlonk the range table must have `0 < k < 32` bits and be smaller than
the field. -/
theorem C20_enforce_in_range [Fact p.Prime] (a n : ℕ) (hn0 : 0 < n) :
    Correct (enforceInRange a n : Build p Unit)
      (fun c => In a c ∧ (c.ultra = none → n ≤ 64 * ((Nat.size p + 63) / 64)) ∧
        (∀ k, c.ultra = some k → 0 < k ∧ k < 32 ∧ 2 ^ k < p))
      (fun w => (w a).val < 2 ^ n) (fun _ w => (w a).val < 2 ^ n) :=
  .of_spec (enforceInRange_rel a n) (fun _ _ h => h)
    (fun _ _ _ h e hp => by rw [e _ h.1]; exact hp)
    (fun _ hc hd => (enforceInRange_spec hc hd.2.2 a n).weaken (fun h => ⟨hd.1, hn0, hd.2.1, h⟩))

/-- an UltraPlonk circuit over `ZMod 61` with 2-bit range table and variables 17, 0 -/
def demoU : Circ 61 := { Circ.new 61 (some 2) with numVars := 4, witness := [0, 1, 17, 0] }

theorem demoU_wf : WF demoU := by
  refine ⟨rfl, rfl, by decide, ⟨[], rfl⟩, ?_, by simp [demoU, Circ.new], by simp [demoU, Circ.new]⟩
  intro r hr
  simp [demoU, Circ.new] at hr
  rcases hr with rfl | rfl <;> simp [demoU]

example : runOk (enforceInRange 2 2) demo = true ∧ runOk (enforceInRange 3 2) demo = false ∧
    runOk (enforceInRange 2 5) demoU = true ∧ runOk (enforceInRange 2 4) demoU = false := by
  decide +kernel

/-- **C20**, `is_in_range` for bit lengths below `MODULUS_BIT_SIZE` -/
theorem C20_is_in_range [Fact p.Prime] (hp : p ≠ 2) (a n : ℕ) (hn : n < Nat.size p) :
    Correct (isInRange a n : Build p ℕ) (In a) (fun _ => True)
      (fun v w => IsBit (w v) ∧ (w v = 1 ↔ (w a).val < 2 ^ n)) :=
  .of_spec (isInRange_rel a n) (fun _ _ h => h) (fun _ _ _ _ _ h => h)
    (fun _ hc hd => Spec.conseq hc (isInRange_spec hp hc a n) (fun _ _ _ => ⟨hd, hn⟩)
      (fun _ _ _ h => h) (by
      intro v w _ _ h
      rw [h]; by_cases h0 : (w a).val < 2 ^ n <;> simp [h0, IsBit]))

example : runVal (isInRange 2 2) demo = some 1 ∧ runVal (isInRange 3 2) demo = some 0 := by
  decide +kernel

/-- **C20**: the call always fails for bit lengths from `MODULUS_BIT_SIZE` on, although
every field element is then in range (so `C20_is_in_range` cannot be extended). -/
theorem C20_is_in_range_full_width_fails [Fact p.Prime] (hp : p ≠ 2) (a n : ℕ)
    (hn : Nat.size p ≤ n) (c : Circ p) (hc : WF c) :
    ¬ ∃ v c', isInRange a n c = .ok (v, c') := by
  rintro ⟨v, c', h⟩
  unfold isInRange at h
  obtain ⟨bits, c1, h1, h2⟩ := bind_ok h
  obtain ⟨_, ⟨hl, _⟩, _⟩ := (unpack_spec hp hc a (modulusBits p) (le_refl _)).sound bits c1 h1
  split at h2
  · cases h2
  · have : bits.drop n = [] := List.drop_eq_nil_of_le (by rw [hl]; exact hn)
    rw [this] at h2
    obtain ⟨s, c2, h3, _⟩ := bind_ok h2
    unfold sum at h3
    rw [if_pos rfl] at h3
    cases h3

/-- 3 and 5 lie on different sides of `(7-1)/2`; used in the examples below -/
example : (demo.val 2).val = 3 ∧ (demo.val 3).val = 5 := by decide

/-! ## C21 -/

/-- **C21**, `is_lt` -/
theorem C21_is_lt [Fact p.Prime] (hp : p ≠ 2) (a b : ℕ) :
    Correct (isLt a b : Build p ℕ) (fun c => In a c ∧ In b c) (fun _ => True)
      (fun v w => w v = if (w a).val < (w b).val then 1 else 0) :=
  .of_spec (isLt_rel a b) (fun _ _ h => h) (fun _ _ _ _ _ h => h)
    (fun _ hc hd => Spec.conseq hc (isLt_spec hp hc a b) (fun _ _ _ => hd) (fun _ _ _ h => h)
      (by intro v w _ _ h; simpa [boolF] using h))

/-- **C21**, `is_gt` -/
theorem C21_is_gt [Fact p.Prime] (hp : p ≠ 2) (a b : ℕ) :
    Correct (isGt a b : Build p ℕ) (fun c => In a c ∧ In b c) (fun _ => True)
      (fun v w => w v = if (w b).val < (w a).val then 1 else 0) :=
  .of_spec (isGt_rel a b) (fun _ _ h => h) (fun _ _ _ _ _ h => h)
    (fun _ hc hd => Spec.conseq hc (isGt_spec hp hc a b) (fun _ _ _ => hd) (fun _ _ _ h => h)
      (by intro v w _ _ h; simpa [boolF] using h))

/-- **C21**, `is_leq` -/
theorem C21_is_leq [Fact p.Prime] (hp : p ≠ 2) (a b : ℕ) :
    Correct (isLeq a b : Build p ℕ) (fun c => In a c ∧ In b c) (fun _ => True)
      (fun v w => w v = if (w a).val ≤ (w b).val then 1 else 0) :=
  .of_spec (isLeq_rel a b) (fun _ _ h => h) (fun _ _ _ _ _ h => h)
    (fun _ hc hd => Spec.conseq hc (isLeq_spec hp hc a b) (fun _ _ _ => hd) (fun _ _ _ h => h)
      (by intro v w _ _ h; simpa [boolF] using h))

/-- **C21**, `is_geq` -/
theorem C21_is_geq [Fact p.Prime] (hp : p ≠ 2) (a b : ℕ) :
    Correct (isGeq a b : Build p ℕ) (fun c => In a c ∧ In b c) (fun _ => True)
      (fun v w => w v = if (w b).val ≤ (w a).val then 1 else 0) :=
  .of_spec (isGeq_rel a b) (fun _ _ h => h) (fun _ _ _ _ _ h => h)
    (fun _ hc hd => Spec.conseq hc (isGeq_spec hp hc a b) (fun _ _ _ => hd) (fun _ _ _ h => h)
      (by intro v w _ _ h; simpa [boolF] using h))


/-- **C21**, `enforce_lt` -/
theorem C21_enforce_lt [Fact p.Prime] (hp : p ≠ 2) (a b : ℕ) :
    Correct (enforceLt a b : Build p Unit) (fun c => In a c ∧ In b c)
      (fun w => (w a).val < (w b).val) (fun _ w => (w a).val < (w b).val) :=
  .of_spec (enforceLt_rel a b) (fun _ _ h => h)
    (fun _ _ _ h e hp => by rw [e _ h.1, e _ h.2]; exact hp)
    (fun _ hc hd => (enforceLt_spec hp hc a b).weaken (fun h => ⟨hd, h⟩))

/-- **C21**, `enforce_gt` -/
theorem C21_enforce_gt [Fact p.Prime] (hp : p ≠ 2) (a b : ℕ) :
    Correct (enforceGt a b : Build p Unit) (fun c => In a c ∧ In b c)
      (fun w => (w b).val < (w a).val) (fun _ w => (w b).val < (w a).val) :=
  .of_spec (enforceGt_rel a b) (fun _ _ h => h)
    (fun _ _ _ h e hp => by rw [e _ h.1, e _ h.2]; exact hp)
    (fun _ hc hd => (enforceGt_spec hp hc a b).weaken (fun h => ⟨hd, h⟩))

/-- **C21**, `enforce_leq` -/
theorem C21_enforce_leq [Fact p.Prime] (hp : p ≠ 2) (a b : ℕ) :
    Correct (enforceLeq a b : Build p Unit) (fun c => In a c ∧ In b c)
      (fun w => (w a).val ≤ (w b).val) (fun _ w => (w a).val ≤ (w b).val) :=
  .of_spec (enforceLeq_rel a b) (fun _ _ h => h)
    (fun _ _ _ h e hp => by rw [e _ h.1, e _ h.2]; exact hp)
    (fun _ hc hd => (enforceLeq_spec hp hc a b).weaken (fun h => ⟨hd, h⟩))

/-- **C21**, `enforce_geq` -/
theorem C21_enforce_geq [Fact p.Prime] (hp : p ≠ 2) (a b : ℕ) :
    Correct (enforceGeq a b : Build p Unit) (fun c => In a c ∧ In b c)
      (fun w => (w b).val ≤ (w a).val) (fun _ w => (w b).val ≤ (w a).val) :=
  .of_spec (enforceGeq_rel a b) (fun _ _ h => h)
    (fun _ _ _ h e hp => by rw [e _ h.1, e _ h.2]; exact hp)
    (fun _ hc hd => (enforceGeq_spec hp hc a b).weaken (fun h => ⟨hd, h⟩))


/-- **C21**, `is_lt_constant` -/
theorem C21_is_lt_constant [Fact p.Prime] (hp : p ≠ 2) (a : ℕ) (k : ZMod p) :
    Correct (isLtConstant a k) (In a) (fun _ => True)
      (fun v w => w v = if (w a).val < k.val then 1 else 0) :=
  .of_spec (const_rel (fun b => isLt_rel a b) a k) (fun _ _ h => h) (fun _ _ _ _ _ h => h)
    (fun _ hc hd => Spec.conseq hc (isLtConstant_spec hp hc a k) (fun _ _ _ => hd)
      (fun _ _ _ h => h) (by intro v w _ _ h; simpa [boolF] using h))

/-- **C21**, `is_leq_constant` -/
theorem C21_is_leq_constant [Fact p.Prime] (hp : p ≠ 2) (a : ℕ) (k : ZMod p) :
    Correct (isLeqConstant a k) (In a) (fun _ => True)
      (fun v w => w v = if (w a).val ≤ k.val then 1 else 0) :=
  .of_spec (const_rel (fun b => isLeq_rel a b) a k) (fun _ _ h => h) (fun _ _ _ _ _ h => h)
    (fun _ hc hd => Spec.conseq hc (isLeqConstant_spec hp hc a k) (fun _ _ _ => hd)
      (fun _ _ _ h => h) (by intro v w _ _ h; simpa [boolF] using h))

/-- **C21**, `is_gt_constant` -/
theorem C21_is_gt_constant [Fact p.Prime] (hp : p ≠ 2) (a : ℕ) (k : ZMod p) :
    Correct (isGtConstant a k) (In a) (fun _ => True)
      (fun v w => w v = if k.val < (w a).val then 1 else 0) :=
  .of_spec (Rel.bind (Rel.checkVar a) (fun _ => isGtConstantInternal_rel a k)) (fun _ _ h => h)
    (fun _ _ _ _ _ h => h)
    (fun _ hc hd => Spec.conseq hc (isGtConstant_spec hp hc a k) (fun _ _ _ => hd)
      (fun _ _ _ h => h) (by intro v w _ _ h; simpa [boolF] using h))

/-- **C21**, `is_geq_constant` -/
theorem C21_is_geq_constant [Fact p.Prime] (hp : p ≠ 2) (a : ℕ) (k : ZMod p) :
    Correct (isGeqConstant a k) (In a) (fun _ => True)
      (fun v w => w v = if k.val ≤ (w a).val then 1 else 0) :=
  .of_spec (const_rel (fun b => isGeq_rel a b) a k) (fun _ _ h => h) (fun _ _ _ _ _ h => h)
    (fun _ hc hd => Spec.conseq hc (isGeqConstant_spec hp hc a k) (fun _ _ _ => hd)
      (fun _ _ _ h => h) (by intro v w _ _ h; simpa [boolF] using h))


/-- **C21**, `enforce_lt_constant` -/
theorem C21_enforce_lt_constant [Fact p.Prime] (hp : p ≠ 2) (a : ℕ) (k : ZMod p) :
    Correct (enforceLtConstant a k) (In a) (fun w => (w a).val < k.val)
      (fun _ w => (w a).val < k.val) :=
  .of_spec (const_rel (fun b => enforceLt_rel a b) a k) (fun _ _ h => h)
    (fun _ _ _ h e hp => by rw [e _ h]; exact hp)
    (fun _ hc hd => (enforceLtConstant_spec hp hc a k).weaken (fun h => ⟨hd, h⟩))

/-- **C21**, `enforce_leq_constant` -/
theorem C21_enforce_leq_constant [Fact p.Prime] (hp : p ≠ 2) (a : ℕ) (k : ZMod p) :
    Correct (enforceLeqConstant a k) (In a) (fun w => (w a).val ≤ k.val)
      (fun _ w => (w a).val ≤ k.val) :=
  .of_spec (const_rel (fun b => enforceLeq_rel a b) a k) (fun _ _ h => h)
    (fun _ _ _ h e hp => by rw [e _ h]; exact hp)
    (fun _ hc hd => (enforceLeqConstant_spec hp hc a k).weaken (fun h => ⟨hd, h⟩))

/-- **C21**, `enforce_gt_constant` -/
theorem C21_enforce_gt_constant [Fact p.Prime] (hp : p ≠ 2) (a : ℕ) (k : ZMod p) :
    Correct (enforceGtConstant a k) (In a) (fun w => k.val < (w a).val)
      (fun _ w => k.val < (w a).val) :=
  .of_spec (const_rel (fun b => enforceGt_rel a b) a k) (fun _ _ h => h)
    (fun _ _ _ h e hp => by rw [e _ h]; exact hp)
    (fun _ hc hd => (enforceGtConstant_spec hp hc a k).weaken (fun h => ⟨hd, h⟩))

/-- **C21**, `enforce_geq_constant` -/
theorem C21_enforce_geq_constant [Fact p.Prime] (hp : p ≠ 2) (a : ℕ) (k : ZMod p) :
    Correct (enforceGeqConstant a k) (In a) (fun w => k.val ≤ (w a).val)
      (fun _ w => k.val ≤ (w a).val) :=
  .of_spec (const_rel (fun b => enforceGeq_rel a b) a k) (fun _ _ h => h)
    (fun _ _ _ h e hp => by rw [e _ h]; exact hp)
    (fun _ hc hd => (enforceGeqConstant_spec hp hc a k).weaken (fun h => ⟨hd, h⟩))


example : runVal (isLt 2 3) demo = some 1 := by
  obtain ⟨v, c', h1, h2, h3⟩ := (C21_is_lt (p := 7) (by decide) 2 3).run demo_wf
    (by decide) demo_check trivial
  rw [h1, h2]
  simp only [h3 2 (by decide), h3 3 (by decide)]
  decide
example : runVal (isLt 3 2) demo = some 0 := by
  obtain ⟨v, c', h1, h2, h3⟩ := (C21_is_lt (p := 7) (by decide) 3 2).run demo_wf
    (by decide) demo_check trivial
  rw [h1, h2]
  simp only [h3 2 (by decide), h3 3 (by decide)]
  decide
example : runVal (isGt 3 2) demo = some 1 := by
  obtain ⟨v, c', h1, h2, h3⟩ := (C21_is_gt (p := 7) (by decide) 3 2).run demo_wf
    (by decide) demo_check trivial
  rw [h1, h2]
  simp only [h3 2 (by decide), h3 3 (by decide)]
  decide
example : runVal (isGt 2 2) demo = some 0 := by
  obtain ⟨v, c', h1, h2, h3⟩ := (C21_is_gt (p := 7) (by decide) 2 2).run demo_wf
    (by decide) demo_check trivial
  rw [h1, h2]
  simp only [h3 2 (by decide), h3 3 (by decide)]
  decide
example : runVal (isLeq 2 2) demo = some 1 := by
  obtain ⟨v, c', h1, h2, h3⟩ := (C21_is_leq (p := 7) (by decide) 2 2).run demo_wf
    (by decide) demo_check trivial
  rw [h1, h2]
  simp only [h3 2 (by decide), h3 3 (by decide)]
  decide
example : runVal (isLeq 3 2) demo = some 0 := by
  obtain ⟨v, c', h1, h2, h3⟩ := (C21_is_leq (p := 7) (by decide) 3 2).run demo_wf
    (by decide) demo_check trivial
  rw [h1, h2]
  simp only [h3 2 (by decide), h3 3 (by decide)]
  decide
example : runVal (isGeq 2 2) demo = some 1 := by
  obtain ⟨v, c', h1, h2, h3⟩ := (C21_is_geq (p := 7) (by decide) 2 2).run demo_wf
    (by decide) demo_check trivial
  rw [h1, h2]
  simp only [h3 2 (by decide), h3 3 (by decide)]
  decide
example : runVal (isGeq 2 3) demo = some 0 := by
  obtain ⟨v, c', h1, h2, h3⟩ := (C21_is_geq (p := 7) (by decide) 2 3).run demo_wf
    (by decide) demo_check trivial
  rw [h1, h2]
  simp only [h3 2 (by decide), h3 3 (by decide)]
  decide
example : runVal (isLtConstant 2 4) demo = some 1 := by
  obtain ⟨v, c', h1, h2, h3⟩ := (C21_is_lt_constant (p := 7) (by decide) 2 4).run demo_wf
    (by decide) demo_check trivial
  rw [h1, h2, h3 2 (by decide)]
  decide
example : runVal (isLtConstant 3 5) demo = some 0 := by
  obtain ⟨v, c', h1, h2, h3⟩ := (C21_is_lt_constant (p := 7) (by decide) 3 5).run demo_wf
    (by decide) demo_check trivial
  rw [h1, h2, h3 3 (by decide)]
  decide
example : runVal (isLeqConstant 2 3) demo = some 1 := by
  obtain ⟨v, c', h1, h2, h3⟩ := (C21_is_leq_constant (p := 7) (by decide) 2 3).run demo_wf
    (by decide) demo_check trivial
  rw [h1, h2, h3 2 (by decide)]
  decide
example : runVal (isLeqConstant 3 4) demo = some 0 := by
  obtain ⟨v, c', h1, h2, h3⟩ := (C21_is_leq_constant (p := 7) (by decide) 3 4).run demo_wf
    (by decide) demo_check trivial
  rw [h1, h2, h3 3 (by decide)]
  decide
example : runVal (isGtConstant 3 3) demo = some 1 := by
  obtain ⟨v, c', h1, h2, h3⟩ := (C21_is_gt_constant (p := 7) (by decide) 3 3).run demo_wf
    (by decide) demo_check trivial
  rw [h1, h2, h3 3 (by decide)]
  decide
example : runVal (isGtConstant 2 3) demo = some 0 := by
  obtain ⟨v, c', h1, h2, h3⟩ := (C21_is_gt_constant (p := 7) (by decide) 2 3).run demo_wf
    (by decide) demo_check trivial
  rw [h1, h2, h3 2 (by decide)]
  decide
example : runVal (isGeqConstant 3 5) demo = some 1 := by
  obtain ⟨v, c', h1, h2, h3⟩ := (C21_is_geq_constant (p := 7) (by decide) 3 5).run demo_wf
    (by decide) demo_check trivial
  rw [h1, h2, h3 3 (by decide)]
  decide
example : runVal (isGeqConstant 2 6) demo = some 0 := by
  obtain ⟨v, c', h1, h2, h3⟩ := (C21_is_geq_constant (p := 7) (by decide) 2 6).run demo_wf
    (by decide) demo_check trivial
  rw [h1, h2, h3 2 (by decide)]
  decide
example : runOk (enforceLt 2 3) demo = true := by
  rw [(C21_enforce_lt (p := 7) (by decide) 2 3).runOk_iff demo_wf (by decide) demo_check
    (fun w h hp => by rw [← h 2 (by decide), ← h 3 (by decide)]; exact hp)]
  decide
example : ¬ runOk (enforceLt 2 2) demo = true := by
  rw [(C21_enforce_lt (p := 7) (by decide) 2 2).runOk_iff demo_wf (by decide) demo_check
    (fun w h hp => by rw [← h 2 (by decide)]; exact hp)]
  decide
example : runOk (enforceGt 3 2) demo = true := by
  rw [(C21_enforce_gt (p := 7) (by decide) 3 2).runOk_iff demo_wf (by decide) demo_check
    (fun w h hp => by rw [← h 2 (by decide), ← h 3 (by decide)]; exact hp)]
  decide
example : ¬ runOk (enforceGt 2 3) demo = true := by
  rw [(C21_enforce_gt (p := 7) (by decide) 2 3).runOk_iff demo_wf (by decide) demo_check
    (fun w h hp => by rw [← h 2 (by decide), ← h 3 (by decide)]; exact hp)]
  decide
example : runOk (enforceLeq 2 2) demo = true := by
  rw [(C21_enforce_leq (p := 7) (by decide) 2 2).runOk_iff demo_wf (by decide) demo_check
    (fun _ _ _ => le_refl _)]
example : ¬ runOk (enforceLeq 3 2) demo = true := by
  rw [(C21_enforce_leq (p := 7) (by decide) 3 2).runOk_iff demo_wf (by decide) demo_check
    (fun w h hp => by rw [← h 2 (by decide), ← h 3 (by decide)]; exact hp)]
  decide
example : runOk (enforceGeq 2 2) demo = true := by
  rw [(C21_enforce_geq (p := 7) (by decide) 2 2).runOk_iff demo_wf (by decide) demo_check
    (fun _ _ _ => le_refl _)]
example : ¬ runOk (enforceGeq 2 3) demo = true := by
  rw [(C21_enforce_geq (p := 7) (by decide) 2 3).runOk_iff demo_wf (by decide) demo_check
    (fun w h hp => by rw [← h 2 (by decide), ← h 3 (by decide)]; exact hp)]
  decide
example : runOk (enforceLtConstant 2 4) demo = true := by
  rw [(C21_enforce_lt_constant (p := 7) (by decide) 2 4).runOk_iff demo_wf (by decide) demo_check
    (fun w h hp => by rw [← h 2 (by decide)]; exact hp)]
  decide
example : ¬ runOk (enforceLtConstant 2 3) demo = true := by
  rw [(C21_enforce_lt_constant (p := 7) (by decide) 2 3).runOk_iff demo_wf (by decide) demo_check
    (fun w h hp => by rw [← h 2 (by decide)]; exact hp)]
  decide
example : runOk (enforceLeqConstant 2 3) demo = true := by
  rw [(C21_enforce_leq_constant (p := 7) (by decide) 2 3).runOk_iff demo_wf (by decide) demo_check
    (fun w h hp => by rw [← h 2 (by decide)]; exact hp)]
  decide
example : ¬ runOk (enforceLeqConstant 2 2) demo = true := by
  rw [(C21_enforce_leq_constant (p := 7) (by decide) 2 2).runOk_iff demo_wf (by decide) demo_check
    (fun w h hp => by rw [← h 2 (by decide)]; exact hp)]
  decide
example : runOk (enforceGtConstant 2 2) demo = true := by
  rw [(C21_enforce_gt_constant (p := 7) (by decide) 2 2).runOk_iff demo_wf (by decide) demo_check
    (fun w h hp => by rw [← h 2 (by decide)]; exact hp)]
  decide
example : ¬ runOk (enforceGtConstant 2 3) demo = true := by
  rw [(C21_enforce_gt_constant (p := 7) (by decide) 2 3).runOk_iff demo_wf (by decide) demo_check
    (fun w h hp => by rw [← h 2 (by decide)]; exact hp)]
  decide
example : runOk (enforceGeqConstant 2 3) demo = true := by
  rw [(C21_enforce_geq_constant (p := 7) (by decide) 2 3).runOk_iff demo_wf (by decide) demo_check
    (fun w h hp => by rw [← h 2 (by decide)]; exact hp)]
  decide
example : ¬ runOk (enforceGeqConstant 2 4) demo = true := by
  rw [(C21_enforce_geq_constant (p := 7) (by decide) 2 4).runOk_iff demo_wf (by decide) demo_check
    (fun w h hp => by rw [← h 2 (by decide)]; exact hp)]
  decide

/-! ## C22 -/

instance : Fact (Nat.Prime 31) := ⟨by norm_num⟩
instance : Fact (Nat.Prime 61) := ⟨by norm_num⟩

/-- an UltraPlonk circuit over `ZMod 31` with 2-bit range table and one variable `5` -/
def demo31 : Circ 31 := { Circ.new 31 (some 2) with numVars := 3, witness := [0, 1, 5] }

theorem demo31_wf : WF demo31 := by
  refine ⟨rfl, rfl, by decide, ⟨[], rfl⟩, ?_, by simp [demo31, Circ.new], by simp [demo31, Circ.new]⟩
  intro r hr
  simp [demo31, Circ.new] at hr
  rcases hr with rfl | rfl <;> simp [demo31]

theorem demo31_range : RangeOK demo31 := by
  intro k hk
  have : k = 2 := by simpa [demo31, Circ.new] using hk.symm
  subst this; decide

/-- an UltraPlonk circuit over `ZMod 61` with 2-bit range table and one variable `0` -/
def demo61 : Circ 61 := { Circ.new 61 (some 2) with numVars := 3, witness := [0, 1, 0] }

theorem demo61_wf : WF demo61 := by
  refine ⟨rfl, rfl, by decide, ⟨[], rfl⟩, ?_, by simp [demo61, Circ.new], by simp [demo61, Circ.new]⟩
  intro r hr
  simp [demo61, Circ.new] at hr
  rcases hr with rfl | rfl <;> simp [demo61]

theorem demo61_range : RangeOK demo61 := by
  intro k hk
  have : k = 2 := by simpa [demo61, Circ.new] using hk.symm
  subst this; decide

/-- **C22, refuted** (first reason): when the truncation length is a multiple of the range
bit length the high part `b2` of the output is not constrained at all.  Over `ZMod 31` with
2-bit ranges, "truncating" 5 to 2 bits accepts the output 5. -/
theorem C22_truncate_unconstrained_high_part_counterexample :
    ¬ ∀ (p : ℕ) [Fact p.Prime] (_ : p ≠ 2) (a l : ℕ) (c : Circ p) (_ : WF c) (_ : RangeOK c)
      (_ : In a c) (b : ℕ) (c' : Circ p) (_ : truncate a l c = .ok (b, c'))
      (w : ℕ → ZMod p) (_ : Sat c' [] w), (w b).val < 2 ^ l := by
  intro hall
  obtain ⟨b, c', hm, hs, ht⟩ := advOk_sat (m := truncate 2 2) (c := demo31)
    (adv := [0, 1, 5, 5, 1, 1, 0, 0, 1, 0, 0, 0]) (test := fun v => v == 3)
    (by decide +kernel)
    (fun v c' hm => ((truncate_spec (by decide) demo31_wf demo31_range rfl 2 2).sound v c' hm).1.wf)
  have hv : b = 3 := by simpa using ht
  subst hv
  have := hall 31 (by decide) 2 2 demo31 demo31_wf demo31_range (by decide) _ c' hm _ hs
  revert this
  decide

/-- **C22, refuted** (second reason): even when all parts are range-checked, the
decomposition is only checked modulo `p`, so the low bits of `a + p` are accepted.  Over
`ZMod 61` with 2-bit ranges, truncating 0 to 3 bits accepts the output `5 = 61 mod 8`. -/
theorem C22_truncate_alias_counterexample :
    ¬ ∀ (p : ℕ) [Fact p.Prime] (_ : p ≠ 2) (a l k : ℕ) (c : Circ p) (_ : WF c) (_ : RangeOK c)
      (_ : In a c) (_ : c.ultra = some k) (_ : k < l) (_ : l % k ≠ 0)
      (_ : k < Nat.size p - l) (_ : (Nat.size p - l) % k ≠ 0)
      (b : ℕ) (c' : Circ p) (_ : truncate a l c = .ok (b, c'))
      (w : ℕ → ZMod p) (_ : Sat c' [] w), (w b).val = (w a).val % 2 ^ l := by
  intro hall
  obtain ⟨b, c', hm, hs, ht⟩ := advOk_sat (m := truncate 2 3) (c := demo61)
    (adv := [0, 1, 0, 5, 1, 1, 3, 1, 1, 1, 1, 3, 1, 1]) (test := fun v => v == 3)
    (by decide +kernel)
    (fun v c' hm => ((truncate_spec (by decide) demo61_wf demo61_range rfl 2 3).sound v c' hm).1.wf)
  have hv : b = 3 := by simpa using ht
  subst hv
  have hsz : Nat.size 61 = 6 := by decide
  have := hall 61 (by decide) 2 3 2 demo61 demo61_wf demo61_range (by decide) rfl (by decide) (by decide)
    (by rw [hsz]; decide) (by rw [hsz]; decide) _ c' hm _ hs
  revert this
  decide

/-- **C22, partial.** The full property is `(w b).val = (w a).val % 2 ^ l` in every
satisfying assignment; it is false (see the two counterexamples).  What holds: if both the
length `l` and the remaining width `MODULUS_BIT_SIZE - l` exceed the range bit length `k`
and neither is a multiple of it (so that all four parts are range-checked), the output is
an `l`-bit number, and it is the truncation of `a` or, if `a + p` has at most `MODULUS_BIT_SIZE` bits, of `a + p`.  Completeness (and the
honest witness) hold for all lengths `0 < l < MODULUS_BIT_SIZE`. -/
theorem C22_truncate_partial [Fact p.Prime] (hp : p ≠ 2) (a l k : ℕ) (hl0 : 0 < l)
    (hl : l < Nat.size p) :
    Correct (truncate a l : Build p ℕ) (fun c => In a c ∧ c.ultra = some k ∧ 0 < k ∧ k < 32 ∧ 2 ^ k < p)
      (fun _ => True)
      (fun b w => k < l → l % k ≠ 0 → k < Nat.size p - l → (Nat.size p - l) % k ≠ 0 →
        (w b).val < 2 ^ l ∧
        ((w b).val = (w a).val % 2 ^ l ∨
          ((w a).val + p < 2 ^ Nat.size p ∧ (w b).val = ((w a).val + p) % 2 ^ l))) :=
  .of_spec (truncate_rel a l) (fun _ _ h => h) (fun _ _ _ _ _ h => h)
    (fun c hc hd => by
      have hr : RangeOK c := by
        intro k' hk'
        rw [hd.2.1] at hk'; cases hk'; exact hd.2.2
      refine Spec.conseq hc (truncate_spec hp hc hr hd.2.1 a l) (fun _ _ _ => ⟨hd.1, hl0, hl⟩)
        (fun _ _ _ h => h) ?_
      rintro b w _ _ ⟨b1, b2, z1, z2, h⟩ h1 h2 h3 h4
      have m1 := Nat.mod_lt l hd.2.2.1
      have m2 := Nat.mod_lt (Nat.size p - l) hd.2.2.1
      have hms : modulusBits p = Nat.size p := rfl
      rw [hms] at h
      exact h.trunc (by have := Nat.mod_le l k; omega)
        (by have := Nat.mod_le (Nat.size p - l) k; rw [hms]; omega) (by rw [hms]; exact hl)
        (by omega) h2 (by omega) h4)

/-- **C22, partial**, `truncate_gate` for a given output wire: same gap. -/
theorem C22_truncate_gate_partial [Fact p.Prime] (hp : p ≠ 2) (a b l k : ℕ) (hl0 : 0 < l)
    (hl : l < Nat.size p) :
    Correct (truncateGate a b l : Build p Unit)
      (fun c => (In a c ∧ In b c) ∧ c.ultra = some k ∧ 0 < k ∧ k < 32 ∧ 2 ^ k < p)
      (fun w => (w b).val = (w a).val % 2 ^ l)
      (fun _ w => k < l → l % k ≠ 0 → k < Nat.size p - l → (Nat.size p - l) % k ≠ 0 →
        (w b).val < 2 ^ l ∧
        ((w b).val = (w a).val % 2 ^ l ∨
          ((w a).val + p < 2 ^ Nat.size p ∧ (w b).val = ((w a).val + p) % 2 ^ l))) :=
  .of_spec (truncateGate_rel a b l) (fun _ _ h => h)
    (fun _ _ _ h e hp => by rw [e _ h.1.1, e _ h.1.2]; exact hp)
    (fun c hc hd => by
      have hr : RangeOK c := by
        intro k' hk'
        rw [hd.2.1] at hk'; cases hk'; exact hd.2.2
      refine Spec.conseq hc (truncateGate_spec hp hc hr hd.2.1 a b l)
        (fun h _ _ => ⟨hd.1, hl0, hl, h⟩) (fun _ _ _ h => h) ?_
      rintro _ w _ _ ⟨b1, b2, z1, z2, h⟩ h1 h2 h3 h4
      have m1 := Nat.mod_lt l hd.2.2.1
      have m2 := Nat.mod_lt (Nat.size p - l) hd.2.2.1
      have hms : modulusBits p = Nat.size p := rfl
      rw [hms] at h
      exact h.trunc (by have := Nat.mod_le l k; omega)
        (by have := Nat.mod_le (Nat.size p - l) k; rw [hms]; omega) (by rw [hms]; exact hl)
        (by omega) h2 (by omega) h4)

/-- 17 truncated to 3 bits is 1, all four parts are range-checked -/
example : runVal (truncate 2 3) demoU = some 1 ∧ runOk (truncateGate 2 1 3) demoU = true ∧
    (2 : ℕ) < 3 ∧ 3 % 2 ≠ 0 ∧ 2 < Nat.size 61 - 3 ∧ (Nat.size 61 - 3) % 2 ≠ 0 := by decide +kernel

end Verif.Props.Circuit
