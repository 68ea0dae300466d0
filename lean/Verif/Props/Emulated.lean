import Verif.Props.EmulatedSpec
import Verif.Util.Fields

/-!
# Emulated multiplication (property C28)

The gate does not force `a * b ≡ c (mod q)`: it forces `a * b ≡ k * q + c (mod 2^T * p)` for some
`k < 2^T`. That is exact (`C28_mul_gate`, `C28_mul`, `C28_mul_constant_gate`, `C28_mul_constant`). When
`p < q`, as in both configurations of the crate, other results than the product are accepted
(`C28_mul_counterexample`); when `q < p` and the product is below `2^T * p`, the result is the product
modulo `q` (`C28_mul_sound_partial`).
-/

set_option linter.unusedSectionVars false

namespace Verif.Props.Emulated

open Verif.Circuit Verif.Limbs

variable {p : ℕ}

/-- what the multiplication gate forces -/
def MulRel (p : ℕ) (E : Emu) (a b c : ℕ) : Prop :=
  ∃ k, k < 2 ^ E.T ∧ a * b ≡ k * E.q + c [MOD 2 ^ E.T * p]

theorem mulRel_iff {E : Emu} {a b c : ℕ} : MulRel p E a b c ↔ MulOK p E a b c := by
  unfold MulRel MulOK
  refine exists_congr (fun k => and_congr Iff.rfl ?_)
  rw [Nat.ModEq.comm, Nat.modEq_iff_dvd]
  push_cast
  rw [sub_sub]

theorem rangeOK_assign {c : Circ p} (h : RangeOK c) (w : ℕ → ZMod p) : RangeOK (c.assign w) := h

theorem IsVar.assign {E : Emu} {a : List ℕ} {c : Circ p} (h : IsVar E a c) (w : ℕ → ZMod p) :
    IsVar E a (c.assign w) := h

theorem Ranged.congr {E : Emu} {a : List ℕ} {c : Circ p} (h : IsVar E a c) {w w' : ℕ → ZMod p}
    (ha : Agree c w' w) (hr : Ranged E w a) : Ranged E w' a :=
  fun v hv => by rw [ha v (h.2 v hv)]; exact hr v hv

theorem value_agree {E : Emu} {a : List ℕ} {c : Circ p} (h : IsVar E a c) {w w' : ℕ → ZMod p}
    (ha : Agree c w' w) : value E.B w' a = value E.B w a := value_congr (fun v hv => ha v (h.2 v hv))

/-- **C28**, exact form for `emulated_mul_gate`. -/
theorem C28_mul_gate [hp : Fact p.Prime] {E : Emu} (h : E.OK p) (a b y : List ℕ) :
    Enforces (emulatedMulGate E a b y : Build p Unit)
      (fun c => RangeOK c ∧ IsVar E a c ∧ IsVar E b c ∧ IsVar E y c)
      (fun w => Ranged E w a ∧ Ranged E w b ∧ Ranged E w y)
      (fun w => MulRel p E (value E.B w a) (value E.B w b) (value E.B w y))
      (fun w => (Ranged E w a ∧ Ranged E w b ∧ Ranged E w y) ∧ value E.B w a < E.q ∧ value E.B w b < E.q ∧
        value E.B w y = value E.B w a * value E.B w b % E.q)
      (fun _ => True) := by
  refine Enforces.of_spec (B := fun _ _ _ => True) (emulatedMulGate_rel _ _ _ _) ?_ ?_ ?_ ?_ ?_ ?_
  · exact fun c w h => h
  · rintro c w w' ⟨_, h1, h2, h3⟩ ha ⟨r1, r2, r3⟩
    exact ⟨r1.congr h1 ha, r2.congr h2 ha, r3.congr h3 ha⟩
  · rintro c w w' ⟨_, h1, h2, h3⟩ ha hr
    rw [value_agree h1 ha, value_agree h2 ha, value_agree h3 ha]
    exact hr
  · rintro c hc ⟨hr, ⟨l1, h1⟩, ⟨l2, h2⟩, ⟨l3, h3⟩⟩
    refine Spec.conseq hc (emulatedMulGate_spec h hc hr l1 l2 l3 h1 h2 h3) ?_ (fun _ _ _ h => h) ?_
    · rintro ⟨⟨⟨r1, r2, r3⟩, q1, q2, q3⟩, -⟩ _ _
      rw [value_eq l1] at q1 q3
      rw [value_eq l2] at q2 q3
      rw [value_eq l3] at q3
      exact ⟨r1, r2, r3, q1, q2, q3⟩
    · rintro _ w _ _ hm ⟨r1, r2, r3⟩
      rw [value_eq l1, value_eq l2, value_eq l3, mulRel_iff]
      exact hm r1 r2 r3
  · rintro c hc ⟨hr, ⟨l1, h1⟩, ⟨l2, h2⟩, ⟨l3, h3⟩⟩ ⟨r1, r2, r3⟩ hrel
    rw [value_eq l1, value_eq l2, value_eq l3, mulRel_iff] at hrel
    obtain ⟨k, hk, hd⟩ := hrel
    refine ⟨_, emulatedMulGate_rel' h _ _ _ k
      (advCarries p E (fun j => (limb c.val a j).val) (fun j => (limb c.val b j).val) k) (by simp [advCarries]), ?_⟩
    exact Spec.conseq hc (mulGateWith_adv h hc hr l1 l2 l3 h1 h2 h3 k) (fun _ _ _ => ⟨r1, r2, r3, hk, hd⟩)
      (fun _ _ _ h => h) (fun _ _ _ _ h => h)
  · exact fun _ _ _ _ _ _ _ _ _ => trivial

/-- **C28**, exact form for `emulated_mul`. -/
theorem C28_mul [hp : Fact p.Prime] {E : Emu} (h : E.OK p) (a b : List ℕ) :
    Computes E (emulatedMul E a b : Build p (List ℕ))
      (fun c => RangeOK c ∧ IsVar E a c ∧ IsVar E b c)
      (fun w => Ranged E w a ∧ Ranged E w b)
      (fun w y => MulRel p E (value E.B w a) (value E.B w b) y)
      (fun w => (Ranged E w a ∧ Ranged E w b) ∧ value E.B w a < E.q ∧ value E.B w b < E.q)
      (fun _ => True)
      (fun w => value E.B w a * value E.B w b % E.q) := by
  refine Computes.of_spec h.hT (emulatedMul_rel _ _ _) (fun _ _ h => h) ?_ ?_ ?_ ?_ ?_
  · rintro c w w' ⟨_, h1, h2⟩ ha ⟨r1, r2⟩
    exact ⟨r1.congr h1 ha, r2.congr h2 ha⟩
  · rintro c w w' y ⟨_, h1, h2⟩ ha hr
    rw [value_agree h1 ha, value_agree h2 ha]
    exact hr
  · rintro c hc ⟨hr, ⟨l1, h1⟩, ⟨l2, h2⟩⟩
    refine Spec.conseq hc (emulatedMul_spec h hc hr l1 l2 h1 h2) ?_ ?_ ?_
    · rintro ⟨⟨⟨r1, r2⟩, q1, q2⟩, -⟩ _ _
      rw [value_eq l1] at q1
      rw [value_eq l2] at q2
      exact ⟨r1, r2, q1, q2⟩
    · rintro v c' - ⟨lv, hv, hm⟩
      refine ⟨⟨lv, hv⟩, ?_⟩
      rintro h0 ⟨_, q1, q2⟩
      rw [value_eq l1, value_eq l2]
      rw [value_eq l1] at q1
      rw [value_eq l2] at q2
      exact value_map h h0 ((Nat.mod_lt _ h.hq).trans h.hqT) (hm q1 q2)
    · rintro v w _ _ ⟨rv, hm⟩
      refine ⟨rv, ?_⟩
      rintro lv ⟨r1, r2⟩
      rw [value_eq l1, value_eq l2, value_eq lv, mulRel_iff]
      exact hm r1 r2
  · rintro c y hc ⟨hr, ⟨l1, h1⟩, ⟨l2, h2⟩⟩ ⟨r1, r2⟩ hy hrel
    rw [value_eq l1, value_eq l2, mulRel_iff] at hrel
    obtain ⟨k, hk, hd⟩ := hrel
    refine ⟨_, emulatedMul_rel' h _ _ y k
      (advCarries p E (fun j => (limb c.val a j).val) (fun j => (limb c.val b j).val) k) (by simp [advCarries]), ?_⟩
    exact Spec.conseq hc (mulAdv_spec h hc hr l1 l2 h1 h2 y k) (fun _ _ _ => ⟨r1, r2, hy, hk, hd⟩)
      (fun v c' _ hm h0 => value_map h h0 hy hm) (fun _ _ _ _ h => h)
  · exact fun _ _ _ _ _ _ _ _ _ => trivial

/-- **C28**, exact form for `emulated_mul_constant_gate`. -/
theorem C28_mul_constant_gate [hp : Fact p.Prime] {E : Emu} (h : E.OK p) (a : List ℕ) (b : ℕ) (hb : b < E.q)
    (y : List ℕ) :
    Enforces (emulatedMulConstantGate E a b y : Build p Unit)
      (fun c => RangeOK c ∧ IsVar E a c ∧ IsVar E y c)
      (fun w => Ranged E w a ∧ Ranged E w y)
      (fun w => MulRel p E (value E.B w a) b (value E.B w y))
      (fun w => (Ranged E w a ∧ Ranged E w y) ∧ value E.B w a < E.q ∧
        value E.B w y = value E.B w a * b % E.q)
      (fun _ => True) := by
  refine Enforces.of_spec (B := fun _ _ _ => True) (emulatedMulConstantGate_rel _ _ _ _) ?_ ?_ ?_ ?_ ?_ ?_
  · exact fun c w h => h
  · rintro c w w' ⟨_, h1, h3⟩ ha ⟨r1, r3⟩
    exact ⟨r1.congr h1 ha, r3.congr h3 ha⟩
  · rintro c w w' ⟨_, h1, h3⟩ ha hr
    rw [value_agree h1 ha, value_agree h3 ha]
    exact hr
  · rintro c hc ⟨hr, ⟨l1, h1⟩, ⟨l3, h3⟩⟩
    refine Spec.conseq hc (emulatedMulConstantGate_spec h hb hc hr l1 l3 h1 h3) ?_ (fun _ _ _ h => h) ?_
    · rintro ⟨⟨⟨r1, r3⟩, q1, q3⟩, -⟩ _ _
      rw [value_eq l1] at q1 q3
      rw [value_eq l3] at q3
      exact ⟨r1, r3, q1, q3⟩
    · rintro _ w _ _ hm ⟨r1, r3⟩
      rw [value_eq l1, value_eq l3, mulRel_iff]
      exact hm r1 r3
  · rintro c hc ⟨hr, ⟨l1, h1⟩, ⟨l3, h3⟩⟩ ⟨r1, r3⟩ hrel
    rw [value_eq l1, value_eq l3, mulRel_iff] at hrel
    obtain ⟨k, hk, hd⟩ := hrel
    refine ⟨_, emulatedMulConstantGate_rel' h _ _ _ k
      (advCarries p E (fun j => (limb c.val a j).val) (fun j => (cst (toLimbs p b E.B E.n) j).val) k)
      (by simp [advCarries]), ?_⟩
    exact Spec.conseq hc (mulConstGateWith_adv h hb hc hr l1 l3 h1 h3 k) (fun _ _ _ => ⟨r1, r3, hk, hd⟩)
      (fun _ _ _ h => h) (fun _ _ _ _ h => h)
  · exact fun _ _ _ _ _ _ _ _ _ => trivial

/-- **C28**, exact form for `emulated_mul_constant`. -/
theorem C28_mul_constant [hp : Fact p.Prime] {E : Emu} (h : E.OK p) (a : List ℕ) (b : ℕ) (hb : b < E.q) :
    Computes E (emulatedMulConstant E a b : Build p (List ℕ))
      (fun c => RangeOK c ∧ IsVar E a c)
      (fun w => Ranged E w a)
      (fun w y => MulRel p E (value E.B w a) b y)
      (fun w => Ranged E w a ∧ value E.B w a < E.q)
      (fun _ => True)
      (fun w => value E.B w a * b % E.q) := by
  refine Computes.of_spec h.hT (emulatedMulConstant_rel _ _ _) (fun _ _ h => h) ?_ ?_ ?_ ?_ ?_
  · rintro c w w' ⟨_, h1⟩ ha r1
    exact r1.congr h1 ha
  · rintro c w w' y ⟨_, h1⟩ ha hr
    rw [value_agree h1 ha]
    exact hr
  · rintro c hc ⟨hr, ⟨l1, h1⟩⟩
    refine Spec.conseq hc (emulatedMulConstant_spec h hb hc hr l1 h1) ?_ ?_ ?_
    · rintro ⟨⟨r1, q1⟩, -⟩ _ _
      rw [value_eq l1] at q1
      exact ⟨r1, q1⟩
    · rintro v c' - ⟨lv, hv, hm⟩
      refine ⟨⟨lv, hv⟩, ?_⟩
      rintro h0 ⟨_, q1⟩
      rw [value_eq l1]
      rw [value_eq l1] at q1
      exact value_map h h0 ((Nat.mod_lt _ h.hq).trans h.hqT) (hm q1)
    · rintro v w _ _ ⟨rv, hm⟩
      refine ⟨rv, ?_⟩
      intro lv r1
      rw [value_eq l1, value_eq lv, mulRel_iff]
      exact hm r1
  · rintro c y hc ⟨hr, ⟨l1, h1⟩⟩ r1 hy hrel
    rw [value_eq l1, mulRel_iff] at hrel
    obtain ⟨k, hk, hd⟩ := hrel
    refine ⟨_, emulatedMulConstant_rel' h _ _ y k
      (advCarries p E (fun j => (limb c.val a j).val) (fun j => (cst (toLimbs p b E.B E.n) j).val) k)
      (by simp [advCarries]), ?_⟩
    exact Spec.conseq hc (mulConstAdv_spec h hb hc hr l1 h1 y k) (fun _ _ _ => ⟨r1, hy, hk, hd⟩)
      (fun v c' _ hm h0 => value_map h h0 hy hm) (fun _ _ _ _ h => h)
  · exact fun _ _ _ _ _ _ _ _ _ => trivial

/-! ## Is it the product? -/

/-- the claim: the result is congruent to the product modulo the emulated modulus -/
def MulSound (p : ℕ) (E : Emu) : Prop :=
  ∀ (a b : List ℕ) (c : Circ p), WF c → RangeOK c → IsVar E a c → IsVar E b c →
    ∀ y c', emulatedMul E a b c = .ok (y, c') → ∀ pi w, Sat c' pi w → Ranged E w a → Ranged E w b →
      value E.B w y ≡ value E.B w a * value E.B w b [MOD E.q]

/-- Below the wrap-around bound the congruence is an equation. -/
theorem MulRel.exact {E : Emu} (hqp : E.q < p) {a b c : ℕ} (hab : a * b < 2 ^ E.T * p) (hc : c < 2 ^ E.T)
    (h : MulRel p E a b c) : c ≡ a * b [MOD E.q] := by
  obtain ⟨k, hk, hm⟩ := h
  have h1 : k * E.q + c < 2 ^ E.T * p := by
    have h2 : (k + 1) * E.q ≤ 2 ^ E.T * E.q := Nat.mul_le_mul_right _ hk
    have h3 : 2 ^ E.T * (E.q + 1) ≤ 2 ^ E.T * p := Nat.mul_le_mul_left _ hqp
    nlinarith
  have he := Nat.ModEq.eq_of_lt_of_lt hm hab h1
  rw [he]
  show c % E.q = (k * E.q + c) % E.q
  rw [Nat.mul_comm, Nat.mul_add_mod]

/-- **C28, part that holds**: for an emulated modulus below the native one, in every satisfying assignment
with `a * b < 2^T * p` the result of `emulated_mul` is the product modulo `q`. Missing: `p ≤ q`, where it is
false, see `C28_mul_counterexample`. -/
theorem C28_mul_sound_partial [hp : Fact p.Prime] {E : Emu} (h : E.OK p) (hqp : E.q < p)
    {a b : List ℕ} {c : Circ p} (hc : WF c) (hr : RangeOK c) (ha : IsVar E a c) (hb : IsVar E b c)
    {y : List ℕ} {c' : Circ p} (hm : emulatedMul E a b c = .ok (y, c')) {pi : List (ZMod p)} {w : ℕ → ZMod p}
    (hs : Sat c' pi w) (ra : Ranged E w a) (rb : Ranged E w b)
    (hab : value E.B w a * value E.B w b < 2 ^ E.T * p) :
    value E.B w y ≡ value E.B w a * value E.B w b [MOD E.q] := by
  have hC := C28_mul h a b
  have hd : RangeOK c ∧ IsVar E a c ∧ IsVar E b c := ⟨hr, ha, hb⟩
  obtain ⟨h1, h2⟩ := (hC.exact c hc hd y c' hm pi w (hC.old c hc hd y c' hm pi w hs) ⟨ra, rb⟩ _).1
    ⟨w, fun _ _ => rfl, hs, rfl⟩
  exact h2.exact hqp hab h1

/-- **C28, part that holds**, for the gate -/
theorem C28_mul_gate_sound_partial [hp : Fact p.Prime] {E : Emu} (h : E.OK p) (hqp : E.q < p)
    {a b y : List ℕ} {c : Circ p} (hc : WF c) (hr : RangeOK c) (ha : IsVar E a c) (hb : IsVar E b c)
    (hy : IsVar E y c) {c' : Circ p} {u : Unit} (hm : emulatedMulGate E a b y c = .ok (u, c'))
    {pi : List (ZMod p)} {w : ℕ → ZMod p}
    (hs : Sat c' pi w) (ra : Ranged E w a) (rb : Ranged E w b) (ry : Ranged E w y)
    (hab : value E.B w a * value E.B w b < 2 ^ E.T * p) :
    value E.B w y ≡ value E.B w a * value E.B w b [MOD E.q] := by
  have hC := C28_mul_gate h a b y
  have hd : RangeOK c ∧ IsVar E a c ∧ IsVar E b c ∧ IsVar E y c := ⟨hr, ha, hb, hy⟩
  have h2 := (hC.exact c hc hd u c' hm pi w (hC.old c hc hd u c' hm pi w hs) ⟨ra, rb, ry⟩).1
    ⟨w, fun _ _ => rfl, hs⟩
  have h3 := value_lt ry
  rw [hy.1, ← h.hT] at h3
  exact h2.exact hqp hab h3

theorem sat_new (ultra : Option ℕ) : Sat (Circ.new p ultra) [] (Circ.new p ultra).val := by
  refine ⟨rfl, by simp [Circ.new], ?_, by simp [Circ.new], ?_⟩
  · intro r hr _
    simp only [Circ.new, List.mem_cons, List.not_mem_nil, or_false] at hr
    rcases hr with rfl | rfl <;> simp [Row.Holds, Sel.output, constantGate, Circ.val, Circ.new]
  · intro k _ r hr hl
    simp only [Circ.new, List.mem_cons, List.not_mem_nil, or_false] at hr
    rcases hr with rfl | rfl <;> simp [constantGate] at hl

/-- two emulated variables in a new circuit -/
theorem two_vars [hp : Fact p.Prime] {E : Emu} (h : E.OK p) {u v : ℕ} (hu : u < 2 ^ E.T) (hv : v < 2 ^ E.T) :
    ∃ a b c1 c, createEmulated E u (Circ.new p none) = .ok (a, c1) ∧ createEmulated E v c1 = .ok (b, c) ∧
      WF c ∧ RangeOK c ∧ IsVar E a c ∧ IsVar E b c ∧ checkSat c [] = .ok () ∧
      Ranged E c.val a ∧ Ranged E c.val b ∧ value E.B c.val a = u ∧ value E.B c.val b = v := by
  have hwf : WF (Circ.new p none) := wf_new none
  have hr : RangeOK (Circ.new p none) := by intro k hk; simp [Circ.new] at hk
  have hs0 : Sat (Circ.new p none) [] (Circ.new p none).val := sat_new none
  have sp1 := createEmulated_spec E u hwf hr
  obtain ⟨a, c1, g1, s1⟩ := sp1.complete ⟨h.hB, fun _ => h.bits'⟩ [] hs0
  obtain ⟨e1, ⟨l1, i1, m1⟩, r1⟩ := sp1.sound _ _ g1
  have sp2 := createEmulated_spec E v e1.wf (hr.ext e1)
  obtain ⟨b, c, g2, s2⟩ := sp2.complete ⟨h.hB, fun _ => h.bits'⟩ [] s1
  obtain ⟨e2, ⟨l2, i2, m2⟩, r2⟩ := sp2.sound _ _ g2
  have h0 : c.val 0 = 0 := s2.zero e2.wf
  have hm : a.map c.val = fromEmulated p E u := by rw [← m1]; exact map_ext i1 e2
  exact ⟨a, b, c1, c, g1, g2, e2.wf, (hr.ext e1).ext e2, ⟨l1, fun x hx => e2.lt (i1 x hx)⟩, ⟨l2, i2⟩,
    (checkSat_ok e2.wf []).2 s2, r1 [] _ (e2.sat _ _ s2), r2 [] _ s2, value_map h h0 hu hm, value_map h h0 hv m2⟩

/-- **C28 refuted** for emulated moduli above the native one: in the circuit made by
`create_emulated_variable(u)`, `create_emulated_variable(v)`, `emulated_mul`, a wrong product is accepted. -/
theorem C28_mul_counterexample [hp : Fact p.Prime] {E : Emu} (h : E.OK p) (hpq : p < E.q)
    (hnd : ¬ E.q ∣ 2 ^ E.T * p) {u v : ℕ} (hu : u < E.q) (hv : v < E.q) (huv : u * v < 2 ^ E.T * (E.q - p)) :
    ∃ a b c1 c y c' w, createEmulated E u (Circ.new p none) = .ok (a, c1) ∧ createEmulated E v c1 = .ok (b, c) ∧
      emulatedMul E a b c = .ok (y, c') ∧ Sat c' [] w ∧ value E.B w a = u ∧ value E.B w b = v ∧
      ¬ value E.B w y ≡ u * v [MOD E.q] := by
  obtain ⟨a, b, c1, c, g1, g2, hc, hr, ha, hb, hck, ra, rb, va, vb⟩ :=
    two_vars h (hu.trans h.hqT) (hv.trans h.hqT)
  have hC := C28_mul h a b
  have hd : RangeOK c ∧ IsVar E a c ∧ IsVar E b c := ⟨hr, ha, hb⟩
  obtain ⟨⟨-, hon⟩, -⟩ := hC.honest c hc hd [] hck ⟨⟨ra, rb⟩, by rw [va]; exact hu, by rw [vb]; exact hv⟩
  obtain ⟨y, c', hm, -⟩ := hon trivial
  have hs := (checkSat_ok hc []).1 hck
  have hk : (u * v + 2 ^ E.T * p) / E.q < 2 ^ E.T := by
    rw [Nat.div_lt_iff_lt_mul h.hq]
    have : 2 ^ E.T * E.q = 2 ^ E.T * (E.q - p) + 2 ^ E.T * p := by
      rw [← Nat.mul_add, Nat.sub_add_cancel hpq.le]
    omega
  have hrel : MulRel p E u v ((u * v + 2 ^ E.T * p) % E.q) := by
    refine ⟨_, hk, ?_⟩
    rw [Nat.mul_comm _ E.q, Nat.div_add_mod]
    show u * v % _ = _ % _
    rw [Nat.add_mod_right]
  obtain ⟨w, hag, hsw, hvy⟩ := (hC.exact c hc hd y c' hm [] c.val hs ⟨ra, rb⟩ _).2
    ⟨(Nat.mod_lt _ h.hq).trans h.hqT, by rw [va, vb]; exact hrel⟩
  refine ⟨a, b, c1, c, y, c', w, g1, g2, hm, hsw, by rw [value_agree ha hag, va],
    by rw [value_agree hb hag, vb], ?_⟩
  rw [hvy]
  intro hcon
  apply hnd
  have h1 : u * v + 2 ^ E.T * p ≡ u * v + 0 [MOD E.q] := ((Nat.mod_modEq _ _).symm.trans hcon)
  exact (Nat.modEq_zero_iff_dvd).1 (Nat.ModEq.add_left_cancel' _ h1)

/-! ## The configurations of the crate (`emulated.rs:695-705`), and a small one -/

/-- `EmulationConfig<ark_bn254::Fr> for ark_bls12_377::Fq`, `emulated.rs:695-699` -/
def fq377 : Emu := ⟨Rescue.p_fq377, 500, 100, 5⟩
/-- `EmulationConfig<ark_bn254::Fr> for ark_bn254::Fq`, `emulated.rs:701-705` -/
def fq254 : Emu := ⟨Rescue.p_fq254, 300, 100, 3⟩
/-- modulus 17, three limbs of two bits; native field `ZMod 257` -/
def toy : Emu := ⟨17, 6, 2, 3⟩

theorem fq377_ok : fq377.OK Rescue.p_ed254 :=
  ⟨rfl, by decide, by decide, by decide +kernel, by decide +kernel, by decide +kernel⟩
theorem fq254_ok : fq254.OK Rescue.p_ed254 :=
  ⟨rfl, by decide, by decide, by decide +kernel, by decide +kernel, by decide +kernel⟩
theorem toy_ok : toy.OK 257 :=
  ⟨rfl, by decide, by decide, by decide, by decide, by decide +kernel⟩

instance : Fact (Nat.Prime Rescue.p_ed254) := ⟨Fields.prime_ed254⟩
instance : Fact (Nat.Prime 257) := ⟨by norm_num⟩

theorem not_mulSound [hp : Fact p.Prime] {E : Emu} (h : E.OK p) (hpq : p < E.q)
    (hnd : ¬ E.q ∣ 2 ^ E.T * p) : ¬ MulSound p E := by
  intro hs
  have h1 : 1 < E.q := hp.out.one_lt.trans hpq
  obtain ⟨a, b, c1, c, y, c', w, g1, g2, hm, hsw, va, vb, hbad⟩ := C28_mul_counterexample h hpq hnd h1 h1
    (by have : 0 < E.q - p := by omega
        have h2 : 2 ^ 1 ≤ 2 ^ E.T := Nat.pow_le_pow_right (by omega)
          (by rw [h.hT]; exact Nat.mul_pos h.hB h.hn)
        nlinarith)
  have hr0 : RangeOK (Circ.new p none) := by intro k hk; simp [Circ.new] at hk
  obtain ⟨e1, ⟨l1, i1, -⟩, -⟩ := (createEmulated_spec E 1 (wf_new none) hr0).sound _ _ g1
  obtain ⟨e2, ⟨l2, i2, -⟩, r2⟩ := (createEmulated_spec E 1 e1.wf (hr0.ext e1)).sound _ _ g2
  have hC := C28_mul h a b
  have hd : RangeOK c ∧ IsVar E a c ∧ IsVar E b c :=
    ⟨(hr0.ext e1).ext e2, ⟨l1, fun x hx => e2.lt (i1 x hx)⟩, l2, i2⟩
  have hsc := hC.old c e2.wf hd y c' hm [] w hsw
  have r1 := ((createEmulated_spec E 1 (wf_new none) hr0).sound _ _ g1).2.2 [] w (e2.sat _ _ hsc)
  have := hs a b c e2.wf hd.1 hd.2.1 hd.2.2 y c' hm [] w hsw r1 (r2 [] w hsc)
  rw [va, vb] at this
  exact hbad this

/-- **C28 refuted in both configurations of the crate.** -/
theorem C28_shipped_counterexample :
    ¬ MulSound Rescue.p_ed254 fq377 ∧ ¬ MulSound Rescue.p_ed254 fq254 :=
  ⟨not_mulSound fq377_ok (by decide +kernel) (by decide +kernel),
    not_mulSound fq254_ok (by decide +kernel) (by decide +kernel)⟩

/-- One wrong product in the BN254 configuration: `1 * 1` may give this number. -/
example : MulRel Rescue.p_ed254 fq254 1 1 ((1 + 2 ^ 300 * Rescue.p_ed254) % Rescue.p_fq254) ∧
    (1 + 2 ^ 300 * Rescue.p_ed254) % Rescue.p_fq254 ≠ 1 := by
  refine ⟨⟨(1 + 2 ^ 300 * Rescue.p_ed254) / Rescue.p_fq254, by decide +kernel, ?_⟩, by decide +kernel⟩
  unfold Nat.ModEq
  decide +kernel

/-- The hypotheses of `C28_mul_sound_partial` are met: `5 * 7 = 1` modulo 17. -/
example : ∃ (a b y : List ℕ) (c c' : Circ 257), WF c ∧ RangeOK c ∧ IsVar toy a c ∧ IsVar toy b c ∧
    emulatedMul toy a b c = .ok (y, c') ∧ Sat c' [] c'.val ∧ Ranged toy c'.val a ∧ Ranged toy c'.val b ∧
    value 2 c'.val a = 5 ∧ value 2 c'.val b = 7 ∧ value 2 c'.val y = 1 ∧ toy.q < 257 := by
  obtain ⟨a, b, c1, c, -, -, hc, hr, ha, hb, hck, ra, rb, va, vb⟩ :=
    two_vars toy_ok (u := 5) (v := 7) (by decide) (by decide)
  have hC := C28_mul (p := 257) toy_ok a b
  have hd : RangeOK c ∧ IsVar toy a c ∧ IsVar toy b c := ⟨hr, ha, hb⟩
  obtain ⟨⟨-, hon⟩, hout⟩ := hC.honest c hc hd [] hck
    ⟨⟨ra, rb⟩, by rw [va]; decide, by rw [vb]; decide⟩
  obtain ⟨y, c', hm, hck'⟩ := hon trivial
  obtain ⟨w1, _, w3, _⟩ := hC.wf c hc hd y c' hm
  have ho := hout y c' hm
  rw [va, vb] at ho
  refine ⟨a, b, y, c, c', hc, hr, ha, hb, hm, (checkSat_ok w1 []).1 hck', ra.congr ha w3, rb.congr hb w3,
    (value_agree ha w3).trans va, (value_agree hb w3).trans vb, ho, by decide⟩

end Verif.Props.Emulated
