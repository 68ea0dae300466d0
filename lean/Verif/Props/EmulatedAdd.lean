import Verif.Props.Emulated

/-!
# Emulated addition and subtraction (property C29)

The gate forces `a + b ≡ k * q + c (mod 2^T)` for some bit `k`, and nothing more (`C29_add_gate` and the
theorems for the other functions). So `0 + 0` may give `2^T - q`
(`C29_add_sound_counterexample`); among results `c` with `q + c < 2^T` only the sum modulo `q` is accepted
(`C29_add_sound_partial`).

The witness the builder stores is accepted if and only if no carry arises only because of a carry from the limb
below (`NoRipple`), in both sums the gate looks at. So there are emulated elements for which the honest
witness is rejected (`C29_add_honest_counterexample`).
-/

set_option linter.unusedSectionVars false

namespace Verif.Props.Emulated

open Verif.Circuit Verif.Limbs

variable {p : ℕ}

/-- what the addition gate forces -/
def AddRel (E : Emu) (a b c : ℕ) : Prop :=
  a + b ≡ c [MOD 2 ^ E.T] ∨ a + b ≡ E.q + c [MOD 2 ^ E.T]

/-- In the addition `u + v`, the carry out of every limb is already that of the two limbs alone. -/
def NoRipple (E : Emu) (u v : ℕ) : Prop :=
  ∀ j, j < E.n → (u / 2 ^ (E.B * j) % 2 ^ E.B + v / 2 ^ (E.B * j) % 2 ^ E.B) / 2 ^ E.B
    = (u % 2 ^ (E.B * (j + 1)) + v % 2 ^ (E.B * (j + 1))) / 2 ^ (E.B * (j + 1))

instance (E : Emu) (u v : ℕ) : Decidable (NoRipple E u v) := by unfold NoRipple; infer_instance

/-- no ripple in `a + b`, nor in `q + c` or `0 + c` where `c` is the sum modulo `q` -/
def AddFits (E : Emu) (a b : ℕ) : Prop :=
  NoRipple E a b ∧ NoRipple E (if E.q ≤ a + b then E.q else 0) ((a + b) % E.q)

theorem addRel_iff {E : Emu} {a b c : ℕ} : AddRel E a b c ↔ AddOK E a b c := by
  unfold AddRel AddOK
  constructor
  · rintro (h | h)
    · exact ⟨false, by simpa using h⟩
    · exact ⟨true, by simpa using h⟩
  · rintro ⟨k, h⟩
    cases k
    · exact Or.inl (by simpa using h)
    · exact Or.inr (by simpa using h)

theorem carryOK_iff {E : Emu} {u v : ℕ} :
    CarryOK E (fun j => dig (2 ^ E.B) u j + dig (2 ^ E.B) v j) ↔ NoRipple E u v := by
  unfold CarryOK NoRipple
  refine forall_congr' (fun j => forall_congr' (fun _ => ?_))
  rw [carry_eq_div (by positivity), num_add, num_dig, num_dig]
  simp only [dig]
  rw [← pow_mul, ← pow_mul]

theorem addHon_iff {E : Emu} {a b : ℕ} : AddHon E a b ↔ AddFits E a b := by
  unfold AddHon AddFits
  rw [carryOK_iff]
  refine and_congr Iff.rfl ?_
  rw [← carryOK_iff]
  refine CarryOK.congr (fun j _ => ?_)
  unfold qs
  by_cases h : E.q ≤ a + b
  · simp [h]
  · simp [h, dig]

/-- **C29**, exact form for `emulated_add_gate`. -/
theorem C29_add_gate [hp : Fact p.Prime] {E : Emu} (h : E.OK p) (a b y : List ℕ) :
    Enforces (emulatedAddGate E a b y : Build p Unit)
      (fun c => RangeOK c ∧ IsVar E a c ∧ IsVar E b c ∧ IsVar E y c)
      (fun w => Ranged E w a ∧ Ranged E w b ∧ Ranged E w y)
      (fun w => AddRel E (value E.B w a) (value E.B w b) (value E.B w y))
      (fun w => (Ranged E w a ∧ Ranged E w b ∧ Ranged E w y) ∧ value E.B w a < E.q ∧ value E.B w b < E.q ∧
        value E.B w y = (value E.B w a + value E.B w b) % E.q)
      (fun w => AddFits E (value E.B w a) (value E.B w b)) := by
  refine Enforces.of_spec (B := fun _ _ _ => True) (emulatedAddGate_rel _ _ _ _) ?_ ?_ ?_ ?_ ?_ ?_
  · exact fun c w h => h
  · rintro c w w' ⟨_, h1, h2, h3⟩ ha ⟨r1, r2, r3⟩
    exact ⟨r1.congr h1 ha, r2.congr h2 ha, r3.congr h3 ha⟩
  · rintro c w w' ⟨_, h1, h2, h3⟩ ha hr
    rw [value_agree h1 ha, value_agree h2 ha, value_agree h3 ha]
    exact hr
  · rintro c hc ⟨hr, ⟨l1, h1⟩, ⟨l2, h2⟩, ⟨l3, h3⟩⟩
    refine Spec.conseq hc (emulatedAddGate_spec h hc hr l1 l2 l3 h1 h2 h3) ?_ (fun _ _ _ h => h) ?_
    · rintro ⟨⟨⟨r1, r2, r3⟩, q1, q2, q3⟩, q4⟩ _ _
      rw [value_eq l1] at q1 q3 q4
      rw [value_eq l2] at q2 q3 q4
      rw [value_eq l3] at q3
      exact ⟨r1, r2, r3, q1, q2, q3, addHon_iff.2 q4⟩
    · rintro _ w _ _ hm ⟨r1, r2, r3⟩
      rw [value_eq l1, value_eq l2, value_eq l3, addRel_iff]
      exact hm r1 r2 r3
  · rintro c hc ⟨hr, ⟨l1, h1⟩, ⟨l2, h2⟩, ⟨l3, h3⟩⟩ ⟨r1, r2, r3⟩ hrel
    rw [value_eq l1, value_eq l2, value_eq l3, addRel_iff] at hrel
    obtain ⟨k, hd⟩ := hrel
    refine ⟨_, emulatedAddGate_rel' E _ _ _ k (nat E (limb c.val a) + nat E (limb c.val b)) _ _ l1 l2 l3 (advL_length E (nat E (limb c.val a))
      (nat E (limb c.val b))) (advR_length E k (nat E (limb c.val y))), ?_⟩
    exact Spec.conseq hc (addGateWith_adv h hc hr l1 l2 l3 h1 h2 h3 k)
      (fun _ _ _ => ⟨r1, r2, r3, rfl, rfl, rfl, hd⟩) (fun _ _ _ h => h) (fun _ _ _ _ h => h)
  · rintro c hc ⟨hr, ⟨l1, h1⟩, ⟨l2, h2⟩, ⟨l3, h3⟩⟩ ⟨⟨r1, r2, r3⟩, q1, q2, q3⟩ v c' hm pi hs
    rw [value_eq l1] at q1 q3 ⊢
    rw [value_eq l2] at q2 q3 ⊢
    rw [value_eq l3] at q3
    exact addHon_iff.1 (emulatedAddGate_nec h hc hr l1 l2 l3 h1 h2 h3 r1 r2 r3 q1 q2 q3 hm hs)

/-- **C29**, exact form for `emulated_add_constant_gate`. -/
theorem C29_add_constant_gate [hp : Fact p.Prime] {E : Emu} (h : E.OK p) (a : List ℕ) (b : ℕ) (hb : b < E.q)
    (y : List ℕ) :
    Enforces (emulatedAddConstantGate E a b y : Build p Unit)
      (fun c => RangeOK c ∧ IsVar E a c ∧ IsVar E y c)
      (fun w => Ranged E w a ∧ Ranged E w y)
      (fun w => AddRel E (value E.B w a) b (value E.B w y))
      (fun w => (Ranged E w a ∧ Ranged E w y) ∧ value E.B w a < E.q ∧
        value E.B w y = (value E.B w a + b) % E.q)
      (fun w => AddFits E (value E.B w a) b) := by
  refine Enforces.of_spec (B := fun _ _ _ => True) (emulatedAddConstantGate_rel _ _ _ _) ?_ ?_ ?_ ?_ ?_ ?_
  · exact fun c w h => h
  · rintro c w w' ⟨_, h1, h3⟩ ha ⟨r1, r3⟩
    exact ⟨r1.congr h1 ha, r3.congr h3 ha⟩
  · rintro c w w' ⟨_, h1, h3⟩ ha hr
    rw [value_agree h1 ha, value_agree h3 ha]
    exact hr
  · rintro c hc ⟨hr, ⟨l1, h1⟩, ⟨l3, h3⟩⟩
    refine Spec.conseq hc (emulatedAddConstantGate_spec h hb hc hr l1 l3 h1 h3) ?_ (fun _ _ _ h => h) ?_
    · rintro ⟨⟨⟨r1, r3⟩, q1, q3⟩, q4⟩ _ _
      rw [value_eq l1] at q1 q3 q4
      rw [value_eq l3] at q3
      exact ⟨r1, r3, q1, q3, addHon_iff.2 q4⟩
    · rintro _ w _ _ hm ⟨r1, r3⟩
      rw [value_eq l1, value_eq l3, addRel_iff]
      exact hm r1 r3
  · rintro c hc ⟨hr, ⟨l1, h1⟩, ⟨l3, h3⟩⟩ ⟨r1, r3⟩ hrel
    rw [value_eq l1, value_eq l3, addRel_iff] at hrel
    obtain ⟨k, hd⟩ := hrel
    refine ⟨_, emulatedAddConstantGate_rel' E _ _ _ k (nat E (limb c.val a) + b) _ _ l1 l3 (advL_length E (nat E (limb c.val a)) b)
      (advR_length E k (nat E (limb c.val y))), ?_⟩
    exact Spec.conseq hc (addConstGateWith_adv h hb hc hr l1 l3 h1 h3 k)
      (fun _ _ _ => ⟨r1, r3, rfl, rfl, hd⟩) (fun _ _ _ h => h) (fun _ _ _ _ h => h)
  · rintro c hc ⟨hr, ⟨l1, h1⟩, ⟨l3, h3⟩⟩ ⟨⟨r1, r3⟩, q1, q3⟩ v c' hm pi hs
    rw [value_eq l1] at q1 q3 ⊢
    rw [value_eq l3] at q3
    exact addHon_iff.1 (emulatedAddConstantGate_nec h hb hc hr l1 l3 h1 h3 r1 r3 q1 q3 hm hs)

/-- In a run of a function that creates the result `y` and applies a gate: if the check accepts, the gate's
condition holds in the circuit in between. -/
theorem nec_of_gate [hp : Fact p.Prime] {E : Emu} (h : E.OK p) {c : Circ p} (hc : WF c) (hr : RangeOK c)
    {y : ℕ} (hy : y < 2 ^ E.T) {G : List ℕ → Build p Unit} {dom : List ℕ → Circ p → Prop}
    {pre rel canon hon : List ℕ → (ℕ → ZMod p) → Prop}
    (hG : ∀ v, Enforces (G v) (dom v) (pre v) (rel v) (canon v) (hon v))
    (hdom : ∀ v c1, Ext c c1 → RangeOK c1 → IsVar E v c1 → dom v c1)
    (hcan : ∀ v c1, Ext c c1 → IsVar E v c1 → Ranged E c1.val v → value E.B c1.val v = y → canon v c1.val)
    {v : List ℕ} {c' : Circ p}
    (hm : (do let v ← createEmulated E y; G v; pure v : Build p (List ℕ)) c = .ok (v, c'))
    {pi : List (ZMod p)} (hs : Sat c' pi c'.val) :
    ∃ c1, Ext c c1 ∧ value E.B c1.val v = y ∧ hon v c1.val := by
  obtain ⟨x, c1, g1, hm⟩ := bind_ok hm
  obtain ⟨_, c2, g2, hm⟩ := bind_ok hm
  cases hm
  obtain ⟨e1, ⟨l1, i1, m1⟩, r1⟩ := (createEmulated_spec E y hc hr).sound _ _ g1
  have hd := hdom v c1 e1 (hr.ext e1) ⟨l1, i1⟩
  obtain ⟨w1, _, ag, _⟩ := (hG v).wf c1 e1.wf hd _ c' g2
  have hs1 : Sat c1 pi c1.val :=
    Sat.congr e1.wf (fun i hi => ag i hi) ((hG v).old c1 e1.wf hd _ c' g2 pi _ hs)
  have hval := value_map h (hs1.zero e1.wf) hy m1
  exact ⟨c1, e1, hval, ((hG v).honest c1 e1.wf hd pi ((checkSat_ok e1.wf pi).2 hs1)
    (hcan v c1 e1 ⟨l1, i1⟩ (r1 pi _ hs1) hval)).1 ⟨_, c', g2, (checkSat_ok w1 pi).2 hs⟩⟩

theorem value_ext {E : Emu} {a : List ℕ} {c c' : Circ p} (ha : IsVar E a c) (e : Ext c c') :
    value E.B c'.val a = value E.B c.val a := value_agree ha (fun i hi => e.val i hi)

theorem IsVar.ext {E : Emu} {a : List ℕ} {c c' : Circ p} (ha : IsVar E a c) (e : Ext c c') : IsVar E a c' :=
  ⟨ha.1, fun v hv => e.lt (ha.2 v hv)⟩

theorem Ranged.ext {E : Emu} {a : List ℕ} {c c' : Circ p} (ha : IsVar E a c) (e : Ext c c')
    (hr : Ranged E c.val a) : Ranged E c'.val a := hr.congr ha (fun i hi => e.val i hi)

/-- **C29**, exact form for `emulated_add`. -/
theorem C29_add [hp : Fact p.Prime] {E : Emu} (h : E.OK p) (a b : List ℕ) :
    Computes E (emulatedAdd E a b : Build p (List ℕ))
      (fun c => RangeOK c ∧ IsVar E a c ∧ IsVar E b c)
      (fun w => Ranged E w a ∧ Ranged E w b)
      (fun w y => AddRel E (value E.B w a) (value E.B w b) y)
      (fun w => (Ranged E w a ∧ Ranged E w b) ∧ value E.B w a < E.q ∧ value E.B w b < E.q)
      (fun w => AddFits E (value E.B w a) (value E.B w b))
      (fun w => (value E.B w a + value E.B w b) % E.q) := by
  refine Computes.of_spec h.hT (emulatedAdd_rel _ _ _) (fun _ _ h => h) ?_ ?_ ?_ ?_ ?_
  · rintro c w w' ⟨_, h1, h2⟩ ha ⟨r1, r2⟩
    exact ⟨r1.congr h1 ha, r2.congr h2 ha⟩
  · rintro c w w' y ⟨_, h1, h2⟩ ha hr
    rw [value_agree h1 ha, value_agree h2 ha]
    exact hr
  · rintro c hc ⟨hr, ⟨l1, h1⟩, ⟨l2, h2⟩⟩
    refine Spec.conseq hc (emulatedAdd_spec h hc hr l1 l2 h1 h2) ?_ ?_ ?_
    · rintro ⟨⟨⟨r1, r2⟩, q1, q2⟩, q4⟩ _ _
      rw [value_eq l1] at q1 q4
      rw [value_eq l2] at q2 q4
      exact ⟨r1, r2, q1, q2, addHon_iff.2 q4⟩
    · rintro v c' - ⟨lv, hv, hm⟩
      refine ⟨⟨lv, hv⟩, ?_⟩
      rintro h0 ⟨_, q1, q2⟩
      rw [value_eq l1, value_eq l2]
      rw [value_eq l1] at q1
      rw [value_eq l2] at q2
      exact value_map h h0 ((Nat.mod_lt _ h.hq).trans h.hqT) (hm q1 q2)
    · rintro v w _ _ ⟨rv, hm⟩
      refine ⟨rv, ?_⟩
      rintro lv ⟨r1, r2⟩
      rw [value_eq l1, value_eq l2, value_eq lv, addRel_iff]
      exact hm r1 r2
  · rintro c y hc ⟨hr, ⟨l1, h1⟩, ⟨l2, h2⟩⟩ ⟨r1, r2⟩ hy hrel
    rw [value_eq l1, value_eq l2, addRel_iff] at hrel
    obtain ⟨k, hd⟩ := hrel
    refine ⟨_, emulatedAdd_rel' E _ _ l1 l2 y k (nat E (limb c.val a)) (nat E (limb c.val b)), ?_⟩
    exact Spec.conseq hc (addAdv_spec h hc hr l1 l2 h1 h2 y k) (fun _ _ _ => ⟨r1, r2, hy, hd⟩)
      (fun v c' _ hm h0 => value_map h h0 hy hm) (fun _ _ _ _ h => h)
  · rintro c hc ⟨hr, h1, h2⟩ ⟨⟨r1, r2⟩, q1, q2⟩ v c' hm pi hs
    unfold emulatedAdd at hm
    rw [bind_of_ok (emulatedWitness_eq h1.2 h1.1), bind_of_ok (emulatedWitness_eq h2.2 h2.1),
      ← value_eq h1.1, ← value_eq h2.1, Nat.mod_eq_of_lt q1, Nat.mod_eq_of_lt q2] at hm
    obtain ⟨c1, e1, vv, hh⟩ := nec_of_gate h hc hr ((Nat.mod_lt _ h.hq).trans h.hqT)
      (fun v => C29_add_gate h a b v) (fun v c1 e1 hr1 hv => ⟨hr1, h1.ext e1, h2.ext e1, hv⟩)
      (fun v c1 e1 hv rv vv => ⟨⟨r1.ext h1 e1, r2.ext h2 e1, rv⟩, by rw [value_ext h1 e1]; exact q1,
        by rw [value_ext h2 e1]; exact q2, by rw [vv, value_ext h1 e1, value_ext h2 e1]⟩) hm hs
    rwa [value_ext h1 e1, value_ext h2 e1] at hh

/-- **C29**, exact form for `emulated_sub`: `y = a - b` is enforced as `y + b = a`. -/
theorem C29_sub [hp : Fact p.Prime] {E : Emu} (h : E.OK p) (a b : List ℕ) :
    Computes E (emulatedSub E a b : Build p (List ℕ))
      (fun c => RangeOK c ∧ IsVar E a c ∧ IsVar E b c)
      (fun w => Ranged E w a ∧ Ranged E w b)
      (fun w y => AddRel E y (value E.B w b) (value E.B w a))
      (fun w => (Ranged E w a ∧ Ranged E w b) ∧ value E.B w a < E.q ∧ value E.B w b < E.q)
      (fun w => AddFits E ((value E.B w a + (E.q - value E.B w b)) % E.q) (value E.B w b))
      (fun w => (value E.B w a + (E.q - value E.B w b)) % E.q) := by
  refine Computes.of_spec h.hT (emulatedSub_rel _ _ _) (fun _ _ h => h) ?_ ?_ ?_ ?_ ?_
  · rintro c w w' ⟨_, h1, h2⟩ ha ⟨r1, r2⟩
    exact ⟨r1.congr h1 ha, r2.congr h2 ha⟩
  · rintro c w w' y ⟨_, h1, h2⟩ ha hr
    rw [value_agree h1 ha, value_agree h2 ha]
    exact hr
  · rintro c hc ⟨hr, ⟨l1, h1⟩, ⟨l2, h2⟩⟩
    refine Spec.conseq hc (emulatedSub_spec h hc hr l1 l2 h1 h2) ?_ ?_ ?_
    · rintro ⟨⟨⟨r1, r2⟩, q1, q2⟩, q4⟩ _ _
      rw [value_eq l1] at q1 q4
      rw [value_eq l2] at q2 q4
      exact ⟨r1, r2, q1, q2, addHon_iff.2 q4⟩
    · rintro v c' - ⟨lv, hv, hm⟩
      refine ⟨⟨lv, hv⟩, ?_⟩
      rintro h0 ⟨_, q1, q2⟩
      rw [value_eq l1, value_eq l2]
      rw [value_eq l1] at q1
      rw [value_eq l2] at q2
      exact value_map h h0 ((Nat.mod_lt _ h.hq).trans h.hqT) (hm q1 q2)
    · rintro v w _ _ ⟨rv, hm⟩
      refine ⟨rv, ?_⟩
      rintro lv ⟨r1, r2⟩
      rw [value_eq l1, value_eq l2, value_eq lv, addRel_iff]
      exact hm r1 r2
  · rintro c y hc ⟨hr, ⟨l1, h1⟩, ⟨l2, h2⟩⟩ ⟨r1, r2⟩ hy hrel
    rw [value_eq l1, value_eq l2, addRel_iff] at hrel
    obtain ⟨k, hd⟩ := hrel
    refine ⟨_, emulatedSub_rel' E _ _ l1 l2 y k (nat E (limb c.val a)) (nat E (limb c.val b)), ?_⟩
    exact Spec.conseq hc (subAdv_spec h hc hr l1 l2 h1 h2 y k) (fun _ _ _ => ⟨r1, r2, hy, hd⟩)
      (fun v c' _ hm h0 => value_map h h0 hy hm) (fun _ _ _ _ h => h)
  · rintro c hc ⟨hr, h1, h2⟩ ⟨⟨r1, r2⟩, q1, q2⟩ v c' hm pi hs
    unfold emulatedSub at hm
    rw [bind_of_ok (emulatedWitness_eq h1.2 h1.1), bind_of_ok (emulatedWitness_eq h2.2 h2.1),
      ← value_eq h1.1, ← value_eq h2.1, Nat.mod_eq_of_lt q1, Nat.mod_eq_of_lt q2] at hm
    obtain ⟨c1, e1, vv, hh⟩ := nec_of_gate h hc hr ((Nat.mod_lt _ h.hq).trans h.hqT)
      (fun v => C29_add_gate h v b a) (fun v c1 e1 hr1 hv => ⟨hr1, hv, h2.ext e1, h1.ext e1⟩)
      (fun v c1 e1 hv rv vv => ⟨⟨rv, r2.ext h2 e1, r1.ext h1 e1⟩, by rw [vv]; exact Nat.mod_lt _ h.hq,
        by rw [value_ext h2 e1]; exact q2, by rw [vv, value_ext h1 e1, value_ext h2 e1, sub_eq q1 q2]⟩) hm hs
    rwa [vv, value_ext h2 e1] at hh

/-- **C29**, exact form for `emulated_add_constant`. -/
theorem C29_add_constant [hp : Fact p.Prime] {E : Emu} (h : E.OK p) (a : List ℕ) (b : ℕ) (hb : b < E.q) :
    Computes E (emulatedAddConstant E a b : Build p (List ℕ))
      (fun c => RangeOK c ∧ IsVar E a c)
      (fun w => Ranged E w a)
      (fun w y => AddRel E (value E.B w a) b y)
      (fun w => Ranged E w a ∧ value E.B w a < E.q)
      (fun w => AddFits E (value E.B w a) b)
      (fun w => (value E.B w a + b) % E.q) := by
  refine Computes.of_spec h.hT (emulatedAddConstant_rel _ _ _) (fun _ _ h => h) ?_ ?_ ?_ ?_ ?_
  · rintro c w w' ⟨_, h1⟩ ha r1
    exact r1.congr h1 ha
  · rintro c w w' y ⟨_, h1⟩ ha hr
    rw [value_agree h1 ha]
    exact hr
  · rintro c hc ⟨hr, ⟨l1, h1⟩⟩
    refine Spec.conseq hc (emulatedAddConstant_spec h hb hc hr l1 h1) ?_ ?_ ?_
    · rintro ⟨⟨r1, q1⟩, q4⟩ _ _
      rw [value_eq l1] at q1 q4
      exact ⟨r1, q1, addHon_iff.2 q4⟩
    · rintro v c' - ⟨lv, hv, hm⟩
      refine ⟨⟨lv, hv⟩, ?_⟩
      rintro h0 ⟨_, q1⟩
      rw [value_eq l1]
      rw [value_eq l1] at q1
      exact value_map h h0 ((Nat.mod_lt _ h.hq).trans h.hqT) (hm q1)
    · rintro v w _ _ ⟨rv, hm⟩
      refine ⟨rv, ?_⟩
      intro lv r1
      rw [value_eq l1, value_eq lv, addRel_iff]
      exact hm r1
  · rintro c y hc ⟨hr, ⟨l1, h1⟩⟩ r1 hy hrel
    rw [value_eq l1, addRel_iff] at hrel
    obtain ⟨k, hd⟩ := hrel
    refine ⟨_, emulatedAddConstant_rel' E _ _ l1 y k (nat E (limb c.val a)), ?_⟩
    exact Spec.conseq hc (addConstAdv_spec h hb hc hr l1 h1 y k) (fun _ _ _ => ⟨r1, hy, hd⟩)
      (fun v c' _ hm h0 => value_map h h0 hy hm) (fun _ _ _ _ h => h)
  · rintro c hc ⟨hr, h1⟩ ⟨r1, q1⟩ v c' hm pi hs
    unfold emulatedAddConstant at hm
    rw [bind_of_ok (emulatedWitness_eq h1.2 h1.1), ← value_eq h1.1, Nat.mod_eq_of_lt q1] at hm
    obtain ⟨c1, e1, vv, hh⟩ := nec_of_gate h hc hr ((Nat.mod_lt _ h.hq).trans h.hqT)
      (fun v => C29_add_constant_gate h a b hb v) (fun v c1 e1 hr1 hv => ⟨hr1, h1.ext e1, hv⟩)
      (fun v c1 e1 hv rv vv => ⟨⟨r1.ext h1 e1, rv⟩, by rw [value_ext h1 e1]; exact q1,
        by rw [vv, value_ext h1 e1]⟩) hm hs
    rwa [value_ext h1 e1] at hh

/-- **C29**, exact form for `emulated_sub_constant`. -/
theorem C29_sub_constant [hp : Fact p.Prime] {E : Emu} (h : E.OK p) (a : List ℕ) (b : ℕ) (hb : b < E.q) :
    Computes E (emulatedSubConstant E a b : Build p (List ℕ))
      (fun c => RangeOK c ∧ IsVar E a c)
      (fun w => Ranged E w a)
      (fun w y => AddRel E y b (value E.B w a))
      (fun w => Ranged E w a ∧ value E.B w a < E.q)
      (fun w => AddFits E ((value E.B w a + (E.q - b)) % E.q) b)
      (fun w => (value E.B w a + (E.q - b)) % E.q) := by
  refine Computes.of_spec h.hT (emulatedSubConstant_rel _ _ _) (fun _ _ h => h) ?_ ?_ ?_ ?_ ?_
  · rintro c w w' ⟨_, h1⟩ ha r1
    exact r1.congr h1 ha
  · rintro c w w' y ⟨_, h1⟩ ha hr
    rw [value_agree h1 ha]
    exact hr
  · rintro c hc ⟨hr, ⟨l1, h1⟩⟩
    refine Spec.conseq hc (emulatedSubConstant_spec h hb hc hr l1 h1) ?_ ?_ ?_
    · rintro ⟨⟨r1, q1⟩, q4⟩ _ _
      rw [value_eq l1] at q1 q4
      exact ⟨r1, q1, addHon_iff.2 q4⟩
    · rintro v c' - ⟨lv, hv, hm⟩
      refine ⟨⟨lv, hv⟩, ?_⟩
      rintro h0 ⟨_, q1⟩
      rw [value_eq l1]
      rw [value_eq l1] at q1
      exact value_map h h0 ((Nat.mod_lt _ h.hq).trans h.hqT) (hm q1)
    · rintro v w _ _ ⟨rv, hm⟩
      refine ⟨rv, ?_⟩
      intro lv r1
      rw [value_eq l1, value_eq lv, addRel_iff]
      exact hm r1
  · rintro c y hc ⟨hr, ⟨l1, h1⟩⟩ r1 hy hrel
    rw [value_eq l1, addRel_iff] at hrel
    obtain ⟨k, hd⟩ := hrel
    refine ⟨_, emulatedSubConstant_rel' E _ _ l1 y k (nat E (limb c.val a)), ?_⟩
    exact Spec.conseq hc (subConstAdv_spec h hb hc hr l1 h1 y k) (fun _ _ _ => ⟨r1, hy, hd⟩)
      (fun v c' _ hm h0 => value_map h h0 hy hm) (fun _ _ _ _ h => h)
  · rintro c hc ⟨hr, h1⟩ ⟨r1, q1⟩ v c' hm pi hs
    unfold emulatedSubConstant at hm
    rw [bind_of_ok (emulatedWitness_eq h1.2 h1.1), ← value_eq h1.1, Nat.mod_eq_of_lt q1] at hm
    obtain ⟨c1, e1, vv, hh⟩ := nec_of_gate h hc hr ((Nat.mod_lt _ h.hq).trans h.hqT)
      (fun v => C29_add_constant_gate h v b hb a) (fun v c1 e1 hr1 hv => ⟨hr1, hv, h1.ext e1⟩)
      (fun v c1 e1 hv rv vv => ⟨⟨rv, r1.ext h1 e1⟩, by rw [vv]; exact Nat.mod_lt _ h.hq,
        by rw [vv, value_ext h1 e1, sub_eq q1 hb]⟩) hm hs
    rwa [vv] at hh

/-! ## Is it the sum? -/

/-- the claim: in every satisfying assignment the result is congruent to the sum modulo `q` -/
def AddSound (p : ℕ) (E : Emu) : Prop :=
  ∀ (a b : List ℕ) (c : Circ p), WF c → RangeOK c → IsVar E a c → IsVar E b c →
    ∀ y c', emulatedAdd E a b c = .ok (y, c') → ∀ pi w, Sat c' pi w → Ranged E w a → Ranged E w b →
      value E.B w y ≡ value E.B w a + value E.B w b [MOD E.q]

/-- the claim: for all canonical `a`, `b` the call succeeds and the stored witness is accepted -/
def AddHonest (p : ℕ) (E : Emu) : Prop :=
  ∀ (a b : List ℕ) (c : Circ p), WF c → RangeOK c → IsVar E a c → IsVar E b c → ∀ pi, checkSat c pi = .ok () →
    Ranged E c.val a → Ranged E c.val b → value E.B c.val a < E.q → value E.B c.val b < E.q →
      ∃ y c', emulatedAdd E a b c = .ok (y, c') ∧ checkSat c' pi = .ok ()

/-- Below the wrap-around bound the congruence is an equation. -/
theorem AddRel.exact {E : Emu} {a b c : ℕ} (hab : a + b < 2 ^ E.T) (hc : E.q + c < 2 ^ E.T)
    (h : AddRel E a b c) : a + b = c ∨ a + b = E.q + c := by
  rcases h with h | h
  · exact Or.inl (Nat.ModEq.eq_of_lt_of_lt h hab (by omega))
  · exact Or.inr (Nat.ModEq.eq_of_lt_of_lt h hab hc)

/-- **C29, soundness, part that holds**: in every satisfying assignment in which the sum and `q + y` stay below
`2^T`, the result is the sum modulo `q`. Missing: larger results, which are accepted, see
`C29_add_sound_counterexample`. -/
theorem C29_add_sound_partial [hp : Fact p.Prime] {E : Emu} (h : E.OK p)
    {a b : List ℕ} {c : Circ p} (hc : WF c) (hr : RangeOK c) (ha : IsVar E a c) (hb : IsVar E b c)
    {y : List ℕ} {c' : Circ p} (hm : emulatedAdd E a b c = .ok (y, c')) {pi : List (ZMod p)} {w : ℕ → ZMod p}
    (hs : Sat c' pi w) (ra : Ranged E w a) (rb : Ranged E w b)
    (hab : value E.B w a + value E.B w b < 2 ^ E.T) (hy : E.q + value E.B w y < 2 ^ E.T) :
    value E.B w a + value E.B w b = value E.B w y ∨ value E.B w a + value E.B w b = E.q + value E.B w y := by
  have hC := C29_add h a b
  have hd : RangeOK c ∧ IsVar E a c ∧ IsVar E b c := ⟨hr, ha, hb⟩
  exact ((hC.exact c hc hd y c' hm pi w (hC.old c hc hd y c' hm pi w hs) ⟨ra, rb⟩ _).1
    ⟨w, fun _ _ => rfl, hs, rfl⟩).2.exact hab hy

/-- **C29, soundness refuted**: in the circuit made by `create_emulated_variable(0)` twice and `emulated_add`,
the result `2^T - q` is accepted. -/
theorem C29_add_sound_counterexample [hp : Fact p.Prime] {E : Emu} (h : E.OK p) :
    ∃ a b c1 c y c' w, createEmulated E 0 (Circ.new p none) = .ok (a, c1) ∧ createEmulated E 0 c1 = .ok (b, c) ∧
      emulatedAdd E a b c = .ok (y, c') ∧ Sat c' [] w ∧ value E.B w a = 0 ∧ value E.B w b = 0 ∧
      value E.B w y = 2 ^ E.T - E.q := by
  have h0 : 0 < 2 ^ E.T := by positivity
  have hqT := h.hqT
  obtain ⟨a, b, c1, c, g1, g2, hc, hr, ha, hb, hck, ra, rb, va, vb⟩ := two_vars h h0 h0
  have hC := C29_add h a b
  have hd : RangeOK c ∧ IsVar E a c ∧ IsVar E b c := ⟨hr, ha, hb⟩
  have hq := h.hq
  obtain ⟨⟨-, hon⟩, -⟩ := hC.honest c hc hd [] hck ⟨⟨ra, rb⟩, by rw [va]; exact hq, by rw [vb]; exact hq⟩
  obtain ⟨y, c', hm, -⟩ := hon (by
    rw [va, vb]
    have h1 : ¬ E.q ≤ 0 := by omega
    constructor
    · intro j _; simp
    · intro j _; simp [h1])
  have hs := (checkSat_ok hc []).1 hck
  obtain ⟨w, hag, hsw, hvy⟩ := (hC.exact c hc hd y c' hm [] c.val hs ⟨ra, rb⟩ (2 ^ E.T - E.q)).2
    ⟨by omega, by
      rw [va, vb]
      right
      rw [Nat.add_sub_cancel' hqT.le]
      show 0 % _ = _ % _
      rw [Nat.mod_self, Nat.zero_mod]⟩
  exact ⟨a, b, c1, c, y, c', w, g1, g2, hm, hsw, by rw [value_agree ha hag, va],
    by rw [value_agree hb hag, vb], hvy⟩

/-- **C29, completeness refuted**: wherever a carry ripples, the honest witness is rejected. -/
theorem C29_add_honest_counterexample [hp : Fact p.Prime] {E : Emu} (h : E.OK p) {u v : ℕ} (hu : u < E.q)
    (hv : v < E.q) (hbad : ¬ AddFits E u v) :
    ∃ a b c1 c, createEmulated E u (Circ.new p none) = .ok (a, c1) ∧ createEmulated E v c1 = .ok (b, c) ∧
      checkSat c [] = .ok () ∧ value E.B c.val a = u ∧ value E.B c.val b = v ∧
      ¬ ∃ y c', emulatedAdd E a b c = .ok (y, c') ∧ checkSat c' [] = .ok () := by
  obtain ⟨a, b, c1, c, g1, g2, hc, hr, ha, hb, hck, ra, rb, va, vb⟩ :=
    two_vars h (hu.trans h.hqT) (hv.trans h.hqT)
  refine ⟨a, b, c1, c, g1, g2, hck, va, vb, ?_⟩
  rw [((C29_add h a b).honest c hc ⟨hr, ha, hb⟩ [] hck ⟨⟨ra, rb⟩, by rw [va]; exact hu,
    by rw [vb]; exact hv⟩).1, va, vb]
  exact hbad

theorem not_addSound [hp : Fact p.Prime] {E : Emu} (h : E.OK p) (hq : ¬ E.q ∣ 2 ^ E.T) : ¬ AddSound p E := by
  intro hs
  obtain ⟨a, b, c1, c, y, c', w, g1, g2, hm, hsw, va, vb, vy⟩ := C29_add_sound_counterexample h
  have hr0 : RangeOK (Circ.new p none) := by intro k hk; simp [Circ.new] at hk
  obtain ⟨e1, ⟨l1, i1, -⟩, q1⟩ := (createEmulated_spec E 0 (wf_new none) hr0).sound _ _ g1
  obtain ⟨e2, ⟨l2, i2, -⟩, q2⟩ := (createEmulated_spec E 0 e1.wf (hr0.ext e1)).sound _ _ g2
  have hd : RangeOK c ∧ IsVar E a c ∧ IsVar E b c :=
    ⟨(hr0.ext e1).ext e2, ⟨l1, fun x hx => e2.lt (i1 x hx)⟩, l2, i2⟩
  have hsc := (C29_add h a b).old c e2.wf hd y c' hm [] w hsw
  have := hs a b c e2.wf hd.1 hd.2.1 hd.2.2 y c' hm [] w hsw (q1 [] w (e2.sat _ _ hsc)) (q2 [] w hsc)
  rw [va, vb, vy] at this
  have h2 := Nat.ModEq.add_right E.q this
  rw [Nat.sub_add_cancel h.hqT.le, Nat.add_zero, Nat.zero_add] at h2
  exact hq ((Nat.modEq_zero_iff_dvd).1 (h2.trans (Nat.modEq_zero_iff_dvd.2 (dvd_refl _))))

theorem not_addHonest [hp : Fact p.Prime] {E : Emu} (h : E.OK p) {u v : ℕ} (hu : u < E.q)
    (hv : v < E.q) (hbad : ¬ AddFits E u v) : ¬ AddHonest p E := by
  intro hs
  obtain ⟨a, b, c1, c, g1, g2, hck, va, vb, hno⟩ := C29_add_honest_counterexample h hu hv hbad
  have hr0 : RangeOK (Circ.new p none) := by intro k hk; simp [Circ.new] at hk
  obtain ⟨e1, ⟨l1, i1, -⟩, q1⟩ := (createEmulated_spec E u (wf_new none) hr0).sound _ _ g1
  obtain ⟨e2, ⟨l2, i2, -⟩, q2⟩ := (createEmulated_spec E v e1.wf (hr0.ext e1)).sound _ _ g2
  have hsc := (checkSat_ok e2.wf []).1 hck
  exact hno (hs a b c e2.wf ((hr0.ext e1).ext e2) ⟨l1, fun x hx => e2.lt (i1 x hx)⟩ ⟨l2, i2⟩ [] hck
    (q1 [] _ (e2.sat _ _ hsc)) (q2 [] _ hsc) (by rw [va]; exact hu) (by rw [vb]; exact hv))

/-- **C29 refuted in both configurations of the crate**: soundness, and completeness. -/
theorem C29_shipped_counterexample :
    ¬ AddSound Rescue.p_ed254 fq377 ∧ ¬ AddSound Rescue.p_ed254 fq254 ∧
    ¬ AddHonest Rescue.p_ed254 fq377 ∧ ¬ AddHonest Rescue.p_ed254 fq254 := by
  refine ⟨not_addSound fq377_ok (by decide +kernel), not_addSound fq254_ok (by decide +kernel),
    not_addHonest (u := 2 ^ 100 - 1) (v := 1 + (2 ^ 100 - 1) * 2 ^ 100) fq377_ok (by decide +kernel)
      (by decide +kernel) (fun h => absurd h.1 (by decide +kernel)),
    not_addHonest (u := 2 ^ 100 - 1) (v := 1 + (2 ^ 100 - 1) * 2 ^ 100) fq254_ok (by decide +kernel)
      (by decide +kernel) (fun h => absurd h.1 (by decide +kernel))⟩

/-- A sum that is accepted, and one that is not. -/
example : AddFits toy 9 12 ∧ ¬ AddFits toy 3 13 := by
  constructor
  · exact ⟨by decide +kernel, by decide +kernel⟩
  · exact fun h => absurd h.1 (by decide +kernel)

/-- The hypotheses of `C29_add_sound_partial` are met: `9 + 12 = 4` modulo 17. -/
example : ∃ (a b y : List ℕ) (c c' : Circ 257), WF c ∧ RangeOK c ∧ IsVar toy a c ∧ IsVar toy b c ∧
    emulatedAdd toy a b c = .ok (y, c') ∧ Sat c' [] c'.val ∧ Ranged toy c'.val a ∧ Ranged toy c'.val b ∧
    value 2 c'.val a = 9 ∧ value 2 c'.val b = 12 ∧ value 2 c'.val y = 4 := by
  obtain ⟨a, b, c1, c, -, -, hc, hr, ha, hb, hck, ra, rb, va, vb⟩ :=
    two_vars toy_ok (u := 9) (v := 12) (by decide) (by decide)
  have hC := C29_add (p := 257) toy_ok a b
  have hd : RangeOK c ∧ IsVar toy a c ∧ IsVar toy b c := ⟨hr, ha, hb⟩
  obtain ⟨⟨-, hon⟩, hout⟩ := hC.honest c hc hd [] hck
    ⟨⟨ra, rb⟩, by rw [va]; decide, by rw [vb]; decide⟩
  obtain ⟨y, c', hm, hck'⟩ := hon (by rw [va, vb]; exact ⟨by decide +kernel, by decide +kernel⟩)
  obtain ⟨w1, _, w3, _⟩ := hC.wf c hc hd y c' hm
  have ho := hout y c' hm
  rw [va, vb] at ho
  exact ⟨a, b, y, c, c', hc, hr, ha, hb, hm, (checkSat_ok w1 []).1 hck', ra.congr ha w3, rb.congr hb w3,
    (value_agree ha w3).trans va, (value_agree hb w3).trans vb, ho⟩

end Verif.Props.Emulated
