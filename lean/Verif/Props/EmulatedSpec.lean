import Verif.Circuit.EmulatedCmp
import Verif.Props.CircuitSpec

/-!
# What it means for a gadget on emulated variables to enforce or compute something

An emulated variable is a list of `n` circuit variables, the limbs. In an assignment it stands for the
integer `value`. `Enforces` and `Computes` say exactly what a gadget forces, and exactly when the witness
the builder stores is accepted:

* `exact`: let `w` satisfy the circuit before the call, with the limbs of the arguments in range. It extends
  to the new variables if and only if `rel w` holds; for a gadget with a result: with result `y` if and only
  if `y < 2^T` and `rel w y`. This is soundness (only these results) and says how far it goes (all these
  results, whatever the builder had stored).
* `honest`: let the builder's check accept the circuit before, and let the stored arguments satisfy `canon`.
  Then call and check succeed if and only if `hon` holds of the stored arguments.
-/

set_option linter.unusedSectionVars false

namespace Verif.Props.Emulated

open Verif.Circuit

variable {p : ℕ}

/-- the integer whose limbs of `b` bits (lowest first) are the values of the variables `a` -/
def value (b : ℕ) (w : ℕ → ZMod p) : List ℕ → ℕ
  | [] => 0
  | v :: vs => (w v).val + 2 ^ b * value b w vs

/-- `n` existing variables -/
def IsVar (E : Emu) (a : List ℕ) (c : Circ p) : Prop := a.length = E.n ∧ ∀ v ∈ a, v < c.numVars

/-- every limb has at most `B` bits -/
def Ranged (E : Emu) (w : ℕ → ZMod p) (a : List ℕ) : Prop := ∀ v ∈ a, (w v).val < 2 ^ E.B

/-- see the file header -/
structure Enforces (m : Build p Unit) (dom : Circ p → Prop) (pre rel canon hon : (ℕ → ZMod p) → Prop) :
    Prop where
  wf : ∀ c, WF c → dom c → ∀ v c', m c = .ok (v, c') →
    WF c' ∧ c.numVars ≤ c'.numVars ∧ (∀ i, i < c.numVars → c'.val i = c.val i) ∧ Frame c c'
  old : ∀ c, WF c → dom c → ∀ v c', m c = .ok (v, c') → ∀ pi w, Sat c' pi w → Sat c pi w
  exact : ∀ c, WF c → dom c → ∀ v c', m c = .ok (v, c') → ∀ pi w, Sat c pi w → pre w →
    ((∃ w' : ℕ → ZMod p, (∀ i, i < c.numVars → w' i = w i) ∧ Sat c' pi w') ↔ rel w)
  honest : ∀ c, WF c → dom c → ∀ pi, checkSat c pi = .ok () → canon c.val →
    ((∃ v c', m c = .ok (v, c') ∧ checkSat c' pi = .ok ()) ↔ hon c.val)
  shape : ∀ c d, c.shape = d.shape → ∀ v c' v' d', m c = .ok (v, c') → m d = .ok (v', d') →
    c'.shape = d'.shape

/-- see the file header; `out` is the result the builder stores -/
structure Computes (E : Emu) (m : Build p (List ℕ)) (dom : Circ p → Prop) (pre : (ℕ → ZMod p) → Prop)
    (rel : (ℕ → ZMod p) → ℕ → Prop) (canon hon : (ℕ → ZMod p) → Prop) (out : (ℕ → ZMod p) → ℕ) : Prop where
  wf : ∀ c, WF c → dom c → ∀ v c', m c = .ok (v, c') →
    WF c' ∧ c.numVars ≤ c'.numVars ∧ (∀ i, i < c.numVars → c'.val i = c.val i) ∧ Frame c c'
  old : ∀ c, WF c → dom c → ∀ v c', m c = .ok (v, c') → ∀ pi w, Sat c' pi w → Sat c pi w
  var : ∀ c, WF c → dom c → ∀ v c', m c = .ok (v, c') → IsVar E v c' ∧ ∀ pi w, Sat c' pi w → Ranged E w v
  exact : ∀ c, WF c → dom c → ∀ v c', m c = .ok (v, c') → ∀ pi w, Sat c pi w → pre w → ∀ y,
    ((∃ w' : ℕ → ZMod p, (∀ i, i < c.numVars → w' i = w i) ∧ Sat c' pi w' ∧ value E.B w' v = y) ↔
      y < 2 ^ E.T ∧ rel w y)
  honest : ∀ c, WF c → dom c → ∀ pi, checkSat c pi = .ok () → canon c.val →
    ((∃ v c', m c = .ok (v, c') ∧ checkSat c' pi = .ok ()) ↔ hon c.val) ∧
    ∀ v c', m c = .ok (v, c') → value E.B c'.val v = out c.val
  shape : ∀ c d, c.shape = d.shape → ∀ v c' v' d', m c = .ok (v, c') → m d = .ok (v', d') →
    v = v' ∧ c'.shape = d'.shape

/-! ## From the specifications of the builder -/

theorem value_eq {E : Emu} {w : ℕ → ZMod p} {a : List ℕ} (hl : a.length = E.n) :
    value E.B w a = nat E (limb w a) := by
  have h := limbsNat_eq w E.B a
  unfold nat
  rw [← hl, ← h]
  clear h hl
  induction a with
  | nil => rfl
  | cons v a ih => simp only [value, limbsNat, List.map_cons, ih]; ring

theorem value_congr {b : ℕ} {w w' : ℕ → ZMod p} {a : List ℕ} (h : ∀ v ∈ a, w' v = w v) :
    value b w' a = value b w a := by
  induction a with
  | nil => rfl
  | cons v a ih =>
    unfold value
    rw [h v (by simp), ih (fun x hx => h x (by simp [hx]))]

theorem value_lt {b : ℕ} {w : ℕ → ZMod p} {a : List ℕ} (h : ∀ v ∈ a, (w v).val < 2 ^ b) :
    value b w a < 2 ^ (b * a.length) := by
  induction a with
  | nil => simp [value]
  | cons v a ih =>
    unfold value
    have h1 := h v (by simp)
    have h2 := ih (fun x hx => h x (by simp [hx]))
    rw [List.length_cons, show b * (a.length + 1) = b + b * a.length by ring, pow_add]
    calc _ < 2 ^ b + 2 ^ b * value b w a := by omega
      _ = 2 ^ b * (value b w a + 1) := by ring
      _ ≤ _ := Nat.mul_le_mul_left _ h2

theorem value_map [Fact p.Prime] {E : Emu} (h : E.OK p) {w : ℕ → ZMod p} (h0 : w 0 = 0) {v : List ℕ}
    {y : ℕ} (hy : y < 2 ^ E.T) (hv : v.map w = fromEmulated p E y) : value E.B w v = y := by
  rw [value_eq (E := E)]
  · exact nat_of_map h h0 hy hv
  · have := congrArg List.length hv
    simpa [fromEmulated, toLimbs_length] using this

/-- two assignments give the variables of `c` the same values -/
def Agree (c : Circ p) (w' w : ℕ → ZMod p) : Prop := ∀ i, i < c.numVars → w' i = w i

theorem Enforces.of_spec {m : Build p Unit} {dom : Circ p → Prop} {pre rel canon hon : (ℕ → ZMod p) → Prop}
    {B : Circ p → Unit → Circ p → Prop} (hrel : Rel m m)
    (hdom : ∀ c w, dom c → dom (Circ.assign c w))
    (hpre : ∀ c w w', dom c → Agree c w' w → pre w → pre w')
    (hrl : ∀ c w w', dom c → Agree c w' w → rel w → rel w')
    (hs : ∀ c, WF c → dom c → Spec m c (canon c.val ∧ hon c.val) (B c) (fun _ w => pre w → rel w))
    (hadv : ∀ c, WF c → dom c → pre c.val → rel c.val →
      ∃ m', Rel m m' ∧ Spec m' c True (fun _ _ => True) (fun _ _ => True))
    (hnec : ∀ c, WF c → dom c → canon c.val → ∀ v c', m c = .ok (v, c') → ∀ pi, Sat c' pi c'.val → hon c.val) :
    Enforces m dom pre rel canon hon := by
  refine ⟨?_, ?_, ?_, ?_, ?_⟩
  · intro c hc hd v c' hm
    obtain ⟨e, _, _⟩ := (hs c hc hd).sound v c' hm
    exact ⟨e.wf, e.vars, e.val, e.frame⟩
  · intro c hc hd v c' hm pi w hw
    obtain ⟨e, _, r⟩ := (hs c hc hd).sound v c' hm
    exact e.sat pi w hw
  · intro c hc hd v c' hm pi w hw hp
    constructor
    · rintro ⟨w', ha, hs'⟩
      obtain ⟨e, _, r⟩ := (hs c hc hd).sound v c' hm
      exact hrl c w' w hd (fun i hi => (ha i hi).symm) (r pi w' hs' (hpre c w w' hd ha hp))
    · intro hr
      have ha : Agree c (Circ.assign c w).val w := fun i hi => assign_val c w hi
      obtain ⟨m', hrm, hsp⟩ := hadv _ (assign_wf hc w) (hdom c w hd) (hpre c w _ hd ha hp) (hrl c w _ hd ha hr)
      obtain ⟨d', -, -, -, h1, h2⟩ := hsp.universal'' hrm hc trivial hm hw
      exact ⟨d'.val, h1, h2⟩
  · intro c hc hd pi hch hcan
    constructor
    · rintro ⟨v, c', hm, hch'⟩
      obtain ⟨e, _, _⟩ := (hs c hc hd).sound v c' hm
      exact hnec c hc hd hcan v c' hm pi ((checkSat_ok e.wf pi).1 hch')
    · intro hh
      obtain ⟨v, c', hm, hsat⟩ := (hs c hc hd).complete ⟨hcan, hh⟩ pi ((checkSat_ok hc pi).1 hch)
      obtain ⟨e, _, _⟩ := (hs c hc hd).sound v c' hm
      exact ⟨v, c', hm, (checkSat_ok e.wf pi).2 hsat⟩
  · intro c d hcd v c' v' d' h1 h2
    exact (hrel c d hcd v c' v' d' h1 h2).2

theorem Computes.of_spec {E : Emu} (hT : E.T = E.B * E.n) {m : Build p (List ℕ)} {dom : Circ p → Prop}
    {pre : (ℕ → ZMod p) → Prop}
    {rel : (ℕ → ZMod p) → ℕ → Prop} {canon hon : (ℕ → ZMod p) → Prop} {out : (ℕ → ZMod p) → ℕ} (hrel : Rel m m)
    (hdom : ∀ c w, dom c → dom (Circ.assign c w))
    (hpre : ∀ c w w', dom c → Agree c w' w → pre w → pre w')
    (hrl : ∀ c w w' y, dom c → Agree c w' w → rel w y → rel w' y)
    (hs : ∀ c, WF c → dom c → Spec m c (canon c.val ∧ hon c.val)
      (fun v c' => IsVar E v c' ∧ (c'.val 0 = 0 → canon c.val → value E.B c'.val v = out c.val))
      (fun v w => Ranged E w v ∧ (v.length = E.n → pre w → rel w (value E.B w v))))
    (hadv : ∀ c y, WF c → dom c → pre c.val → y < 2 ^ E.T → rel c.val y →
      ∃ m', Rel m m' ∧ Spec m' c True (fun v c' => c'.val 0 = 0 → value E.B c'.val v = y) (fun _ _ => True))
    (hnec : ∀ c, WF c → dom c → canon c.val → ∀ v c', m c = .ok (v, c') → ∀ pi, Sat c' pi c'.val → hon c.val) :
    Computes E m dom pre rel canon hon out := by
  refine ⟨?_, ?_, ?_, ?_, ?_, ?_⟩
  · intro c hc hd v c' hm
    obtain ⟨e, _, _⟩ := (hs c hc hd).sound v c' hm
    exact ⟨e.wf, e.vars, e.val, e.frame⟩
  · intro c hc hd v c' hm pi w hw
    obtain ⟨e, _, r⟩ := (hs c hc hd).sound v c' hm
    exact e.sat pi w hw
  · intro c hc hd v c' hm
    obtain ⟨e, b, r⟩ := (hs c hc hd).sound v c' hm
    exact ⟨b.1, fun pi w hw => (r pi w hw).1⟩
  · intro c hc hd v c' hm pi w hw hp y
    constructor
    · rintro ⟨w', ha, hs', rfl⟩
      obtain ⟨e, b, r⟩ := (hs c hc hd).sound v c' hm
      refine ⟨?_, hrl c w' w _ hd (fun i hi => (ha i hi).symm) ((r pi w' hs').2 b.1.1 (hpre c w w' hd ha hp))⟩
      have := value_lt (r pi w' hs').1
      rwa [b.1.1, ← hT] at this
    · rintro ⟨hy, hr⟩
      have ha : Agree c (Circ.assign c w).val w := fun i hi => assign_val c w hi
      obtain ⟨m', hrm, hsp⟩ := hadv _ y (assign_wf hc w) (hdom c w hd) (hpre c w _ hd ha hp) hy
        (hrl c w _ y hd ha hr)
      obtain ⟨d', hsm, hB, -, h1, h2⟩ := hsp.universal'' hrm hc trivial hm hw
      refine ⟨d'.val, h1, h2, hB ?_⟩
      obtain ⟨e, _, _⟩ := (hs c hc hd).sound v c' hm
      exact h2.zero e.wf
  · intro c hc hd pi hch hcan
    have hsat0 := (checkSat_ok hc pi).1 hch
    refine ⟨⟨?_, ?_⟩, ?_⟩
    · rintro ⟨v, c', hm, hch'⟩
      obtain ⟨e, _, _⟩ := (hs c hc hd).sound v c' hm
      exact hnec c hc hd hcan v c' hm pi ((checkSat_ok e.wf pi).1 hch')
    · intro hh
      obtain ⟨v, c', hm, hsat⟩ := (hs c hc hd).complete ⟨hcan, hh⟩ pi hsat0
      obtain ⟨e, _, _⟩ := (hs c hc hd).sound v c' hm
      exact ⟨v, c', hm, (checkSat_ok e.wf pi).2 hsat⟩
    · intro v c' hm
      obtain ⟨e, b, _⟩ := (hs c hc hd).sound v c' hm
      exact b.2 (by rw [e.val 0 hc.z]; exact hsat0.zero hc) hcan
  · intro c d hcd v c' v' d' h1 h2
    exact hrel c d hcd v c' v' d' h1 h2

end Verif.Props.Emulated
