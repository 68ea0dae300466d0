import Verif.Circuit.Check

/-!
# What it means for a circuit gadget to be correct

`Correct m dom pre post`: let `c` be a circuit under construction with `dom c` (the wires
passed to the gadget exist).

* If the call `m` succeeds with result `v` and new circuit `c'`, then `c'` is again a
  circuit under construction in which the old variables keep their stored values, the
  plonk type, lookup tables and public inputs are unchanged, gates are only appended, and
  * **soundness**: every assignment satisfying `c'` (also an adversarial one) satisfies `c`
    and `post v`;
  * **completeness**: every assignment satisfying `c` with `pre` can be extended to the new
    variables so that it satisfies `c'`.
* **honest prover**: if the check of the stored witness accepts `c` and the stored witness
  meets `pre`, the call succeeds and the check accepts the new circuit.
* **fixed shape**: the gates, wires and the returned value do not depend on the stored witness.
-/

namespace Verif.Props.Circuit

open Verif.Circuit

variable {p : ℕ} {α : Type}

/-- See the file header. -/
structure Correct (m : Build p α) (dom : Circ p → Prop) (pre : (ℕ → ZMod p) → Prop)
    (post : α → (ℕ → ZMod p) → Prop) : Prop where
  wf : ∀ c, WF c → dom c → ∀ v c', m c = .ok (v, c') →
    WF c' ∧ c.numVars ≤ c'.numVars ∧ (∀ i, i < c.numVars → c'.val i = c.val i) ∧
    Frame c c'
  sound : ∀ c, WF c → dom c → ∀ v c', m c = .ok (v, c') →
    ∀ pi w, Sat c' pi w → Sat c pi w ∧ post v w
  complete : ∀ c, WF c → dom c → ∀ v c', m c = .ok (v, c') →
    ∀ pi w, Sat c pi w → pre w →
      ∃ w' : ℕ → ZMod p, (∀ i, i < c.numVars → w' i = w i) ∧ Sat c' pi w'
  honest : ∀ c, WF c → dom c → ∀ pi, checkSat c pi = .ok () → pre c.val →
    ∃ v c', m c = .ok (v, c') ∧ checkSat c' pi = .ok ()
  shape : ∀ c d, c.shape = d.shape → ∀ v c' v' d', m c = .ok (v, c') → m d = .ok (v', d') →
    v = v' ∧ c'.shape = d'.shape

/-- For an enforcing gadget: an assignment satisfying the circuit before extends to the
circuit after if and only if the enforced relation holds. -/
theorem Correct.exact_iff {m : Build p α} {dom : Circ p → Prop} {pre : (ℕ → ZMod p) → Prop}
    (h : Correct m dom pre (fun _ w => pre w))
    {c : Circ p} (hc : WF c) (hd : dom c)
    (hpre : ∀ w w' : ℕ → ZMod p, (∀ i, i < c.numVars → w' i = w i) → pre w' → pre w)
    {v : α} {c' : Circ p} (hm : m c = .ok (v, c')) {pi : List (ZMod p)} {w : ℕ → ZMod p}
    (hw : Sat c pi w) :
    (∃ w' : ℕ → ZMod p, (∀ i, i < c.numVars → w' i = w i) ∧ Sat c' pi w') ↔ pre w := by
  constructor
  · rintro ⟨w', h1, h2⟩
    exact hpre w w' h1 (h.sound c hc hd v c' hm pi w' h2).2
  · exact h.complete c hc hd v c' hm pi w hw

/-- from the builder specifications -/
theorem Correct.of_spec {m : Build p α} {dom : Circ p → Prop} {pre : (ℕ → ZMod p) → Prop}
    {post : α → (ℕ → ZMod p) → Prop} {B : Circ p → α → Circ p → Prop} (hrel : Rel m m)
    (hdom : ∀ c w, dom c → dom (Circ.assign c w))
    (hpre : ∀ c w w', dom c → (∀ i, i < c.numVars → w' i = w i) → pre w → pre w')
    (hs : ∀ c, WF c → dom c → Spec m c (pre c.val) (B c) post) : Correct m dom pre post := by
  refine ⟨?_, ?_, ?_, ?_, ?_⟩
  · intro c hc hd v c' hm
    obtain ⟨e, _, _⟩ := (hs c hc hd).sound v c' hm
    exact ⟨e.wf, e.vars, e.val, e.frame⟩
  · intro c hc hd v c' hm pi w hw
    obtain ⟨e, _, r⟩ := (hs c hc hd).sound v c' hm
    exact ⟨e.sat pi w hw, r pi w hw⟩
  · intro c hc hd v c' hm pi w hw hp
    exact (hs _ (assign_wf hc w) (hdom c w hd)).universal hrel hc
      (hpre c w _ hd (fun i hi => assign_val c w hi) hp) hm hw
  · intro c hc hd pi hch hp
    obtain ⟨v, c', hm, hsat⟩ := (hs c hc hd).complete hp pi ((checkSat_ok hc pi).1 hch)
    obtain ⟨e, _, _⟩ := (hs c hc hd).sound v c' hm
    exact ⟨v, c', hm, (checkSat_ok e.wf pi).2 hsat⟩
  · intro c d hcd v c' v' d' h1 h2
    exact hrel c d hcd v c' v' d' h1 h2

/-- a circuit over `ZMod 7` with variables `2,3,4,5` holding `3, 5, 0, 1` -/
def demo : Circ 7 := { Circ.new 7 none with numVars := 6, witness := [0, 1, 3, 5, 0, 1] }

theorem demo_wf : WF demo := by
  refine ⟨rfl, rfl, by decide, ⟨[], rfl⟩, ?_, by simp [demo, Circ.new], by simp [demo, Circ.new]⟩
  intro r hr
  simp [demo, Circ.new] at hr
  rcases hr with rfl | rfl <;> simp [demo]

/-- run a gadget on a circuit; the value of the returned variable if the check accepts -/
def runVal (m : Build p ℕ) (c : Circ p) : Option (ZMod p) :=
  match m c with
  | .ok (v, c') => match checkSat c' [] with
    | .ok _ => some (c'.val v)
    | .error _ => none
  | .error _ => none

/-- run an enforcing gadget on a circuit; does the check accept? -/
def runOk (m : Build p α) (c : Circ p) : Bool :=
  match m c with
  | .ok (_, c') => match checkSat c' [] with
    | .ok _ => true
    | .error _ => false
  | .error _ => false

/-- running a gadget on a concrete circuit, from its correctness -/
theorem Correct.run {m : Build p ℕ} {dom : Circ p → Prop} {pre : (ℕ → ZMod p) → Prop}
    {post : ℕ → (ℕ → ZMod p) → Prop} (h : Correct m dom pre post) {c : Circ p} (hc : WF c)
    (hd : dom c) (hck : checkSat c [] = .ok ()) (hpre : pre c.val) :
    ∃ (v : ℕ) (c' : Circ p), runVal m c = some (c'.val v) ∧ post v c'.val ∧
      ∀ i, i < c.numVars → c'.val i = c.val i := by
  obtain ⟨v, c', hm, hs⟩ := h.honest c hc hd [] hck hpre
  obtain ⟨w1, _, w3, _⟩ := h.wf c hc hd v c' hm
  refine ⟨v, c', ?_, (h.sound c hc hd v c' hm [] c'.val ((checkSat_ok w1 []).1 hs)).2, w3⟩
  simp [runVal, hm, hs]

/-- running an enforcing gadget on a concrete circuit, from its correctness -/
theorem Correct.runOk_iff {m : Build p α} {dom : Circ p → Prop} {pre : (ℕ → ZMod p) → Prop}
    (h : Correct m dom pre (fun _ w => pre w)) {c : Circ p} (hc : WF c)
    (hd : dom c) (hck : checkSat c [] = .ok ())
    (hloc : ∀ w : ℕ → ZMod p, (∀ i, i < c.numVars → w i = c.val i) → pre w → pre c.val) :
    runOk m c = true ↔ pre c.val := by
  constructor
  · intro hr
    unfold runOk at hr
    split at hr
    · rename_i v c' hm
      split at hr
      · rename_i u hs
        obtain ⟨w1, _, w3, _⟩ := h.wf c hc hd v c' hm
        exact hloc _ w3 (h.sound c hc hd v c' hm [] c'.val ((checkSat_ok w1 []).1 hs)).2
      · simp at hr
    · simp at hr
  · intro hp
    obtain ⟨v, c', hm, hs⟩ := h.honest c hc hd [] hck hp
    simp [runOk, hm, hs]

theorem demo_check : checkSat demo [] = .ok () := by decide +kernel

/-- run a gadget and test an adversarial witness for the new circuit: `true` if the check
accepts it and the test on the returned value succeeds -/
def advOk (m : Build p α) (c : Circ p) (adv : List (ZMod p)) (test : α → Bool) : Bool :=
  match m c with
  | .ok (v, c') => decide (adv.length = c'.numVars) && test v &&
    (match checkSat { c' with witness := adv } [] with
      | .ok _ => true
      | .error _ => false)
  | .error _ => false

theorem advOk_sat {m : Build p α} {c : Circ p} {adv : List (ZMod p)} {test : α → Bool}
    (h : advOk m c adv test = true) (hwf : ∀ v c', m c = .ok (v, c') → WF c') :
    ∃ v c', m c = .ok (v, c') ∧ Sat c' [] (fun i => adv.getD i 0) ∧ test v = true := by
  unfold advOk at h
  split at h
  · rename_i v c' hm
    rw [Bool.and_eq_true, Bool.and_eq_true, decide_eq_true_iff] at h
    obtain ⟨⟨h1, h2⟩, h3⟩ := h
    have hc := hwf v c' hm
    have hc2 : WF { c' with witness := adv } :=
      ⟨h1, hc.opn, hc.two, hc.consts, hc.wires, hc.ranges, hc.pub⟩
    split at h3
    · rename_i u hck
      have hs := (checkSat_ok hc2 []).1 hck
      have hsame : Same { c' with witness := adv } c' := rfl
      exact ⟨v, c', hm, hsame.sat hs, h2⟩
    · simp at h3
  · simp at h

end Verif.Props.Circuit
