import Verif.Props.EmulatedSpec

/-!
# What it means to know a gadget exactly

`Exact m dom pre out rel canon hon res good`, for a gadget `m` whose result `v` has the value `out w v` in the
assignment `w`:

* `wf`, `old`, `shape`: the call leaves the circuit well formed, keeps variables, values and constraints, and the
  constraints it adds do not depend on the stored values.
* `ret`: the result satisfies `good`.
* `exact`: let `w` satisfy the circuit before the call and let `pre w` hold. For every `y`, `w` extends to the new
  variables with result value `y` if and only if `rel w y`. This is soundness (only these results) and says how far
  it goes (all these results, whatever the builder had stored).
* `honest`: let the builder's check accept the circuit before, and let the stored arguments satisfy `canon`. Then call
  and check succeed if and only if `hon` holds of the stored arguments, and the stored result is `res`.
-/

set_option linter.unusedSectionVars false

namespace Verif.Props

open Verif.Circuit

variable {p : ℕ} {α β : Type}

/-- see the file header -/
structure Exact (m : Build p α) (dom : Circ p → Prop) (pre : (ℕ → ZMod p) → Prop) (out : (ℕ → ZMod p) → α → β)
    (rel : (ℕ → ZMod p) → β → Prop) (canon hon : (ℕ → ZMod p) → Prop) (res : (ℕ → ZMod p) → β)
    (good : α → Circ p → Prop) : Prop where
  wf : ∀ c, WF c → dom c → ∀ v c', m c = .ok (v, c') →
    WF c' ∧ c.numVars ≤ c'.numVars ∧ (∀ i, i < c.numVars → c'.val i = c.val i) ∧ Frame c c'
  old : ∀ c, WF c → dom c → ∀ v c', m c = .ok (v, c') → ∀ pi w, Sat c' pi w → Sat c pi w
  ret : ∀ c, WF c → dom c → ∀ v c', m c = .ok (v, c') → good v c'
  exact : ∀ c, WF c → dom c → ∀ v c', m c = .ok (v, c') → ∀ pi w, Sat c pi w → pre w → ∀ y,
    ((∃ w' : ℕ → ZMod p, (∀ i, i < c.numVars → w' i = w i) ∧ Sat c' pi w' ∧ out w' v = y) ↔ rel w y)
  honest : ∀ c, WF c → dom c → ∀ pi, checkSat c pi = .ok () → canon c.val →
    ((∃ v c', m c = .ok (v, c') ∧ checkSat c' pi = .ok ()) ↔ hon c.val) ∧
    ∀ v c', m c = .ok (v, c') → out c'.val v = res c.val
  shape : ∀ c d, c.shape = d.shape → ∀ v c' v' d', m c = .ok (v, c') → m d = .ok (v', d') →
    v = v' ∧ c'.shape = d'.shape

open Emulated (Agree)

theorem Exact.of_spec {m : Build p α} {dom : Circ p → Prop} {pre : (ℕ → ZMod p) → Prop}
    {out : (ℕ → ZMod p) → α → β} {rel : (ℕ → ZMod p) → β → Prop} {canon hon : (ℕ → ZMod p) → Prop}
    {res : (ℕ → ZMod p) → β} {good : α → Circ p → Prop} (hrel : Rel m m)
    (hdom : ∀ c w, dom c → dom (Circ.assign c w))
    (hpre : ∀ c w w', dom c → Agree c w' w → pre w → pre w')
    (hrl : ∀ c w w' y, dom c → Agree c w' w → rel w y → rel w' y)
    (hs : ∀ c, WF c → dom c → Spec m c (canon c.val ∧ hon c.val)
      (fun v c' => good v c' ∧ (c'.val 0 = 0 → c'.val 1 = 1 → canon c.val → out c'.val v = res c.val))
      (fun v w => pre w → rel w (out w v)))
    (hadv : ∀ c y, WF c → dom c → pre c.val → rel c.val y →
      ∃ m', Rel m m' ∧ Spec m' c True (fun v c' => out c'.val v = y) (fun _ _ => True))
    (hnec : ∀ c, WF c → dom c → canon c.val → ∀ v c', m c = .ok (v, c') → ∀ pi, Sat c' pi c'.val → hon c.val) :
    Exact m dom pre out rel canon hon res good := by
  refine ⟨?_, ?_, ?_, ?_, ?_, ?_⟩
  · intro c hc hd v c' hm
    obtain ⟨e, _, _⟩ := (hs c hc hd).sound v c' hm
    exact ⟨e.wf, e.vars, e.val, e.frame⟩
  · intro c hc hd v c' hm pi w hw
    obtain ⟨e, _, r⟩ := (hs c hc hd).sound v c' hm
    exact e.sat pi w hw
  · intro c hc hd v c' hm
    exact ((hs c hc hd).sound v c' hm).2.1.1
  · intro c hc hd v c' hm pi w hw hp y
    constructor
    · rintro ⟨w', ha, hs', rfl⟩
      obtain ⟨e, b, r⟩ := (hs c hc hd).sound v c' hm
      exact hrl c w' w _ hd (fun i hi => (ha i hi).symm) (r pi w' hs' (hpre c w w' hd ha hp))
    · intro hr
      have ha : Agree c (Circ.assign c w).val w := fun i hi => assign_val c w hi
      obtain ⟨m', hrm, hsp⟩ := hadv _ y (assign_wf hc w) (hdom c w hd) (hpre c w _ hd ha hp) (hrl c w _ y hd ha hr)
      obtain ⟨d', hsm, hB, -, h1, h2⟩ := hsp.universal'' hrm hc trivial hm hw
      exact ⟨d'.val, h1, h2, hB⟩
  · intro c hc hd pi hch hcan
    have hsat0 := (checkSat_ok hc pi).1 hch
    refine ⟨⟨?_, ?_⟩, ?_⟩
    · rintro ⟨v, c', hm, hch'⟩
      obtain ⟨e, _, _⟩ := (hs c hc hd).sound v c' hm
      exact hnec c hc hd hcan v c' hm pi ((checkSat_ok e.wf pi).1 hch')
    · intro hh
      obtain ⟨v, c', hm, hsat⟩ := (hs c hc hd).complete ⟨hcan, hh⟩ pi hsat0
      obtain ⟨e, _, _⟩ := (hs c hc hd).sound v c' hm
      exact ⟨v, c', hm, (checkSat_ok e.wf pi).2 hsat⟩
    · intro v c' hm
      obtain ⟨e, b, _⟩ := (hs c hc hd).sound v c' hm
      exact b.2 (by rw [e.val 0 hc.z]; exact hsat0.zero hc) (by rw [e.val 1 hc.o]; exact hsat0.one hc) hcan
  · intro c d hcd v c' v' d' h1 h2
    exact hrel c d hcd v c' v' d' h1 h2

/-- soundness, read off -/
theorem Exact.sound {m : Build p α} {dom : Circ p → Prop} {pre : (ℕ → ZMod p) → Prop}
    {out : (ℕ → ZMod p) → α → β} {rel : (ℕ → ZMod p) → β → Prop} {canon hon : (ℕ → ZMod p) → Prop}
    {res : (ℕ → ZMod p) → β} {good : α → Circ p → Prop} (h : Exact m dom pre out rel canon hon res good)
    {c : Circ p} (hc : WF c) (hd : dom c) {v : α} {c' : Circ p} (hm : m c = .ok (v, c')) {pi : List (ZMod p)}
    {w : ℕ → ZMod p} (hs : Sat c' pi w) (hp : pre w) : rel w (out w v) :=
  (h.exact c hc hd v c' hm pi w (h.old c hc hd v c' hm pi w hs) hp _).1 ⟨w, fun _ _ => rfl, hs, rfl⟩

end Verif.Props
