import Verif.Circuit.Tables
import Verif.Props.EmulatedSpec

/-!
# Gadgets with lookup tables, exactly

`TableExact k m dom pre out rel hon res`, for a gadget `m` that may create up to `k` lookup tables and whose result `v`
has the value `out w v` in the assignment `w`. The circuits considered are well formed with numbered tables
(`TablesOK`, which holds of every circuit made by the builder, C63) and have room for `k` more numbers in the field.

* `wf`, `old`, `shape`: the call leaves the circuit well formed, keeps variables, values and constraints, and the
  constraints it adds do not depend on the stored values.
* `frame`: the call only appends gates, none of them a public input, and a circuit made with the calls of the builder
  (`Built`) remains one.
* `exact`: let `w` satisfy the circuit before the call and let `pre w` hold. For every `y`, `w` extends to the new
  variables with result value `y` if and only if `rel w y`.
* `honest`: let the builder's check accept the circuit before, and let `pre` hold of the stored values. Then call and
  check succeed if and only if `hon` holds, and the stored result then satisfies `res`.
-/

namespace Verif.Props

open Verif.Circuit

variable {p : ℕ} {α β : Type}

/-- see the file header -/
structure TableExact (k : ℕ) (m : Build p α) (dom : Circ p → Prop) (pre : (ℕ → ZMod p) → Prop)
    (out : (ℕ → ZMod p) → α → β) (rel : (ℕ → ZMod p) → β → Prop) (hon : (ℕ → ZMod p) → Prop)
    (res : (ℕ → ZMod p) → β → Prop) : Prop where
  wf : ∀ c, WF c → TablesOK c → c.tableGateIds.length + k < p → dom c → ∀ v c', m c = .ok (v, c') →
    WF c' ∧ TablesOK c' ∧ c.numVars ≤ c'.numVars ∧ (∀ i, i < c.numVars → c'.val i = c.val i) ∧ c'.ultra = c.ultra ∧
      c'.tableGateIds.length ≤ c.tableGateIds.length + k
  old : ∀ c, WF c → TablesOK c → c.tableGateIds.length + k < p → dom c → ∀ v c', m c = .ok (v, c') →
    ∀ pi w, Sat c' pi w → Sat c pi w
  frame : ∀ c, WF c → TablesOK c → c.tableGateIds.length + k < p → dom c → ∀ v c', m c = .ok (v, c') →
    (∃ t, c'.rows = c.rows ++ t) ∧ c'.pubIds = c.pubIds ∧ ∀ [Fact p.Prime], Verif.Plonk.Built c → Verif.Plonk.Built c'
  exact : ∀ c, WF c → TablesOK c → c.tableGateIds.length + k < p → dom c → ∀ v c', m c = .ok (v, c') →
    ∀ pi w, Sat c pi w → pre w → ∀ y,
    ((∃ w' : ℕ → ZMod p, (∀ i, i < c.numVars → w' i = w i) ∧ Sat c' pi w' ∧ out w' v = y) ↔ rel w y)
  honest : ∀ c, WF c → TablesOK c → c.tableGateIds.length + k < p → dom c →
    ∀ pi, checkSat c pi = .ok () → pre c.val →
    ((∃ v c', m c = .ok (v, c') ∧ checkSat c' pi = .ok ()) ↔ hon c.val) ∧
    ∀ v c', m c = .ok (v, c') → checkSat c' pi = .ok () → res c.val (out c'.val v)
  shape : ∀ c d, c.shape = d.shape → ∀ v c' v' d', m c = .ok (v, c') → m d = .ok (v', d') →
    v = v' ∧ c'.shape = d'.shape

open Emulated (Agree)

theorem TableExact.of_spec {k : ℕ} {m : Build p α} {dom : Circ p → Prop} {pre : (ℕ → ZMod p) → Prop}
    {out : (ℕ → ZMod p) → α → β} {rel : (ℕ → ZMod p) → β → Prop} {hon : (ℕ → ZMod p) → Prop}
    {res : (ℕ → ZMod p) → β → Prop} (hrel : Rel m m)
    (hdom : ∀ c w, dom c → dom (Circ.assign c w))
    (hul : ∀ c, dom c → c.ultra ≠ none)
    (hpre : ∀ c w w', dom c → Agree c w' w → pre w → pre w')
    (hrl : ∀ c w w' y, dom c → Agree c w' w → rel w y → rel w' y)
    (hs : ∀ c, TWF k c → dom c → TSpec k m c (pre c.val ∧ hon c.val)
      (fun v c' => ∀ pi, Sat c' pi c'.val → pre c.val → hon c.val ∧ res c.val (out c'.val v))
      (fun v w => pre w → rel w (out w v)))
    (hadv : ∀ c y, TWF k c → dom c → pre c.val → rel c.val y →
      ∃ m', Rel m m' ∧ TSpec k m' c True (fun v c' => ∀ pi, Sat c' pi c'.val → out c'.val v = y) (fun _ _ => True)) :
    TableExact k m dom pre out rel hon res := by
  have htw : ∀ c, WF c → TablesOK c → c.tableGateIds.length + k < p → dom c → TWF k c :=
    fun c h1 h2 h3 h4 => ⟨h1, h2, hul c h4, h3⟩
  refine ⟨?_, ?_, ?_, ?_, ?_, ?_⟩
  · intro c hc ht hr hd v c' hm
    obtain ⟨e, _, _⟩ := (hs c (htw c hc ht hr hd) hd).sound v c' hm
    exact ⟨e.wf, e.tables ht, e.vars, e.val, e.ultra, e.count⟩
  · intro c hc ht hr hd v c' hm pi w hw
    obtain ⟨e, _, r⟩ := (hs c (htw c hc ht hr hd) hd).sound v c' hm
    exact e.sat pi w hw
  · intro c hc ht hr hd v c' hm
    obtain ⟨e, _, _⟩ := (hs c (htw c hc ht hr hd) hd).sound v c' hm
    exact ⟨e.rows, e.pub, e.built⟩
  · intro c hc ht hr hd v c' hm pi w hw hp y
    have hc0 := htw c hc ht hr hd
    constructor
    · rintro ⟨w', ha, hs', rfl⟩
      obtain ⟨e, b, r⟩ := (hs c hc0 hd).sound v c' hm
      exact hrl c w' w _ hd (fun i hi => (ha i hi).symm) (r pi w' hs' (hpre c w w' hd ha hp))
    · intro hr
      have ha : Agree c (Circ.assign c w).val w := fun i hi => assign_val c w hi
      obtain ⟨m', hrm, hsp⟩ := hadv _ y (hc0.assign w) (hdom c w hd) (hpre c w _ hd ha hp) (hrl c w _ y hd ha hr)
      obtain ⟨d', hsm, hB, -, h1, h2⟩ := hsp.universal hrm hc trivial hm hw
      exact ⟨d'.val, h1, h2, hB pi (hsm.sat h2)⟩
  · intro c hc ht hr hd pi hch hp
    have hc0 := htw c hc ht hr hd
    have hsat0 := (checkSat_ok hc pi).1 hch
    refine ⟨⟨?_, ?_⟩, ?_⟩
    · rintro ⟨v, c', hm, hch'⟩
      obtain ⟨e, b, _⟩ := (hs c hc0 hd).sound v c' hm
      exact (b pi ((checkSat_ok e.wf pi).1 hch') hp).1
    · intro hh
      obtain ⟨v, c', hm, hsat⟩ := (hs c hc0 hd).complete ⟨hp, hh⟩ pi hsat0
      obtain ⟨e, _, _⟩ := (hs c hc0 hd).sound v c' hm
      exact ⟨v, c', hm, (checkSat_ok e.wf pi).2 hsat⟩
    · intro v c' hm hch'
      obtain ⟨e, b, _⟩ := (hs c hc0 hd).sound v c' hm
      exact (b pi ((checkSat_ok e.wf pi).1 hch') hp).2
  · intro c d hcd v c' v' d' h1 h2
    exact hrel c d hcd v c' v' d' h1 h2

/-- soundness, read off -/
theorem TableExact.sound {k : ℕ} {m : Build p α} {dom : Circ p → Prop} {pre : (ℕ → ZMod p) → Prop}
    {out : (ℕ → ZMod p) → α → β} {rel : (ℕ → ZMod p) → β → Prop} {hon : (ℕ → ZMod p) → Prop}
    {res : (ℕ → ZMod p) → β → Prop} (h : TableExact k m dom pre out rel hon res)
    {c : Circ p} (hc : WF c) (ht : TablesOK c) (hr : c.tableGateIds.length + k < p) (hd : dom c) {v : α} {c' : Circ p}
    (hm : m c = .ok (v, c')) {pi : List (ZMod p)} {w : ℕ → ZMod p} (hs : Sat c' pi w) (hp : pre w) :
    rel w (out w v) :=
  (h.exact c hc ht hr hd v c' hm pi w (h.old c hc ht hr hd v c' hm pi w hs) hp _).1 ⟨w, fun _ _ => rfl, hs, rfl⟩

end Verif.Props
