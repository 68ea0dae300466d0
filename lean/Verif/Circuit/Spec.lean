import Verif.Circuit.Model
import Mathlib.Tactic.LinearCombination
import Mathlib.Tactic.Ring

/-!
# Specifications of circuit builders

`Spec m c C B R`: every successful run of `m` from `c` yields a circuit extending `c`
(nothing is dropped, old witness values are kept) all of whose satisfying assignments
satisfy `R`; and if `C` holds and the witness stored in `c` satisfies `c`, the run
succeeds and the witness stored in the new circuit satisfies the new circuit.
-/

namespace Verif.Circuit

variable {p : ℕ} {α β : Type}

/-- Structural invariant of circuits under construction. -/
structure WF (c : Circ p) : Prop where
  len : c.witness.length = c.numVars
  opn : c.domSize = 1
  two : 2 ≤ c.numVars
  consts : ∃ t, c.rows = ⟨constantGate 0, 0, 0, 0, 0, 0⟩ :: ⟨constantGate 1, 0, 0, 0, 0, 1⟩ :: t
  wires : ∀ r ∈ c.rows, r.w0 < c.numVars ∧ r.w1 < c.numVars ∧ r.w2 < c.numVars ∧
    r.w3 < c.numVars ∧ r.w4 < c.numVars
  ranges : ∀ v ∈ c.rangeVars, v < c.numVars
  pub : ∀ g ∈ c.pubIds, ∃ r, c.rows[g]? = some r ∧ r.sel.io = true

theorem wf_new (ultra : Option ℕ) : WF (Circ.new p ultra) := by
  refine ⟨rfl, rfl, le_refl _, ⟨[], rfl⟩, ?_, ?_, ?_⟩
  · intro r hr
    simp [Circ.new] at hr
    rcases hr with rfl | rfl <;> simp [Circ.new]
  · intro v hv; simp [Circ.new] at hv
  · intro v hv; simp [Circ.new] at hv

theorem Sat.zero {c : Circ p} (hc : WF c) {pi w} (h : Sat c pi w) : w 0 = 0 := by
  obtain ⟨t, ht⟩ := hc.consts
  have := h.plain ⟨constantGate 0, 0, 0, 0, 0, 0⟩ (by rw [ht]; simp) rfl
  simp [Row.Holds, Sel.output, constantGate] at this
  exact this.symm

theorem Sat.one {c : Circ p} (hc : WF c) {pi w} (h : Sat c pi w) : w 1 = 1 := by
  obtain ⟨t, ht⟩ := hc.consts
  have := h.plain ⟨constantGate 1, 0, 0, 0, 0, 1⟩ (by rw [ht]; simp) rfl
  simp [Row.Holds, Sel.output, constantGate] at this
  exact this.symm

/-- What a gadget leaves alone: the plonk type, the lookup tables, the public inputs; it
only appends gates, none of them public-input or lookup gates, and range checks, these only with lookups. -/
structure Frame (c c' : Circ p) : Prop where
  ultra : c'.ultra = c.ultra
  tables : c'.tableGateIds = c.tableGateIds ∧ c'.numTableElems = c.numTableElems
  pub : c'.pubIds = c.pubIds
  rows : ∃ t, c'.rows = c.rows ++ t ∧ ∀ r ∈ t, r.sel.io = false ∧ r.sel.lookup = 0
  ranges : ∃ t, c'.rangeVars = c.rangeVars ++ t ∧ (c.ultra = none → t = [])

theorem Frame.refl (c : Circ p) : Frame c c := ⟨rfl, ⟨rfl, rfl⟩, rfl, ⟨[], by simp⟩, [], by simp⟩

theorem Frame.trans {c c' c'' : Circ p} (h : Frame c c') (h' : Frame c' c'') : Frame c c'' := by
  obtain ⟨t, h1, h2⟩ := h.rows
  obtain ⟨t', h3, h4⟩ := h'.rows
  refine ⟨h'.ultra.trans h.ultra, ⟨h'.tables.1.trans h.tables.1, h'.tables.2.trans h.tables.2⟩,
    h'.pub.trans h.pub, ⟨t ++ t', by rw [h3, h1, List.append_assoc], ?_⟩, ?_⟩
  · intro r hr
    rcases List.mem_append.1 hr with hr | hr
    · exact h2 r hr
    · exact h4 r hr
  · obtain ⟨u, h5, h6⟩ := h.ranges
    obtain ⟨u', h7, h8⟩ := h'.ranges
    refine ⟨u ++ u', by rw [h7, h5, List.append_assoc], fun h0 => ?_⟩
    rw [h6 h0, h8 (h.ultra.trans h0), List.append_nil]

/-- `c'` extends `c`. -/
structure Ext (c c' : Circ p) : Prop where
  wf : WF c'
  vars : c.numVars ≤ c'.numVars
  val : ∀ i, i < c.numVars → c'.val i = c.val i
  ultra : c'.ultra = c.ultra
  sat : ∀ pi w, Sat c' pi w → Sat c pi w
  frame : Frame c c'

theorem Ext.refl {c : Circ p} (h : WF c) : Ext c c :=
  ⟨h, le_refl _, fun _ _ => rfl, rfl, fun _ _ h => h, Frame.refl c⟩

theorem Ext.trans {c c' c'' : Circ p} (h : Ext c c') (h' : Ext c' c'') : Ext c c'' :=
  ⟨h'.wf, h.vars.trans h'.vars,
    fun i hi => (h'.val i (hi.trans_le h.vars)).trans (h.val i hi),
    h'.ultra.trans h.ultra, fun pi w hs => h.sat pi w (h'.sat pi w hs), h.frame.trans h'.frame⟩

theorem Ext.lt {c c' : Circ p} (h : Ext c c') {i : ℕ} (hi : i < c.numVars) : i < c'.numVars :=
  hi.trans_le h.vars

/-- See the file header. -/
structure Spec (m : Build p α) (c : Circ p) (C : Prop) (B : α → Circ p → Prop)
    (R : α → (ℕ → ZMod p) → Prop) : Prop where
  sound : ∀ v c', m c = .ok (v, c') → Ext c c' ∧ B v c' ∧ ∀ pi w, Sat c' pi w → R v w
  complete : C → ∀ pi, Sat c pi c.val →
    ∃ v c', m c = .ok (v, c') ∧ Sat c' pi c'.val

theorem bind_eq (m : Build p α) (f : α → Build p β) (c : Circ p) :
    (m >>= f) c = match m c with
      | .ok (v, c') => f v c'
      | .error e => .error e := rfl

theorem pure_eq (v : α) (c : Circ p) : (pure v : Build p α) c = .ok (v, c) := rfl

theorem bind_ok {m : Build p α} {f : α → Build p β} {c c' : Circ p} {v : β}
    (h : (m >>= f) c = .ok (v, c')) : ∃ u c1, m c = .ok (u, c1) ∧ f u c1 = .ok (v, c') := by
  rw [bind_eq] at h
  rcases hm : m c with e | ⟨u, c1⟩
  · rw [hm] at h; simp at h
  · rw [hm] at h; exact ⟨u, c1, rfl, h⟩

theorem bind_of_ok {m : Build p α} {f : α → Build p β} {c c1 : Circ p} {u : α}
    (h : m c = .ok (u, c1)) : (m >>= f) c = f u c1 := by
  rw [bind_eq, h]

/-- sequencing rule -/
theorem Spec.bind {m : Build p α} {f : α → Build p β} {c : Circ p} {C C1 : Prop}
    {B1 : α → Circ p → Prop} {R1 : α → (ℕ → ZMod p) → Prop}
    {B : β → Circ p → Prop} {R : β → (ℕ → ZMod p) → Prop}
    (h1 : Spec m c C1 B1 R1)
    (hC : C → c.val 0 = 0 → c.val 1 = 1 → C1) (hc : WF c)
    (h2 : ∀ v c1, Ext c c1 → B1 v c1 →
      Spec (f v) c1 (C ∧ R1 v c1.val) B (fun u w => R1 v w → R u w)) :
    Spec (m >>= f) c C B R := by
  constructor
  · intro v c' h
    obtain ⟨u, c1, hm, hf⟩ := bind_ok h
    obtain ⟨e1, b1, r1⟩ := h1.sound u c1 hm
    obtain ⟨e2, b2, r2⟩ := (h2 u c1 e1 b1).sound v c' hf
    exact ⟨e1.trans e2, b2, fun pi w hs => r2 pi w hs (r1 pi w (e2.sat pi w hs))⟩
  · intro hCC pi hs
    obtain ⟨u, c1, hm, hs1⟩ := h1.complete (hC hCC (hs.zero hc) (hs.one hc)) pi hs
    obtain ⟨e1, b1, r1⟩ := h1.sound u c1 hm
    obtain ⟨v, c', hf, hs2⟩ := (h2 u c1 e1 b1).complete ⟨hCC, r1 pi _ hs1⟩ pi hs1
    exact ⟨v, c', by rw [bind_of_ok hm]; exact hf, hs2⟩

/-- consequence rule -/
theorem Spec.conseq {m : Build p α} {c : Circ p} {C C1 : Prop}
    {B1 B : α → Circ p → Prop} {R1 R : α → (ℕ → ZMod p) → Prop} (hc : WF c)
    (h1 : Spec m c C1 B1 R1) (hC : C → c.val 0 = 0 → c.val 1 = 1 → C1)
    (hB : ∀ v c', Ext c c' → B1 v c' → B v c')
    (hR : ∀ v w, w 0 = 0 → w 1 = 1 → R1 v w → R v w) : Spec m c C B R := by
  constructor
  · intro v c' h
    obtain ⟨e1, b1, r1⟩ := h1.sound v c' h
    exact ⟨e1, hB v c' e1 b1, fun pi w hs => hR v w (hs.zero e1.wf) (hs.one e1.wf) (r1 pi w hs)⟩
  · intro h pi hs
    exact h1.complete (hC h (hs.zero hc) (hs.one hc)) pi hs

/-- rule for `pure` -/
theorem Spec.pure {v : α} {c : Circ p} {C : Prop} {B : α → Circ p → Prop}
    {R : α → (ℕ → ZMod p) → Prop} (hc : WF c) (hB : B v c)
    (hR : ∀ w, w 0 = 0 → w 1 = 1 → R v w) : Spec (pure v : Build p α) c C B R := by
  constructor
  · intro u c' h
    rw [pure_eq] at h
    cases h
    exact ⟨Ext.refl hc, hB, fun pi w hs => hR w (hs.zero hc) (hs.one hc)⟩
  · intro _ pi hs
    exact ⟨v, c, rfl, hs⟩

/-- rule for an error -/
theorem Spec.fail {e : CErr} {c : Circ p} {C : Prop} {B : α → Circ p → Prop}
    {R : α → (ℕ → ZMod p) → Prop} (h : ¬ C) : Spec (Build.fail e : Build p α) c C B R := by
  constructor
  · intro v c' h; cases h
  · intro hC; exact absurd hC h

/-- completeness condition may use that the stored witness satisfies the circuit -/
theorem Spec.weaken {m : Build p α} {c : Circ p} {C C1 : Prop}
    {B : α → Circ p → Prop} {R : α → (ℕ → ZMod p) → Prop}
    (h1 : Spec m c C1 B R) (hC : C → C1) : Spec m c C B R :=
  ⟨h1.sound, fun h pi hs => h1.complete (hC h) pi hs⟩

theorem Spec.and {m : Build p α} {c : Circ p} {C : Prop}
    {B1 B2 : α → Circ p → Prop} {R1 R2 : α → (ℕ → ZMod p) → Prop}
    (h1 : Spec m c C B1 R1) (h2 : Spec m c C B2 R2) :
    Spec m c C (fun v c' => B1 v c' ∧ B2 v c') (fun v w => R1 v w ∧ R2 v w) := by
  constructor
  · intro v c' h
    obtain ⟨e1, b1, r1⟩ := h1.sound v c' h
    obtain ⟨_, b2, r2⟩ := h2.sound v c' h
    exact ⟨e1, ⟨b1, b2⟩, fun pi w hs => ⟨r1 pi w hs, r2 pi w hs⟩⟩
  · exact h1.complete

/-! ## Primitives -/

/-- read of a variable bound -/
theorem Spec.checkVar_bind {v : ℕ} {f : Unit → Build p β} {c : Circ p} {C : Prop}
    {B : β → Circ p → Prop} {R : β → (ℕ → ZMod p) → Prop}
    (hC : C → v < c.numVars) (h : v < c.numVars → Spec (f ()) c C B R) :
    Spec (checkVar v >>= f) c C B R := by
  by_cases hv : v < c.numVars
  · have : (checkVar v : Build p Unit) c = .ok ((), c) := by
      unfold checkVar; rw [if_neg (by omega)]
    constructor
    · intro u c' hu
      rw [bind_of_ok this] at hu
      exact (h hv).sound u c' hu
    · intro hCC pi hs
      rw [bind_of_ok this]
      exact (h hv).complete hCC pi hs
  · have : (checkVar v : Build p Unit) c = .error .varIndexOutOfBound := by
      unfold checkVar; rw [if_pos (by omega)]
    constructor
    · intro u c' hu
      rw [bind_eq, this] at hu; cases hu
    · intro hCC; exact absurd (hC hCC) hv

theorem checkVars_eq {vs : List ℕ} {c : Circ p} (h : ∀ v ∈ vs, v < c.numVars) :
    (checkVars vs : Build p Unit) c = .ok ((), c) := by
  induction vs with
  | nil => rfl
  | cons v vs ih =>
    have : (checkVar v : Build p Unit) c = .ok ((), c) := by
      unfold checkVar; rw [if_neg]; have := h v (by simp); omega
    unfold checkVars
    rw [bind_of_ok this]
    exact ih (fun x hx => h x (by simp [hx]))

theorem checkVars_ok {vs : List ℕ} {c c' : Circ p} {u : Unit}
    (h : (checkVars vs : Build p Unit) c = .ok (u, c')) :
    c' = c ∧ ∀ v ∈ vs, v < c.numVars := by
  induction vs generalizing c with
  | nil => cases h; simp
  | cons v vs ih =>
    unfold checkVars at h
    obtain ⟨u1, c1, h1, h2⟩ := bind_ok h
    unfold checkVar at h1
    split at h1
    · cases h1
    · cases h1
      obtain ⟨h3, h4⟩ := ih h2
      refine ⟨h3, ?_⟩
      intro x hx
      rcases List.mem_cons.1 hx with rfl | hx
      · omega
      · exact h4 x hx

theorem Spec.checkVars_bind {vs : List ℕ} {f : Unit → Build p β} {c : Circ p} {C : Prop}
    {B : β → Circ p → Prop} {R : β → (ℕ → ZMod p) → Prop}
    (hC : C → ∀ v ∈ vs, v < c.numVars)
    (h : (∀ v ∈ vs, v < c.numVars) → Spec (f ()) c C B R) :
    Spec (checkVars vs >>= f) c C B R := by
  constructor
  · intro u c' hu
    obtain ⟨u1, c1, h1, h2⟩ := bind_ok hu
    obtain ⟨rfl, h4⟩ := checkVars_ok h1
    exact (h h4).sound u c' h2
  · intro hCC pi hs
    rw [bind_of_ok (checkVars_eq (hC hCC))]
    exact (h (hC hCC)).complete hCC pi hs

/-- read of a witness value -/
theorem Spec.witness_bind {v : ℕ} {f : ZMod p → Build p β} {c : Circ p} {C : Prop}
    {B : β → Circ p → Prop} {R : β → (ℕ → ZMod p) → Prop}
    (hC : C → v < c.numVars) (h : v < c.numVars → Spec (f (c.val v)) c C B R) :
    Spec (witness v >>= f) c C B R := by
  by_cases hv : v < c.numVars
  · have : (witness v : Build p _) c = .ok (c.val v, c) := by
      unfold witness; rw [if_neg (by omega)]
    constructor
    · intro u c' hu
      rw [bind_of_ok this] at hu
      exact (h hv).sound u c' hu
    · intro hCC pi hs
      rw [bind_of_ok this]
      exact (h hv).complete hCC pi hs
  · have : (witness v : Build p _) c = .error .varIndexOutOfBound := by
      unfold witness; rw [if_pos (by omega)]
    constructor
    · intro u c' hu
      rw [bind_eq, this] at hu; cases hu
    · intro hCC; exact absurd (hC hCC) hv

/-- extending the witness -/
def Circ.push (c : Circ p) (x : ZMod p) : Circ p :=
  { c with numVars := c.numVars + 1, witness := c.witness ++ [x] }

theorem push_val_lt {c : Circ p} (hc : WF c) (x : ZMod p) {i : ℕ} (hi : i < c.numVars) :
    (c.push x).val i = c.val i := by
  have : i < c.witness.length := by rw [hc.len]; exact hi
  simp [Circ.push, Circ.val, List.getD_eq_getElem?_getD, List.getElem?_append_left this]

theorem push_val_eq {c : Circ p} (hc : WF c) (x : ZMod p) :
    (c.push x).val c.numVars = x := by
  simp [Circ.push, Circ.val, List.getD_eq_getElem?_getD, ← hc.len]

theorem Row.Holds.congr {r : Row p} {pi : ZMod p} {w w' : ℕ → ZMod p}
    (h0 : w r.w0 = w' r.w0) (h1 : w r.w1 = w' r.w1) (h2 : w r.w2 = w' r.w2)
    (h3 : w r.w3 = w' r.w3) (h4 : w r.w4 = w' r.w4) : r.Holds pi w ↔ r.Holds pi w' := by
  unfold Row.Holds; rw [h0, h1, h2, h3, h4]

/-- Satisfaction only depends on the variables of the circuit. -/
theorem Sat.congr {c : Circ p} (hc : WF c) {pi} {w w' : ℕ → ZMod p}
    (h : ∀ i, i < c.numVars → w i = w' i) (hs : Sat c pi w) : Sat c pi w' := by
  have hr : ∀ r ∈ c.rows, ∀ x, r.Holds x w → r.Holds x w' := by
    intro r hr x hx
    obtain ⟨a0, a1, a2, a3, a4⟩ := hc.wires r hr
    exact (Row.Holds.congr (h _ a0) (h _ a1) (h _ a2) (h _ a3) (h _ a4)).1 hx
  have hk : c.keyValTable w = c.keyValTable w' := by
    unfold Circ.keyValTable
    congr 1
    apply List.map_congr_left
    intro r hr'
    have hm := (List.mem_filter.1 hr').1
    obtain ⟨_, _, _, a3, a4⟩ := hc.wires r hm
    simp [Row.tableTuple, h _ a3, h _ a4]
  refine ⟨hs.len, ?_, ?_, ?_, ?_⟩
  · intro i g x r h1 h2 h3
    exact hr r (List.mem_of_getElem? h3) x (hs.io i g x r h1 h2 h3)
  · intro r hm hio
    exact hr r hm 0 (hs.plain r hm hio)
  · intro k hk v hv
    rw [← h v (hc.ranges v hv)]
    exact hs.range k hk v hv
  · intro k hku r hm hl
    obtain ⟨a0, a1, a2, _, _⟩ := hc.wires r hm
    have := hs.lookup k hku r hm hl
    rw [hk] at this
    simpa [Row.lookupTuple, h _ a0, h _ a1, h _ a2] using this

theorem ext_push {c : Circ p} (hc : WF c) (x : ZMod p) : Ext c (c.push x) := by
  refine ⟨⟨by simp [Circ.push, hc.len], hc.opn, by simp [Circ.push]; have := hc.two; omega,
    hc.consts, ?_, ?_, hc.pub⟩, by simp [Circ.push], fun i hi => push_val_lt hc x hi, rfl, ?_,
    ⟨rfl, ⟨rfl, rfl⟩, rfl, ⟨[], by simp [Circ.push]⟩, [], by simp [Circ.push]⟩⟩
  · intro r hr
    obtain ⟨a0, a1, a2, a3, a4⟩ := hc.wires r hr
    simp only [Circ.push]
    omega
  · intro v hv
    have := hc.ranges v hv
    simp only [Circ.push]; omega
  · intro pi w hs
    exact ⟨hs.len, hs.io, hs.plain, hs.range, hs.lookup⟩

theorem sat_push {c : Circ p} (hc : WF c) (x : ZMod p) {pi} (hs : Sat c pi c.val) :
    Sat (c.push x) pi (c.push x).val := by
  have h := Sat.congr hc (w' := (c.push x).val) (fun i hi => (push_val_lt hc x hi).symm) hs
  exact ⟨h.len, h.io, h.plain, h.range, h.lookup⟩

theorem createVariable_spec {c : Circ p} (hc : WF c) (x : ZMod p) (C : Prop) :
    Spec (createVariable x) c C
      (fun v c' => v < c'.numVars ∧ c'.val v = x) (fun _ _ => True) := by
  have h : (createVariable x : Build p ℕ) c = .ok (c.numVars, c.push x) := by
    unfold createVariable; rw [if_neg (by simp [hc.opn])]; rfl
  constructor
  · intro v c' hv
    rw [h] at hv
    cases hv
    exact ⟨ext_push hc x, ⟨by simp [Circ.push], push_val_eq hc x⟩, fun _ _ _ => trivial⟩
  · intro _ pi hs
    exact ⟨_, _, h, sat_push hc x hs⟩

/-- The circuit after appending one ordinary row. -/
def Circ.addRow (c : Circ p) (r : Row p) : Circ p := { c with rows := c.rows ++ [r] }

theorem keyVal_addRow (c : Circ p) (r : Row p) (hl : r.sel.lookup = 0) (w : ℕ → ZMod p) :
    (c.addRow r).keyValTable w = c.keyValTable w := by
  simp [Circ.keyValTable, Circ.addRow, hl, List.filter_append]

theorem sat_addRow {c : Circ p} (hc : WF c) {r : Row p} (hio : r.sel.io = false)
    (hl : r.sel.lookup = 0) {pi w} :
    Sat (c.addRow r) pi w ↔ Sat c pi w ∧ r.Holds 0 w := by
  constructor
  · intro h
    refine ⟨⟨h.len, ?_, ?_, h.range, ?_⟩, h.plain r (by simp [Circ.addRow]) hio⟩
    · intro i g x r' h1 h2 h3
      refine h.io i g x r' h1 h2 ?_
      have hg : g < c.rows.length := by
        by_contra hge
        rw [List.getElem?_eq_none (by omega)] at h3
        cases h3
      show (c.rows ++ [r])[g]? = _
      rw [List.getElem?_append_left hg]; exact h3
    · intro r' hm hio'
      exact h.plain r' (by simp [Circ.addRow, hm]) hio'
    · intro k hk r' hm hl'
      have := h.lookup k hk r' (by simp [Circ.addRow, hm]) hl'
      rwa [keyVal_addRow c r hl] at this
  · rintro ⟨h, hr⟩
    refine ⟨h.len, ?_, ?_, h.range, ?_⟩
    · intro i g x r' h1 h2 h3
      obtain ⟨r'', h4, _⟩ := hc.pub g (List.mem_of_getElem? h1)
      have hg : g < c.rows.length := (List.getElem?_eq_some_iff.1 h4).1
      have h3' : (c.rows ++ [r])[g]? = some r' := h3
      rw [List.getElem?_append_left hg] at h3'
      exact h.io i g x r' h1 h2 h3'
    · intro r' hm hio'
      rcases List.mem_append.1 hm with hm | hm
      · exact h.plain r' hm hio'
      · rw [List.mem_singleton.1 hm]; exact hr
    · intro k hk r' hm hl'
      rw [keyVal_addRow c r hl]
      rcases List.mem_append.1 hm with hm | hm
      · exact h.lookup k hk r' hm hl'
      · rw [List.mem_singleton.1 hm] at hl'; exact absurd hl hl'

theorem ext_addRow {c : Circ p} (hc : WF c) {r : Row p} (hio : r.sel.io = false)
    (hl : r.sel.lookup = 0) (hw : r.w0 < c.numVars ∧ r.w1 < c.numVars ∧ r.w2 < c.numVars ∧
    r.w3 < c.numVars ∧ r.w4 < c.numVars) : Ext c (c.addRow r) := by
  refine ⟨⟨hc.len, hc.opn, hc.two, ?_, ?_, hc.ranges, ?_⟩, le_refl _, fun _ _ => rfl, rfl, ?_,
    ⟨rfl, ⟨rfl, rfl⟩, rfl, ⟨[r], rfl, by simp [hio, hl]⟩, [], by simp [Circ.addRow]⟩⟩
  · obtain ⟨t, ht⟩ := hc.consts
    exact ⟨t ++ [r], by simp [Circ.addRow, ht]⟩
  · intro r' hm
    rcases List.mem_append.1 hm with hm | hm
    · exact hc.wires r' hm
    · rw [List.mem_singleton.1 hm]; exact hw
  · intro g hg
    obtain ⟨r', h1, h2⟩ := hc.pub g hg
    have hlt : g < c.rows.length := (List.getElem?_eq_some_iff.1 h1).1
    exact ⟨r', by simp only [Circ.addRow]; rw [List.getElem?_append_left hlt]; exact h1, h2⟩
  · intro pi w hs
    exact ((sat_addRow hc hio hl).1 hs).1

theorem insertGate_spec {c : Circ p} (hc : WF c) {w0 w1 w2 w3 w4 : ℕ} {g : Sel p}
    (hio : g.io = false) (hl : g.lookup = 0)
    (hw : w0 < c.numVars ∧ w1 < c.numVars ∧ w2 < c.numVars ∧ w3 < c.numVars ∧ w4 < c.numVars) :
    Spec (insertGate w0 w1 w2 w3 w4 g) c
      (g.output 0 (c.val w0) (c.val w1) (c.val w2) (c.val w3) (c.val w4) = g.o * c.val w4)
      (fun _ _ => True)
      (fun _ w => g.output 0 (w w0) (w w1) (w w2) (w w3) (w w4) = g.o * w w4) := by
  have h : (insertGate w0 w1 w2 w3 w4 g : Build p Unit) c
      = .ok ((), c.addRow ⟨g, w0, w1, w2, w3, w4⟩) := by
    unfold insertGate; rw [if_neg (by simp [hc.opn])]; rfl
  constructor
  · intro v c' hv
    rw [h] at hv
    cases hv
    exact ⟨ext_addRow hc hio hl hw, trivial, fun pi w hs => ((sat_addRow hc hio hl).1 hs).2⟩
  · intro hC pi hs
    exact ⟨_, _, h, (sat_addRow hc hio hl).2 ⟨hs, hC⟩⟩

/-- adding a range check -/
theorem addRangeCheckVariable_spec {c : Circ p} (hc : WF c) {v : ℕ} {k : ℕ}
    (hk : c.ultra = some k) :
    Spec (addRangeCheckVariable v) c (v < c.numVars ∧ (c.val v).val < rangeBound p k)
      (fun _ _ => True) (fun _ w => (w v).val < rangeBound p k) := by
  by_cases hv : v < c.numVars
  · have h : (addRangeCheckVariable v : Build p Unit) c
        = .ok ((), { c with rangeVars := c.rangeVars ++ [v] }) := by
      unfold addRangeCheckVariable
      rw [if_neg (by simp [hk]), if_neg (by simp [hc.opn]), if_neg (by omega)]
    constructor
    · intro u c' hu
      rw [h] at hu; cases hu
      refine ⟨⟨⟨hc.len, hc.opn, hc.two, hc.consts, hc.wires, ?_, hc.pub⟩, le_refl _,
        fun _ _ => rfl, rfl, ?_, ⟨rfl, ⟨rfl, rfl⟩, rfl, ⟨[], by simp⟩, [v], rfl, by simp [hk]⟩⟩, trivial, ?_⟩
      · intro x hx
        rcases List.mem_append.1 hx with hx | hx
        · exact hc.ranges x hx
        · rw [List.mem_singleton.1 hx]; exact hv
      · intro pi w hs
        exact ⟨hs.len, hs.io, hs.plain,
          fun k' hk' x hx => hs.range k' hk' x (List.mem_append_left _ hx), hs.lookup⟩
      · intro pi w hs
        exact hs.range k hk v (by simp)
    · intro hC pi hs
      refine ⟨_, _, h, ⟨hs.len, hs.io, hs.plain, ?_, hs.lookup⟩⟩
      intro k' hk' x hx
      have hkk : k' = k := by
        have : c.ultra = some k' := hk'
        rw [hk] at this; cases this; rfl
      subst hkk
      rcases List.mem_append.1 hx with hx | hx
      · exact hs.range k' hk x hx
      · rw [List.mem_singleton.1 hx]; exact hC.2
  · have h : (addRangeCheckVariable v : Build p Unit) c = .error .varIndexOutOfBound := by
      unfold addRangeCheckVariable
      rw [if_neg (by simp [hk]), if_neg (by simp [hc.opn]), if_pos (by omega)]
    constructor
    · intro u c' hu
      rw [h] at hu; cases hu
    · intro hC; exact absurd hC.1 hv

end Verif.Circuit
