import Verif.Circuit.Check

/-!
# Key-value lookup tables
-/

namespace Verif.Circuit

variable {p : ℕ}

/-- append several rows -/
def Circ.addRows (c : Circ p) (rs : List (Row p)) : Circ p := { c with rows := c.rows ++ rs }

theorem insertRows_eq (rs : List (Row p)) (c : Circ p) (hc : c.domSize = 1) :
    insertRows rs c = .ok ((), c.addRows rs) := by
  induction rs generalizing c with
  | nil => unfold insertRows; rw [pure_eq]; simp [Circ.addRows]
  | cons r rs ih =>
    unfold insertRows
    have h1 : (insertGate r.w0 r.w1 r.w2 r.w3 r.w4 r.sel : Build p Unit) c
        = .ok ((), c.addRow r) := by
      unfold insertGate; rw [if_neg (by simp [hc])]; rfl
    rw [bind_of_ok h1, ih (c.addRow r) hc]
    simp [Circ.addRows, Circ.addRow]

/-- the circuit after creating a table -/
def Circ.withTable (c : Circ p) (lookups : List (ℕ × ℕ × ℕ)) (table : List (ℕ × ℕ)) : Circ p :=
  { c with
    tableGateIds := c.tableGateIds ++ [(c.rows.length, max lookups.length table.length)]
    rows := c.rows ++ (List.range (max lookups.length table.length)).map
      (lookupRow (c.tableGateIds.length + 1) lookups table)
    numTableElems := c.numTableElems + max lookups.length table.length }

theorem createTable_eq {c : Circ p} (hc : WF c) {lookups : List (ℕ × ℕ × ℕ)}
    {table : List (ℕ × ℕ)}
    (hl : ∀ x ∈ lookups, x.1 < c.numVars ∧ x.2.1 < c.numVars ∧ x.2.2 < c.numVars)
    (ht : ∀ x ∈ table, x.1 < c.numVars ∧ x.2 < c.numVars) :
    createTableAndLookupVariables lookups table c = .ok ((), c.withTable lookups table) := by
  unfold createTableAndLookupVariables
  rw [bind_of_ok (checkVars_eq (c := c) (by
    intro v hv
    obtain ⟨x, hx, hv⟩ := List.mem_flatMap.1 hv
    have := hl x hx
    simp at hv
    rcases hv with rfl | rfl | rfl <;> simp [this])),
    bind_of_ok (checkVars_eq (c := c) (by
    intro v hv
    obtain ⟨x, hx, hv⟩ := List.mem_flatMap.1 hv
    have := ht x hx
    simp at hv
    rcases hv with rfl | rfl <;> simp [this]))]
  rw [bind_of_ok (show (pushTableId _ : Build p _) c = .ok ((), { c with
    tableGateIds := c.tableGateIds ++ [(c.rows.length, max lookups.length table.length)] }) from rfl)]
  rw [bind_of_ok (show (Build.get : Build p _) _ = .ok (_, _) from rfl)]
  rw [bind_of_ok (insertRows_eq _ { c with
    tableGateIds := c.tableGateIds ++ [(c.rows.length, max lookups.length table.length)] } hc.opn)]
  simp [bumpTableElems, Circ.withTable, Circ.addRows]

/-- The tables created so far are numbered `1, …, count`, in the selectors as field elements. -/
structure TablesOK (c : Circ p) : Prop where
  rows : ∀ r ∈ c.rows, r.sel.lookup ≠ 0 →
    (∃ j, j ≤ c.tableGateIds.length ∧ r.sel.domSep = (j : ZMod p)) ∧
    ∃ j, j ≤ c.tableGateIds.length ∧ r.sel.tableDomSep = (j : ZMod p)

theorem tablesOK_new (ultra : Option ℕ) : TablesOK (Circ.new p ultra) := by
  constructor
  intro r hr hl
  simp [Circ.new] at hr
  rcases hr with rfl | rfl <;> simp [constantGate] at hl

theorem TablesOK.frame {c c' : Circ p} (h : TablesOK c) (f : Frame c c') : TablesOK c' := by
  constructor
  intro r hr hl
  obtain ⟨t, h1, h2⟩ := f.rows
  rw [h1] at hr
  rw [f.tables.1]
  rcases List.mem_append.1 hr with hr | hr
  · exact h.rows r hr hl
  · exact absurd (h2 r hr).2 hl

theorem lookupRow_cases (ctr : ℕ) (lookups : List (ℕ × ℕ × ℕ)) (table : List (ℕ × ℕ)) (i : ℕ) :
    ((∃ x, lookups[i]? = some x ∧
      (lookupRow ctr lookups table i : Row p).sel.domSep = (ctr : ZMod p) ∧
      (lookupRow ctr lookups table i : Row p).w0 = x.1 ∧
      (lookupRow ctr lookups table i : Row p).w1 = x.2.1 ∧
      (lookupRow ctr lookups table i : Row p).w2 = x.2.2) ∨
     (lookups[i]? = none ∧ (lookupRow ctr lookups table i : Row p).sel.domSep = 0 ∧
      (lookupRow ctr lookups table i : Row p).w0 = 0 ∧
      (lookupRow ctr lookups table i : Row p).w1 = 0 ∧
      (lookupRow ctr lookups table i : Row p).w2 = 0)) ∧
    ((∃ x, table[i]? = some x ∧
      (lookupRow ctr lookups table i : Row p).sel.tableDomSep = (ctr : ZMod p) ∧
      (lookupRow ctr lookups table i : Row p).sel.tableKey = (i : ZMod p) ∧
      (lookupRow ctr lookups table i : Row p).w3 = x.1 ∧
      (lookupRow ctr lookups table i : Row p).w4 = x.2) ∨
     (table[i]? = none ∧ (lookupRow ctr lookups table i : Row p).sel.tableDomSep = 0 ∧
      (lookupRow ctr lookups table i : Row p).sel.tableKey = 0 ∧
      (lookupRow ctr lookups table i : Row p).w3 = 0 ∧
      (lookupRow ctr lookups table i : Row p).w4 = 0)) := by
  unfold lookupRow
  rcases h1 : lookups[i]? with _ | ⟨k, a, b⟩ <;> rcases h2 : table[i]? with _ | ⟨u, v⟩ <;>
    simp [lookupGate]

theorem lookupRow_sel (ctr : ℕ) (lookups : List (ℕ × ℕ × ℕ)) (table : List (ℕ × ℕ)) (i : ℕ) :
    (lookupRow ctr lookups table i : Row p).sel =
      lookupGate (lookupRow ctr lookups table i : Row p).sel.domSep
        (lookupRow ctr lookups table i : Row p).sel.tableDomSep
        (lookupRow ctr lookups table i : Row p).sel.tableKey := by
  unfold lookupRow
  rcases lookups[i]? with _ | ⟨k, a, b⟩ <;> rcases table[i]? with _ | ⟨u, v⟩ <;>
    simp [lookupGate]

theorem withTable_wf {c : Circ p} (hc : WF c) {lookups : List (ℕ × ℕ × ℕ)}
    {table : List (ℕ × ℕ)}
    (hl : ∀ x ∈ lookups, x.1 < c.numVars ∧ x.2.1 < c.numVars ∧ x.2.2 < c.numVars)
    (ht : ∀ x ∈ table, x.1 < c.numVars ∧ x.2 < c.numVars) : WF (c.withTable lookups table) := by
  refine ⟨hc.len, hc.opn, hc.two, ?_, ?_, hc.ranges, ?_⟩
  · obtain ⟨t, ht⟩ := hc.consts
    exact ⟨t ++ _, by simp only [Circ.withTable]; rw [ht, List.cons_append, List.cons_append]⟩
  · intro r hr
    have h2 := hc.two
    rcases List.mem_append.1 hr with hr | hr
    · exact hc.wires r hr
    · obtain ⟨i, _, rfl⟩ := List.mem_map.1 hr
      obtain ⟨h1, h3⟩ := lookupRow_cases (p := p) (c.tableGateIds.length + 1) lookups table i
      show _ < c.numVars ∧ _ < c.numVars ∧ _ < c.numVars ∧ _ < c.numVars ∧ _ < c.numVars
      have a1 : (lookupRow (c.tableGateIds.length + 1) lookups table i : Row p).w0 < c.numVars ∧
          (lookupRow (c.tableGateIds.length + 1) lookups table i : Row p).w1 < c.numVars ∧
          (lookupRow (c.tableGateIds.length + 1) lookups table i : Row p).w2 < c.numVars := by
        rcases h1 with ⟨x, hx, _, e0, e1, e2⟩ | ⟨_, _, e0, e1, e2⟩
        · rw [e0, e1, e2]; exact hl x (List.mem_of_getElem? hx)
        · rw [e0, e1, e2]; omega
      have a2 : (lookupRow (c.tableGateIds.length + 1) lookups table i : Row p).w3 < c.numVars ∧
          (lookupRow (c.tableGateIds.length + 1) lookups table i : Row p).w4 < c.numVars := by
        rcases h3 with ⟨x, hx, _, _, e0, e1⟩ | ⟨_, _, _, e0, e1⟩
        · rw [e0, e1]; exact ht x (List.mem_of_getElem? hx)
        · rw [e0, e1]; omega
      exact ⟨a1.1, a1.2.1, a1.2.2, a2.1, a2.2⟩
  · intro g hg
    obtain ⟨r', h1, h2⟩ := hc.pub g hg
    have hlt : g < c.rows.length := (List.getElem?_eq_some_iff.1 h1).1
    exact ⟨r', by simp only [Circ.withTable]; rw [List.getElem?_append_left hlt]; exact h1, h2⟩

theorem withTable_tablesOK {c : Circ p} (h : TablesOK c) (lookups : List (ℕ × ℕ × ℕ))
    (table : List (ℕ × ℕ)) : TablesOK (c.withTable lookups table) := by
  constructor
  intro r hr hl
  have hlen : (c.withTable lookups table).tableGateIds.length = c.tableGateIds.length + 1 := by
    simp [Circ.withTable]
  rw [hlen]
  rcases List.mem_append.1 hr with hr | hr
  · obtain ⟨⟨j, h1, h2⟩, j', h3, h4⟩ := h.rows r hr hl
    exact ⟨⟨j, by omega, h2⟩, j', by omega, h4⟩
  · obtain ⟨i, _, rfl⟩ := List.mem_map.1 hr
    obtain ⟨h1, h3⟩ := lookupRow_cases (p := p) (c.tableGateIds.length + 1) lookups table i
    refine ⟨?_, ?_⟩
    · rcases h1 with ⟨x, hx, e, _⟩ | ⟨_, e, _⟩
      · exact ⟨_, le_refl _, e⟩
      · exact ⟨0, by omega, by rw [e]; simp⟩
    · rcases h3 with ⟨x, hx, e, _⟩ | ⟨_, e, _⟩
      · exact ⟨_, le_refl _, e⟩
      · exact ⟨0, by omega, by rw [e]; simp⟩

theorem lookupRow_holds (ctr : ℕ) (lookups : List (ℕ × ℕ × ℕ)) (table : List (ℕ × ℕ)) (i : ℕ)
    (w : ℕ → ZMod p) : (lookupRow ctr lookups table i : Row p).Holds 0 w := by
  unfold Row.Holds
  rw [lookupRow_sel]
  simp [lookupGate, Sel.output]

theorem lookupRow_lookup [Fact p.Prime] (ctr : ℕ) (lookups : List (ℕ × ℕ × ℕ))
    (table : List (ℕ × ℕ)) (i : ℕ) :
    (lookupRow ctr lookups table i : Row p).sel.lookup ≠ 0 := by
  rw [lookupRow_sel]; simp [lookupGate]

theorem withTable_keyVal [Fact p.Prime] (c : Circ p) (lookups : List (ℕ × ℕ × ℕ))
    (table : List (ℕ × ℕ)) (w : ℕ → ZMod p) :
    (c.withTable lookups table).keyValTable w = c.keyValTable w ++
      (List.range (max lookups.length table.length)).map
        (fun i => (lookupRow (c.tableGateIds.length + 1) lookups table i : Row p).tableTuple w) := by
  unfold Circ.keyValTable
  simp only [Circ.withTable, List.filter_append, List.map_append, List.cons_append]
  congr 2
  rw [List.filter_eq_self.2, List.map_map]
  · rfl
  · intro r hr
    obtain ⟨i, _, rfl⟩ := List.mem_map.1 hr
    simpa using lookupRow_lookup (p := p) _ lookups table i

theorem natCast_inj_of_lt {a b : ℕ} (ha : a < p) (hb : b < p)
    (h : (a : ZMod p) = (b : ZMod p)) : a = b := by
  rw [ZMod.natCast_eq_natCast_iff', Nat.mod_eq_of_lt ha, Nat.mod_eq_of_lt hb] at h
  exact h

theorem withTable_sat [Fact p.Prime] {c : Circ p} (hc : WF c) (ht : TablesOK c)
    (hsmall : c.tableGateIds.length + 1 < p) {k : ℕ} (hu : c.ultra = some k)
    (lookups : List (ℕ × ℕ × ℕ)) (table : List (ℕ × ℕ)) (pi : List (ZMod p)) (w : ℕ → ZMod p) :
    Sat (c.withTable lookups table) pi w ↔ Sat c pi w ∧
      ∀ x ∈ lookups, ∃ (i : ℕ) (t : ℕ × ℕ), table[i]? = some t ∧ w x.1 = (i : ZMod p) ∧ w x.2.1 = w t.1 ∧
        w x.2.2 = w t.2 := by
  constructor
  · intro h
    have h0 : w 0 = 0 := by
      obtain ⟨t, ht⟩ := hc.consts
      have := h.plain ⟨constantGate 0, 0, 0, 0, 0, 0⟩
        (by simp only [Circ.withTable]; rw [ht]; simp) rfl
      simp [Row.Holds, Sel.output, constantGate] at this
      exact this.symm
    refine ⟨⟨h.len, ?_, ?_, h.range, ?_⟩, ?_⟩
    · intro i g x r h1 h2 h3
      refine h.io i g x r h1 h2 ?_
      have hg : g < c.rows.length := (List.getElem?_eq_some_iff.1 h3).1
      show (c.rows ++ _)[g]? = some r
      rw [List.getElem?_append_left hg]; exact h3
    · intro r hr hio
      exact h.plain r (List.mem_append_left _ hr) hio
    · intro k' hk' r hr hl
      have := h.lookup k' hk' r (List.mem_append_left _ hr) hl
      rw [withTable_keyVal] at this
      rcases List.mem_append.1 this with this | this
      · exact this
      · obtain ⟨i, _, hi⟩ := List.mem_map.1 this
        obtain ⟨⟨j, hj, hjd⟩, _⟩ := ht.rows r hr hl
        obtain ⟨_, h3⟩ := lookupRow_cases (p := p) (c.tableGateIds.length + 1) lookups table i
        rcases h3 with ⟨x, _, e, _⟩ | ⟨_, e0, e1, e2, e3⟩
        · exfalso
          have hd := congrArg Prod.fst hi
          simp only [Row.tableTuple, Row.lookupTuple] at hd
          rw [e, hjd] at hd
          have := natCast_inj_of_lt hsmall (by omega) hd
          omega
        · rw [← hi]
          simp only [Row.tableTuple]
          rw [e0, e1, e2, e3, h0]
          simp [Circ.keyValTable]
    · intro x hx
      obtain ⟨i, hi⟩ := List.mem_iff_getElem?.1 hx
      have hil : i < lookups.length := (List.getElem?_eq_some_iff.1 hi).1
      obtain ⟨h1, _⟩ := lookupRow_cases (p := p) (c.tableGateIds.length + 1) lookups table i
      rcases h1 with ⟨x', hx', e, e0, e1, e2⟩ | ⟨hn, _⟩
      swap
      · rw [hi] at hn; cases hn
      rw [hi] at hx'; cases hx'
      have := h.lookup k hu (lookupRow (c.tableGateIds.length + 1) lookups table i)
        (List.mem_append_right _ (List.mem_map.2 ⟨i, List.mem_range.2 (by omega), rfl⟩))
        (lookupRow_lookup _ _ _ _)
      simp only [Row.lookupTuple] at this
      rw [e, e0, e1, e2, withTable_keyVal] at this
      rcases List.mem_append.1 this with this | this
      · exfalso
        unfold Circ.keyValTable at this
        rcases List.mem_cons.1 this with this | this
        · have hd := congrArg Prod.fst this
          simp only at hd
          have := natCast_inj_of_lt (p := p) hsmall (show 0 < p by omega)
            (by rw [hd]; simp)
          omega
        · obtain ⟨r, hr, hrt⟩ := List.mem_map.1 this
          rw [List.mem_filter] at hr
          obtain ⟨_, j, hj, hjd⟩ := ht.rows r hr.1 (by simpa using hr.2)
          have hd := congrArg Prod.fst hrt
          simp only [Row.tableTuple] at hd
          rw [hjd] at hd
          have := natCast_inj_of_lt (p := p) (show j < p by omega) hsmall hd
          omega
      · obtain ⟨i', _, hi'⟩ := List.mem_map.1 this
        obtain ⟨_, h3⟩ := lookupRow_cases (p := p) (c.tableGateIds.length + 1) lookups table i'
        rcases h3 with ⟨t, htt, f0, f1, f2, f3⟩ | ⟨_, f0, _⟩
        · simp only [Row.tableTuple, Prod.mk.injEq] at hi'
          rw [f1, f2, f3] at hi'
          exact ⟨i', t, htt, hi'.2.1.symm, hi'.2.2.1.symm, hi'.2.2.2.symm⟩
        · exfalso
          have hd := congrArg Prod.fst hi'
          simp only [Row.tableTuple] at hd
          rw [f0] at hd
          have := natCast_inj_of_lt (p := p) (show 0 < p by omega) hsmall
            (by rw [← hd]; simp)
          omega
  · rintro ⟨h, hx⟩
    have h0 := h.zero hc
    refine ⟨h.len, ?_, ?_, h.range, ?_⟩
    · intro i g x r h1 h2 h3
      obtain ⟨r'', h4, _⟩ := hc.pub g (List.mem_of_getElem? h1)
      have hg : g < c.rows.length := (List.getElem?_eq_some_iff.1 h4).1
      have h3' : (c.rows ++ _)[g]? = some r := h3
      rw [List.getElem?_append_left hg] at h3'
      exact h.io i g x r h1 h2 h3'
    · intro r hr hio
      rcases List.mem_append.1 hr with hr | hr
      · exact h.plain r hr hio
      · obtain ⟨i, _, rfl⟩ := List.mem_map.1 hr
        exact lookupRow_holds _ _ _ _ _
    · intro k' hk' r hr hl
      rw [withTable_keyVal]
      rcases List.mem_append.1 hr with hr | hr
      · exact List.mem_append_left _ (h.lookup k' hk' r hr hl)
      · obtain ⟨i, _, rfl⟩ := List.mem_map.1 hr
        obtain ⟨h1, _⟩ := lookupRow_cases (p := p) (c.tableGateIds.length + 1) lookups table i
        simp only [Row.lookupTuple]
        rcases h1 with ⟨x, hxi, e, e0, e1, e2⟩ | ⟨_, e, e0, e1, e2⟩
        · obtain ⟨i', t, ht', q1, q2, q3⟩ := hx x (List.mem_of_getElem? hxi)
          apply List.mem_append_right
          rw [List.mem_map]
          have hil : i' < table.length := (List.getElem?_eq_some_iff.1 ht').1
          refine ⟨i', List.mem_range.2 (by omega), ?_⟩
          obtain ⟨_, h3⟩ := lookupRow_cases (p := p) (c.tableGateIds.length + 1) lookups table i'
          rcases h3 with ⟨t', htt, f0, f1, f2, f3⟩ | ⟨hn, _⟩
          · rw [ht'] at htt; cases htt
            simp only [Row.tableTuple]
            rw [f0, f1, f2, f3, e, e0, e1, e2, q1, q2, q3]
          · rw [ht'] at hn; cases hn
        · apply List.mem_append_left
          rw [e, e0, e1, e2, h0]
          simp [Circ.keyValTable]

/-- on a TurboPlonk circuit the lookup rows impose nothing -/
theorem withTable_sat_turbo {c : Circ p} (hc : WF c) (hu : c.ultra = none)
    (lookups : List (ℕ × ℕ × ℕ)) (table : List (ℕ × ℕ)) (pi : List (ZMod p)) (w : ℕ → ZMod p) :
    Sat (c.withTable lookups table) pi w ↔ Sat c pi w := by
  constructor
  · intro h
    refine ⟨h.len, ?_, ?_, h.range, ?_⟩
    · intro i g x r h1 h2 h3
      refine h.io i g x r h1 h2 ?_
      have hg : g < c.rows.length := (List.getElem?_eq_some_iff.1 h3).1
      show (c.rows ++ _)[g]? = some r
      rw [List.getElem?_append_left hg]; exact h3
    · intro r hr hio
      exact h.plain r (List.mem_append_left _ hr) hio
    · intro k hk; rw [hu] at hk; cases hk
  · intro h
    refine ⟨h.len, ?_, ?_, h.range, ?_⟩
    · intro i g x r h1 h2 h3
      obtain ⟨r'', h4, _⟩ := hc.pub g (List.mem_of_getElem? h1)
      have hg : g < c.rows.length := (List.getElem?_eq_some_iff.1 h4).1
      have h3' : (c.rows ++ _)[g]? = some r := h3
      rw [List.getElem?_append_left hg] at h3'
      exact h.io i g x r h1 h2 h3'
    · intro r hr hio
      rcases List.mem_append.1 hr with hr | hr
      · exact h.plain r hr hio
      · obtain ⟨i, _, rfl⟩ := List.mem_map.1 hr
        exact lookupRow_holds _ _ _ _ _
    · intro k hk
      have : c.ultra = some k := hk
      rw [hu] at this; cases this

end Verif.Circuit
