import Verif.Circuit.LookupSpec
import Verif.Circuit.EmulatedFns
import Verif.Plonk.BuiltExt

/-!
# Builders that create lookup tables

`TSpec k m c C B R` is `Spec` for builders that may add up to `k` lookup tables to an UltraPlonk circuit.
-/

namespace Verif.Circuit

variable {p : ℕ} {α β : Type}

/-- an UltraPlonk circuit with room for `k` more tables: their numbers are different field elements -/
structure TWF (k : ℕ) (c : Circ p) : Prop where
  wf : WF c
  tables : TablesOK c
  ultra : c.ultra ≠ none
  room : c.tableGateIds.length + k < p

/-- `c'` extends `c` with at most `k` tables -/
structure TExt (k : ℕ) (c c' : Circ p) : Prop where
  wf : WF c'
  vars : c.numVars ≤ c'.numVars
  val : ∀ i, i < c.numVars → c'.val i = c.val i
  ultra : c'.ultra = c.ultra
  sat : ∀ pi w, Sat c' pi w → Sat c pi w
  tables : TablesOK c → TablesOK c'
  count : c'.tableGateIds.length ≤ c.tableGateIds.length + k
  rows : ∃ t, c'.rows = c.rows ++ t
  pub : c'.pubIds = c.pubIds
  built : ∀ [Fact p.Prime], Verif.Plonk.Built c → Verif.Plonk.Built c'

theorem Ext.text {c c' : Circ p} (e : Ext c c') : TExt 0 c c' :=
  ⟨e.wf, e.vars, e.val, e.ultra, e.sat, fun h => h.frame e.frame, by rw [e.frame.tables.1]; omega,
    by obtain ⟨t, h, -⟩ := e.frame.rows; exact ⟨t, h⟩, e.frame.pub, fun h => h.of_ext e⟩

theorem TExt.trans {k k' : ℕ} {c c' c'' : Circ p} (h : TExt k c c') (h' : TExt k' c' c'') :
    TExt (k + k') c c'' :=
  ⟨h'.wf, h.vars.trans h'.vars, fun i hi => (h'.val i (hi.trans_le h.vars)).trans (h.val i hi),
    h'.ultra.trans h.ultra, fun pi w hs => h.sat pi w (h'.sat pi w hs), fun g => h'.tables (h.tables g),
    by have := h.count; have := h'.count; omega,
    by
      obtain ⟨t, h1⟩ := h.rows
      obtain ⟨t', h2⟩ := h'.rows
      exact ⟨t ++ t', by rw [h2, h1, List.append_assoc]⟩,
    h'.pub.trans h.pub, fun g => h'.built (h.built g)⟩

theorem TExt.mono {k k' : ℕ} (hk : k ≤ k') {c c' : Circ p} (h : TExt k c c') : TExt k' c c' :=
  ⟨h.wf, h.vars, h.val, h.ultra, h.sat, h.tables, by have := h.count; omega, h.rows, h.pub, h.built⟩

theorem TExt.lt {k : ℕ} {c c' : Circ p} (h : TExt k c c') {i : ℕ} (hi : i < c.numVars) : i < c'.numVars :=
  hi.trans_le h.vars

theorem TExt.twf {k j : ℕ} {c c' : Circ p} (h : TExt k c c') (hc : TWF (k + j) c) : TWF j c' :=
  ⟨h.wf, h.tables hc.tables, by rw [h.ultra]; exact hc.ultra, by have := h.count; have := hc.room; omega⟩

theorem TWF.mono {k j : ℕ} {c : Circ p} (hj : j ≤ k) (hc : TWF k c) : TWF j c :=
  ⟨hc.wf, hc.tables, hc.ultra, by have := hc.room; omega⟩

/-- see the file header -/
structure TSpec (k : ℕ) (m : Build p α) (c : Circ p) (C : Prop) (B : α → Circ p → Prop)
    (R : α → (ℕ → ZMod p) → Prop) : Prop where
  sound : ∀ v c', m c = .ok (v, c') → TExt k c c' ∧ B v c' ∧ ∀ pi w, Sat c' pi w → R v w
  complete : C → ∀ pi, Sat c pi c.val → ∃ v c', m c = .ok (v, c') ∧ Sat c' pi c'.val

theorem Spec.tspec {m : Build p α} {c : Circ p} {C : Prop} {B : α → Circ p → Prop}
    {R : α → (ℕ → ZMod p) → Prop} (h : Spec m c C B R) : TSpec 0 m c C B R :=
  ⟨fun v c' hm => ⟨(h.sound v c' hm).1.text, (h.sound v c' hm).2⟩, h.complete⟩

theorem TSpec.mono {k k' : ℕ} (hk : k ≤ k') {m : Build p α} {c : Circ p} {C : Prop} {B : α → Circ p → Prop}
    {R : α → (ℕ → ZMod p) → Prop} (h : TSpec k m c C B R) : TSpec k' m c C B R :=
  ⟨fun v c' hm => ⟨(h.sound v c' hm).1.mono hk, (h.sound v c' hm).2⟩, h.complete⟩

theorem TSpec.bind {k k' : ℕ} {m : Build p α} {f : α → Build p β} {c : Circ p} {C C1 : Prop}
    {B1 : α → Circ p → Prop} {R1 : α → (ℕ → ZMod p) → Prop}
    {B : β → Circ p → Prop} {R : β → (ℕ → ZMod p) → Prop}
    (h1 : TSpec k m c C1 B1 R1)
    (hC : C → c.val 0 = 0 → c.val 1 = 1 → C1) (hc : WF c)
    (h2 : ∀ v c1, TExt k c c1 → B1 v c1 →
      TSpec k' (f v) c1 (C ∧ R1 v c1.val) B (fun u w => R1 v w → R u w)) :
    TSpec (k + k') (m >>= f) c C B R := by
  constructor
  · intro v c' h
    obtain ⟨u, c1, hm, hf⟩ := bind_ok h
    obtain ⟨e1, b1, r1⟩ := h1.sound u c1 hm
    obtain ⟨e2, b2, r2⟩ := (h2 u c1 e1 b1).sound v c' hf
    exact ⟨e1.trans e2, b2, fun pi w hs => r2 pi w hs (r1 pi w (e2.sat pi w hs))⟩
  · intro hCC pi hs
    obtain ⟨u, c1, hm, hs1⟩ := h1.complete (hC hCC (hs.zero hc) (hs.one hc)) pi hs
    obtain ⟨e1, b1, r1⟩ := h1.sound u c1 hm
    obtain ⟨v, c', hf, hs2⟩ := (h2 u c1 e1 b1).complete ⟨hCC, r1 pi _ hs1⟩ pi hs1
    exact ⟨v, c', by rw [bind_of_ok hm]; exact hf, hs2⟩

/-- sequencing after a builder without tables -/
theorem TSpec.bind0 {k : ℕ} {m : Build p α} {f : α → Build p β} {c : Circ p} {C C1 : Prop}
    {B1 : α → Circ p → Prop} {R1 : α → (ℕ → ZMod p) → Prop}
    {B : β → Circ p → Prop} {R : β → (ℕ → ZMod p) → Prop}
    (h1 : Spec m c C1 B1 R1)
    (hC : C → c.val 0 = 0 → c.val 1 = 1 → C1) (hc : WF c)
    (h2 : ∀ v c1, Ext c c1 → B1 v c1 →
      TSpec k (f v) c1 (C ∧ R1 v c1.val) B (fun u w => R1 v w → R u w)) :
    TSpec k (m >>= f) c C B R := by
  constructor
  · intro v c' h
    obtain ⟨u, c1, hm, hf⟩ := bind_ok h
    obtain ⟨e1, b1, r1⟩ := h1.sound u c1 hm
    obtain ⟨e2, b2, r2⟩ := (h2 u c1 e1 b1).sound v c' hf
    exact ⟨(e1.text.trans e2).mono (by omega), b2, fun pi w hs => r2 pi w hs (r1 pi w (e2.sat pi w hs))⟩
  · intro hCC pi hs
    obtain ⟨u, c1, hm, hs1⟩ := h1.complete (hC hCC (hs.zero hc) (hs.one hc)) pi hs
    obtain ⟨e1, b1, r1⟩ := h1.sound u c1 hm
    obtain ⟨v, c', hf, hs2⟩ := (h2 u c1 e1 b1).complete ⟨hCC, r1 pi _ hs1⟩ pi hs1
    exact ⟨v, c', by rw [bind_of_ok hm]; exact hf, hs2⟩

theorem TSpec.conseq {k : ℕ} {m : Build p α} {c : Circ p} {C C1 : Prop}
    {B1 B : α → Circ p → Prop} {R1 R : α → (ℕ → ZMod p) → Prop} (hc : WF c)
    (h1 : TSpec k m c C1 B1 R1) (hC : C → c.val 0 = 0 → c.val 1 = 1 → C1)
    (hB : ∀ v c', TExt k c c' → B1 v c' → B v c')
    (hR : ∀ v w, w 0 = 0 → w 1 = 1 → R1 v w → R v w) : TSpec k m c C B R := by
  constructor
  · intro v c' h
    obtain ⟨e1, b1, r1⟩ := h1.sound v c' h
    exact ⟨e1, hB v c' e1 b1, fun pi w hs => hR v w (hs.zero e1.wf) (hs.one e1.wf) (r1 pi w hs)⟩
  · intro h pi hs
    exact h1.complete (hC h (hs.zero hc) (hs.one hc)) pi hs

theorem TSpec.pure {k : ℕ} {v : α} {c : Circ p} {C : Prop} {B : α → Circ p → Prop}
    {R : α → (ℕ → ZMod p) → Prop} (hc : WF c) (hB : B v c)
    (hR : ∀ w, w 0 = 0 → w 1 = 1 → R v w) : TSpec k (pure v : Build p α) c C B R :=
  (Spec.pure hc hB hR).tspec.mono (Nat.zero_le _)

theorem TSpec.of_eq {k : ℕ} {m : Build p α} {f : α → Build p β} {c : Circ p} {v : α} (hm : m c = .ok (v, c))
    {C : Prop} {B : β → Circ p → Prop} {R : β → (ℕ → ZMod p) → Prop} (h : TSpec k (f v) c C B R) :
    TSpec k (m >>= f) c C B R :=
  ⟨fun u c' hu => h.sound u c' (by rwa [bind_of_ok hm] at hu),
    fun hC pi hs => by rw [bind_of_ok hm]; exact h.complete hC pi hs⟩

/-- one table -/
theorem createTable_tspec [Fact p.Prime] {c : Circ p} (hc : TWF 1 c) {lookups : List (ℕ × ℕ × ℕ)}
    {table : List (ℕ × ℕ)} (hl : ∀ x ∈ lookups, x.1 < c.numVars ∧ x.2.1 < c.numVars ∧ x.2.2 < c.numVars)
    (ht : ∀ x ∈ table, x.1 < c.numVars ∧ x.2 < c.numVars) :
    TSpec 1 (createTableAndLookupVariables lookups table) c
      (∀ x ∈ lookups, ∃ (i : ℕ) (t : ℕ × ℕ), table[i]? = some t ∧ c.val x.1 = (i : ZMod p) ∧ c.val x.2.1 = c.val t.1 ∧
        c.val x.2.2 = c.val t.2)
      (fun _ c' => c'.numVars = c.numVars)
      (fun _ w => ∀ x ∈ lookups, ∃ (i : ℕ) (t : ℕ × ℕ), table[i]? = some t ∧ w x.1 = (i : ZMod p) ∧
        w x.2.1 = w t.1 ∧ w x.2.2 = w t.2) := by
  obtain ⟨k, hk⟩ := Option.ne_none_iff_exists'.1 hc.ultra
  have hsat := withTable_sat hc.wf hc.tables hc.room hk lookups table
  constructor
  · intro v c' hm
    rw [createTable_eq hc.wf hl ht] at hm
    cases hm
    refine ⟨⟨withTable_wf hc.wf hl ht, le_refl _, fun _ _ => rfl, rfl, fun pi w h => ((hsat pi w).1 h).1,
      fun g => withTable_tablesOK g _ _, ?_, ⟨_, rfl⟩, rfl,
      fun h => .table c _ lookups table h (createTable_eq hc.wf hl ht)⟩, rfl, fun pi w h => ((hsat pi w).1 h).2⟩
    simp [Circ.withTable]
  · intro hC pi hs
    exact ⟨(), _, createTable_eq hc.wf hl ht, (hsat pi _).2 ⟨hs, hC⟩⟩

theorem TSpec.universal {k : ℕ} {m m' : Build p α} (hrel : Rel m m') {c : Circ p} (hc : WF c)
    {w : ℕ → ZMod p} {C : Prop} {B : α → Circ p → Prop} {R : α → (ℕ → ZMod p) → Prop}
    (hs : TSpec k m' (c.assign w) C B R) (hC : C) {v : α} {c' : Circ p} (hm : m c = .ok (v, c'))
    {pi : List (ZMod p)} (hw : Sat c pi w) :
    ∃ d' : Circ p, Same c' d' ∧ B v d' ∧ R v d'.val ∧ (∀ i, i < c.numVars → d'.val i = w i) ∧
      Sat c' pi d'.val := by
  obtain ⟨v', d', hd, hsat⟩ := hs.complete hC pi (assign_sat hc hw)
  obtain ⟨e, hB, hR⟩ := hs.sound v' d' hd
  obtain ⟨rfl, hsame⟩ := hrel c (c.assign w) (assign_same c w) _ _ _ _ hm hd
  exact ⟨d', hsame, hB, hR _ _ hsat, fun i hi => (e.val i hi).trans (assign_val c w hi), hsame.symm.sat hsat⟩

theorem TWF.assign {k : ℕ} {c : Circ p} (hc : TWF k c) (w : ℕ → ZMod p) : TWF k (c.assign w) :=
  ⟨assign_wf hc.wf w, ⟨hc.tables.rows⟩, hc.ultra, hc.room⟩

/-! ## Independence of the witness -/

theorem insertRows_rel (rs : List (Row p)) : Rel (insertRows rs) (insertRows rs) := by
  induction rs with
  | nil => exact Rel.pure ()
  | cons r rs ih => exact Rel.bind (Rel.insertGate _ _ _ _ _ _) fun _ => ih

theorem createTable_rel (lookups : List (ℕ × ℕ × ℕ)) (table : List (ℕ × ℕ)) :
    Rel (createTableAndLookupVariables lookups table : Build p Unit) (createTableAndLookupVariables lookups table) := by
  unfold createTableAndLookupVariables
  refine Rel.bind (Rel.checkVars _) fun _ => Rel.bind (Rel.checkVars _) fun _ => ?_
  intro c d hs v c' v' d' h1 h2
  obtain ⟨x1, c1, a1, h1⟩ := bind_ok h1
  obtain ⟨y1, d1, b1, h2⟩ := bind_ok h2
  have s1 : Same c1 d1 := by
    unfold pushTableId at a1 b1
    cases a1; cases b1
    unfold Same Circ.shape
    simp [hs.numVars, hs.rows, hs.rangeVars, hs.pubIds, hs.domSize, hs.ultra, hs.nte, hs.tgi]
  obtain ⟨x2, c2, a2, h1⟩ := bind_ok h1
  obtain ⟨y2, d2, b2, h2⟩ := bind_ok h2
  cases a2; cases b2
  rw [s1.tgi] at h1
  obtain ⟨x3, c3, a3, h1⟩ := bind_ok h1
  obtain ⟨y3, d3, b3, h2⟩ := bind_ok h2
  obtain ⟨-, s3⟩ := insertRows_rel _ _ _ s1 _ _ _ _ a3 b3
  unfold bumpTableElems at h1 h2
  cases h1; cases h2
  refine ⟨rfl, ?_⟩
  unfold Same Circ.shape
  simp [s3.numVars, s3.rows, s3.rangeVars, s3.pubIds, s3.domSize, s3.ultra, s3.nte, s3.tgi]

end Verif.Circuit
