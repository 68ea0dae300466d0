import Verif.Plonk.Finalize
import Verif.Circuit.LookupSpec
import Mathlib.Data.List.GetD
import Mathlib.Tactic.Ring

/-!
# What finalization does to the rows
-/

set_option linter.unusedSectionVars false

namespace Verif.Plonk

open Verif.Circuit Verif.Pcs

variable {p : ℕ} [Fact p.Prime]

/-! ### the invariant of built circuits -/

/-- a gate number belongs to a table -/
def InTables (ts : List (ℕ × ℕ)) (i : ℕ) : Prop := ∃ t ∈ ts, t.1 ≤ i ∧ i < t.1 + t.2

/-- Invariant of the circuits that can be built -/
structure FinOK (c : Circ p) : Prop where
  wf : WF c
  pubSorted : c.pubIds.Pairwise (· < ·)
  pubRow : ∀ g ∈ c.pubIds, ∃ v, c.rows[g]? = some ⟨ioGate, 0, 0, 0, 0, v⟩
  ioListed : ∀ (i : ℕ) (r : Row p), c.rows[i]? = some r → r.sel.io = true → i ∈ c.pubIds
  tabSorted : c.tableGateIds.Pairwise (fun a b => a.1 + a.2 ≤ b.1)
  tabBound : ∀ t ∈ c.tableGateIds, t.1 + t.2 ≤ c.rows.length
  tabRows : ∀ (i : ℕ) (r : Row p), c.rows[i]? = some r →
    (r.sel.lookup ≠ 0 ↔ InTables c.tableGateIds i)
  tabSel : ∀ r ∈ c.rows, r.sel.lookup = 0 ∨
    (r.sel.lookup = 1 ∧ r.sel.io = false)
  tabSum : c.numTableElems = (c.tableGateIds.map Prod.snd).sum
  noUltra : c.ultra = none → c.rangeVars = []
  tabCount : c.rows.countP (fun r => decide (r.sel.lookup ≠ 0)) = c.numTableElems
  ioCount : c.rows.countP (fun r => r.sel.io) = c.pubIds.length

theorem FinOK.addRow {c : Circ p} (h : FinOK c) (r : Row p) (hio : r.sel.io = false)
    (hl : r.sel.lookup = 0) (hw : r.w0 < c.numVars ∧ r.w1 < c.numVars ∧ r.w2 < c.numVars ∧
      r.w3 < c.numVars ∧ r.w4 < c.numVars) : FinOK { c with rows := c.rows ++ [r] } := by
  obtain ⟨t, ht⟩ := h.wf.consts
  refine ⟨⟨h.wf.len, h.wf.opn, h.wf.two, ⟨t ++ [r], by simp [ht]⟩, ?_, h.wf.ranges, ?_⟩,
    h.pubSorted, ?_, ?_, h.tabSorted, ?_, ?_, ?_, h.tabSum, h.noUltra, ?_, ?_⟩
  · intro x hx
    rcases List.mem_append.1 hx with hx | hx
    · exact h.wf.wires x hx
    · rw [List.mem_singleton.1 hx]; exact hw
  · intro g hg
    obtain ⟨x, h1, h2⟩ := h.wf.pub g hg
    exact ⟨x, by rw [List.getElem?_append_left (List.getElem?_eq_some_iff.1 h1).1]; exact h1, h2⟩
  · intro g hg
    obtain ⟨v, h1⟩ := h.pubRow g hg
    exact ⟨v, by rw [List.getElem?_append_left (List.getElem?_eq_some_iff.1 h1).1]; exact h1⟩
  · intro i x hx hxio
    by_cases hi : i < c.rows.length
    · rw [List.getElem?_append_left hi] at hx
      exact h.ioListed i x hx hxio
    · rw [List.getElem?_append_right (by omega)] at hx
      have : x ∈ [r] := List.mem_of_getElem? hx
      rw [List.mem_singleton.1 this, hio] at hxio
      cases hxio
  · intro t ht
    have := h.tabBound t ht
    simp
    omega
  · intro i x hx
    by_cases hi : i < c.rows.length
    · rw [List.getElem?_append_left hi] at hx
      exact h.tabRows i x hx
    · rw [List.getElem?_append_right (by omega)] at hx
      have : x ∈ [r] := List.mem_of_getElem? hx
      rw [List.mem_singleton.1 this, hl]
      refine ⟨fun h => absurd rfl h, ?_⟩
      rintro ⟨t, ht, h1, h2⟩
      have := h.tabBound t ht
      omega
  · intro x hx
    rcases List.mem_append.1 hx with hx | hx
    · exact h.tabSel x hx
    · rw [List.mem_singleton.1 hx]; exact Or.inl hl
  · rw [List.countP_append, h.tabCount]; simp [hl]
  · rw [List.countP_append, h.ioCount]; simp [hio]

theorem Built.ok {c : Circ p} (h : Built c) : FinOK c := by
  induction h with
  | new ultra =>
    refine ⟨wf_new ultra, List.Pairwise.nil, by simp [Circ.new], ?_, List.Pairwise.nil,
      by simp [Circ.new], ?_, ?_, rfl, fun _ => rfl, by simp [Circ.new, constantGate], by
        simp [Circ.new, constantGate]⟩
    · intro i r hr hio
      have hr := List.mem_of_getElem? hr
      simp [Circ.new] at hr
      rcases hr with rfl | rfl <;> simp [constantGate] at hio
    · intro i r hr
      have hr := List.mem_of_getElem? hr
      simp [Circ.new] at hr
      rcases hr with rfl | rfl <;> simp [constantGate, InTables, Circ.new]
    · intro r hr
      simp [Circ.new] at hr
      rcases hr with rfl | rfl <;> exact Or.inl rfl
  | var c c' x v _ hv ih =>
    unfold createVariable at hv
    rw [if_neg (by simp [ih.wf.opn])] at hv
    injection hv with hv
    injection hv with _ hv
    subst hv
    refine ⟨⟨by simp [ih.wf.len], ih.wf.opn, by have := ih.wf.two; simp; omega, ih.wf.consts, ?_, ?_,
      ih.wf.pub⟩, ih.pubSorted, ih.pubRow, ih.ioListed, ih.tabSorted, ih.tabBound, ih.tabRows,
      ih.tabSel, ih.tabSum, ih.noUltra, ih.tabCount, ih.ioCount⟩
    · intro r hr
      have := ih.wf.wires r hr
      simp
      omega
    · intro v hv
      have := ih.wf.ranges v hv
      simp
      omega
  | gate c c' w0 w1 w2 w3 w4 g _ hio hl h0 h1 h2 h3 h4 hc ih =>
    unfold insertGate at hc
    rw [if_neg (by simp [ih.wf.opn])] at hc
    injection hc with hc
    injection hc with _ hc
    subst hc
    exact ih.addRow _ hio hl ⟨h0, h1, h2, h3, h4⟩
  | pub c c' v _ hv hc ih =>
    unfold setVariablePublic at hc
    rw [if_neg (by simp [ih.wf.opn])] at hc
    injection hc with hc
    injection hc with _ hc
    subst hc
    have hpb : ∀ g ∈ c.pubIds, g < c.rows.length := by
      intro g hg
      obtain ⟨x, h1, _⟩ := ih.wf.pub g hg
      exact (List.getElem?_eq_some_iff.1 h1).1
    obtain ⟨t, ht⟩ := ih.wf.consts
    have htwo := ih.wf.two
    refine ⟨⟨ih.wf.len, ih.wf.opn, ih.wf.two, ⟨t ++ [⟨ioGate, 0, 0, 0, 0, v⟩], by simp [ht]⟩, ?_,
      ih.wf.ranges, ?_⟩, ?_, ?_, ?_, ih.tabSorted, ?_, ?_, ?_, ih.tabSum, ih.noUltra, ?_, ?_⟩
    · intro x hx
      rcases List.mem_append.1 hx with hx | hx
      · exact ih.wf.wires x hx
      · rw [List.mem_singleton.1 hx]; simp; omega
    · intro g hg
      rcases List.mem_append.1 hg with hg | hg
      · obtain ⟨x, h1, h2⟩ := ih.wf.pub g hg
        exact ⟨x, by rw [List.getElem?_append_left (hpb g hg)]; exact h1, h2⟩
      · rw [List.mem_singleton.1 hg]
        exact ⟨_, List.getElem?_concat_length, rfl⟩
    · rw [List.pairwise_append]
      refine ⟨ih.pubSorted, List.pairwise_singleton _ _, ?_⟩
      intro a ha b hb
      rw [List.mem_singleton.1 hb]
      exact hpb a ha
    · intro g hg
      rcases List.mem_append.1 hg with hg | hg
      · obtain ⟨x, h1⟩ := ih.pubRow g hg
        exact ⟨x, by rw [List.getElem?_append_left (hpb g hg)]; exact h1⟩
      · rw [List.mem_singleton.1 hg]
        exact ⟨_, List.getElem?_concat_length⟩
    · intro i x hx hxio
      by_cases hi : i < c.rows.length
      · rw [List.getElem?_append_left hi] at hx
        exact List.mem_append_left _ (ih.ioListed i x hx hxio)
      · have hlt := (List.getElem?_eq_some_iff.1 hx).1
        simp at hlt
        have : i = c.rows.length := by omega
        rw [this]
        simp
    · intro t ht
      have := ih.tabBound t ht
      simp
      omega
    · intro i x hx
      by_cases hi : i < c.rows.length
      · rw [List.getElem?_append_left hi] at hx
        exact ih.tabRows i x hx
      · rw [List.getElem?_append_right (by omega)] at hx
        have := List.mem_of_getElem? hx
        rw [List.mem_singleton.1 this]
        refine ⟨fun h => absurd rfl h, ?_⟩
        rintro ⟨t, ht, h1, h2⟩
        have := ih.tabBound t ht
        omega
    · intro x hx
      rcases List.mem_append.1 hx with hx | hx
      · exact ih.tabSel x hx
      · rw [List.mem_singleton.1 hx]; exact Or.inl rfl
    · rw [List.countP_append, ih.tabCount]; simp [ioGate]
    · rw [List.countP_append, ih.ioCount]; simp [ioGate]
  | range c c' v _ hc ih =>
    unfold addRangeCheckVariable at hc
    split at hc
    · cases hc
    · rename_i hu
      split at hc
      · cases hc
      · split at hc
        · cases hc
        · rename_i hlt
          injection hc with hc
          injection hc with _ hc
          subst hc
          refine ⟨⟨ih.wf.len, ih.wf.opn, ih.wf.two, ih.wf.consts, ih.wf.wires, ?_, ih.wf.pub⟩,
            ih.pubSorted, ih.pubRow, ih.ioListed, ih.tabSorted, ih.tabBound, ih.tabRows, ih.tabSel,
            ih.tabSum, fun h => absurd h hu, ih.tabCount, ih.ioCount⟩
          intro x hx
          rcases List.mem_append.1 hx with hx | hx
          · exact ih.wf.ranges x hx
          · rw [List.mem_singleton.1 hx]; simpa using hlt
  | table c c' lookups table _ hc ih =>
    have hb : (∀ x ∈ lookups, x.1 < c.numVars ∧ x.2.1 < c.numVars ∧ x.2.2 < c.numVars) ∧
        ∀ x ∈ table, x.1 < c.numVars ∧ x.2 < c.numVars := by
      unfold createTableAndLookupVariables at hc
      obtain ⟨_, c1, h1, hc⟩ := bind_ok hc
      obtain ⟨_, c2, h2, hc⟩ := bind_ok hc
      obtain ⟨rfl, h1⟩ := checkVars_ok h1
      obtain ⟨rfl, h2⟩ := checkVars_ok h2
      constructor
      · intro x hx
        refine ⟨h1 _ ?_, h1 _ ?_, h1 _ ?_⟩ <;>
          exact List.mem_flatMap.2 ⟨x, hx, by simp⟩
      · intro x hx
        refine ⟨h2 _ ?_, h2 _ ?_⟩ <;> exact List.mem_flatMap.2 ⟨x, hx, by simp⟩
    rw [createTable_eq ih.wf hb.1 hb.2] at hc
    injection hc with hc
    injection hc with _ hc
    subst hc
    set m := max lookups.length table.length with hm
    set new := (List.range m).map (lookupRow (p := p) (c.tableGateIds.length + 1) lookups table)
      with hnew
    have hrows : (c.withTable lookups table).rows = c.rows ++ new := rfl
    have hids : (c.withTable lookups table).tableGateIds = c.tableGateIds ++ [(c.rows.length, m)] :=
      rfl
    have hnewlen : new.length = m := by simp [hnew]
    have hsel : ∀ r ∈ new, r.sel.lookup = 1 ∧ r.sel.io = false := by
      intro r hr
      obtain ⟨i, _, rfl⟩ := List.mem_map.1 hr
      unfold lookupRow
      simp [lookupGate]
    have hwire : ∀ r ∈ new, r.w0 < c.numVars ∧ r.w1 < c.numVars ∧ r.w2 < c.numVars ∧
        r.w3 < c.numVars ∧ r.w4 < c.numVars := by
      have htwo := ih.wf.two
      intro r hr
      obtain ⟨i, _, rfl⟩ := List.mem_map.1 hr
      unfold lookupRow
      simp only
      have a : ∀ x, lookups[i]? = some x → _ := fun x hx => hb.1 x (List.mem_of_getElem? hx)
      have b : ∀ x, table[i]? = some x → _ := fun x hx => hb.2 x (List.mem_of_getElem? hx)
      rcases hx : lookups[i]? with _ | ⟨k, x, y⟩ <;> rcases hy : table[i]? with _ | ⟨u, v⟩ <;> simp only
      · omega
      · have := b _ hy; simp at this; omega
      · have := a _ hx; simp at this; omega
      · have := b _ hy; have := a _ hx; simp at *; omega
    obtain ⟨t, ht⟩ := ih.wf.consts
    refine ⟨⟨ih.wf.len, ih.wf.opn, ih.wf.two, ⟨t ++ new, by rw [hrows, ht]; rfl⟩, ?_,
      ih.wf.ranges, ?_⟩, ih.pubSorted, ?_, ?_, ?_, ?_, ?_, ?_, ?_, ih.noUltra, ?_, ?_⟩
    · intro x hx
      rw [hrows] at hx
      rcases List.mem_append.1 hx with hx | hx
      · exact ih.wf.wires x hx
      · exact hwire x hx
    · intro g hg
      obtain ⟨x, h1, h2⟩ := ih.wf.pub g hg
      exact ⟨x, by rw [hrows, List.getElem?_append_left (List.getElem?_eq_some_iff.1 h1).1]; exact h1,
        h2⟩
    · intro g hg
      obtain ⟨x, h1⟩ := ih.pubRow g hg
      exact ⟨x, by rw [hrows, List.getElem?_append_left (List.getElem?_eq_some_iff.1 h1).1]; exact h1⟩
    · intro i x hx hxio
      rw [hrows] at hx
      by_cases hi : i < c.rows.length
      · rw [List.getElem?_append_left hi] at hx
        exact ih.ioListed i x hx hxio
      · rw [List.getElem?_append_right (by omega)] at hx
        have := (hsel x (List.mem_of_getElem? hx)).2
        rw [this] at hxio
        cases hxio
    · rw [hids, List.pairwise_append]
      refine ⟨ih.tabSorted, List.pairwise_singleton _ _, ?_⟩
      intro a ha b hb
      rw [List.mem_singleton.1 hb]
      exact ih.tabBound a ha
    · intro a ha
      rw [hids] at ha
      rw [hrows, List.length_append, hnewlen]
      rcases List.mem_append.1 ha with ha | ha
      · have := ih.tabBound a ha; omega
      · rw [List.mem_singleton.1 ha]
    · intro i x hx
      rw [hrows] at hx
      rw [hids]
      by_cases hi : i < c.rows.length
      · rw [List.getElem?_append_left hi] at hx
        rw [ih.tabRows i x hx]
        constructor
        · rintro ⟨t, ht, h⟩
          exact ⟨t, List.mem_append_left _ ht, h⟩
        · rintro ⟨t, ht, h⟩
          rcases List.mem_append.1 ht with ht | ht
          · exact ⟨t, ht, h⟩
          · rw [List.mem_singleton.1 ht] at h
            simp at h
            omega
      · rw [List.getElem?_append_right (by omega)] at hx
        have h1 := (hsel x (List.mem_of_getElem? hx)).1
        have hlt := (List.getElem?_eq_some_iff.1 hx).1
        rw [h1]
        refine ⟨fun _ => ⟨(c.rows.length, m), by simp, ?_, ?_⟩, fun _ => one_ne_zero⟩
        · simp; omega
        · simp; omega
    · intro x hx
      rw [hrows] at hx
      rcases List.mem_append.1 hx with hx | hx
      · exact ih.tabSel x hx
      · exact Or.inr (hsel x hx)
    · rw [hids, List.map_append, List.sum_append, ← ih.tabSum]
      simp [Circ.withTable, hm]
    · rw [hrows, List.countP_append, ih.tabCount, List.countP_eq_length.2 (by
        intro r hr; simp [(hsel r hr).1]), hnewlen]
      rfl
    · rw [hrows, List.countP_append, ih.ioCount, List.countP_eq_zero.2 (by
        intro r hr; simp [(hsel r hr).2])]
      rfl

/-! ### swapping -/

theorem swapRow_ok (l : List (Row p)) (i j : ℕ) (hi : i < l.length) (hj : j < l.length) :
    ∃ l', swapRow l i j = .ok l' ∧ l'.length = l.length ∧ l'.Perm l ∧
      l'[i]? = l[j]? ∧ l'[j]? = l[i]? ∧ ∀ k, k ≠ i → k ≠ j → l'[k]? = l[k]? := by
  refine ⟨(l.set i l[j]).set j l[i], ?_, by simp, ?_, ?_, ?_, ?_⟩
  · unfold swapRow
    rw [List.getElem?_eq_getElem hi, List.getElem?_eq_getElem hj]
  · exact List.set_set_perm hi hj
  · rw [List.getElem?_eq_getElem hj]
    by_cases h : j = i
    · subst h; simp
    · rw [List.getElem?_set_ne (by omega)]; simp [hi]
  · rw [List.getElem?_eq_getElem hi]
    simp [hj]
  · intro k h1 h2
    rw [List.getElem?_set_ne (by omega), List.getElem?_set_ne (by omega)]

/-- the first loop: the rows with the given numbers, in order, end in the rows from `k` on -/
theorem moveIo_ok (gs : List ℕ) : ∀ (k : ℕ) (rows : List (Row p)), gs.Pairwise (· < ·) →
    (∀ g ∈ gs, k ≤ g ∧ g < rows.length) →
    ∃ rows', moveIo k gs rows = .ok (rows', List.range' k gs.length) ∧ rows'.Perm rows ∧
      rows'.length = rows.length ∧
      (∀ i (hi : i < gs.length), rows'[k + i]? = rows[gs[i]]?) ∧
      (∀ x, x < k → rows'[x]? = rows[x]?) ∧
      (∀ x, k + gs.length ≤ x → x ∉ gs → rows'[x]? = rows[x]?) := by
  induction gs with
  | nil =>
    intro k rows _ _
    exact ⟨rows, rfl, List.Perm.refl _, rfl, fun i hi => absurd hi (by simp), fun _ _ => rfl,
      fun _ _ _ => rfl⟩
  | cons g gs ih =>
    intro k rows hs hb
    obtain ⟨hkg, hgl⟩ := hb g (by simp)
    have hgs : ∀ x ∈ gs, g < x := (List.pairwise_cons.1 hs).1
    have hs' := (List.pairwise_cons.1 hs).2
    unfold moveIo
    by_cases hlt : k < g
    · rw [if_pos hlt]
      obtain ⟨r1, e1, l1, p1, a1, b1, c1⟩ := swapRow_ok rows k g (by omega) hgl
      obtain ⟨r2, e2, p2, l2, a2, b2, c2⟩ := ih (k + 1) r1 hs' (by
        intro x hx
        have h1 := hgs x hx
        have h2 := (hb x (by simp [hx])).2
        omega)
      rw [e1]
      simp only
      rw [e2]
      refine ⟨r2, by simp [List.range'], p2.trans p1, by omega, ?_, ?_, ?_⟩
      · intro i hi
        rcases i with _ | i
        · rw [Nat.add_zero, b2 k (by omega), a1]; rfl
        · have := a2 i (by simpa using hi)
          rw [show k + (i + 1) = k + 1 + i by omega, this]
          have hmem : gs[i]'(by simpa using hi) ∈ gs := List.getElem_mem _
          have := hgs _ hmem
          rw [c1 _ (by omega) (by omega)]
          rfl
      · intro x hx
        rw [b2 x (by omega), c1 x (by omega) (by omega)]
      · intro x hx hxn
        simp at hx hxn
        rw [c2 x (by omega) hxn.2, c1 x (by omega) hxn.1]
    · rw [if_neg hlt]
      have hk : g = k := by omega
      subst hk
      obtain ⟨r2, e2, p2, l2, a2, b2, c2⟩ := ih (g + 1) rows hs' (by
        intro x hx
        have h1 := hgs x hx
        have h2 := (hb x (by simp [hx])).2
        omega)
      rw [e2]
      refine ⟨r2, by simp [List.range'], p2, l2, ?_, ?_, ?_⟩
      · intro i hi
        rcases i with _ | i
        · rw [Nat.add_zero, b2 g (by omega)]; rfl
        · have := a2 i (by simpa using hi)
          rw [show g + (i + 1) = g + 1 + i by omega, this]
          rfl
      · intro x hx
        exact b2 x (by omega)
      · intro x hx hxn
        simp at hx hxn
        exact c2 x (by omega) hxn.2

/-- the second loop when it always swaps: the rows with the given numbers end, in order, in the rows
`cur, cur - 1, …` -/
theorem moveLookups_ok (gs : List ℕ) : ∀ (cur : ℕ) (rows : List (Row p)), gs.Pairwise (· > ·) →
    (∀ g ∈ gs, g < cur) → cur < rows.length →
    ∃ rows', moveLookups gs cur rows = .ok rows' ∧ rows'.Perm rows ∧ rows'.length = rows.length ∧
      (∀ i (hi : i < gs.length), rows'[cur - i]? = rows[gs[i]]?) ∧
      (∀ x, cur < x → rows'[x]? = rows[x]?) ∧
      (∀ x, x + gs.length ≤ cur → x ∉ gs → rows'[x]? = rows[x]?) := by
  induction gs with
  | nil =>
    intro cur rows _ _ _
    exact ⟨rows, rfl, List.Perm.refl _, rfl, fun i hi => absurd hi (by simp), fun _ _ => rfl,
      fun _ _ _ => rfl⟩
  | cons g gs ih =>
    intro cur rows hs hb hc
    have hgc := hb g (by simp)
    have hgs : ∀ x ∈ gs, x < g := (List.pairwise_cons.1 hs).1
    have hs' := (List.pairwise_cons.1 hs).2
    unfold moveLookups
    rw [if_pos hgc]
    obtain ⟨r1, e1, l1, p1, a1, b1, c1⟩ := swapRow_ok rows g cur (by omega) hc
    obtain ⟨r2, e2, p2, l2, a2, b2, c2⟩ := ih (cur - 1) r1 hs' (by
      intro x hx
      have := hgs x hx
      omega) (by omega)
    rw [e1]
    simp only
    rw [e2]
    refine ⟨r2, rfl, p2.trans p1, by omega, ?_, ?_, ?_⟩
    · intro i hi
      rcases i with _ | i
      · rw [Nat.sub_zero, b2 cur (by omega), b1]; rfl
      · have := a2 i (by simpa using hi)
        rw [show cur - (i + 1) = cur - 1 - i by omega, this]
        have hmem : gs[i]'(by simpa using hi) ∈ gs := List.getElem_mem _
        have := hgs _ hmem
        rw [c1 _ (by omega) (by omega)]
        rfl
    · intro x hx
      rw [b2 x (by omega), c1 x (by omega) (by omega)]
    · intro x hx hxn
      simp at hx hxn
      rw [c2 x (by omega) hxn.2, c1 x hxn.1 (by omega)]

/-- the second loop never fails and only permutes the rows -/
theorem moveLookups_perm (gs : List ℕ) : ∀ (cur : ℕ) (rows : List (Row p)), cur < rows.length →
    ∃ rows', moveLookups gs cur rows = .ok rows' ∧ rows'.Perm rows := by
  induction gs with
  | nil => intro cur rows _; exact ⟨rows, rfl, List.Perm.refl _⟩
  | cons g gs ih =>
    intro cur rows hc
    unfold moveLookups
    by_cases h : g < cur
    · rw [if_pos h]
      obtain ⟨r1, e1, l1, p1, -⟩ := swapRow_ok rows g cur (by omega) hc
      obtain ⟨r2, e2, p2⟩ := ih (cur - 1) r1 (by omega)
      rw [e1]
      simp only
      exact ⟨r2, e2, p2.trans p1⟩
    · rw [if_neg h]
      exact ih cur rows hc

/-! ### the numbers of the table rows -/

theorem mem_tableIds {ts : List (ℕ × ℕ)} {i : ℕ} : i ∈ tableIds ts ↔ InTables ts i := by
  unfold tableIds InTables
  simp only [List.mem_flatMap, List.mem_reverse, List.mem_range'_1]

theorem tableIds_length (ts : List (ℕ × ℕ)) :
    (tableIds ts).length = (ts.map Prod.snd).sum := by
  unfold tableIds
  rw [List.length_flatMap, List.map_reverse, List.sum_reverse]
  simp

theorem tableIds_sorted {ts : List (ℕ × ℕ)} (h : ts.Pairwise (fun a b => a.1 + a.2 ≤ b.1)) :
    (tableIds ts).Pairwise (· > ·) := by
  induction ts with
  | nil => exact List.Pairwise.nil
  | cons t ts ih =>
    have h1 := (List.pairwise_cons.1 h).1
    have ih := ih (List.pairwise_cons.1 h).2
    have e : tableIds (t :: ts) = tableIds ts ++ (List.range' t.1 t.2).reverse := by
      unfold tableIds
      rw [List.reverse_cons, List.flatMap_append, List.flatMap_singleton]
    rw [e, List.pairwise_append]
    refine ⟨ih, ?_, ?_⟩
    · rw [List.pairwise_reverse]
      exact List.pairwise_lt_range'
    · intro a ha b hb
      obtain ⟨u, hu, h2, _⟩ := mem_tableIds.1 ha
      have := h1 u hu
      simp at hb
      omega

theorem length_le_of_sorted {gs : List ℕ} {a : ℕ} : ∀ {b : ℕ}, gs.Pairwise (· > ·) →
    (∀ g ∈ gs, a ≤ g ∧ g < b) → gs.length ≤ b - a := by
  induction gs with
  | nil => intro b _ _; simp
  | cons g gs ih =>
    intro b hs hb
    have h1 := (List.pairwise_cons.1 hs).1
    have := ih (b := g) (List.pairwise_cons.1 hs).2 (fun x hx =>
      ⟨(hb x (by simp [hx])).1, h1 x hx⟩)
    have := hb g (by simp)
    simp
    omega

/-- if as many entries as there are in all satisfy a predicate in one segment, no others do -/
theorem count_segment {α : Type} (P : α → Bool) (l : List α) (a T : ℕ) (hT : l.countP P = T)
    (hseg : ∀ i, a ≤ i → i < a + T → ∃ r, l[i]? = some r ∧ P r = true) :
    ∀ i r, l[i]? = some r → (P r = true ↔ a ≤ i ∧ i < a + T) := by
  have hl : T = 0 ∨ a + T ≤ l.length := by
    by_cases h0 : T = 0
    · exact Or.inl h0
    · obtain ⟨r, h1, _⟩ := hseg (a + T - 1) (by omega) (by omega)
      have := (List.getElem?_eq_some_iff.1 h1).1
      omega
  have hsplit : l = l.take a ++ ((l.drop a).take T ++ (l.drop a).drop T) := by
    rw [List.take_append_drop, List.take_append_drop]
  have hmid : ((l.drop a).take T).countP P = T := by
    have hlen : ((l.drop a).take T).length = T := by
      simp
      omega
    conv_rhs => rw [← hlen]
    rw [List.countP_eq_length]
    intro r hr
    obtain ⟨i, hi⟩ := List.mem_iff_getElem?.1 hr
    have hlt := (List.getElem?_eq_some_iff.1 hi).1
    rw [List.getElem?_take_of_lt (by omega), List.getElem?_drop] at hi
    obtain ⟨r', h1, h2⟩ := hseg (a + i) (by omega) (by omega)
    rw [h1] at hi
    injection hi with hi
    rw [← hi]
    exact h2
  have hz : (l.take a).countP P = 0 ∧ ((l.drop a).drop T).countP P = 0 := by
    have := hT
    rw [hsplit, List.countP_append, List.countP_append, hmid] at this
    omega
  intro i r hr
  constructor
  · intro hp
    by_contra hc
    by_cases hia : i < a
    · have : r ∈ l.take a := List.mem_of_getElem? (i := i) (by rw [List.getElem?_take_of_lt hia]; exact hr)
      exact List.countP_eq_zero.1 hz.1 r this hp
    · have : r ∈ (l.drop a).drop T := List.mem_of_getElem? (i := i - a - T) (by
        rw [List.getElem?_drop, List.getElem?_drop, show a + (T + (i - a - T)) = i by omega]; exact hr)
      exact List.countP_eq_zero.1 hz.2 r this hp
  · rintro ⟨h1, h2⟩
    obtain ⟨r', h3, h4⟩ := hseg i h1 h2
    rw [h3] at hr
    injection hr with hr
    rw [← hr]
    exact h4

/-- a filtered list is read off at the increasing list of the positions -/
theorem filter_eq_map {α : Type} [Inhabited α] (P : α → Bool) (l : List α) (ids : List ℕ)
    (hs : ids.Pairwise (· < ·)) (hb : ∀ i ∈ ids, i < l.length)
    (h : ∀ i r, l[i]? = some r → (P r = true ↔ i ∈ ids)) :
    l.filter P = ids.map (fun i => l.getD i default) := by
  have h1 : l = (List.range l.length).map (fun i => l.getD i default) := by
    refine List.ext_getElem (by simp) ?_
    intro i h1 h2
    simp [h1]
  have h2 : (List.range l.length).filter (fun i => P (l.getD i default)) = ids := by
    refine List.Perm.eq_of_pairwise (le := (· < ·)) (fun a b _ _ h1 h2 => absurd h1 (by omega)) ?_ hs ?_
    · exact List.Pairwise.filter _ List.pairwise_lt_range
    · refine (List.perm_ext_iff_of_nodup ?_ ?_).2 ?_
      · exact List.Nodup.filter _ List.nodup_range
      · exact hs.imp (fun h => Nat.ne_of_lt h)
      · intro i
        rw [List.mem_filter, List.mem_range]
        constructor
        · rintro ⟨hi, hp⟩
          refine (h i (l.getD i default) ?_).1 hp
          simp [hi]
        · intro hi
          have hlt := hb i hi
          refine ⟨hlt, (h i _ ?_).2 hi⟩
          simp [hlt]
  conv_lhs => rw [h1]
  rw [List.filter_map, ← h2]
  rfl

end Verif.Plonk
