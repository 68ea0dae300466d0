import Verif.Plonk.FinalizeLemmas

/-!
# A finalized circuit has the same satisfying assignments
-/

set_option linter.unusedSectionVars false

namespace Verif.Plonk

open Verif.Circuit Verif.Pcs

variable {p : ℕ} [Fact p.Prime]

theorem finalize_ok {S : ℕ} {root : ZMod p} {rnd : List (ZMod p)} {c : Circ p} {f : FCirc p}
    (h : finalize S root rnd c = .ok f) :
    newDomain S root (numSlots c) = some f.dom ∧ f.dom.size ≠ 1 ∧
      rearrangeGates (padCirc c f.dom.size) = .ok f.circ ∧ wirePermutation f.circ = .ok f.perm ∧
      ∃ ks, cosetReps rnd (numWireTypes f.circ) f.dom.size = .ok ks ∧
        f.ids = extIdPermutation ks f.dom := by
  unfold finalize at h
  split at h
  · cases h
  · rename_i dom hd
    split at h
    · cases h
    · rename_i h1
      split at h
      · cases h
      · rename_i c' hc'
        split at h
        · cases h
        · rename_i perm hperm
          split at h
          · cases h
          · rename_i ks hks
            injection h with h
            subst h
            exact ⟨hd, h1, hc', hperm, ks, hks, rfl⟩

theorem newDomain_size {S : ℕ} {root : ZMod p} {m : ℕ} {dom : Domain (ZMod p)}
    (h : newDomain S root m = some dom) : m ≤ dom.size := by
  unfold newDomain at h
  split at h
  · cases h
  · injection h with h
    subst h
    exact Nat.le_pow_clog (by omega) _

theorem rows_le_numSlots (c : Circ p) : c.rows.length ≤ numSlots c := by
  unfold numSlots
  split
  · exact le_rfl
  · exact le_max_left _ _

/-- What rearranging a padded circuit gives in the good case -/
structure Rearranged (c : Circ p) (n : ℕ) (c' : Circ p) : Prop where
  numVars : c'.numVars = c.numVars
  witness : c'.witness = c.witness
  ultra : c'.ultra = c.ultra
  domSize : c'.domSize = n
  rangeVars : c'.rangeVars = (padCirc c n).rangeVars
  pubIds : c'.pubIds = List.range c.pubIds.length
  perm : c'.rows.Perm (c.rows ++ List.replicate (n - c.rows.length) paddingRow)
  len : c'.rows.length = n
  front : ∀ (i g : ℕ), c.pubIds[i]? = some g → c'.rows[i]? = c.rows[g]?

theorem rearrange_ok {c : Circ p} (hc : FinOK c) {n : ℕ} (hn : c.rows.length ≤ n)
    (hT : c.ultra = none ∨
      ∀ i, InTables c.tableGateIds i → c.pubIds.length ≤ i ∧ i + 2 < n) :
    ∃ c', rearrangeGates (padCirc c n) = .ok c' ∧ Rearranged c n c' ∧
      (c.ultra ≠ none → ∀ i (hi : i < (tableIds c.tableGateIds).length),
        c'.rows[n - 2 - i]? = c.rows[(tableIds c.tableGateIds)[i]]?) := by
  have hpb : ∀ g ∈ c.pubIds, g < c.rows.length := by
    intro g hg
    obtain ⟨x, h1, _⟩ := hc.wf.pub g hg
    exact (List.getElem?_eq_some_iff.1 h1).1
  have hlen2 : 2 ≤ c.rows.length := by
    obtain ⟨t, ht⟩ := hc.wf.consts
    rw [ht]; simp
  set rows := c.rows ++ List.replicate (n - c.rows.length) (paddingRow (p := p)) with hrows
  have hrlen : rows.length = n := by simp [hrows]; omega
  have hleft : ∀ x, x < c.rows.length → rows[x]? = c.rows[x]? := fun x hx => by
    rw [hrows, List.getElem?_append_left hx]
  obtain ⟨r1, e1, p1, l1, a1, b1, c1⟩ := moveIo_ok c.pubIds 0 rows hc.pubSorted (by
    intro g hg
    have := hpb g hg
    omega)
  have hfront : ∀ (i g : ℕ), c.pubIds[i]? = some g → r1[i]? = c.rows[g]? := by
    intro i g hg
    obtain ⟨hi, rfl⟩ := List.getElem?_eq_some_iff.1 hg
    have := a1 i hi
    rw [Nat.zero_add] at this
    rw [this, hleft _ (hpb _ (List.getElem_mem _))]
  have hprows : (padCirc c n).rows = rows := rfl
  have hppub : (padCirc c n).pubIds = c.pubIds := rfl
  have hpul : (padCirc c n).ultra = c.ultra := rfl
  unfold rearrangeGates
  rw [hprows, hppub, e1, hpul]
  simp only
  rcases hu : c.ultra with _ | k
  · refine ⟨_, rfl, ⟨rfl, rfl, hu.symm, rfl, rfl, ?_, p1, by simpa [hrlen] using l1, hfront⟩,
      fun h => absurd rfl h⟩
    simp [List.range_eq_range']
  · have hT' : ∀ i, InTables c.tableGateIds i → c.pubIds.length ≤ i ∧ i + 2 < n := by
      rcases hT with h | h
      · rw [hu] at h; cases h
      · exact h
    have htid : (padCirc c n).tableGateIds = c.tableGateIds := rfl
    have hdom : (padCirc c n).domSize = n := rfl
    simp only [htid, hdom]
    set ids := tableIds c.tableGateIds with hids
    have hsorted : ids.Pairwise (· > ·) := tableIds_sorted hc.tabSorted
    have hidb : ∀ g ∈ ids, c.pubIds.length ≤ g ∧ g < n - 2 := fun g hg => by
      have := hT' g (mem_tableIds.1 hg)
      omega
    have hidnot : ∀ g ∈ ids, g ∉ c.pubIds ∧ g < c.rows.length := by
      intro g hg
      have hin := mem_tableIds.1 hg
      obtain ⟨t, ht, h1, h2⟩ := hin
      have hb := hc.tabBound t ht
      refine ⟨?_, by omega⟩
      intro hgp
      obtain ⟨v, hv⟩ := hc.pubRow g hgp
      exact ((hc.tabRows g _ hv).2 (mem_tableIds.1 hg)) rfl
    obtain ⟨r2, e2, p2, l2, a2, b2, c2⟩ := moveLookups_ok ids (n - 2) r1 hsorted
      (fun g hg => (hidb g hg).2) (by omega)
    rw [e2]
    simp only
    refine ⟨_, rfl, ⟨rfl, rfl, hu.symm, rfl, rfl, ?_, p2.trans p1, by simp; omega, ?_⟩, ?_⟩
    · simp [List.range_eq_range']
    · intro i g hg
      have hi := (List.getElem?_eq_some_iff.1 hg).1
      rw [← hfront i g hg]
      show r2[i]? = _
      by_cases h0 : ids = []
      · have : r2 = r1 := by
          rw [h0] at e2
          unfold moveLookups at e2
          injection e2 with e2
          exact e2.symm
        rw [this]
      · have hle := length_le_of_sorted hsorted hidb
        obtain ⟨x, hx⟩ := List.exists_mem_of_ne_nil _ h0
        have hxb := hidb x hx
        exact c2 i (by omega) (fun hmem => by have := (hidb i hmem).1; omega)
    · intro _ i hi
      show r2[n - 2 - i]? = _
      rw [a2 i hi]
      have hmem : ids[i] ∈ ids := List.getElem_mem _
      have h1 := hidb _ hmem
      have h2 := hidnot _ hmem
      rw [c1 _ (by omega) h2.1, hleft _ h2.2]

/-! ### satisfaction -/

theorem paddingRow_holds (w : ℕ → ZMod p) : (paddingRow (p := p)).Holds 0 w := by
  simp [Row.Holds, paddingRow, paddingGate, Sel.output]

/-- the zero variable is zero -/
theorem Sat.zeroVar {c : Circ p} (hc : WF c) {pi : List (ZMod p)} {w : ℕ → ZMod p} (h : Sat c pi w) :
    w 0 = 0 := by
  obtain ⟨t, ht⟩ := hc.consts
  have := h.plain ⟨constantGate 0, 0, 0, 0, 0, 0⟩ (by rw [ht]; simp) rfl
  simpa [Row.Holds, constantGate, Sel.output] using this.symm

theorem mem_keyValTable_perm {c c' : Circ p} {k : ℕ}
    (h : c'.rows.Perm (c.rows ++ List.replicate k paddingRow)) (w : ℕ → ZMod p)
    (x : ZMod p × ZMod p × ZMod p × ZMod p) : x ∈ c'.keyValTable w ↔ x ∈ c.keyValTable w := by
  unfold Circ.keyValTable
  have := (h.filter (fun r => decide (r.sel.lookup ≠ 0))).map (fun r => r.tableTuple w)
  rw [List.mem_cons, List.mem_cons, this.mem_iff, List.filter_append]
  have h0 : (List.replicate k (paddingRow (p := p))).filter (fun r => decide (r.sel.lookup ≠ 0)) = [] := by
    rw [List.filter_eq_nil_iff]
    intro a ha
    rw [List.eq_of_mem_replicate ha]
    simp [paddingRow, paddingGate]
  rw [h0, List.append_nil]

theorem mem_resize {n : ℕ} {l : List ℕ} {v : ℕ} (hv : v ∈ resize n l) :
    v ∈ l ∨ v = 0 := by
  unfold resize at hv
  rcases List.mem_append.1 hv with hv | hv
  · exact Or.inl (List.mem_of_mem_take hv)
  · exact Or.inr (List.eq_of_mem_replicate hv)

theorem Rearranged.sat_iff {c c' : Circ p} (hc : FinOK c) {n : ℕ} (h : Rearranged c n c')
    (hr : c.rangeVars.length ≤ n) (hk : ∀ k, c.ultra = some k → 0 < rangeBound p k)
    (pi : List (ZMod p)) (w : ℕ → ZMod p) : Sat c' pi w ↔ Sat c pi w := by
  have hmem : ∀ r, r ∈ c.rows → r ∈ c'.rows := fun r hr =>
    h.perm.mem_iff.2 (List.mem_append_left _ hr)
  have hmem' : ∀ r, r ∈ c'.rows → r ∈ c.rows ∨ r = paddingRow := fun r hr => by
    rcases List.mem_append.1 (h.perm.mem_iff.1 hr) with h1 | h1
    · exact Or.inl h1
    · exact Or.inr (List.eq_of_mem_replicate h1)
  have hid : ∀ i, i < c.pubIds.length → c'.pubIds[i]? = some i := fun i hi => by
    rw [h.pubIds]; simp [hi]
  constructor
  · intro hs
    refine ⟨by rw [hs.len, h.pubIds, List.length_range], ?_, ?_, ?_, ?_⟩
    · intro i g x r hg hx hr
      have hi := (List.getElem?_eq_some_iff.1 hg).1
      exact hs.io i i x r (hid i hi) hx (by rw [h.front i g hg]; exact hr)
    · intro r hr hio
      exact hs.plain r (hmem r hr) hio
    · intro k hk v hv
      refine hs.range k (by rw [h.ultra]; exact hk) v ?_
      rw [h.rangeVars]
      show v ∈ (match c.ultra with | none => c.rangeVars | some _ => resize n c.rangeVars)
      rw [hk]
      unfold resize
      rw [List.take_of_length_le hr]
      exact List.mem_append_left _ hv
    · intro k hk r hr hl
      exact (mem_keyValTable_perm h.perm w _).1
        (hs.lookup k (by rw [h.ultra]; exact hk) r (hmem r hr) hl)
  · intro hs
    refine ⟨by rw [hs.len, h.pubIds, List.length_range], ?_, ?_, ?_, ?_⟩
    · intro i g x r hg hx hr
      rw [h.pubIds] at hg
      have hi := (List.getElem?_eq_some_iff.1 hg).1
      rw [List.length_range] at hi
      rw [List.getElem?_range hi] at hg
      injection hg with hg
      subst hg
      have hg : c.pubIds[i]? = some c.pubIds[i] := List.getElem?_eq_getElem hi
      exact hs.io i _ x r hg hx (by rw [← h.front i _ hg]; exact hr)
    · intro r hr hio
      rcases hmem' r hr with h1 | rfl
      · exact hs.plain r h1 hio
      · exact paddingRow_holds w
    · intro k hku v hv
      rw [h.ultra] at hku
      rw [h.rangeVars] at hv
      replace hv : v ∈ (match c.ultra with | none => c.rangeVars | some _ => resize n c.rangeVars) := hv
      rw [hku] at hv
      rcases mem_resize hv with h1 | rfl
      · exact hs.range k hku v h1
      · rw [Sat.zeroVar hc.wf hs, ZMod.val_zero]
        exact hk k hku
    · intro k hku r hr hl
      rw [h.ultra] at hku
      rcases hmem' r hr with h1 | rfl
      · exact (mem_keyValTable_perm h.perm w _).2 (hs.lookup k hku r h1 hl)
      · exact absurd rfl hl

theorem mapM_congr' {α β : Type} {f g : α → Except CErr β} : ∀ {l : List α},
    (∀ x ∈ l, f x = g x) → l.mapM f = l.mapM g
  | [], _ => rfl
  | x :: l, h => by
    rw [List.mapM_cons, List.mapM_cons, h x (by simp), mapM_congr' (fun y hy => h y (by simp [hy]))]

theorem Rearranged.publicInput {c c' : Circ p} {n : ℕ} (h : Rearranged c n c') :
    publicInput c' = Circuit.publicInput c := by
  unfold Circuit.publicInput
  rw [h.pubIds]
  have e : List.range c.pubIds.length = c.pubIds.zipIdx.map Prod.snd := by
    rw [List.zipIdx_map_snd, List.range_eq_range']
  have e2 : c.pubIds = c.pubIds.zipIdx.map Prod.fst := by rw [List.zipIdx_map_fst]
  rw [e]
  conv_rhs => rw [e2]
  rw [List.mapM_map, List.mapM_map]
  refine mapM_congr' ?_
  rintro ⟨g, i⟩ hx
  have hg : c.pubIds[i]? = some g := List.mem_zipIdx_iff_getElem?.1 hx
  have := h.front i g hg
  show ioValue c' i = ioValue c g
  unfold ioValue Circ.val
  rw [this, h.numVars, h.witness]

/-- the public-input gates are exactly the first rows -/
theorem Rearranged.io_rows {c c' : Circ p} (hc : FinOK c) {n : ℕ} (h : Rearranged c n c') :
    ∀ i r, c'.rows[i]? = some r → (r.sel.io = true ↔ i < c.pubIds.length) := by
  have := count_segment (fun r : Row p => r.sel.io) c'.rows 0 c.pubIds.length ?_ ?_
  · intro i r hr
    have := this i r hr
    simpa using this
  · rw [h.perm.countP_eq, List.countP_append, hc.ioCount, List.countP_eq_zero.2, Nat.add_zero]
    intro r hr
    rw [List.eq_of_mem_replicate hr]
    simp [paddingRow, paddingGate]
  · intro i _ hi
    rw [Nat.zero_add] at hi
    have hg : c.pubIds[i]? = some c.pubIds[i] := List.getElem?_eq_getElem hi
    obtain ⟨v, hv⟩ := hc.pubRow _ (List.getElem_mem hi)
    exact ⟨_, (h.front i _ hg).trans hv, rfl⟩

theorem Rearranged.countLookup {c c' : Circ p} (hc : FinOK c) {n : ℕ} (h : Rearranged c n c') :
    c'.rows.countP (fun r => decide (r.sel.lookup ≠ 0)) = c.numTableElems := by
  rw [h.perm.countP_eq, List.countP_append, hc.tabCount, List.countP_eq_zero.2, Nat.add_zero]
  intro r hr
  rw [List.eq_of_mem_replicate hr]
  simp [paddingRow, paddingGate]

end Verif.Plonk
