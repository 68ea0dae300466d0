import Verif.Plonk.SortedVec
import Verif.Plonk.PermLemmas
import Verif.Pcs.MultilinearBatch

/-!
# The lookup side of a finalized circuit
-/

set_option linter.unusedSectionVars false

namespace Verif.Plonk

open Verif.Circuit Verif.Pcs

variable {p : ℕ} [Fact p.Prime]

theorem collect_ok {α β : Type} {g : α → Except CErr β} {h : α → β} : ∀ {l : List α},
    (∀ a ∈ l, g a = .ok (h a)) → collect g l = .ok (l.map h) := by
  intro l
  induction l with
  | nil => intro _; rfl
  | cons a l ih =>
    intro hl
    rw [collect, hl a (by simp), ih (fun b hb => hl b (by simp [hb]))]
    rfl

/-- what the lookup functions need of a finalized circuit -/
structure LookupReady (f : FCirc p) (k : ℕ) : Prop where
  ultra : f.circ.ultra = some k
  rows : f.circ.rows.length = f.dom.size
  range : f.circ.rangeVars.length = f.dom.size
  rowBound : ∀ r ∈ f.circ.rows, r.w0 < f.circ.numVars ∧ r.w1 < f.circ.numVars ∧
    r.w2 < f.circ.numVars ∧ r.w3 < f.circ.numVars ∧ r.w4 < f.circ.numVars
  rangeBound : ∀ v ∈ f.circ.rangeVars, v < f.circ.numVars
  size : 2 ^ k < f.dom.size

theorem lookupReady {S : ℕ} {root : ZMod p} {rnd : List (ZMod p)} {c : Circ p} {f : FCirc p} {k : ℕ}
    (hok : FinOK c) (ht : c.ultra = some k) (hf : finalize S root rnd c = .ok f) :
    LookupReady f k := by
  obtain ⟨hfull, -⟩ := finalized_full hok hf
  obtain ⟨hd, -, hr, -⟩ := finalize_ok hf
  have hn := newDomain_size hd
  have hrl := rows_le_numSlots c
  obtain ⟨-, -, -, hu, -, -⟩ := rearrange_fields hok (by omega) hr
  rw [ht] at hu
  have hv : wireVecs f.circ = [f.circ.rows.map Row.w0, f.circ.rows.map Row.w1, f.circ.rows.map Row.w2,
      f.circ.rows.map Row.w3, f.circ.rows.map Row.w4, f.circ.rangeVars] := by
    unfold wireVecs
    rw [hu]
    rfl
  have hlen := hfull.len
  have hb := hfull.bound
  rw [hv] at hlen hb
  have hb' : ∀ (i j : ℕ) (l : List ℕ) (x : ℕ), [f.circ.rows.map Row.w0, f.circ.rows.map Row.w1,
      f.circ.rows.map Row.w2, f.circ.rows.map Row.w3, f.circ.rows.map Row.w4,
      f.circ.rangeVars][i]? = some l → l[j]? = some x → x < f.circ.numVars := by
    intro i j l x h1 h2
    refine hb (i, j) x ?_
    unfold varAt
    rw [h1]
    exact h2
  refine ⟨hu, ?_, hlen _ (by simp), ?_, ?_, ?_⟩
  · have := hlen (f.circ.rows.map Row.w0) (by simp)
    rwa [List.length_map] at this
  · intro r hr
    obtain ⟨j, hj⟩ := List.mem_iff_getElem?.1 hr
    have : ∀ g : Row p → ℕ, (f.circ.rows.map g)[j]? = some (g r) := by
      intro g
      rw [List.getElem?_map, hj]
      rfl
    exact ⟨hb' 0 j _ _ rfl (this Row.w0), hb' 1 j _ _ rfl (this Row.w1),
      hb' 2 j _ _ rfl (this Row.w2), hb' 3 j _ _ rfl (this Row.w3), hb' 4 j _ _ rfl (this Row.w4)⟩
  · intro v hv
    obtain ⟨j, hj⟩ := List.mem_iff_getElem?.1 hv
    exact hb' 5 j _ _ rfl hj
  · refine lt_of_lt_of_le ?_ hn
    unfold numSlots
    rw [ht]
    simp only
    have h1 := le_max_right c.rows.length (max (2 ^ k) c.rangeVars.length + c.numTableElems + 1)
    have h2 := le_max_left (2 ^ k) c.rangeVars.length
    omega

theorem finalize_val {S : ℕ} {root : ZMod p} {rnd : List (ZMod p)} {c : Circ p} {f : FCirc p}
    (hok : FinOK c) (hf : finalize S root rnd c = .ok f) : f.circ.val = c.val := by
  obtain ⟨hd, hne1, hr, -⟩ := finalize_ok hf
  have hn := newDomain_size hd
  have h1 := rows_le_numSlots c
  obtain ⟨-, -, h, -⟩ := rearrange_fields hok (by omega) hr
  funext x
  unfold Circ.val
  rw [h]

theorem wireVal_ok {c : Circ p} {i j : ℕ} {l : List ℕ} {x : ℕ} (h1 : (wireVecs c)[i]? = some l)
    (h2 : l[j]? = some x) (h3 : x < c.numVars) : wireVal c i j = .ok (c.val x) := by
  unfold wireVal wireAt
  rw [h1]
  simp only [Option.map_some, List.getD_eq_getElem?_getD, h2, Option.getD_some]
  rw [if_neg (by omega)]

theorem LookupReady.wires {f : FCirc p} {k : ℕ} (h : LookupReady f k) {j : ℕ} {r : Row p}
    (hj : f.circ.rows[j]? = some r) :
    wireVal f.circ 0 j = .ok (f.circ.val r.w0) ∧ wireVal f.circ 1 j = .ok (f.circ.val r.w1) ∧
    wireVal f.circ 2 j = .ok (f.circ.val r.w2) ∧ wireVal f.circ 3 j = .ok (f.circ.val r.w3) ∧
    wireVal f.circ 4 j = .ok (f.circ.val r.w4) ∧
    wireVal f.circ 5 j = .ok (f.circ.val (f.circ.rangeVars.getD j 0)) := by
  have hv : wireVecs f.circ = [f.circ.rows.map Row.w0, f.circ.rows.map Row.w1, f.circ.rows.map Row.w2,
      f.circ.rows.map Row.w3, f.circ.rows.map Row.w4, f.circ.rangeVars] := by
    unfold wireVecs
    rw [h.ultra]
    rfl
  have hm : ∀ g : Row p → ℕ, (f.circ.rows.map g)[j]? = some (g r) := by
    intro g
    rw [List.getElem?_map, hj]
    rfl
  obtain ⟨b0, b1, b2, b3, b4⟩ := h.rowBound r (List.mem_of_getElem? hj)
  have hjl : j < f.circ.rangeVars.length := by
    rw [h.range, ← h.rows]
    exact (List.getElem?_eq_some_iff.1 hj).1
  have hrv : f.circ.rangeVars[j]? = some (f.circ.rangeVars.getD j 0) := by
    rw [List.getD_eq_getElem?_getD, List.getElem?_eq_getElem hjl]
    rfl
  refine ⟨wireVal_ok (by rw [hv]; rfl) (hm Row.w0) b0, wireVal_ok (by rw [hv]; rfl) (hm Row.w1) b1,
    wireVal_ok (by rw [hv]; rfl) (hm Row.w2) b2, wireVal_ok (by rw [hv]; rfl) (hm Row.w3) b3,
    wireVal_ok (by rw [hv]; rfl) (hm Row.w4) b4, wireVal_ok (by rw [hv]; rfl) hrv ?_⟩
  exact h.rangeBound _ (List.mem_of_getElem? hrv)

theorem LookupReady.lookupValue {f : FCirc p} {k : ℕ} (h : LookupReady f k) (τ : ZMod p) {j : ℕ}
    {r : Row p} (hj : f.circ.rows[j]? = some r) :
    mergedLookupValue f.circ τ j = .ok (f.circ.val (f.circ.rangeVars.getD j 0) +
      r.sel.lookup * τ * (r.sel.domSep + τ * (f.circ.val r.w0 + τ * (f.circ.val r.w1 +
        τ * f.circ.val r.w2)))) := by
  obtain ⟨h0, h1, h2, h3, h4, h5⟩ := h.wires hj
  unfold mergedLookupValue
  rw [h5, h0, h1, h2, hj]

theorem LookupReady.rangeTable {f : FCirc p} {k : ℕ} (h : LookupReady f k) :
    ∃ l, rangeTable f = .ok l ∧ l.length = f.dom.size ∧
      ∀ j < f.dom.size, l[j]? = some (if j < 2 ^ k then ((j % 2 ^ 32 : ℕ) : ZMod p) else 0) := by
  have hs := h.size
  refine ⟨(List.range (2 ^ k)).map (fun i => ((i % 2 ^ 32 : ℕ) : ZMod p)) ++
      List.replicate (f.dom.size - 2 ^ k) 0, ?_, ?_, ?_⟩
  · unfold Plonk.rangeTable
    rw [h.ultra]
    simp only
    rw [if_neg (by omega)]
  · rw [List.length_append, List.length_map, List.length_range, List.length_replicate]
    omega
  · intro j hj
    by_cases h1 : j < 2 ^ k
    · rw [if_pos h1, List.getElem?_append_left (by simpa using h1), List.getElem?_map,
        List.getElem?_range h1]
      rfl
    · rw [if_neg h1, List.getElem?_append_right (by simpa using h1), List.getElem?_replicate,
        if_pos (by simp; omega)]

theorem LookupReady.tableValue {f : FCirc p} {k : ℕ} (h : LookupReady f k) (τ : ZMod p)
    {l : List (ZMod p)}
    (hl : ∀ j < f.dom.size, l[j]? = some (if j < 2 ^ k then ((j % 2 ^ 32 : ℕ) : ZMod p) else 0)) {j : ℕ}
    {r : Row p} (hj : f.circ.rows[j]? = some r) :
    mergedTableValue f.circ τ l j = .ok ((if j < 2 ^ k then ((j % 2 ^ 32 : ℕ) : ZMod p) else 0) +
      r.sel.lookup * τ * (r.sel.tableDomSep + τ * (r.sel.tableKey + τ * (f.circ.val r.w3 +
        τ * f.circ.val r.w4)))) := by
  obtain ⟨h0, h1, h2, h3, h4, h5⟩ := h.wires hj
  have hjn : j < f.dom.size := by
    rw [← h.rows]
    exact (List.getElem?_eq_some_iff.1 hj).1
  unfold mergedTableValue
  rw [hl j hjn, hj]
  simp only [h3, h4]

/-! ### the product loop -/

theorem lookupLoop_ok {f : FCirc p} {τ β γ : ZMod p} {table sorted : List (ZMod p)}
    {x : ℕ → ZMod p} : ∀ (js : List ℕ) (prev : ZMod p),
    (∀ j ∈ js, mergedLookupValue f.circ τ j = .ok (x j)) →
    (∀ j ∈ js, j + 1 < table.length ∧ f.dom.size + j < sorted.length ∧ 0 < f.dom.size) →
    (∀ j ∈ js, lookupDen β γ (sorted.getD j 0) (sorted.getD (j + 1) 0)
      (sorted.getD (f.dom.size - 1 + j) 0) (sorted.getD (f.dom.size + j) 0) ≠ 0) →
    ∃ l, lookupLoop f τ β γ table sorted js prev = .ok l ∧ l.length = js.length ∧
      ∀ i (hi : i < js.length), (prev :: l).getD (i + 1) 0 *
        lookupDen β γ (sorted.getD js[i] 0) (sorted.getD (js[i] + 1) 0)
          (sorted.getD (f.dom.size - 1 + js[i]) 0) (sorted.getD (f.dom.size + js[i]) 0) =
        (prev :: l).getD i 0 *
          lookupNum β γ (x js[i]) (table.getD js[i] 0) (table.getD (js[i] + 1) 0) := by
  intro js
  induction js with
  | nil => intro prev _ _ _; exact ⟨[], rfl, rfl, fun i hi => absurd hi (by simp)⟩
  | cons j js ih =>
    intro prev h1 h2 h3
    have hB := h3 j (by simp)
    obtain ⟨b1, b2, b3⟩ := h2 j (by simp)
    have get : ∀ (l : List (ZMod p)) (i : ℕ), i < l.length → l[i]? = some (l.getD i 0) := by
      intro l i hi
      rw [List.getD_eq_getElem?_getD, List.getElem?_eq_getElem hi]
      rfl
    obtain ⟨l, e, hl, hrec⟩ := ih (prev * lookupNum β γ (x j) (table.getD j 0) (table.getD (j + 1) 0) /
        lookupDen β γ (sorted.getD j 0) (sorted.getD (j + 1) 0)
          (sorted.getD (f.dom.size - 1 + j) 0) (sorted.getD (f.dom.size + j) 0))
      (fun i hi => h1 i (by simp [hi])) (fun i hi => h2 i (by simp [hi]))
      (fun i hi => h3 i (by simp [hi]))
    refine ⟨prev * lookupNum β γ (x j) (table.getD j 0) (table.getD (j + 1) 0) /
        lookupDen β γ (sorted.getD j 0) (sorted.getD (j + 1) 0)
          (sorted.getD (f.dom.size - 1 + j) 0) (sorted.getD (f.dom.size + j) 0) :: l, ?_,
      by simp [hl], ?_⟩
    · unfold lookupLoop
      rw [h1 j (by simp), get table j (by omega), get table (j + 1) (by omega),
        get sorted j (by omega), get sorted (j + 1) (by omega), get sorted _ (by omega),
        get sorted (f.dom.size + j) (by omega)]
      simp only
      rw [if_neg hB, e]
    · intro i hi
      cases i with
      | zero =>
        show _ / _ * _ = _
        rw [List.getElem_cons_zero, div_mul_cancel₀ _ hB]
        rfl
      | succ i => exact hrec i (by simpa using hi)

theorem lookupLoop_panic {f : FCirc p} {τ β γ : ZMod p} {table sorted : List (ZMod p)}
    {x : ℕ → ZMod p} : ∀ (js : List ℕ) (prev : ZMod p),
    (∀ j ∈ js, mergedLookupValue f.circ τ j = .ok (x j)) →
    (∀ j ∈ js, j + 1 < table.length ∧ f.dom.size + j < sorted.length ∧ 0 < f.dom.size) →
    (∃ j ∈ js, lookupDen β γ (sorted.getD j 0) (sorted.getD (j + 1) 0)
      (sorted.getD (f.dom.size - 1 + j) 0) (sorted.getD (f.dom.size + j) 0) = 0) →
    lookupLoop f τ β γ table sorted js prev = .error .panic := by
  intro js
  induction js with
  | nil => intro prev _ _ h; obtain ⟨j, hj, _⟩ := h; simp at hj
  | cons j js ih =>
    intro prev h1 h2 h3
    obtain ⟨b1, b2, b3⟩ := h2 j (by simp)
    have get : ∀ (l : List (ZMod p)) (i : ℕ), i < l.length → l[i]? = some (l.getD i 0) := by
      intro l i hi
      rw [List.getD_eq_getElem?_getD, List.getElem?_eq_getElem hi]
      rfl
    unfold lookupLoop
    rw [h1 j (by simp), get table j (by omega), get table (j + 1) (by omega),
      get sorted j (by omega), get sorted (j + 1) (by omega), get sorted _ (by omega),
      get sorted (f.dom.size + j) (by omega)]
    simp only
    split
    · rfl
    · rename_i hB
      rw [ih _ (fun i hi => h1 i (by simp [hi])) (fun i hi => h2 i (by simp [hi]))]
      obtain ⟨i, hi, h0⟩ := h3
      rcases List.mem_cons.1 hi with rfl | hi
      · exact absurd h0 hB
      · exact ⟨i, hi, h0⟩

/-! ### products over rows -/

/-- the pairs of neighbours as a product over positions -/
theorem adj_prod (β γ : ZMod p) (l : List (ZMod p)) :
    ((adj l).map (pairFactor β γ)).prod =
      ∏ j ∈ Finset.range (l.length - 1), (γ * (1 + β) + l.getD j 0 + β * l.getD (j + 1) 0) := by
  induction l with
  | nil => rfl
  | cons x l ih =>
    cases l with
    | nil => rfl
    | cons y l =>
      rw [adj_cons_cons, List.map_cons, List.prod_cons, ih]
      show _ = ∏ j ∈ Finset.range (l.length + 1), _
      rw [Finset.prod_range_succ', mul_comm]
      rfl

theorem prod_map_range (g : ℕ → ZMod p) (n : ℕ) :
    ((List.range n).map g).prod = ∏ i ∈ Finset.range n, g i := by
  induction n with
  | zero => simp
  | succ n ih => rw [List.range_succ, List.map_append, List.prod_append, ih, Finset.prod_range_succ]; simp

/-- all numerators, all denominators -/
theorem num_prod (β γ : ZMod p) (x : ℕ → ZMod p) (t : List (ZMod p)) (n : ℕ) (ht : t.length = n + 1) :
    ∏ j ∈ Finset.range n, lookupNum β γ (x j) (t.getD j 0) (t.getD (j + 1) 0) =
      ((adj t).map (pairFactor β γ)).prod *
        (((List.range n).map x).map (fun x => (1 + β) * (γ + x))).prod := by
  rw [adj_prod, ht, Nat.add_sub_cancel, List.map_map, prod_map_range, ← Finset.prod_mul_distrib]
  refine Finset.prod_congr rfl ?_
  intro j _
  unfold lookupNum
  simp only [Function.comp]
  ring

theorem den_prod (β γ : ZMod p) (s : List (ZMod p)) (n : ℕ) (hs : s.length = 2 * n + 1) :
    ∏ j ∈ Finset.range n, lookupDen β γ (s.getD j 0) (s.getD (j + 1) 0) (s.getD (n + j) 0)
      (s.getD (n + 1 + j) 0) = ((adj s).map (pairFactor β γ)).prod := by
  rw [adj_prod, hs, show 2 * n + 1 - 1 = n + n by omega, Finset.prod_range_add, ← Finset.prod_mul_distrib]
  refine Finset.prod_congr rfl ?_
  intro j _
  unfold lookupDen
  rw [show n + j + 1 = n + 1 + j by omega]

end Verif.Plonk
