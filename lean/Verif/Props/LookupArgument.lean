import Verif.Plonk.LookupLemmas
import Verif.Props.Finalize

/-!
# C26: the sorted vector and the product of the lookup argument

The values of the argument are stated from the rows of the finalized circuit: a row looks up the value
of its range wire plus, on a lookup row, its tuple combined with powers of `τ`; a row of the table has
its number, while that is below the range size, plus its table tuple.
-/

set_option linter.unusedSectionVars false

namespace Verif.Props.LookupArgument

open Verif.Circuit Verif.Pcs Verif.Plonk Verif.Props.Finalize

variable {p : ℕ} [Fact p.Prime]

/-- a tuple combined with powers of a challenge -/
def combine (τ : ZMod p) (x : ZMod p × ZMod p × ZMod p × ZMod p) : ZMod p :=
  τ * x.1 + τ ^ 2 * x.2.1 + τ ^ 3 * x.2.2.1 + τ ^ 4 * x.2.2.2

/-- what row `j` looks up -/
def looked (f : FCirc p) (w : ℕ → ZMod p) (τ : ZMod p) (j : ℕ) : ZMod p :=
  w (f.circ.rangeVars.getD j 0) +
    match f.circ.rows[j]? with
    | none => 0
    | some r => r.sel.lookup * combine τ (r.lookupTuple w)

/-- row `j` of the table, for ranges of `k` bits -/
def entry (f : FCirc p) (k : ℕ) (w : ℕ → ZMod p) (τ : ZMod p) (j : ℕ) : ZMod p :=
  (if j < 2 ^ k then (j : ZMod p) else 0) +
    match f.circ.rows[j]? with
    | none => 0
    | some r => r.sel.lookup * combine τ (r.tableTuple w)

/-- all looked-up values: of all rows but the last -/
def lookups (f : FCirc p) (w : ℕ → ZMod p) (τ : ZMod p) : List (ZMod p) :=
  (List.range (f.dom.size - 1)).map (looked f w τ)

/-- the table -/
def table (f : FCirc p) (k : ℕ) (w : ℕ → ZMod p) (τ : ZMod p) : List (ZMod p) :=
  (List.range f.dom.size).map (entry f k w τ)

/-- the pairs of neighbours of a list -/
def neighbours (l : List (ZMod p)) : List (ZMod p × ZMod p) := l.zip l.tail

/-- numerator of row `j` -/
def num (f : FCirc p) (k : ℕ) (w : ℕ → ZMod p) (τ β γ : ZMod p) (j : ℕ) : ZMod p :=
  (1 + β) * (γ + looked f w τ j) *
    (γ * (1 + β) + entry f k w τ j + β * entry f k w τ (j + 1))

/-- denominator of row `j` for a sorted vector -/
def den (n : ℕ) (s : List (ZMod p)) (β γ : ZMod p) (j : ℕ) : ZMod p :=
  (γ * (1 + β) + s.getD j 0 + β * s.getD (j + 1) 0) *
    (γ * (1 + β) + s.getD (n - 1 + j) 0 + β * s.getD (n + j) 0)

/-- the rows but the last are linked by an accumulator that starts and ends with one -/
def Closes (f : FCirc p) (k : ℕ) (w : ℕ → ZMod p) (τ : ZMod p) (s : List (ZMod p))
    (β γ : ZMod p) : Prop :=
  ∃ z : ℕ → ZMod p, z 0 = 1 ∧ z (f.dom.size - 1) = 1 ∧
    ∀ j < f.dom.size - 1, z (j + 1) * den f.dom.size s β γ j = z j * num f k w τ β γ j

variable {S : ℕ} {root : ZMod p} {rnd : List (ZMod p)} {c : Circ p} {f : FCirc p} {k : ℕ}

theorem looked_some {w : ℕ → ZMod p} {τ : ZMod p} {j : ℕ} {r : Row p} (h : f.circ.rows[j]? = some r) :
    looked f w τ j = w (f.circ.rangeVars.getD j 0) + r.sel.lookup * combine τ (r.lookupTuple w) := by
  unfold looked
  rw [h]

theorem entry_some {w : ℕ → ZMod p} {τ : ZMod p} {j : ℕ} {r : Row p} (h : f.circ.rows[j]? = some r) :
    entry f k w τ j = (if j < 2 ^ k then (j : ZMod p) else 0) +
      r.sel.lookup * combine τ (r.tableTuple w) := by
  unfold entry
  rw [h]

theorem table_length (w : ℕ → ZMod p) (τ : ZMod p) : (table f k w τ).length = f.dom.size := by
  simp [table]

theorem table_getD (w : ℕ → ZMod p) (τ : ZMod p) {j : ℕ} (hj : j < f.dom.size) :
    (table f k w τ).getD j 0 = entry f k w τ j := by
  unfold table
  rw [List.getD_eq_getElem?_getD, List.getElem?_map, List.getElem?_range hj]
  rfl

theorem lookedValue_ok (hc : Built c) (ht : c.ultra = some k) (hf : finalize S root rnd c = .ok f)
    (τ : ZMod p) : ∀ j < f.dom.size, mergedLookupValue f.circ τ j = .ok (looked f c.val τ j) := by
  have hR := lookupReady hc.ok ht hf
  intro j hj
  have hr : f.circ.rows[j]? = some (f.circ.rows[j]'(by rw [hR.rows]; exact hj)) :=
    List.getElem?_eq_getElem _
  rw [hR.lookupValue τ hr, looked_some hr, finalize_val hc.ok hf]
  unfold combine Row.lookupTuple
  congr 1
  ring

/-- C26: the range table, for every circuit whose domain holds it: `0, …, 2^k - 1` and zeros. -/
theorem C26_range_table (f : FCirc p) (ht : f.circ.ultra = some k) (hk : k ≤ 32)
    (hn : 2 ^ k ≤ f.dom.size) :
    ∃ l, rangeTable f = .ok l ∧ l.length = f.dom.size ∧
      ∀ j < f.dom.size, l[j]? = some (if j < 2 ^ k then (j : ZMod p) else 0) := by
  refine ⟨(List.range (2 ^ k)).map (fun i => ((i % 2 ^ 32 : ℕ) : ZMod p)) ++
      List.replicate (f.dom.size - 2 ^ k) 0, ?_, ?_, ?_⟩
  · unfold rangeTable
    rw [ht]
    simp only
    rw [if_neg (by omega)]
  · rw [List.length_append, List.length_map, List.length_range, List.length_replicate]
    omega
  · intro j hj
    by_cases h1 : j < 2 ^ k
    · have : 2 ^ k ≤ 2 ^ 32 := Nat.pow_le_pow_right (by norm_num) hk
      rw [if_pos h1, List.getElem?_append_left (by simpa using h1), List.getElem?_map,
        List.getElem?_range h1, Option.map_some, Nat.mod_eq_of_lt (by omega)]
    · rw [if_neg h1, List.getElem?_append_right (by simpa using h1), List.getElem?_replicate,
        if_pos (by simp; omega)]

example : ∃ f : FCirc 97, f.circ.ultra = some 2 ∧ 2 ^ 2 ≤ f.dom.size ∧
    rangeTable f = .ok [0, 1, 2, 3] :=
  ⟨⟨Circ.new 97 (some 2), ⟨2, 22, 1⟩, [], []⟩, rfl, by decide, by decide⟩

/-- C26: the merged table of the code is the table. -/
theorem C26_table (hc : Built c) (ht : c.ultra = some k) (hk : k ≤ 32)
    (hf : finalize S root rnd c = .ok f) (τ : ZMod p) :
    mergedTable f τ = .ok (table f k c.val τ) := by
  have hR := lookupReady hc.ok ht hf
  obtain ⟨l, e, -, hl⟩ := hR.rangeTable
  unfold mergedTable
  rw [e]
  simp only
  refine collect_ok ?_
  intro j hj
  have hj := List.mem_range.1 hj
  have hr : f.circ.rows[j]? = some (f.circ.rows[j]'(by rw [hR.rows]; exact hj)) :=
    List.getElem?_eq_getElem _
  rw [hR.tableValue τ hl hr, entry_some hr, finalize_val hc.ok hf]
  have hmod : (if j < 2 ^ k then ((j % 2 ^ 32 : ℕ) : ZMod p) else 0) =
      if j < 2 ^ k then (j : ZMod p) else 0 := by
    split
    · rename_i h
      have : 2 ^ k ≤ 2 ^ 32 := Nat.pow_le_pow_right (by norm_num) hk
      rw [Nat.mod_eq_of_lt (by omega)]
    · rfl
  rw [hmod]
  unfold combine Row.tableTuple
  congr 1
  ring

theorem sorted_eq (hc : Built c) (ht : c.ultra = some k) (hf : finalize S root rnd c = .ok f)
    (τ : ZMod p) : sortedVecPolys f τ (table f k c.val τ) =
      if (mergeSorted (table f k c.val τ) (countMap (lookups f c.val τ))).length ≠ 2 * f.dom.size - 1
      then .error .parameter
      else .ok (mergeSorted (table f k c.val τ) (countMap (lookups f c.val τ)),
        f.dom.ifft ((mergeSorted (table f k c.val τ) (countMap (lookups f c.val τ))).take f.dom.size),
        f.dom.ifft ((mergeSorted (table f k c.val τ) (countMap (lookups f c.val τ))).drop
          (f.dom.size - 1))) := by
  have hR := lookupReady hc.ok ht hf
  unfold sortedVecPolys
  rw [if_neg (by rw [hR.ultra]; simp), if_neg (by rw [hR.range]; simp),
    if_neg (by rw [table_length]; simp), collect_ok (h := looked f c.val τ) (by
      intro j hj
      have := List.mem_range.1 hj
      exact lookedValue_ok hc ht hf τ j (by omega))]
  rfl

theorem sorted_len_iff (hc : Built c) (ht : c.ultra = some k) (hf : finalize S root rnd c = .ok f)
    (τ : ZMod p) :
    (mergeSorted (table f k c.val τ) (countMap (lookups f c.val τ))).length = 2 * f.dom.size - 1 ↔
      ∀ x ∈ lookups f c.val τ, x ∈ table f k c.val τ := by
  have hR := lookupReady hc.ok ht hf
  have hs := hR.size
  rw [← mergeSorted_length_iff, table_length]
  simp only [lookups, List.length_map, List.length_range]
  have h2 : 0 < 2 ^ k := by positivity
  rw [show 2 * f.dom.size - 1 = f.dom.size + (f.dom.size - 1) by omega]

/-- C26: when every looked-up value is in the table, the sorted vector is constructed.  It contains the
table and the looked-up values, its neighbours are those of the table and one pair `(x, x)` for every
looked-up `x`, and the two polynomials take its values, overlapping in one. -/
theorem C26_sorted (hc : Built c) (ht : c.ultra = some k) (hroot : IsPrimitiveRoot root (2 ^ S))
    (hf : finalize S root rnd c = .ok f) (τ : ZMod p)
    (hin : ∀ x ∈ lookups f c.val τ, x ∈ table f k c.val τ) :
    ∃ s h₁ h₂, sortedVecPolys f τ (table f k c.val τ) = .ok (s, h₁, h₂) ∧
      s.length = 2 * f.dom.size - 1 ∧
      s.Perm (table f k c.val τ ++ lookups f c.val τ) ∧
      (neighbours s).Perm
        (neighbours (table f k c.val τ) ++ (lookups f c.val τ).map (fun x => (x, x))) ∧
      ∀ j < f.dom.size, evalAt h₁ (f.dom.gen ^ j) = s.getD j 0 ∧
        evalAt h₂ (f.dom.gen ^ j) = s.getD (f.dom.size - 1 + j) 0 := by
  have hR := lookupReady hc.ok ht hf
  have hs := hR.size
  have hlen := (sorted_len_iff hc ht hf τ).2 hin
  obtain ⟨hd, -⟩ := finalize_ok hf
  obtain ⟨hg, hpos⟩ := gen_of_newDomain hroot hd
  have he := sorted_eq hc ht hf τ
  rw [if_neg (by simpa using hlen)] at he
  refine ⟨_, _, _, he, hlen, ?_, mergeSorted_adj_perm _ _ hin, ?_⟩
  · refine (mergeSorted_perm _ _).trans ?_
    rw [List.filter_eq_self.2 (by simpa using hin)]
  · intro j hj
    generalize mergeSorted (table f k c.val τ) (countMap (lookups f c.val τ)) = s at hlen
    refine ⟨?_, ?_⟩
    · rw [ifft_eval f.dom hg _ (by simp) j hj, List.getD_eq_getElem?_getD,
        List.getElem?_take_of_lt hj, ← List.getD_eq_getElem?_getD]
    · rw [ifft_eval f.dom hg _ (by simp; omega) j hj, List.getD_eq_getElem?_getD,
        List.getElem?_drop, ← List.getD_eq_getElem?_getD]

/-- C26: when some looked-up value is not in the table, the construction fails. -/
theorem C26_fails (hc : Built c) (ht : c.ultra = some k) (hf : finalize S root rnd c = .ok f)
    (τ : ZMod p) (hout : ∃ x ∈ lookups f c.val τ, x ∉ table f k c.val τ) :
    sortedVecPolys f τ (table f k c.val τ) = .error .parameter := by
  rw [sorted_eq hc ht hf τ, if_pos]
  intro h
  obtain ⟨x, h1, h2⟩ := hout
  exact h2 ((sorted_len_iff hc ht hf τ).1 h x h1)

theorem num_table (w : ℕ → ZMod p) (τ β γ : ZMod p) {j : ℕ} (hj : j + 1 < f.dom.size) :
    num f k w τ β γ j = lookupNum β γ (looked f w τ j) ((table f k w τ).getD j 0)
      ((table f k w τ).getD (j + 1) 0) := by
  rw [table_getD w τ hj, table_getD w τ (by omega)]
  rfl

theorem num_total (w : ℕ → ZMod p) (τ β γ : ZMod p) (hn : 0 < f.dom.size) :
    ∏ j ∈ Finset.range (f.dom.size - 1), num f k w τ β γ j =
      ((adj (table f k w τ) ++ (lookups f w τ).map (fun x => (x, x))).map (pairFactor β γ)).prod := by
  rw [List.map_append, List.prod_append, List.map_map]
  have h := num_prod β γ (looked f w τ) (table f k w τ) (f.dom.size - 1) (by rw [table_length]; omega)
  rw [Finset.prod_congr rfl (fun j hj => num_table (k := k) w τ β γ (f := f)
    (by have := Finset.mem_range.1 hj; omega)), h]
  congr 2
  refine List.map_congr_left ?_
  intro x _
  exact (pairFactor_diag β γ x).symm

theorem den_total (s : List (ZMod p)) (n : ℕ) (hn : 0 < n) (hs : s.length = 2 * n - 1) (β γ : ZMod p) :
    ∏ j ∈ Finset.range (n - 1), den n s β γ j = ((adj s).map (pairFactor β γ)).prod := by
  rw [← den_prod β γ s (n - 1) (by omega)]
  refine Finset.prod_congr rfl ?_
  intro j _
  unfold den lookupDen
  rw [show n - 1 + 1 + j = n + j by omega]

/-- C26: for the sorted vector of the code the product over all rows but the last closes, for all
challenges. -/
theorem C26_closes (hc : Built c) (ht : c.ultra = some k) (hf : finalize S root rnd c = .ok f)
    (τ : ZMod p) {s h₁ h₂ : List (ZMod p)}
    (hs : sortedVecPolys f τ (table f k c.val τ) = .ok (s, h₁, h₂)) (β γ : ZMod p) :
    ∏ j ∈ Finset.range (f.dom.size - 1), num f k c.val τ β γ j =
      ∏ j ∈ Finset.range (f.dom.size - 1), den f.dom.size s β γ j := by
  have hR := lookupReady hc.ok ht hf
  have hsz := hR.size
  have h2k : 0 < 2 ^ k := by positivity
  rw [sorted_eq hc ht hf τ] at hs
  split at hs
  · cases hs
  · rename_i hlen
    rw [not_ne_iff] at hlen
    injection hs with hs
    injection hs with hs _
    rw [num_total _ _ _ _ (by omega), den_total s _ (by omega) (by rw [← hs]; exact hlen), ← hs]
    exact ((mergeSorted_adj_perm _ _ ((sorted_len_iff hc ht hf τ).1 hlen)).map _).prod_eq.symm

/-- C26: the product polynomial of the code.  When the denominators of the rows before the last but one
are not zero, it is computed; it is one at the first and at the last point of the domain and goes from
the numerator to the denominator on every row but the last. -/
theorem C26_polynomial (hc : Built c) (ht : c.ultra = some k) (hroot : IsPrimitiveRoot root (2 ^ S))
    (hf : finalize S root rnd c = .ok f) (τ : ZMod p) {s h₁ h₂ : List (ZMod p)}
    (hs : sortedVecPolys f τ (table f k c.val τ) = .ok (s, h₁, h₂)) (β γ : ZMod p)
    (hden : ∀ j, j + 2 < f.dom.size → den f.dom.size s β γ j ≠ 0) :
    ∃ Z : List (ZMod p), lookupProdPoly f τ β γ (table f k c.val τ) s = .ok Z ∧
      evalAt Z (1 : ZMod p) = 1 ∧ evalAt Z (f.dom.gen ^ (f.dom.size - 1)) = 1 ∧
      ∀ j < f.dom.size - 1, evalAt Z (f.dom.gen ^ (j + 1)) * den f.dom.size s β γ j =
        evalAt Z (f.dom.gen ^ j) * num f k c.val τ β γ j := by
  have hR := lookupReady hc.ok ht hf
  have hsz := hR.size
  have h2k : 0 < 2 ^ k := by positivity
  obtain ⟨hd, -⟩ := finalize_ok hf
  obtain ⟨hg, hpos⟩ := gen_of_newDomain hroot hd
  have hcl := C26_closes hc ht hf τ hs β γ
  have hlen : s.length = 2 * f.dom.size - 1 := by
    rw [sorted_eq hc ht hf τ] at hs
    split at hs
    · cases hs
    · rename_i hlen
      rw [not_ne_iff] at hlen
      injection hs with hs
      injection hs with hs _
      rw [← hs, hlen]
  obtain ⟨l, e, hl, hrec⟩ := lookupLoop_ok (f := f) (τ := τ) (β := β) (γ := γ)
    (table := table f k c.val τ) (sorted := s) (x := looked f c.val τ) (List.range (f.dom.size - 2)) 1
    (by
      intro j hj
      have := List.mem_range.1 hj
      exact lookedValue_ok hc ht hf τ j (by omega))
    (by
      intro j hj
      have := List.mem_range.1 hj
      rw [table_length]
      omega)
    (by
      intro j hj
      have := List.mem_range.1 hj
      exact hden j (by omega))
  rw [List.length_range] at hl
  set v := 1 :: l ++ [1] with hv
  have hvl : v.length = f.dom.size := by
    rw [hv]
    simp [hl]
    omega
  have hev : ∀ k, k < f.dom.size → evalAt (f.dom.ifft v) (f.dom.gen ^ k) = v.getD k 0 :=
    fun k hk => ifft_eval f.dom hg v hvl.le k hk
  have hv1 : ∀ i, i ≤ f.dom.size - 2 → v.getD i 0 = (1 :: l).getD i 0 := by
    intro i hi
    rw [hv, List.getD_eq_getElem?_getD, List.getD_eq_getElem?_getD,
      List.getElem?_append_left (by simp [hl]; omega)]
  have hvlast : v.getD (f.dom.size - 1) 0 = 1 := by
    rw [hv, List.getD_eq_getElem?_getD, List.getElem?_append_right (by simp [hl]; omega)]
    simp only [List.length_cons, hl]
    rw [show f.dom.size - 1 - (f.dom.size - 2 + 1) = 0 by omega]
    rfl
  have hstep : ∀ j, j + 2 < f.dom.size → v.getD (j + 1) 0 * den f.dom.size s β γ j =
      v.getD j 0 * num f k c.val τ β γ j := by
    intro j hj
    have := hrec j (by rw [List.length_range]; omega)
    rw [List.getElem_range] at this
    rw [num_table _ _ _ _ (by omega), hv1 _ (by omega), hv1 _ (by omega)]
    exact this
  refine ⟨f.dom.ifft v, ?_, ?_, ?_, ?_⟩
  · unfold lookupProdPoly
    rw [if_neg (by rw [hR.ultra]; simp), if_neg (by rw [hR.range]; simp),
      if_neg (by rw [table_length]; simp), if_neg (by rw [hlen]; simp), e]
  · have := hev 0 hpos
    rw [pow_zero] at this
    rw [this]
    rfl
  · rw [hev _ (by omega), hvlast]
  · intro j hj
    rw [hev _ (by omega), hev _ (by omega)]
    by_cases hj1 : j + 2 < f.dom.size
    · exact hstep j hj1
    · have hje : f.dom.size - 1 = j + 1 := by omega
      rw [← hje, hvlast, one_mul]
      have hacc := accumulate (fun i => v.getD i 0) (num f k c.val τ β γ) (den f.dom.size s β γ) j
        (fun i hi => hstep i (by omega))
      rw [hje, Finset.prod_range_succ, Finset.prod_range_succ] at hcl
      have hne : ∏ i ∈ Finset.range j, den f.dom.size s β γ i ≠ 0 := by
        rw [Finset.prod_ne_zero_iff]
        intro i hi
        exact hden i (by have := Finset.mem_range.1 hi; omega)
      apply mul_left_cancel₀ hne
      have h0 : v.getD 0 0 = (1 : ZMod p) := rfl
      simp only [h0, one_mul] at hacc
      linear_combination -hcl - num f k c.val τ β γ j * hacc

/-- C26: with a vanishing denominator among those rows the code panics. -/
theorem C26_panic (hc : Built c) (ht : c.ultra = some k)
    (hf : finalize S root rnd c = .ok f) (τ : ZMod p) {s h₁ h₂ : List (ZMod p)}
    (hs : sortedVecPolys f τ (table f k c.val τ) = .ok (s, h₁, h₂)) (β γ : ZMod p)
    (hden : ∃ j, j + 2 < f.dom.size ∧ den f.dom.size s β γ j = 0) :
    lookupProdPoly f τ β γ (table f k c.val τ) s = .error .panic := by
  have hR := lookupReady hc.ok ht hf
  have hsz := hR.size
  have h2k : 0 < 2 ^ k := by positivity
  have hlen : s.length = 2 * f.dom.size - 1 := by
    rw [sorted_eq hc ht hf τ] at hs
    split at hs
    · cases hs
    · rename_i hlen
      rw [not_ne_iff] at hlen
      injection hs with hs
      injection hs with hs _
      rw [← hs, hlen]
  unfold lookupProdPoly
  rw [if_neg (by rw [hR.ultra]; simp), if_neg (by rw [hR.range]; simp),
    if_neg (by rw [table_length]; simp), if_neg (by rw [hlen]; simp),
    lookupLoop_panic (x := looked f c.val τ) (List.range (f.dom.size - 2)) 1 ?_ ?_ ?_]
  · intro j hj
    have := List.mem_range.1 hj
    exact lookedValue_ok hc ht hf τ j (by omega)
  · intro j hj
    have := List.mem_range.1 hj
    rw [table_length]
    omega
  · obtain ⟨j, h1, h2⟩ := hden
    exact ⟨j, List.mem_range.2 (by omega), h2⟩

/-- C26, soundness: for any assignment, any challenge `τ` and any vector of the right length in place of
the sorted one: when some looked-up value is not in the table, the product closes for at most
`6 * size * |F|` pairs of challenges. -/
theorem C26_sound (hn : 0 < f.dom.size) (w : ℕ → ZMod p) (τ : ZMod p) (s : List (ZMod p))
    (hs : s.length = 2 * f.dom.size - 1)
    (hout : ∃ x ∈ lookups f w τ, x ∉ table f k w τ) (bad : Finset (ZMod p × ZMod p))
    (hbad : ∀ q ∈ bad, Closes f k w τ s q.1 q.2) : bad.card ≤ 6 * f.dom.size * p := by
  have hne : ¬ (adj s).Perm (adj (table f k w τ) ++ (lookups f w τ).map (fun x => (x, x))) := by
    intro h
    obtain ⟨x, h1, h2⟩ := hout
    refine h2 (lookups_of_adj _ _ _ ?_ h x h1)
    rw [table_length]
    simp [lookups]
    omega
  have hb := pairs_sound _ _ hne
  have hsub : bad ⊆ Finset.univ.filter (fun q : ZMod p × ZMod p =>
      ((adj s).map (pairFactor q.1 q.2)).prod =
        ((adj (table f k w τ) ++ (lookups f w τ).map (fun x => (x, x))).map
          (pairFactor q.1 q.2)).prod) := by
    intro q hq
    rw [Finset.mem_filter]
    refine ⟨Finset.mem_univ _, ?_⟩
    obtain ⟨z, h0, h1, hz⟩ := hbad q hq
    have := accumulate z (num f k w τ q.1 q.2) (den f.dom.size s q.1 q.2) (f.dom.size - 1) hz
    rw [h0, h1, one_mul, one_mul, num_total _ _ _ _ hn, den_total s _ hn hs] at this
    exact this
  refine (Finset.card_le_card hsub).trans (hb.trans ?_)
  rw [ZMod.card]
  refine Nat.mul_le_mul_right _ ?_
  rw [List.length_append, adj_length, adj_length, hs, table_length, List.length_map]
  simp only [lookups, List.length_map, List.length_range]
  omega

/-! ### From the merged values to the circuit -/

/-- what the range checks and the lookups of a circuit demand of an assignment -/
def LookupsHold (c : Circ p) (k : ℕ) (w : ℕ → ZMod p) : Prop :=
  (∀ v ∈ c.rangeVars, (w v).val < 2 ^ k) ∧
    ∀ r ∈ c.rows, r.sel.lookup ≠ 0 → r.lookupTuple w ∈ c.keyValTable w

/-- the components of what row `j` looks up -/
def lookVec (f : FCirc p) (w : ℕ → ZMod p) (j : ℕ) : ZMod p × ZMod p × ZMod p × ZMod p × ZMod p :=
  (w (f.circ.rangeVars.getD j 0),
    match f.circ.rows[j]? with
    | none => (0, 0, 0, 0)
    | some r => if r.sel.lookup = 0 then (0, 0, 0, 0) else r.lookupTuple w)

/-- the components of row `j` of the table -/
def entVec (f : FCirc p) (k : ℕ) (w : ℕ → ZMod p) (j : ℕ) :
    ZMod p × ZMod p × ZMod p × ZMod p × ZMod p :=
  (if j < 2 ^ k then (j : ZMod p) else 0,
    match f.circ.rows[j]? with
    | none => (0, 0, 0, 0)
    | some r => if r.sel.lookup = 0 then (0, 0, 0, 0) else r.tableTuple w)

theorem combine_zero (τ : ZMod p) : combine τ (0, 0, 0, 0) = 0 := by simp [combine]

theorem sel_rows (hc : Built c) (hf : finalize S root rnd c = .ok f) :
    ∀ r ∈ f.circ.rows, r.sel.lookup = 0 ∨ r.sel.lookup = 1 := by
  intro r hr
  have := (C25_rows hc hf).1.mem_iff.1 hr
  rcases List.mem_append.1 this with h | h
  · rcases hc.ok.tabSel r h with h | h
    · exact Or.inl h
    · exact Or.inr h.1
  · rw [List.eq_of_mem_replicate h]
    exact Or.inl rfl

theorem looked_vec (hc : Built c) (hf : finalize S root rnd c = .ok f) (w : ℕ → ZMod p) (τ : ZMod p)
    (j : ℕ) : looked f w τ j = (lookVec f w j).1 + combine τ (lookVec f w j).2 := by
  unfold looked lookVec
  simp only
  cases h : f.circ.rows[j]? with
  | none => simp [combine_zero]
  | some r =>
    rcases sel_rows hc hf r (List.mem_of_getElem? h) with h | h <;> simp [h, combine_zero]

theorem entry_vec (hc : Built c) (hf : finalize S root rnd c = .ok f) (w : ℕ → ZMod p) (τ : ZMod p)
    (j : ℕ) : entry f k w τ j = (entVec f k w j).1 + combine τ (entVec f k w j).2 := by
  unfold entry entVec
  simp only
  cases h : f.circ.rows[j]? with
  | none => simp [combine_zero]
  | some r =>
    rcases sel_rows hc hf r (List.mem_of_getElem? h) with h | h <;> simp [h, combine_zero]

theorem vec_of_holds (hc : Built c) (ht : c.ultra = some k) (hf : finalize S root rnd c = .ok f)
    (hT : TablesPlaced c f.dom.size) (w : ℕ → ZMod p) (hw : w 0 = 0) (h : LookupsHold c k w) :
    ∀ j < f.dom.size - 1, ∃ i < f.dom.size, lookVec f w j = entVec f k w i := by
  have hR := lookupReady hc.ok ht hf
  obtain ⟨hA, -⟩ := rearranged_of hc.ok hf (Or.inr hT)
  obtain ⟨h1, h2, h3, h4, h5⟩ := C25_lookup_rows hc ht hf hT
  set T := (c.rows.filter (fun r => decide (r.sel.lookup ≠ 0))).length with hTd
  set s := f.dom.size - 1 - T with hs
  have h2k : 0 < 2 ^ k := by positivity
  have hrow : ∀ j < f.dom.size, ∃ r, f.circ.rows[j]? = some r := fun j hj =>
    ⟨f.circ.rows[j]'(by rw [hR.rows]; exact hj), List.getElem?_eq_getElem _⟩
  have hrv : ∀ j, c.rangeVars.length ≤ j → f.circ.rangeVars.getD j 0 = 0 := by
    intro j hj
    rw [hA.rangeVars]
    show (match c.ultra with | none => c.rangeVars | some _ => resize f.dom.size c.rangeVars).getD j 0 = 0
    rw [ht]
    simp only
    unfold resize
    rw [List.getD_eq_getElem?_getD]
    rw [List.getElem?_append_right (by rw [List.length_take]; omega), List.getElem?_replicate]
    split <;> rfl
  have hrv' : ∀ j, (w (f.circ.rangeVars.getD j 0)).val < 2 ^ k := by
    intro j
    by_cases hj : j < c.rangeVars.length
    · refine h.1 _ ?_
      rw [hA.rangeVars]
      show (match c.ultra with | none => c.rangeVars | some _ => resize f.dom.size c.rangeVars).getD j 0 ∈ _
      rw [ht]
      simp only
      unfold resize
      rw [List.getD_eq_getElem?_getD, List.getElem?_append_left (by rw [List.length_take]; omega),
        List.getElem?_take_of_lt (by omega), List.getElem?_eq_getElem hj]
      exact List.getElem_mem _
    · rw [hrv j (by omega), hw, ZMod.val_zero]
      exact h2k
  have hplain : ∀ i < s, ∀ r, f.circ.rows[i]? = some r → r.sel.lookup = 0 := by
    intro i hi r hr
    by_contra hne
    have := (h5 i r hr).1 hne
    omega
  have hsmall : ∀ x : ZMod p, x.val < 2 ^ k → entVec f k w x.val = (x, 0, 0, 0, 0) := by
    intro x hx
    obtain ⟨r, hr⟩ := hrow x.val (by omega)
    unfold entVec
    rw [if_pos hx, hr]
    simp [hplain _ (by omega) r hr]
  intro j hj
  obtain ⟨r, hr⟩ := hrow j (by omega)
  by_cases hl : r.sel.lookup = 0
  · refine ⟨(w (f.circ.rangeVars.getD j 0)).val, by have := hrv' j; omega, ?_⟩
    rw [hsmall _ (hrv' j)]
    unfold lookVec
    rw [hr]
    simp [hl]
  · have hj2 := (h5 j r hr).1 hl
    have hrc : r ∈ c.rows := by
      have := (C25_rows hc hf).1.mem_iff.1 (List.mem_of_getElem? hr)
      rcases List.mem_append.1 this with h | h
      · exact h
      · rw [List.eq_of_mem_replicate h] at hl
        exact absurd rfl hl
    have hmem := h.2 r hrc hl
    have hlv : lookVec f w j = (0, r.lookupTuple w) := by
      unfold lookVec
      rw [hr, hrv j (by omega), hw]
      simp [hl]
    rw [hlv]
    unfold Circ.keyValTable at hmem
    rcases List.mem_cons.1 hmem with h0 | hm
    · refine ⟨0, by omega, ?_⟩
      have := hsmall 0 (by rw [ZMod.val_zero]; exact h2k)
      rw [ZMod.val_zero] at this
      rw [this, h0]
    · obtain ⟨r', hr', he⟩ := List.mem_map.1 hm
      rw [← h4] at hr'
      obtain ⟨i, hi⟩ := List.mem_iff_getElem?.1 hr'
      have hiT : i < T := by
        have := (List.getElem?_eq_some_iff.1 hi).1
        simp at this
        omega
      rw [List.getElem?_take_of_lt hiT, List.getElem?_drop] at hi
      refine ⟨s + i, by omega, ?_⟩
      have hl' : r'.sel.lookup ≠ 0 := (h5 _ r' hi).2 (by omega)
      unfold entVec
      rw [hi, if_neg (by omega)]
      simp [hl', he]

theorem holds_of_vec (hc : Built c) (ht : c.ultra = some k) (hp : 2 ^ k < p)
    (hf : finalize S root rnd c = .ok f)
    (hT : TablesPlaced c f.dom.size) (w : ℕ → ZMod p)
    (h : ∀ j < f.dom.size - 1, ∃ i < f.dom.size, lookVec f w j = entVec f k w i) :
    LookupsHold c k w := by
  have hR := lookupReady hc.ok ht hf
  obtain ⟨hA, -⟩ := rearranged_of hc.ok hf (Or.inr hT)
  obtain ⟨h1, h2, h3, h4, h5⟩ := C25_lookup_rows hc ht hf hT
  set T := (c.rows.filter (fun r => decide (r.sel.lookup ≠ 0))).length with hTd
  set s := f.dom.size - 1 - T with hs
  have h2k : 0 < 2 ^ k := by positivity
  refine ⟨?_, ?_⟩
  · intro v hv
    obtain ⟨j, hj⟩ := List.mem_iff_getElem?.1 hv
    have hjl := (List.getElem?_eq_some_iff.1 hj).1
    obtain ⟨i, hi, he⟩ := h j (by omega)
    have hrv : f.circ.rangeVars.getD j 0 = v := by
      rw [hA.rangeVars]
      show (match c.ultra with | none => c.rangeVars | some _ => resize f.dom.size c.rangeVars).getD j 0 = v
      rw [ht]
      simp only
      unfold resize
      rw [List.getD_eq_getElem?_getD, List.getElem?_append_left (by rw [List.length_take]; omega),
        List.getElem?_take_of_lt (by omega), hj]
      rfl
    have he1 := congrArg Prod.fst he
    simp only [lookVec, entVec, hrv] at he1
    rw [he1]
    split
    · rename_i hik
      rw [ZMod.val_natCast, Nat.mod_eq_of_lt (by omega)]
      exact hik
    · rw [ZMod.val_zero]
      exact h2k
  · intro r hr hl
    have hrf : r ∈ (f.circ.rows.drop s).take T := by
      rw [h4]
      exact List.mem_filter.2 ⟨hr, by simpa using hl⟩
    obtain ⟨j, hj⟩ := List.mem_iff_getElem?.1 hrf
    have hjT : j < T := by
      have := (List.getElem?_eq_some_iff.1 hj).1
      simp at this
      omega
    rw [List.getElem?_take_of_lt hjT, List.getElem?_drop] at hj
    obtain ⟨i, hi, he⟩ := h (s + j) (by omega)
    have he2 := congrArg Prod.snd he
    simp only [lookVec, hj, if_neg hl] at he2
    rw [he2]
    have hir : f.circ.rows[i]? = some (f.circ.rows[i]'(by rw [hR.rows]; exact hi)) :=
      List.getElem?_eq_getElem _
    unfold entVec Circ.keyValTable
    simp only [hir]
    split
    · exact List.mem_cons_self
    · rename_i hl'
      refine List.mem_cons_of_mem _ (List.mem_map.2 ⟨_, ?_, rfl⟩)
      have hmem := (C25_rows hc hf).1.mem_iff.1 (List.mem_of_getElem? hir)
      rcases List.mem_append.1 hmem with hm | hm
      · exact List.mem_filter.2 ⟨hm, by simpa using hl'⟩
      · rw [List.eq_of_mem_replicate hm] at hl'
        exact absurd rfl hl'

/-- C26, completeness: when the tables are placed regularly and an assignment satisfies the range
checks and the lookups, every looked-up value is in the table, for every challenge `τ`. -/
theorem C26_complete (hc : Built c) (ht : c.ultra = some k) (hf : finalize S root rnd c = .ok f)
    (hT : TablesPlaced c f.dom.size) (w : ℕ → ZMod p) (hw : w 0 = 0) (h : LookupsHold c k w)
    (τ : ZMod p) : ∀ x ∈ lookups f w τ, x ∈ table f k w τ := by
  intro x hx
  obtain ⟨j, hj, rfl⟩ := List.mem_map.1 hx
  obtain ⟨i, hi, he⟩ := vec_of_holds hc ht hf hT w hw h j (List.mem_range.1 hj)
  refine List.mem_map.2 ⟨i, List.mem_range.2 hi, ?_⟩
  rw [looked_vec hc hf, entry_vec hc hf, he]

theorem quartic (a b : ZMod p × ZMod p × ZMod p × ZMod p × ZMod p) (hne : a ≠ b) :
    (Finset.univ.filter (fun τ : ZMod p => a.1 + combine τ a.2 = b.1 + combine τ b.2)).card ≤ 4 := by
  classical
  open Polynomial in
  obtain ⟨a0, a1, a2, a3, a4⟩ := a
  obtain ⟨b0, b1, b2, b3, b4⟩ := b
  let A : Polynomial (ZMod p) := Polynomial.C (a4 - b4) * Polynomial.X ^ 4 +
    Polynomial.C (a3 - b3) * Polynomial.X ^ 3 + Polynomial.C (a2 - b2) * Polynomial.X ^ 2 +
    Polynomial.C (a1 - b1) * Polynomial.X + Polynomial.C (a0 - b0)
  have hdeg : A.natDegree ≤ 4 := by
    show Polynomial.natDegree (_ + _ + _ + _ + _) ≤ 4
    compute_degree
  have hA : A ≠ 0 := by
    intro h
    have hco : ∀ i, A.coeff i = 0 := by intro i; rw [h, Polynomial.coeff_zero]
    have e0 := hco 0
    have e1 := hco 1
    have e2 := hco 2
    have e3 := hco 3
    have e4 := hco 4
    simp only [A, Polynomial.coeff_add, Polynomial.coeff_C_mul, Polynomial.coeff_X_pow,
      Polynomial.coeff_X, Polynomial.coeff_C] at e0 e1 e2 e3 e4
    norm_num at e0 e1 e2 e3 e4
    apply hne
    rw [sub_eq_zero.1 e0, sub_eq_zero.1 e1, sub_eq_zero.1 e2, sub_eq_zero.1 e3, sub_eq_zero.1 e4]
  have hsub : (Finset.univ.filter (fun τ : ZMod p =>
      a0 + combine τ (a1, a2, a3, a4) = b0 + combine τ (b1, b2, b3, b4))) ⊆ A.roots.toFinset := by
    intro τ hτ
    rw [Finset.mem_filter] at hτ
    rw [Multiset.mem_toFinset, Polynomial.mem_roots hA, Polynomial.IsRoot.def]
    have := hτ.2
    unfold combine at this
    simp only [A, Polynomial.eval_add, Polynomial.eval_mul, Polynomial.eval_C, Polynomial.eval_pow,
      Polynomial.eval_X]
    simp only at this
    linear_combination this
  exact (Finset.card_le_card hsub).trans ((Multiset.toFinset_card_le _).trans
    ((Polynomial.card_roots' _).trans hdeg))

/-- C26, soundness of merging: for an assignment that violates a range check or a lookup, all looked-up
values are in the table for at most `4 * size` challenges `τ`. -/
theorem C26_merging (hc : Built c) (ht : c.ultra = some k) (hp : 2 ^ k < p)
    (hf : finalize S root rnd c = .ok f) (hT : TablesPlaced c f.dom.size) (w : ℕ → ZMod p)
    (h : ¬ LookupsHold c k w) (bad : Finset (ZMod p))
    (hbad : ∀ τ ∈ bad, ∀ x ∈ lookups f w τ, x ∈ table f k w τ) : bad.card ≤ 4 * f.dom.size := by
  classical
  obtain ⟨j, hj, hout⟩ : ∃ j < f.dom.size - 1, ∀ i < f.dom.size, lookVec f w j ≠ entVec f k w i := by
    by_contra hcon
    push Not at hcon
    exact h (holds_of_vec hc ht hp hf hT w hcon)
  have hsub : bad ⊆ (Finset.range f.dom.size).biUnion (fun i => Finset.univ.filter
      (fun τ : ZMod p => (lookVec f w j).1 + combine τ (lookVec f w j).2 =
        (entVec f k w i).1 + combine τ (entVec f k w i).2)) := by
    intro τ hτ
    have h1 := hbad τ hτ (looked f w τ j) (List.mem_map.2 ⟨j, List.mem_range.2 hj, rfl⟩)
    obtain ⟨i, hi, he⟩ := List.mem_map.1 h1
    rw [Finset.mem_biUnion]
    refine ⟨i, Finset.mem_range.2 (List.mem_range.1 hi), ?_⟩
    rw [Finset.mem_filter, ← looked_vec hc hf, ← entry_vec hc hf]
    exact ⟨Finset.mem_univ _, he.symm⟩
  refine (Finset.card_le_card hsub).trans (Finset.card_biUnion_le.trans ?_)
  refine (Finset.sum_le_card_nsmul _ _ 4 ?_).trans ?_
  · intro i hi
    exact quartic _ _ (hout i (Finset.mem_range.1 hi))
  · rw [Finset.card_range, smul_eq_mul, mul_comm]

/-- C26: in a field with more than `4 * size` elements, the range checks and lookups hold exactly when
every looked-up value is in the table for every challenge `τ`. -/
theorem C26_all_challenges (hc : Built c) (ht : c.ultra = some k) (hp : 2 ^ k < p)
    (hf : finalize S root rnd c = .ok f) (hp' : 4 * f.dom.size < p)
    (hT : TablesPlaced c f.dom.size) (w : ℕ → ZMod p) (hw : w 0 = 0) :
    LookupsHold c k w ↔ ∀ τ, ∀ x ∈ lookups f w τ, x ∈ table f k w τ := by
  refine ⟨fun h τ => C26_complete hc ht hf hT w hw h τ, fun h => ?_⟩
  by_contra hno
  have := C26_merging hc ht hp hf hT w hno Finset.univ (fun τ _ => h τ)
  rw [Finset.card_univ, ZMod.card] at this
  omega

/-- C26: what the argument checks completes the gates: an assignment satisfies the circuit exactly when
all rows of the finalized circuit hold with the public inputs on the first rows, and the range checks
and lookups hold. -/
theorem C26_satisfied (hc : Built c) (ht : c.ultra = some k) (hk : k < 32) (hp : 2 ^ k < p) (hp2 : p ≠ 2)
    (hf : finalize S root rnd c = .ok f) (hT : TablesPlaced c f.dom.size) (pi : List (ZMod p))
    (hl : pi.length = c.pubIds.length) (w : ℕ → ZMod p) :
    Sat c pi w ↔ GatesHold f.circ.rows pi w ∧ LookupsHold c k w := by
  have hrb : rangeBound p k = 2 ^ k := by
    unfold rangeBound
    rw [Nat.mod_eq_of_lt (Nat.pow_lt_pow_right (by omega) hk), ZMod.val_natCast,
      Nat.mod_eq_of_lt hp]
  obtain ⟨-, -, -, -, -, h6⟩ := C25_ultra hc ht hk hp2 hf hT
  rw [h6 pi w hl]
  constructor
  · intro h
    refine ⟨⟨h.io, h.plain⟩, fun v hv => ?_, h.lookup k ht⟩
    have := h.range k ht v hv
    rwa [hrb] at this
  · rintro ⟨⟨h1, h2⟩, h3, h4⟩
    refine ⟨hl, h1, h2, fun k' hk' v hv => ?_, fun k' hk' => h4⟩
    rw [ht] at hk'
    injection hk' with hk'
    rw [← hk', hrb]
    exact h3 v hv

/-! ### Without the condition on the tables -/

/-- C26 counterexample: the circuit of `C25_last_row_counterexample`.  Its only lookup fails, and the
sorted vector is constructed for every challenge: the argument does not see the last row. -/
theorem C26_last_row_counterexample :
    ∃ (c : Circ 97) (f : FCirc 97), Built c ∧ c.ultra = some 1 ∧ finalize 5 28 rnd97 c = .ok f ∧
      ¬ LookupsHold c 1 c.val ∧ GatesHold f.circ.rows [3] c.val ∧
      ∀ τ, ∃ s h₁ h₂, sortedVecPolys f τ (table f 1 c.val τ) = .ok (s, h₁, h₂) := by
  have h : okAnd (finalize' 5 28 rnd97 exB) (fun f => decide (
      (∀ τ : ZMod 97, ∀ x ∈ lookups f exB.val τ, x ∈ table f 1 exB.val τ) ∧ f.circ.rows.length = 4 ∧
      ∀ j ∈ List.range 4, (f.circ.rows[j]?.all
        (fun r => decide (r.Holds (([3] : List (ZMod 97)).getD j 0) exB.val))) = true)) = true := by
    decide +kernel
  obtain ⟨f, hf, hP⟩ := okAnd_elim h
  rw [decide_eq_true_iff] at hP
  rw [← finalize_eq] at hf
  refine ⟨exB, f, built_exB, rfl, hf, ?_, ?_, ?_⟩
  · intro hh
    have h2 : ∀ r ∈ exB.rows, r.sel.lookup ≠ 0 → r.lookupTuple exB.val ∈ exB.keyValTable exB.val := hh.2
    revert h2
    decide +kernel
  · intro j r hr
    have hj : j < 4 := by rw [← hP.2.1]; exact (List.getElem?_eq_some_iff.1 hr).1
    have := hP.2.2 j (List.mem_range.2 hj)
    rw [hr] at this
    simpa using this
  · intro τ
    have hin := hP.1 τ
    have hlen := (sorted_len_iff built_exB rfl hf τ).2 hin
    have he := sorted_eq built_exB rfl hf τ
    rw [if_neg (by simpa using hlen)] at he
    exact ⟨_, _, _, he⟩

/-- C26 counterexample: the satisfied circuit of `C25_range_area_counterexample`.  The sorted vector
cannot be constructed for any challenge but four. -/
theorem C26_range_area_counterexample :
    ∃ (c : Circ 97) (f : FCirc 97), Built c ∧ c.ultra = some 2 ∧ finalize 5 28 rnd97 c = .ok f ∧
      Sat c [] c.val ∧
      ∀ τ, τ ∉ [0, 15, 42, 91] → sortedVecPolys f τ (table f 2 c.val τ) = .error .parameter := by
  have h : okAnd (finalize' 5 28 rnd97 exC) (fun f => decide (
      ∀ τ : ZMod 97, τ ∉ ([0, 15, 42, 91] : List (ZMod 97)) →
        ∃ x ∈ lookups f exC.val τ, x ∉ table f 2 exC.val τ)) = true := by
    decide +kernel
  obtain ⟨f, hf, hP⟩ := okAnd_elim h
  rw [decide_eq_true_iff] at hP
  rw [← finalize_eq] at hf
  exact ⟨exC, f, built_exC, rfl, hf, (checkSat_ok built_exC.ok.wf _).1 (by decide +kernel),
    fun τ hτ => C26_fails built_exC rfl hf τ (hP τ hτ)⟩

/-! ### Examples -/

theorem exU_final : ∃ f : FCirc 97, finalize 5 28 rnd97 exU = .ok f ∧ f.dom.size = 8 ∧
    TablesPlaced exU f.dom.size := by
  have h : okAnd (finalize' 5 28 rnd97 exU) (fun f => decide (f.dom.size = 8)) = true := by
    decide +kernel
  obtain ⟨f, hf, hP⟩ := okAnd_elim h
  rw [decide_eq_true_iff] at hP
  rw [← finalize_eq] at hf
  exact ⟨f, hf, hP, by rw [hP]; exact placed_exU⟩

theorem exU_holds : LookupsHold exU 1 exU.val :=
  ⟨by decide +kernel, by decide +kernel⟩

theorem prim28' : IsPrimitiveRoot (28 : ZMod 97) (2 ^ 5) := by
  refine IsPrimitiveRoot.iff_def _ _ |>.2 ⟨by decide +kernel, ?_⟩
  intro l hl
  by_contra hd
  have h1 : (28 : ZMod 97) ^ Nat.gcd l (2 ^ 5) = 1 := by
    rw [← orderOf_dvd_iff_pow_eq_one] at hl ⊢
    exact Nat.dvd_gcd hl (orderOf_dvd_of_pow_eq_one (by decide +kernel))
  obtain ⟨e, he, hge⟩ := (Nat.dvd_prime_pow Nat.prime_two).1 (Nat.gcd_dvd_right l (2 ^ 5))
  rw [hge] at h1
  have : e ≠ 5 := fun e5 => hd (by rw [e5] at hge; rw [← hge]; exact Nat.gcd_dvd_left _ _)
  interval_cases e <;> first | exact absurd h1 (by decide +kernel) | exact this rfl

/-- honest values: the whole chain succeeds -/
example : ∃ (f : FCirc 97) (s h₁ h₂ : List (ZMod 97)), finalize 5 28 rnd97 exU = .ok f ∧
    sortedVecPolys f 3 (table f 1 exU.val 3) = .ok (s, h₁, h₂) ∧ s.length = 15 ∧
    ∏ j ∈ Finset.range 7, num f 1 exU.val 3 4 5 j = ∏ j ∈ Finset.range 7, den 8 s 4 5 j := by
  obtain ⟨f, hf, h8, hT⟩ := exU_final
  have hin := C26_complete built_exU rfl hf hT exU.val (by decide +kernel) exU_holds 3
  obtain ⟨s, h₁, h₂, e, hl, -⟩ := C26_sorted built_exU rfl prim28' hf 3 hin
  have hcl := C26_closes built_exU rfl hf 3 e 4 5
  rw [h8] at hl hcl
  exact ⟨f, s, h₁, h₂, hf, e, hl, hcl⟩

/-- a wrong assignment (the range-checked variable has the value 5): more than half of the challenges
`τ` show it, and for these more than half of the pairs `β, γ` -/
example : ∃ (f : FCirc 97) (w : ℕ → ZMod 97) (τ : ZMod 97), finalize 5 28 rnd97 exU = .ok f ∧
    w 0 = 0 ∧ ¬ LookupsHold exU 1 w ∧ (∃ x ∈ lookups f w τ, x ∉ table f 1 w τ) ∧
    ∀ bad : Finset (ZMod 97 × ZMod 97),
      (∀ q ∈ bad, Closes f 1 w τ (List.replicate 15 0) q.1 q.2) → bad.card ≤ 4656 := by
  obtain ⟨f, hf, h8, hT⟩ := exU_final
  set w : ℕ → ZMod 97 := fun v => if v = 1 then 5 else exU.val v with hw
  have hno : ¬ LookupsHold exU 1 w := by
    intro h
    have : (1 : ℕ) ∈ exU.rangeVars := by decide +kernel
    have h1 := h.1 1 this
    rw [hw] at h1
    revert h1
    decide
  obtain ⟨τ, hτ⟩ : ∃ τ, ∃ x ∈ lookups f w τ, x ∉ table f 1 w τ := by
    by_contra hc
    push Not at hc
    have := C26_merging built_exU rfl (by norm_num) hf hT w hno Finset.univ (fun τ _ => hc τ)
    rw [Finset.card_univ, ZMod.card, h8] at this
    omega
  refine ⟨f, w, τ, hf, by decide +kernel, hno, hτ, ?_⟩
  intro bad hbad
  have := C26_sound (by rw [h8]; norm_num) w τ (List.replicate 15 0) (by rw [h8]; simp) hτ bad hbad
  rwa [h8] at this

end Verif.Props.LookupArgument
