import Verif.Plonk.Keys
import Verif.Props.Verifier
import Verif.Props.LookupArgument
import Verif.Props.CopyConstraints
import Verif.Plonk.Degrees

/-!
# C73: from the circuit to the verifier

`KeyOf` says which polynomials belong to the key of a finalized circuit: those of degree below the size of the
domain with the selectors, the permutation and the tables of the circuit as values.  Everything else of an
instance is chosen by the prover (`play`).
-/

set_option linter.unusedSectionVars false

namespace Verif.Props.EndToEnd

open Verif.Circuit Verif.Pcs Verif.Plonk Polynomial
open Verif.Props.Finalize Verif.Props.Verifier
open Verif.Props.CopyConstraints (SlotVar width slots next label rowNum rowDen Linked linked_of prim28)
open Verif.Props.LookupArgument (LookupsHold looked entry lookups table num den)

variable {p : ℕ} [Fact p.Prime]

/-- the selectors of a gate in the order of the key -/
def rowSel (r : Row p) : List (ZMod p) :=
  [r.sel.lc0, r.sel.lc1, r.sel.lc2, r.sel.lc3, r.sel.mul0, r.sel.mul1, r.sel.hash0, r.sel.hash1, r.sel.hash2,
    r.sel.hash3, r.sel.o, r.sel.c, r.sel.ecc, r.sel.lookup]

/-- the tables of an instance are those of the circuit with ranges of `k` bits -/
structure TablesOf (f : FCirc p) (k : ℕ) (l : LkPolys (ZMod p)) : Prop where
  degree : l.range.degree < f.dom.size ∧ l.key.degree < f.dom.size ∧ l.tableDomSep.degree < f.dom.size ∧
    l.qDomSep.degree < f.dom.size
  range : ∀ j < f.dom.size, l.range.eval (f.dom.gen ^ j) = if j < 2 ^ k then (j : ZMod p) else 0
  rows : ∀ (j : ℕ) (r : Row p), f.circ.rows[j]? = some r → l.key.eval (f.dom.gen ^ j) = r.sel.tableKey ∧
    l.tableDomSep.eval (f.dom.gen ^ j) = r.sel.tableDomSep ∧ l.qDomSep.eval (f.dom.gen ^ j) = r.sel.domSep

/-- the key polynomials and the public inputs of an instance are those of the circuit, which is merged from two
circuits or not -/
structure KeyOf (f : FCirc p) (I : Inst (ZMod p)) (mg : Bool := false) : Prop where
  merged : I.merged = mg
  inputs : I.inputs.length = f.circ.pubIds.length
  pi : IsInputs f.dom mg I.inputs I.pi
  lookup : I.lookup.isSome = f.circ.ultra.isSome
  tables : ∀ l k, I.lookup = some l → f.circ.ultra = some k → TablesOf f k l
  qDegree : ∀ i < I.nq, (I.q i).degree < f.dom.size
  q : ∀ i < I.nq, ∀ (j : ℕ) (r : Row p), f.circ.rows[j]? = some r →
    (I.q i).eval (f.dom.gen ^ j) = (rowSel r).getD i 0
  σDegree : ∀ i < I.nw, (I.σ i).degree < f.dom.size
  σ : ∀ i < I.nw, ∀ j < f.dom.size, (I.σ i).eval (f.dom.gen ^ j) = label f (next f (i, j))
  k : ∀ i < I.nw, ∀ j < f.dom.size, label f (i, j) = I.k i * f.dom.gen ^ j

/-- the prover chooses wires, sorted vectors, and products -/
def play (I : Inst (ZMod p)) (w : ℕ → (ZMod p)[X]) (h1 h2 z prod : (ZMod p)[X]) : Inst (ZMod p) :=
  { I with w := w, z := z, lookup := I.lookup.map (fun l => { l with h1 := h1, h2 := h2, prod := prod }) }

theorem play_nw (I : Inst (ZMod p)) (w : ℕ → (ZMod p)[X]) (h1 h2 z prod : (ZMod p)[X]) :
    (play I w h1 h2 z prod).nw = I.nw ∧ (play I w h1 h2 z prod).nq = I.nq := by
  unfold play Inst.nw Inst.nq
  simp

/-- the wire values of the prover -/
def wireValue (f : FCirc p) (w : ℕ → (ZMod p)[X]) (s : ℕ × ℕ) : ZMod p := (w s.1).eval (f.dom.gen ^ s.2)

/-- the wires carry the assignment `a` -/
def Carries (f : FCirc p) (w : ℕ → (ZMod p)[X]) (a : ℕ → ZMod p) : Prop :=
  ∀ s x, SlotVar f.circ s x → wireValue f w s = a x

variable {S : ℕ} {root : ZMod p} {rnd : List (ZMod p)} {c : Circ p} {f : FCirc p}

theorem KeyOf.nw {I : Inst (ZMod p)} {mg : Bool} (h : KeyOf f I mg) : I.nw = width f.circ := by
  unfold Inst.nw width
  have := h.lookup
  cases hu : f.circ.ultra <;> simp [hu] at this <;> simp [this]

/-- all constraints vanish on the domain -/
def Vanish (d : Domain (ZMod p)) (I : Inst (ZMod p)) (τ β γ : ZMod p) : Prop :=
  ∀ e ∈ I.constraints d τ β γ, ∀ j < d.size, e.eval (d.gen ^ j) = 0

theorem size_pos' (d : Domain (ZMod p)) : 0 < d.size := by
  unfold Domain.size; positivity

theorem lag_same {d : Domain (ZMod p)} (hd : Good d) (ho : d.offset = 1) {i : ℕ} (hi : i < d.size) :
    (lag d i).eval (d.gen ^ i) = 1 := by
  have := hd.basis_on hi hi
  rw [if_pos rfl] at this
  unfold point at this
  rw [ho, one_mul] at this
  exact this

/-- the gate equation at a point of the domain is the equation of the row -/
theorem gate_at {I : Inst (ZMod p)} {mg : Bool} (hI : KeyOf f I mg) {w : ℕ → (ZMod p)[X]}
    (h1 h2 z prod : (ZMod p)[X])
    {a : ℕ → ZMod p} (ha : Carries f w a) {j : ℕ} {x : ZMod p} (hpi : I.pi.eval (f.dom.gen ^ j) = x) {r : Row p}
    (hr : f.circ.rows[j]? = some r) (h : (play I w h1 h2 z prod).gate.eval (f.dom.gen ^ j) = 0) :
    r.Holds x a := by
  have hq : ∀ i < 13, (I.q i).eval (f.dom.gen ^ j) = (rowSel r).getD i 0 := fun i hi =>
    hI.q i (by unfold Inst.nq; split <;> omega) j r hr
  have hw0 : (w 0).eval (f.dom.gen ^ j) = a r.w0 := ha (0, j) r.w0 (Or.inl ⟨r, hr, by simp⟩)
  have hw1 : (w 1).eval (f.dom.gen ^ j) = a r.w1 := ha (1, j) r.w1 (Or.inl ⟨r, hr, by simp⟩)
  have hw2 : (w 2).eval (f.dom.gen ^ j) = a r.w2 := ha (2, j) r.w2 (Or.inl ⟨r, hr, by simp⟩)
  have hw3 : (w 3).eval (f.dom.gen ^ j) = a r.w3 := ha (3, j) r.w3 (Or.inl ⟨r, hr, by simp⟩)
  have hw4 : (w 4).eval (f.dom.gen ^ j) = a r.w4 := ha (4, j) r.w4 (Or.inl ⟨r, hr, by simp⟩)
  unfold Inst.gate play at h
  simp only [Finset.sum_range_succ, Finset.sum_range_zero, zero_add, eval_add, eval_sub, eval_mul,
    eval_pow, hw0, hw1, hw2, hw3, hw4, hpi, hq 0 (by omega), hq 1 (by omega), hq 2 (by omega),
    hq 3 (by omega), hq 4 (by omega), hq 5 (by omega), hq 6 (by omega), hq 10 (by omega), hq 11 (by omega),
    hq 12 (by omega), add_zero, show 6 + 1 = 7 from rfl, show 6 + 2 = 8 from rfl, show 6 + 3 = 9 from rfl,
    hq 7 (by omega), hq 8 (by omega), hq 9 (by omega)] at h
  unfold Row.Holds Sel.output
  simp only [rowSel, List.getD_cons_zero, List.getD_cons_succ] at h
  linear_combination h

theorem KeyOf.pi_at {I : Inst (ZMod p)} (hI : KeyOf f I) (ho : f.dom.offset = 1) {j : ℕ} (hj : j < f.dom.size) :
    I.pi.eval (f.dom.gen ^ j) = I.inputs.getD j 0 := by
  have := hI.pi.2.2 j hj
  rwa [ho, one_mul] at this

/-- the permutation product closes -/
theorem perm_at {I : Inst (ZMod p)} {mg : Bool} (hI : KeyOf f I mg) (hd : Good f.dom) (ho : f.dom.offset = 1)
    (w : ℕ → (ZMod p)[X]) (h1 h2 z prod : (ZMod p)[X]) (β γ : ZMod p)
    (hp : ∀ j < f.dom.size, ((play I w h1 h2 z prod).perm f.dom β γ).eval (f.dom.gen ^ j) = 0)
    (hs : ((play I w h1 h2 z prod).start f.dom).eval (f.dom.gen ^ 0) = 0) :
    CopyConstraints.Closes f (wireValue f w) β γ := by
  refine ⟨fun j => z.eval (f.dom.gen ^ j), ?_, ?_, ?_⟩
  · have : (lag f.dom 0).eval (f.dom.gen ^ 0) = 1 := lag_same hd ho (size_pos' _)
    unfold Inst.start play at hs
    rw [eval_mul, this, one_mul, eval_sub, eval_one] at hs
    linear_combination hs
  · have : (lag f.dom 0).eval (f.dom.gen ^ 0) = 1 := lag_same hd ho (size_pos' _)
    unfold Inst.start play at hs
    rw [eval_mul, this, one_mul, eval_sub, eval_one, pow_zero] at hs
    simp only [hd.prim.pow_eq_one]
    linear_combination hs
  · intro j hj
    have h := hp j hj
    unfold Inst.perm at h
    rw [(play_nw I w h1 h2 z prod).1, hI.nw] at h
    simp only [play, eval_sub, eval_mul, eval_prod, eval_add, eval_C, eval_X, eval_shift,
      ← pow_succ] at h
    have e1 : rowNum f (wireValue f w) β γ j = ∏ i ∈ Finset.range (width f.circ),
        (eval (f.dom.gen ^ j) (w i) + β * I.k i * f.dom.gen ^ j + γ) := by
      unfold rowNum
      refine Finset.prod_congr rfl fun i hi => ?_
      rw [hI.k i (by rw [hI.nw]; exact Finset.mem_range.1 hi) j hj]
      unfold wireValue
      ring
    have e2 : rowDen f (wireValue f w) β γ j = ∏ i ∈ Finset.range (width f.circ),
        (eval (f.dom.gen ^ j) (w i) + β * eval (f.dom.gen ^ j) (I.σ i) + γ) := by
      unfold rowDen
      refine Finset.prod_congr rfl fun i hi => ?_
      rw [← hI.σ i (by rw [hI.nw]; exact Finset.mem_range.1 hi) j hj]
      unfold wireValue
      ring
    rw [e1, e2]
    linear_combination -h

/-- the lookup product closes -/
theorem lookup_at {I : Inst (ZMod p)} {k : ℕ} (hI : KeyOf f I) (hd : Good f.dom) (ho : f.dom.offset = 1)
    (hn : 1 < f.dom.size) (hu : f.circ.ultra = some k) (hrows : f.circ.rows.length = f.dom.size)
    (hrange : f.circ.rangeVars.length = f.dom.size)
    {w : ℕ → (ZMod p)[X]} {a : ℕ → ZMod p} (ha : Carries f w a) {l : LkPolys (ZMod p)} (hl : I.lookup = some l)
    (h1 h2 z prod : (ZMod p)[X]) (τ β γ : ZMod p)
    (hv : ∀ e ∈ (play I w h1 h2 z prod).lookupConstraints f.dom { l with h1 := h1, h2 := h2, prod := prod } τ β γ,
      ∀ j < f.dom.size, e.eval (f.dom.gen ^ j) = 0) :
    LookupArgument.Closes f k a τ ((List.range f.dom.size).map (fun j => h1.eval (f.dom.gen ^ j)) ++
      (List.range (f.dom.size - 1)).map (fun j => h2.eval (f.dom.gen ^ (j + 1)))) β γ := by
  set n := f.dom.size with hn'
  have hT := hI.tables l k hl hu
  unfold Inst.lookupConstraints at hv
  simp only [List.mem_cons, List.not_mem_nil, or_false, forall_eq_or_imp, forall_eq] at hv
  obtain ⟨c1, c2, c3, c4⟩ := hv
  have e1 := c1 (n - 1) (by omega)
  rw [eval_mul, lag_same hd ho (by omega), one_mul, eval_sub, eval_shift, ← pow_succ,
    show n - 1 + 1 = n by omega, hn', hd.prim.pow_eq_one, ← hn'] at e1
  have e2 := c2 0 (by omega)
  rw [eval_mul, lag_same hd ho (by omega), one_mul, eval_sub, eval_one] at e2
  have e3 := c3 (n - 1) (by omega)
  rw [eval_mul, lag_same hd ho (by omega), one_mul, eval_sub, eval_one] at e3
  -- the rows
  have hrow : ∀ j < n, ∃ r, f.circ.rows[j]? = some r := fun j hj =>
    ⟨_, List.getElem?_eq_getElem (by omega)⟩
  have hlooked : ∀ j < n, ((play I w h1 h2 z prod).looked { l with h1 := h1, h2 := h2, prod := prod } τ).eval
      (f.dom.gen ^ j) = looked f a τ j := by
    intro j hj
    obtain ⟨r, hr⟩ := hrow j hj
    rw [LookupArgument.looked_some hr]
    have hq := hI.q 13 (by unfold Inst.nq; simp [hl]) j r hr
    have hw0 : (w 0).eval (f.dom.gen ^ j) = a r.w0 := ha (0, j) r.w0 (Or.inl ⟨r, hr, by simp⟩)
    have hw1 : (w 1).eval (f.dom.gen ^ j) = a r.w1 := ha (1, j) r.w1 (Or.inl ⟨r, hr, by simp⟩)
    have hw2 : (w 2).eval (f.dom.gen ^ j) = a r.w2 := ha (2, j) r.w2 (Or.inl ⟨r, hr, by simp⟩)
    have hw5 : (w 5).eval (f.dom.gen ^ j) = a (f.circ.rangeVars.getD j 0) := by
      refine ha (5, j) _ (Or.inr ⟨rfl, by simp [hu], ?_⟩)
      rw [List.getD_eq_getElem?_getD, List.getElem?_eq_getElem (by show j < _; omega)]
      rfl
    obtain ⟨-, -, hqd⟩ := hT.rows j r hr
    simp only [Inst.looked, play, eval_add, eval_mul, eval_C, hq, hw0, hw1, hw2, hw5, hqd]
    simp only [rowSel, List.getD_cons_zero, List.getD_cons_succ, LookupArgument.combine, Row.lookupTuple]
  have htable : ∀ j < n, ((play I w h1 h2 z prod).table { l with h1 := h1, h2 := h2, prod := prod } τ).eval
      (f.dom.gen ^ j) = entry f k a τ j := by
    intro j hj
    obtain ⟨r, hr⟩ := hrow j hj
    rw [LookupArgument.entry_some hr]
    have hq := hI.q 13 (by unfold Inst.nq; simp [hl]) j r hr
    have hw3 : (w 3).eval (f.dom.gen ^ j) = a r.w3 := ha (3, j) r.w3 (Or.inl ⟨r, hr, by simp⟩)
    have hw4 : (w 4).eval (f.dom.gen ^ j) = a r.w4 := ha (4, j) r.w4 (Or.inl ⟨r, hr, by simp⟩)
    obtain ⟨hk, htd, -⟩ := hT.rows j r hr
    simp only [Inst.table, play, eval_add, eval_mul, eval_C, hq, hw3, hw4, hk, htd, hT.range j hj]
    simp only [rowSel, List.getD_cons_zero, List.getD_cons_succ, LookupArgument.combine, Row.tableTuple]
  set s := (List.range n).map (fun j => h1.eval (f.dom.gen ^ j)) ++
      (List.range (n - 1)).map (fun j => h2.eval (f.dom.gen ^ (j + 1))) with hs
  have hs1 : ∀ j < n, s.getD j 0 = h1.eval (f.dom.gen ^ j) := by
    intro j hj
    rw [List.getD_eq_getElem?_getD, hs, List.getElem?_append_left (by simpa using hj), getElem?_map_range _ _ _ hj]
    rfl
  have hs2 : ∀ j < n, s.getD (n - 1 + j) 0 = h2.eval (f.dom.gen ^ j) := by
    intro j hj
    obtain _ | j := j
    · rw [add_zero, hs1 _ (by omega), pow_zero]
      linear_combination e1
    · rw [List.getD_eq_getElem?_getD, hs, List.getElem?_append_right (by simp; omega), List.length_map,
        List.length_range, show n - 1 + (j + 1) - n = j by omega, getElem?_map_range _ _ _ (by omega)]
      rfl
  refine ⟨fun j => prod.eval (f.dom.gen ^ j), ?_, ?_, ?_⟩
  · linear_combination e2
  · linear_combination e3
  · intro j hj
    have h := c4 j (by omega)
    rw [eval_mul] at h
    have hne : (X - C (f.dom.gen ^ (f.dom.size - 1)) : (ZMod p)[X]).eval (f.dom.gen ^ j) ≠ 0 := by
      rw [eval_sub, eval_X, eval_C, sub_ne_zero]
      intro he
      have := hd.prim.pow_inj (by omega) (by omega) he
      omega
    have h := (mul_eq_zero.1 h).resolve_left hne
    simp only [eval_sub, eval_mul, eval_add, eval_C, eval_shift, ← pow_succ,
      hlooked j (by omega), htable j (by omega), htable (j + 1) (by omega)] at h
    unfold den num
    rw [← hn', hs1 j (by omega), hs1 (j + 1) (by omega), hs2 j (by omega), show n + j = n - 1 + (j + 1) by omega,
      hs2 (j + 1) (by omega)]
    linear_combination -h

/-- all but at most `n` values have the property -/
def AllBut {α : Type} (n : ℕ) (P : α → Prop) : Prop :=
  ∃ bad : Finset α, bad.card ≤ n ∧ ∀ a, a ∉ bad → P a

theorem AllBut.all {α : Type} (n : ℕ) {P : α → Prop} (h : ∀ a, P a) : AllBut n P :=
  ⟨∅, by simp, fun a _ => h a⟩

/-- The circuits for which the lookup argument says what it should: for an UltraPlonk circuit, ranges that
fit into the field and tables at the right place (`TablesPlaced`). -/
def Supported (c : Circ p) (f : FCirc p) : Prop :=
  ∀ k, c.ultra = some k → k < 32 ∧ 2 ^ k < p ∧ p ≠ 2 ∧ TablesPlaced c f.dom.size

theorem final_ultra (hc : Built c) (hf : finalize S root rnd c = .ok f) : f.circ.ultra = c.ultra := by
  obtain ⟨hd, -, hr, -⟩ := finalize_ok hf
  have hn := newDomain_size hd
  have hrl := rows_le_numSlots c
  obtain ⟨-, -, -, hu, -, -⟩ := rearrange_fields hc.ok (by omega) hr
  exact hu

theorem final_size (hf : finalize S root rnd c = .ok f) : 1 < f.dom.size := by
  obtain ⟨-, h1, -⟩ := finalize_ok hf
  have := size_pos' f.dom
  omega

/-- C73, the circuit: if no assignment carried by the prover's wires satisfies the circuit with the public
inputs then, whatever the prover does, some constraint does not vanish on the domain: for all but `4n`
challenges `τ`, then all but `12np` of the `p²` pairs of challenges `β`, `γ`. -/
theorem C73_circuit (hc : Built c) (hroot : IsPrimitiveRoot root (2 ^ S))
    (hf : finalize S root rnd c = .ok f) (hok : Supported c f) {I : Inst (ZMod p)} (hI : KeyOf f I)
    (w : ℕ → (ZMod p)[X]) (hno : ¬ ∃ a, Carries f w a ∧ Sat c I.inputs a) :
    AllBut (4 * f.dom.size) fun τ => ∀ h1 h2, AllBut (12 * f.dom.size * p) fun x : ZMod p × ZMod p =>
      ∀ z prod, ¬ Vanish f.dom (play I w h1 h2 z prod) τ x.1 x.2 := by
  classical
  obtain ⟨hdom, -⟩ := finalize_ok hf
  obtain ⟨hd, ho⟩ := good_of_newDomain hroot hdom
  have hn := final_size hf
  have hrows : f.circ.rows.length = f.dom.size := (C25_rows hc hf).2.2.2.2
  have hlen : I.inputs.length = c.pubIds.length := hI.inputs.trans (C25_rows hc hf).2.1
  have hu := final_ultra hc hf
  have hL := linked_of hc hf
  by_cases hcopy : ∃ a, Carries f w a
  swap
  · -- the wires are not consistent
    refine AllBut.all _ fun τ h1 h2 => ?_
    refine ⟨(Set.toFinite {x : ZMod p × ZMod p | CopyConstraints.Closes f (wireValue f w) x.1 x.2}).toFinset,
      ?_, ?_⟩
    · have := hL.sound hd.prim (wireValue f w) hcopy
      rw [Set.ncard_eq_toFinset_card _ (Set.toFinite _)] at this
      refine this.trans ?_
      have hw : width f.circ ≤ 6 := by unfold width; split <;> omega
      calc 2 * (width f.circ * f.dom.size) * p ≤ 2 * (6 * f.dom.size) * p := by gcongr
        _ = _ := by ring
    · intro x hx z prod hv
      refine hx ?_
      rw [Set.Finite.mem_toFinset]
      refine perm_at hI hd ho w h1 h2 z prod x.1 x.2 (fun j hj => hv _ ?_ j hj) (hv _ ?_ 0 (by omega)) <;>
        simp [Inst.constraints]
  obtain ⟨a, ha⟩ := hcopy
  have hno' : ¬ Sat c I.inputs a := fun h => hno ⟨a, ha, h⟩
  have hgate : (¬ GatesHold f.circ.rows I.inputs a) → ∀ τ h1 h2 (x : ZMod p × ZMod p) z prod,
      ¬ Vanish f.dom (play I w h1 h2 z prod) τ x.1 x.2 := by
    intro hg τ h1 h2 x z prod hv
    refine hg fun j r hr => ?_
    have hj : j < f.dom.size := by
      rw [← hrows]
      exact (List.getElem?_eq_some_iff.1 hr).1
    exact gate_at hI h1 h2 z prod ha (hI.pi_at ho hj) hr (hv _ (by simp [Inst.constraints]) j hj)
  cases hcu : c.ultra with
  | none =>
    obtain ⟨-, -, -, -, h⟩ := C25_turbo hc hcu hf
    have hg : ¬ GatesHold f.circ.rows I.inputs a := fun hg => hno' ((h _ a hlen).1 hg)
    exact AllBut.all _ fun τ h1 h2 => AllBut.all _ fun x z prod => hgate hg τ h1 h2 x z prod
  | some k =>
    obtain ⟨hk, hp, hp2, hT⟩ := hok k hcu
    have hsat := LookupArgument.C26_satisfied hc hcu hk hp hp2 hf hT I.inputs hlen a
    by_cases hg : GatesHold f.circ.rows I.inputs a
    swap
    · exact AllBut.all _ fun τ h1 h2 => AllBut.all _ fun x z prod => hgate hg τ h1 h2 x z prod
    have hlk : ¬ LookupsHold c k a := fun h => hno' (hsat.2 ⟨hg, h⟩)
    obtain ⟨-, hrange, -⟩ := C25_ultra hc hcu hk hp2 hf hT
    rw [hcu] at hu
    obtain ⟨l, hl⟩ : ∃ l, I.lookup = some l := Option.isSome_iff_exists.1 (by rw [hI.lookup, hu]; rfl)
    refine ⟨Finset.univ.filter (fun τ => ∀ x ∈ lookups f a τ, x ∈ table f k a τ), ?_, ?_⟩
    · exact LookupArgument.C26_merging hc hcu hp hf hT a hlk _ (fun τ hτ => (Finset.mem_filter.1 hτ).2)
    · intro τ hτ h1 h2
      have hout : ∃ x ∈ lookups f a τ, x ∉ table f k a τ := by
        by_contra hcon
        push Not at hcon
        exact hτ (Finset.mem_filter.2 ⟨Finset.mem_univ _, hcon⟩)
      set s := (List.range f.dom.size).map (fun j => h1.eval (f.dom.gen ^ j)) ++
        (List.range (f.dom.size - 1)).map (fun j => h2.eval (f.dom.gen ^ (j + 1))) with hs
      refine ⟨Finset.univ.filter (fun x => LookupArgument.Closes f k a τ s x.1 x.2), ?_, ?_⟩
      · refine (LookupArgument.C26_sound (by omega) a τ s (by rw [hs]; simp; omega) hout _
          (fun q hq => (Finset.mem_filter.1 hq).2)).trans ?_
        gcongr
        omega
      · intro x hx z prod hv
        refine hx (Finset.mem_filter.2 ⟨Finset.mem_univ _, ?_⟩)
        refine lookup_at hI hd ho hn hu hrows hrange ha hl h1 h2 z prod τ x.1 x.2 (fun e he => hv e ?_)
        unfold Inst.constraints
        refine List.mem_append_right _ ?_
        simpa [play, hl] using he

/-! ## Preprocessing -/

theorem ifft_unique {d : Domain (ZMod p)} (hd : Good d) (ho : d.offset = 1) {P : (ZMod p)[X]}
    (hP : P.degree < d.size) {l : List (ZMod p)} (hl : l.length ≤ d.size)
    (h : ∀ j < d.size, P.eval (d.gen ^ j) = l.getD j 0) : toPoly (d.ifft l) = P := by
  refine eq_of_degrees_lt_of_eval_index_eq (Finset.range d.size) (v := point d) hd.inj ?_ ?_ ?_
  · have := toPoly_degree_lt (d.ifft l)
    simpa [Domain.ifft] using this
  · simpa using hP
  · intro j hj
    have hj' := Finset.mem_range.1 hj
    unfold point
    rw [ho, one_mul, toPoly_eval, h j hj']
    exact ifft_eval d hd.prim l hl j hj'

theorem allSelectors_eq (c : Circ p) : allSelectors c =
    (List.range (if c.ultra.isSome then 14 else 13)).map (fun i => c.rows.map (fun r => (rowSel r).getD i 0)) := by
  unfold allSelectors
  cases c.ultra <;> rfl

theorem option_mapM {α β : Type} {g : α → Option β} {h : α → β} : ∀ {l : List α},
    (∀ a ∈ l, g a = some (h a)) → l.mapM g = some (l.map h) := by
  intro l
  induction l with
  | nil => intro _; rfl
  | cons a l ih =>
    intro H
    rw [List.mapM_cons, H a (by simp), ih (fun b hb => H b (by simp [hb]))]
    rfl

theorem except_mapM {ε α β : Type} {g : α → Except ε β} {h : α → β} : ∀ {l : List α},
    (∀ a ∈ l, g a = .ok (h a)) → l.mapM g = .ok (l.map h) := by
  intro l
  induction l with
  | nil => intro _; rfl
  | cons a l ih =>
    intro H
    rw [List.mapM_cons, H a (by simp), ih (fun b hb => H b (by simp [hb]))]
    rfl

theorem ext_ok (hL : Linked f) : extPermutation f = .ok (f.perm.map (label f)) := by
  unfold extPermutation
  have hids : f.ids.length = width f.circ * f.dom.size := by
    obtain ⟨ks, -, hk, hi⟩ := hL.ids
    rw [hi, extId_length, hk, CopyConstraints.width_eq]
  have h : ∀ s ∈ f.perm, (fun s : ℕ × ℕ => if numWireTypes f.circ ≤ s.1 then some 0
      else f.ids[s.1 * f.dom.size + s.2]?) s = some (label f s) := by
    intro s hs
    obtain ⟨i, hi, rfl⟩ := List.mem_iff_getElem.1 hs
    have hn := size_pos' f.dom
    have hi' : i < width f.circ * f.dom.size := by rw [← hL.len]; exact hi
    have hm : (i / f.dom.size, i % f.dom.size) ∈ slots f := by
      refine Finset.mem_product.2 ⟨Finset.mem_range.2 ?_, Finset.mem_range.2 (Nat.mod_lt _ hn)⟩
      exact Nat.div_lt_of_lt_mul (by rwa [mul_comm] at hi')
    have hnext := hL.bij.mapsTo hm
    have e : next f (i / f.dom.size, i % f.dom.size) = f.perm[i] := by
      unfold next
      simp only
      rw [Nat.div_add_mod', List.getD_eq_getElem?_getD, List.getElem?_eq_getElem hi]
      rfl
    rw [e] at hnext
    obtain ⟨h1, h2⟩ := Finset.mem_product.1 hnext
    rw [Finset.mem_range] at h1 h2
    simp only
    rw [if_neg (by rw [← CopyConstraints.width_eq]; omega)]
    have hlt : f.perm[i].1 * f.dom.size + f.perm[i].2 < f.ids.length := by
      rw [hids]
      calc _ < f.perm[i].1 * f.dom.size + f.dom.size := by omega
        _ = (f.perm[i].1 + 1) * f.dom.size := by ring
        _ ≤ _ := Nat.mul_le_mul_right _ h1
    unfold label
    rw [List.getD_eq_getElem?_getD, List.getElem?_eq_getElem hlt]
    rfl
  simp only
  rw [option_mapM h]
  simp only
  rw [if_neg]
  rw [List.length_map, hL.len, CopyConstraints.width_eq]
  simp

theorem sigma_ok (hL : Linked f) (hd : Good f.dom) (ho : f.dom.offset = 1) {I : Inst (ZMod p)} {mg : Bool}
    (hI : KeyOf f I mg) : ∃ l, sigmaPolys f = .ok l ∧ l.map toPoly = (List.range I.nw).map I.σ ∧
      ∀ q ∈ l, q.length = f.dom.size := by
  unfold sigmaPolys
  rw [ext_ok hL]
  refine ⟨_, rfl, ?_, ?_⟩
  · rw [List.map_map, ← CopyConstraints.width_eq, ← hI.nw]
    refine List.map_congr_left fun i hi => ?_
    rw [List.mem_range] at hi
    simp only [Function.comp_apply]
    refine ifft_unique hd ho (hI.σDegree i hi) (by simp) fun j hj => ?_
    rw [hI.σ i hi j hj, List.getD_eq_getElem?_getD, List.getElem?_take_of_lt hj, List.getElem?_drop,
      List.getElem?_map]
    unfold next
    have hlt : i * f.dom.size + j < f.perm.length := by
      rw [hL.len, ← hI.nw]
      calc _ < i * f.dom.size + f.dom.size := by omega
        _ = (i + 1) * f.dom.size := by ring
        _ ≤ _ := Nat.mul_le_mul_right _ hi
    simp only
    rw [List.getD_eq_getElem?_getD, List.getElem?_eq_getElem hlt]
    rfl
  · intro q hq
    obtain ⟨i, -, rfl⟩ := List.mem_map.1 hq
    simp [Domain.ifft]

theorem selector_ok (hd : Good f.dom) (ho : f.dom.offset = 1) (hrows : f.circ.rows.length = f.dom.size)
    {I : Inst (ZMod p)} {mg : Bool} (hI : KeyOf f I mg) :
    ∃ l, selectorPolys f = .ok l ∧ l.map toPoly = (List.range I.nq).map I.q ∧
      ∀ q ∈ l, q.length = f.dom.size := by
  unfold selectorPolys
  rw [if_neg (by omega)]
  refine ⟨_, rfl, ?_, ?_⟩
  · have hnq : I.nq = if f.circ.ultra.isSome then 14 else 13 := by
      unfold Inst.nq
      rw [hI.lookup]
    rw [allSelectors_eq, List.map_map, List.map_map, ← hnq]
    refine List.map_congr_left fun i hi => ?_
    rw [List.mem_range] at hi
    simp only [Function.comp_apply]
    refine ifft_unique hd ho (hI.qDegree i hi) (by simp [hrows]) fun j hj => ?_
    have hr : f.circ.rows[j]? = some f.circ.rows[j] := List.getElem?_eq_getElem (by omega)
    rw [hI.q i hi j _ hr, List.getD_eq_getElem?_getD (l := f.circ.rows.map _), List.getElem?_map, hr]
    rfl
  · intro q hq
    obtain ⟨i, -, rfl⟩ := List.mem_map.1 hq
    simp [Domain.ifft]

theorem column_ok {d : Domain (ZMod p)} (hd : Good d) (ho : d.offset = 1) {rows : List (Row p)}
    (hrows : rows.length = d.size) (g : Row p → ZMod p) {P : (ZMod p)[X]} (hP : P.degree < d.size)
    (h : ∀ j r, rows[j]? = some r → P.eval (d.gen ^ j) = g r) : toPoly (d.ifft (rows.map g)) = P := by
  refine ifft_unique hd ho hP (by simp [hrows]) fun j hj => ?_
  have hr : rows[j]? = some rows[j] := List.getElem?_eq_getElem (by omega)
  rw [h j _ hr, List.getD_eq_getElem?_getD (l := rows.map _), List.getElem?_map, hr]
  rfl

/-- the polynomials of the proving key for lookups are those of the instance -/
def LkKeyOf (n : ℕ) (a : Option (LkPk (ZMod p))) (b : Option (LkPolys (ZMod p))) : Prop :=
  match a, b with
  | none, none => True
  | some a, some b => (toPoly a.range = b.range ∧ toPoly a.key = b.key ∧
      toPoly a.tableDomSep = b.tableDomSep ∧ toPoly a.qDomSep = b.qDomSep) ∧
      a.range.length = n ∧ a.key.length = n ∧ a.tableDomSep.length = n ∧ a.qDomSep.length = n
  | _, _ => False

theorem lookupPk_ok (hd : Good f.dom) (ho : f.dom.offset = 1) (hrows : f.circ.rows.length = f.dom.size)
    (hsize : ∀ k, f.circ.ultra = some k → k ≤ 32 ∧ 2 ^ k ≤ f.dom.size)
    {I : Inst (ZMod p)} {mg : Bool} (hI : KeyOf f I mg) :
    ∃ a, lookupPk f = .ok a ∧ LkKeyOf f.dom.size a I.lookup := by
  unfold lookupPk
  have hl := hI.lookup
  cases hu : f.circ.ultra with
  | none =>
    rw [hu] at hl
    have : I.lookup = none := by simpa using hl
    exact ⟨none, rfl, by rw [this]; trivial⟩
  | some k =>
    rw [hu] at hl
    obtain ⟨l, hl⟩ := Option.isSome_iff_exists.1 (hl.trans rfl)
    have hT := hI.tables l k hl hu
    obtain ⟨hk, hn⟩ := hsize k hu
    obtain ⟨t, ht, htl, htv⟩ := LookupArgument.C26_range_table f hu hk hn
    obtain ⟨d1, d2, d3, d4⟩ := hT.degree
    have e1 : rangeTablePoly f = .ok (f.dom.ifft t) := by
      unfold rangeTablePoly
      rw [ht]
    have e2 : keyTablePoly f = .ok (f.dom.ifft (f.circ.rows.map (·.sel.tableKey))) := by
      unfold keyTablePoly
      rw [if_neg (by simp [hu])]
    have e3 : tableDomSepPoly f = .ok (f.dom.ifft (f.circ.rows.map (·.sel.tableDomSep))) := by
      unfold tableDomSepPoly
      rw [if_neg (by simp [hu])]
    have e4 : qDomSepPoly f = .ok (f.dom.ifft (f.circ.rows.map (·.sel.domSep))) := by
      unfold qDomSepPoly
      rw [if_neg (by simp [hu])]
    refine ⟨_, by rw [e1, e2, e3, e4]; rfl, ?_⟩
    rw [hl]
    refine ⟨⟨?_, ?_, ?_, ?_⟩, by simp [Domain.ifft], by simp [Domain.ifft], by simp [Domain.ifft],
      by simp [Domain.ifft]⟩
    · refine ifft_unique hd ho d1 (by omega) fun j hj => ?_
      rw [hT.range j hj, List.getD_eq_getElem?_getD, htv j hj]
      rfl
    · exact column_ok hd ho hrows (·.sel.tableKey) d2 fun j r hr => (hT.rows j r hr).1
    · exact column_ok hd ho hrows (·.sel.tableDomSep) d3 fun j r hr => (hT.rows j r hr).2.1
    · exact column_ok hd ho hrows (·.sel.domSep) d4 fun j r hr => (hT.rows j r hr).2.2

section
variable {G G2 : Type} [AddCommGroup G] [Module (ZMod p) G] [DecidableEq G]
  [AddCommGroup G2] [Module (ZMod p) G2] [DecidableEq G2]

/-- the trimmed parameters of the verifier -/
def openKey (x : ZMod p) (g : G) (h : G2) : VerifierParam G G2 where
  g := g
  h := h
  betaH := x • h
  powersOfH := [h, x • h]
  powersOfG := [g, x • g]

theorem commit_toPoly (x : ZMod p) (g : G) (n : ℕ) (l : List (ZMod p)) (hl : l.length ≤ n) :
    commit (⟨powers x g n⟩ : ProverParam G) l = .ok (kzg x g (toPoly l)) := by
  rw [commit_honest x g n l hl]
  show _ = Except.ok ((toPoly l).eval x • g)
  rw [toPoly_eval]

theorem batchCommit_toPoly (x : ZMod p) (g : G) (n : ℕ) (ls : List (List (ZMod p)))
    (hl : ∀ l ∈ ls, l.length ≤ n) :
    batchCommit (⟨powers x g n⟩ : ProverParam G) ls = .ok ((ls.map toPoly).map (kzg x g)) := by
  unfold batchCommit
  rw [List.map_map]
  exact except_mapM fun l h => commit_toPoly x g n l (hl l h)

theorem lookupVk_ok (x : ZMod p) (g : G) {n m : ℕ} (hm : n ≤ m) {a : Option (LkPk (ZMod p))}
    {b : Option (LkPolys (ZMod p))} (h : LkKeyOf n a b) :
    lookupVk (⟨powers x g m⟩ : ProverParam G) a =
      .ok (b.map (fun l => ⟨kzg x g l.range, kzg x g l.key, kzg x g l.tableDomSep, kzg x g l.qDomSep⟩)) := by
  rcases a with _ | a <;> rcases b with _ | b
  · rfl
  · exact h.elim
  · exact h.elim
  · obtain ⟨⟨e1, e2, e3, e4⟩, l1, l2, l3, l4⟩ := h
    simp only [lookupVk]
    rw [commit_toPoly x g m a.range (by omega), commit_toPoly x g m a.key (by omega),
      commit_toPoly x g m a.tableDomSep (by omega), commit_toPoly x g m a.qDomSep (by omega), e1, e2, e3, e4]
    rfl

/-- preprocessing of a circuit whose permutation links the slots of each variable -/
theorem preprocess_ok (hL : Linked f) (hd : Good f.dom) (ho : f.dom.offset = 1)
    (hrows : f.circ.rows.length = f.dom.size) {ks : List (ZMod p)}
    (hks : cosetReps rnd (numWireTypes f.circ) f.dom.size = .ok ks) (hids : f.ids = extIdPermutation ks f.dom)
    (hk : ∀ k, f.circ.ultra = some k → k ≤ 32 ∧ 2 ^ k ≤ f.dom.size)
    {I : Inst (ZMod p)} {mg : Bool} (hI : KeyOf f I mg) (x : ZMod p) (g : G) (h : G2) {m : ℕ} (hm : f.dom.size + 2 ≤ m) :
    ∃ pk, preprocess rnd (genSrs x g h m 1) f = .ok pk ∧
      pk.vk = { I.key (kzg x g) f.dom (openKey x g h) with merged := false } ∧
      pk.commitKey.powersOfG = (List.range (f.dom.size + 3)).map (fun i => x ^ i • g) ∧
      pk.selectors.map toPoly = (List.range I.nq).map I.q ∧
      pk.sigmas.map toPoly = (List.range I.nw).map I.σ ∧ LkKeyOf f.dom.size pk.lookup I.lookup := by
  obtain ⟨sel, e1, m1, l1⟩ := selector_ok hd ho hrows hI
  obtain ⟨sig, e2, m2, l2⟩ := sigma_ok hL hd ho hI
  obtain ⟨lpk, e3, m3⟩ := lookupPk_ok hd ho hrows hk hI
  have e4 : trim (genSrs x g h m 1) (f.dom.size + 2) =
      .ok ((⟨powers x g (f.dom.size + 3)⟩ : ProverParam G), openKey x g h) := by
    unfold trim
    rw [trim_genSrs x g h m 1 (f.dom.size + 2) 1 (by omega) le_rfl le_rfl]
    simp [powers, openKey, List.range_succ]
  have hklen : ks.length = I.nw := by
    obtain ⟨ks', -, hk', hi'⟩ := hL.ids
    have h1 := extId_length ks f.dom
    rw [← hids, hi', extId_length, hk', ← CopyConstraints.width_eq, ← hI.nw] at h1
    exact (Nat.eq_of_mul_eq_mul_right (size_pos' f.dom) h1).symm
  have hkI : ks = (List.range I.nw).map I.k := by
    refine List.ext_getElem (by simp [hklen]) fun i h1 h2 => ?_
    rw [hklen] at h1
    have h3 := hI.k i h1 0 (size_pos' _)
    unfold label at h3
    rw [List.getD_eq_getElem?_getD, hids, extId_get f.dom 0 (size_pos' _) ks i (by omega)] at h3
    simp only [Option.getD_some, pow_zero, mul_one] at h3
    rw [List.getD_eq_getElem?_getD, List.getElem?_eq_getElem (by omega)] at h3
    simpa using h3
  have e5 := batchCommit_toPoly x g (f.dom.size + 3) sel (fun l h => by rw [l1 l h]; omega)
  have e6 := batchCommit_toPoly x g (f.dom.size + 3) sig (fun l h => by rw [l2 l h]; omega)
  have e7 := lookupVk_ok x g (show f.dom.size ≤ f.dom.size + 3 by omega) m3
  unfold preprocess
  rw [if_neg (by show ¬ ((List.range _).map _).length < _; simp; omega), e1, e2, e3, e4, hks]
  simp only [liftC, liftP, bind, Except.bind, e5, e6, e7]
  refine ⟨_, rfl, ?_, rfl, m1, m2, m3⟩
  simp only [Inst.key, m1, m2, List.map_map, hI.inputs, hkI]
  rfl

/-- C73, preprocessing: with a long enough reference string, the proving key consists of the polynomials of the
circuit and the verifying key of their commitments. -/
theorem C73_preprocess (hc : Built c) (hroot : IsPrimitiveRoot root (2 ^ S))
    (hf : finalize S root rnd c = .ok f) (hk : ∀ k, c.ultra = some k → k ≤ 32)
    {I : Inst (ZMod p)} (hI : KeyOf f I) (x : ZMod p) (g : G) (h : G2) {m : ℕ} (hm : f.dom.size + 2 ≤ m) :
    ∃ pk, preprocess rnd (genSrs x g h m 1) f = .ok pk ∧
      pk.vk = I.key (kzg x g) f.dom (openKey x g h) ∧
      pk.commitKey.powersOfG = (List.range (f.dom.size + 3)).map (fun i => x ^ i • g) ∧
      pk.selectors.map toPoly = (List.range I.nq).map I.q ∧
      pk.sigmas.map toPoly = (List.range I.nw).map I.σ ∧ LkKeyOf f.dom.size pk.lookup I.lookup := by
  obtain ⟨hdom, -, -, -, ks, hks, hids⟩ := finalize_ok hf
  obtain ⟨hd, ho⟩ := good_of_newDomain hroot hdom
  have hrows : f.circ.rows.length = f.dom.size := (C25_rows hc hf).2.2.2.2
  have hL := linked_of hc hf
  have hu := final_ultra hc hf
  obtain ⟨pk, h1, h2, h3⟩ := preprocess_ok hL hd ho hrows hks hids (fun k h => ⟨hk k (by rw [← hu]; exact h),
    (lookupReady hc.ok (by rw [← hu]; exact h) hf).size.le⟩) hI x g h hm
  refine ⟨pk, h1, ?_, h3⟩
  rw [h2, Inst.key, hI.merged]

/-- C73: preprocessing refuses a reference string with fewer powers than the commitment key needs. -/
theorem C73_srs (srs : Srs G G2) (hs : srs.powersOfG.length < f.dom.size + 3) :
    ∃ e, preprocess rnd srs f = .error e := by
  unfold preprocess
  split_ifs with h1
  · exact ⟨_, rfl⟩
  · have ht : trim srs (f.dom.size + 2) = .error .invalidParameters := by
      unfold trim trimWithVerifierDegree
      rw [if_pos (by omega), if_neg (by omega)]
    rw [ht]
    cases liftC (selectorPolys f) with
    | error e => exact ⟨e, rfl⟩
    | ok a =>
      cases liftC (sigmaPolys f) with
      | error e => exact ⟨e, rfl⟩
      | ok b =>
        cases lookupPk f with
        | error e => exact ⟨e, rfl⟩
        | ok l => exact ⟨_, rfl⟩

end

/-! ## The key of a circuit -/

/-- the polynomial with the given values on the domain -/
noncomputable def interp (d : Domain (ZMod p)) (v : ℕ → ZMod p) : (ZMod p)[X] :=
  toPoly (d.ifft ((List.range d.size).map v))

theorem interp_degree (d : Domain (ZMod p)) (v : ℕ → ZMod p) : (interp d v).degree < d.size := by
  have := toPoly_degree_lt (d.ifft ((List.range d.size).map v))
  have e : (d.ifft ((List.range d.size).map v)).length = d.size := by simp [Domain.ifft]
  rwa [e] at this

theorem interp_eval {d : Domain (ZMod p)} (hd : Good d) (v : ℕ → ZMod p) {j : ℕ} (hj : j < d.size) :
    (interp d v).eval (d.gen ^ j) = v j := by
  unfold interp
  rw [toPoly_eval]
  refine (ifft_eval d hd.prim _ (by simp) j hj).trans ?_
  rw [List.getD_eq_getElem?_getD, List.getElem?_map, List.getElem?_range hj]
  rfl

/-- a circuit whose permutation links the slots of each variable has a key -/
theorem key_ok (hL : Linked f) (hd : Good f.dom) (hrows : f.circ.rows.length = f.dom.size) {mg : Bool}
    {inputs : List (ZMod p)} (hi : inputs.length = f.circ.pubIds.length) {P : (ZMod p)[X]}
    (hP : IsInputs f.dom mg inputs P) : ∃ I : Inst (ZMod p), KeyOf f I mg ∧ I.inputs = inputs ∧ I.pi = P := by
  obtain ⟨ks, -, hk, hids⟩ := hL.ids
  have hw : width f.circ = if f.circ.ultra.isSome then 6 else 5 := by
    unfold width; cases f.circ.ultra <;> simp
  refine ⟨{ w := 0, z := 0, merged := mg, inputs := inputs
            pi := P
            σ := fun i => interp f.dom (fun j => label f (next f (i, j)))
            q := fun i => interp f.dom (fun j => ((f.circ.rows[j]?.map rowSel).getD []).getD i 0)
            k := fun i => ks.getD i 0
            lookup := f.circ.ultra.map (fun k => ⟨interp f.dom (fun j => if j < 2 ^ k then (j : ZMod p) else 0),
              interp f.dom (fun j => (f.circ.rows[j]?.map (·.sel.tableKey)).getD 0),
              interp f.dom (fun j => (f.circ.rows[j]?.map (·.sel.tableDomSep)).getD 0),
              interp f.dom (fun j => (f.circ.rows[j]?.map (·.sel.domSep)).getD 0), 0, 0, 0⟩) }, ?_, rfl, rfl⟩
  have lt : ∀ {j : ℕ} {r : Row p}, f.circ.rows[j]? = some r → j < f.dom.size := fun h => by
    rw [← hrows]
    exact (List.getElem?_eq_some_iff.1 h).1
  refine ⟨rfl, hi, hP, by simp, ?_,
    fun i _ => interp_degree _ _, fun i _ j r hr => ?_, fun i _ => interp_degree _ _,
    fun i _ j hj => interp_eval hd _ hj, fun i hi j hj => ?_⟩
  · intro l k hl hk
    simp only [hk, Option.map_some, Option.some.injEq] at hl
    subst hl
    refine ⟨⟨interp_degree _ _, interp_degree _ _, interp_degree _ _, interp_degree _ _⟩,
      fun j hj => interp_eval hd _ hj, fun j r hr => ?_⟩
    simp only
    rw [interp_eval hd _ (lt hr), interp_eval hd _ (lt hr), interp_eval hd _ (lt hr), hr]
    exact ⟨rfl, rfl, rfl⟩
  · simp only
    rw [interp_eval hd _ (lt hr), hr]
    rfl
  · have hi' : i < ks.length := by
      rw [hk, ← CopyConstraints.width_eq, hw]
      simpa [Inst.nw] using hi
    unfold label
    rw [List.getD_eq_getElem?_getD, hids, extId_get f.dom j hj ks i hi']
    rfl

/-- C73: every finalized circuit has a key, for all public inputs of the right number. -/
theorem C73_key (hc : Built c) (hroot : IsPrimitiveRoot root (2 ^ S)) (hf : finalize S root rnd c = .ok f)
    (inputs : List (ZMod p)) (hi : inputs.length = c.pubIds.length) : ∃ I : Inst (ZMod p), KeyOf f I ∧ I.inputs = inputs := by
  obtain ⟨hdom, -⟩ := finalize_ok hf
  obtain ⟨hd, ho⟩ := good_of_newDomain hroot hdom
  obtain ⟨hperm, hpub, -, -, hrows⟩ := C25_rows hc hf
  have hlen : inputs.length ≤ f.dom.size := by
    have h1 := hc.ok.ioCount
    have h2 := List.countP_le_length (p := fun r : Row p => r.sel.io) (l := c.rows)
    have h3 := hperm.length_eq
    rw [List.length_append, List.length_replicate] at h3
    omega
  obtain ⟨I, h1, h2, -⟩ := key_ok (mg := false) (linked_of hc hf) hd hrows (hi.trans hpub.symm)
    (P := interp f.dom (fun j => inputs.getD j 0)) ⟨interp_degree _ _, hlen, fun j hj => by
      rw [ho, one_mul]
      exact interp_eval hd _ hj⟩
  exact ⟨I, h1, h2⟩

/-! ## The proof system -/

/-- a batch of `m` circuits of one kind with a common domain, their keys and public inputs -/
structure Batch (S : ℕ) (root : ZMod p) (rnd : List (ZMod p)) (m : ℕ) (d : Domain (ZMod p)) (c : ℕ → Circ p)
    (f : ℕ → FCirc p) (I : ℕ → Inst (ZMod p)) : Prop where
  pos : m ≠ 0
  prim : IsPrimitiveRoot root (2 ^ S)
  built : ∀ i < m, Built (c i)
  final : ∀ i < m, finalize S root rnd (c i) = .ok (f i)
  dom : ∀ i < m, (f i).dom = d
  supported : ∀ i < m, Supported (c i) (f i)
  key : ∀ i < m, KeyOf (f i) (I i)
  kind : ∃ b, ∀ i < m, (c i).ultra.isSome = b

/-- the commitment key is long enough for the polynomial -/
def Low (d : Domain (ZMod p)) (P : (ZMod p)[X]) : Prop := P.natDegree ≤ d.size + 2

/-- the instances with the polynomials of the prover -/
def played (m : ℕ) (I : ℕ → Inst (ZMod p)) (w : ℕ → ℕ → (ZMod p)[X]) (h1 h2 z prod : ℕ → (ZMod p)[X]) :
    List (Inst (ZMod p)) :=
  (List.range m).map (fun i => play (I i) (w i) (h1 i) (h2 i) (z i) (prod i))

/-- the instances with the values the prover claims -/
def withClaims (m : ℕ) (I : ℕ → Inst (ZMod p)) (w : ℕ → ℕ → (ZMod p)[X]) (h1 h2 z prod : ℕ → (ZMod p)[X])
    (cl : ℕ → Claims (ZMod p)) : List (Inst (ZMod p) × Claims (ZMod p)) :=
  (List.range m).map (fun i => (play (I i) (w i) (h1 i) (h2 i) (z i) (prod i), cl i))

section
variable {m : ℕ} {d : Domain (ZMod p)} {cs : ℕ → Circ p} {fs : ℕ → FCirc p} {I : ℕ → Inst (ZMod p)}

/-- the polynomials of the keys have small degrees -/
structure Small (d : Domain (ZMod p)) (I : Inst (ZMod p)) : Prop where
  q : ∀ i < I.nq, (I.q i).degree < d.size
  σ : ∀ i < I.nw, (I.σ i).degree < d.size
  tables : ∀ l, I.lookup = some l → l.range.degree < d.size ∧ l.key.degree < d.size ∧
    l.tableDomSep.degree < d.size ∧ l.qDomSep.degree < d.size

theorem KeyOf.small {I : Inst (ZMod p)} {mg : Bool} (h : KeyOf f I mg) : Small f.dom I := by
  refine ⟨h.qDegree, h.σDegree, fun l hl => ?_⟩
  obtain ⟨k, hku⟩ := Option.isSome_iff_exists.1 (h.lookup.symm.trans (by rw [hl]; rfl))
  exact (h.tables l k hl hku).degree

/-- what the challenges after the wires need of a batch -/
structure Frame (S : ℕ) (root : ZMod p) (m : ℕ) (d : Domain (ZMod p)) (I : ℕ → Inst (ZMod p)) : Prop where
  pos : m ≠ 0
  prim : IsPrimitiveRoot root (2 ^ S)
  newDom : newDomain S root d.size = some d
  size : 1 < d.size
  inputs : ∀ i < m, IsInputs d (I i).merged (I i).inputs (I i).pi
  small : ∀ i < m, Small d (I i)
  kind : ∃ b, ∀ i < m, (I i).lookup.isSome = b

theorem Batch.frame (hB : Batch S root rnd m d cs fs I) : Frame S root m d I := by
  have h0 : 0 < m := Nat.pos_of_ne_zero hB.pos
  obtain ⟨hdom, -⟩ := finalize_ok (hB.final 0 h0)
  rw [hB.dom 0 h0] at hdom
  refine ⟨hB.pos, hB.prim, newDomain_again hdom, ?_, fun i hi => ?_, fun i hi => ?_, ?_⟩
  · rw [← hB.dom 0 h0]
    exact final_size (hB.final 0 h0)
  · have hk := hB.key i hi
    have := hk.pi
    rw [hB.dom i hi] at this
    rw [hk.merged]
    exact this
  · rw [← hB.dom i hi]
    exact (hB.key i hi).small
  · obtain ⟨b, hb⟩ := hB.kind
    refine ⟨b, fun k hk => ?_⟩
    rw [← hb k hk, ← final_ultra (hB.built k hk) (hB.final k hk), ← (hB.key k hk).lookup]

theorem Frame.good (hB : Frame S root m d I) : Good d ∧ d.offset = 1 ∧ newDomain S root d.size = some d ∧
    1 < d.size := by
  obtain ⟨hd, ho⟩ := good_of_newDomain hB.prim hB.newDom
  exact ⟨hd, ho, hB.newDom, hB.size⟩

theorem Frame.setting (hB : Frame S root m d I) (w : ℕ → ℕ → (ZMod p)[X])
    (h1 h2 z prod : ℕ → (ZMod p)[X]) (cl : ℕ → Claims (ZMod p)) {ts : List (ZMod p)[X]} (hts : ts ≠ [])
    {τ : ZMod p} {o : Option (ZMod p)} (hτ : ∀ i < m, (I i).lookup.isSome → o = some τ) (α β γ ζ v u : ZMod p) :
    Setting d ⟨o, α, β, γ, ζ, v, u⟩ τ (withClaims m I w h1 h2 z prod cl) ts := by
  obtain ⟨hd, ho, -, hn⟩ := hB.good
  refine ⟨hd.prim, ho, by omega, ?_, ?_, ?_, hts⟩
  · intro h
    have := congrArg List.length h
    simp [withClaims] at this
    exact hB.pos this
  · intro x hx
    obtain ⟨i, hi, rfl⟩ := List.mem_map.1 hx
    rw [List.mem_range] at hi
    exact hB.inputs i hi
  · intro x hx hl
    obtain ⟨i, hi, rfl⟩ := List.mem_map.1 hx
    rw [List.mem_range] at hi
    refine hτ i hi ?_
    simpa [play] using hl

theorem Frame.fits (hB : Frame S root m d I) {w : ℕ → ℕ → (ZMod p)[X]}
    {h1 h2 z prod : ℕ → (ZMod p)[X]} (hw : ∀ i j, Low d (w i j)) (hh1 : ∀ i, Low d (h1 i))
    (hh2 : ∀ i, Low d (h2 i)) (hz : ∀ i, Low d (z i)) (hp : ∀ i, Low d (prod i)) {i : ℕ} (hi : i < m) :
    (play (I i) (w i) (h1 i) (h2 i) (z i) (prod i)).Fits (d.size + 2) := by
  have hk := hB.small i hi
  have nd : ∀ P : (ZMod p)[X], P.degree < d.size → P.natDegree ≤ d.size + 2 := fun P hP =>
    (natDegree_le_of_degree_le hP.le).trans (by omega)
  obtain ⟨hnw, hnq⟩ := play_nw (I i) (w i) (h1 i) (h2 i) (z i) (prod i)
  refine ⟨fun j _ => hw i j, fun j hj => nd _ ?_, fun j hj => nd _ ?_, hz i, nd _ (hB.inputs i hi).1, ?_⟩
  · rw [hnw] at hj
    exact hk.σ j hj
  · rw [hnq] at hj
    exact hk.q j hj
  · intro l hl
    obtain ⟨l0, hl0, rfl⟩ := Option.map_eq_some_iff.1 hl
    obtain ⟨d1, d2, d3, d4⟩ := hk.tables l0 hl0
    exact ⟨nd _ d1, nd _ d2, nd _ d3, nd _ d4, hh1 i, hh2 i, hp i⟩

variable [DecidableEq (ZMod p)[X]]

/-- C73, the challenges `α` and `ζ`: if a constraint of some circuit does not vanish then, whatever the
quotient, the combined constraints differ from the vanishing polynomial times the quotient at all but few
points. -/
theorem alpha_zeta (hB : Frame S root m d I) {w : ℕ → ℕ → (ZMod p)[X]}
    {h1 h2 z prod : ℕ → (ZMod p)[X]} (hw : ∀ i j, Low d (w i j)) (hh1 : ∀ i, Low d (h1 i))
    (hh2 : ∀ i, Low d (h2 i)) (hz : ∀ i, Low d (z i)) (hp : ∀ i, Low d (prod i)) (τ β γ : ZMod p) {i : ℕ}
    (hi : i < m) (hv : ¬ Vanish d (play (I i) (w i) (h1 i) (h2 i) (z i) (prod i)) τ β γ) :
    AllBut (7 * m) fun α => ∀ ts : List (ZMod p)[X], ts ≠ [] → (∀ t ∈ ts, Low d t) →
      AllBut (7 * (d.size + 2) + (d.size + 2) * ts.length) fun ζ =>
        (combined d τ α β γ (played m I w h1 h2 z prod)).eval ζ ≠
          (ζ ^ d.size - 1) * (joinQuot d ts).eval ζ := by
  classical
  obtain ⟨hd, ho, -, hn⟩ := hB.good
  unfold Vanish at hv
  push Not at hv
  obtain ⟨e, he, j, hj, hne⟩ := hv
  refine ⟨Finset.univ.filter (fun α => (combined d τ α β γ (played m I w h1 h2 z prod)).eval (d.gen ^ j) = 0),
    ?_, ?_⟩
  · by_contra hcard
    push Not at hcard
    obtain ⟨b, hb⟩ := hB.kind
    have := C58_homogeneous d τ β γ (played m I w h1 h2 z prod) b ?_ (d.gen ^ j) _
      (by simpa [played] using hcard.le) (fun α hα => (Finset.mem_filter.1 hα).2)
      (play (I i) (w i) (h1 i) (h2 i) (z i) (prod i)) (List.mem_map.2 ⟨i, List.mem_range.2 hi, rfl⟩) e he
    · exact hne this
    · intro J hJ
      obtain ⟨k, hk, rfl⟩ := List.mem_map.1 hJ
      rw [List.mem_range] at hk
      rw [← hb k hk]
      simp [play]
  · intro α hα ts hts hlow
    have hα' : (combined d τ α β γ (played m I w h1 h2 z prod)).eval (d.gen ^ j) ≠ 0 := fun h =>
      hα (Finset.mem_filter.2 ⟨Finset.mem_univ _, h⟩)
    set P := combined d τ α β γ (played m I w h1 h2 z prod) - (X ^ d.size - 1) * joinQuot d ts with hP
    have hP0 : P ≠ 0 := by
      intro h
      have h0 := congrArg (eval (d.gen ^ j)) h
      rw [hP, eval_sub, eval_mul, eval_sub, eval_pow, eval_X, eval_one, ← pow_mul, mul_comm j, pow_mul,
        hd.prim.pow_eq_one, one_pow, sub_self, zero_mul, sub_zero, eval_zero] at h0
      exact hα' h0
    have hdeg : P.natDegree ≤ 7 * (d.size + 2) + (d.size + 2) * ts.length := by
      refine nd_sub (le_trans (batch_natDegree (D := d.size + 2) (fun J hJ => ?_) hd (by omega) _ _ _ _ _)
        (by omega)) ?_
      · obtain ⟨k, hk, rfl⟩ := List.mem_map.1 hJ
        exact hB.fits hw hh1 hh2 hz hp (List.mem_range.1 hk)
      · refine nd_mul (D := d.size) (nd_sub (natDegree_X_pow_le _) (by simp)) (joinQuot_natDegree d hlow) ?_
        have : (d.size + 2) * (ts.length - 1) ≤ (d.size + 2) * ts.length := Nat.mul_le_mul_left _ (by omega)
        omega
    refine ⟨P.roots.toFinset, ?_, ?_⟩
    · exact (Multiset.toFinset_card_le _).trans ((card_roots' P).trans hdeg)
    · intro ζ hζ heq
      refine hζ ?_
      rw [Multiset.mem_toFinset, mem_roots hP0, IsRoot, hP, eval_sub, heq]
      simp

/-- C73, the challenges `v` and `u`: if the combined constraints are not the vanishing polynomial times the
quotient at the evaluation point then the verifier's equation fails for the polynomials. -/
theorem v_u (hB : Frame S root m d I) {w : ℕ → ℕ → (ZMod p)[X]}
    {h1 h2 z prod : ℕ → (ZMod p)[X]} (cl : ℕ → Claims (ZMod p)) {ts : List (ZMod p)[X]} (hts : ts ≠ [])
    {τ : ZMod p} {o : Option (ZMod p)} (hτ : ∀ i < m, (I i).lookup.isSome → o = some τ) (α β γ ζ : ZMod p)
    (hne : (combined d τ α β γ (played m I w h1 h2 z prod)).eval ζ ≠
          (ζ ^ d.size - 1) * (joinQuot d ts).eval ζ) :
    AllBut (27 * m) fun v => ∀ W W', AllBut 1 fun u =>
      ¬ Holds d ⟨o, α, β, γ, ζ, v, u⟩ (withClaims m I w h1 h2 z prod cl) ts W W' := by
  classical
  refine ⟨Finset.univ.filter (fun v => ∃ W W' : (ZMod p)[X], ∃ u₁ u₂ : ZMod p, u₁ ≠ u₂ ∧
      Holds d ⟨o, α, β, γ, ζ, v, u₁⟩ (withClaims m I w h1 h2 z prod cl) ts W W' ∧
      Holds d ⟨o, α, β, γ, ζ, v, u₂⟩ (withClaims m I w h1 h2 z prod cl) ts W W'), ?_, ?_⟩
  · by_contra hcard
    push Not at hcard
    have := (C59_sound (hB.setting w h1 h2 z prod cl hts hτ α β γ ζ 0 0) _
      (by simpa [withClaims] using hcard) (fun v hv => (Finset.mem_filter.1 hv).2)).2
    refine hne ?_
    have e : (withClaims m I w h1 h2 z prod cl).map (·.1) = played m I w h1 h2 z prod := by
      simp [withClaims, played, Function.comp_def]
    rw [e] at this
    exact this
  · intro v hv W W'
    refine ⟨Finset.univ.filter (fun u => Holds d ⟨o, α, β, γ, ζ, v, u⟩
      (withClaims m I w h1 h2 z prod cl) ts W W'), ?_, ?_⟩
    · rw [Finset.card_le_one]
      intro u₁ hu₁ u₂ hu₂
      by_contra hne
      exact hv (Finset.mem_filter.2 ⟨Finset.mem_univ _, W, W', u₁, u₂, hne, (Finset.mem_filter.1 hu₁).2,
        (Finset.mem_filter.1 hu₂).2⟩)
    · intro u hu h
      exact hu (Finset.mem_filter.2 ⟨Finset.mem_univ _, h⟩)

variable {G G2 GT : Type} [AddCommGroup G] [Module (ZMod p) G] [DecidableEq G]
  [AddCommGroup G2] [Module (ZMod p) G2] [DecidableEq G2]
  [AddCommGroup GT] [Module (ZMod p) GT] [DecidableEq GT]

/-- what the verifier says about the proof with secret `x`, using the keys made by preprocessing -/
def Rejected (S : ℕ) (root : ZMod p) (rnd : List (ZMod p)) (e : G →ₗ[ZMod p] G2 →ₗ[ZMod p] GT)
    (hash : List (ZMod p) → ZMod p) (g : G) (h : G2) (M : ℕ) (m : ℕ) (fs : ℕ → FCirc p)
    (I : ℕ → Inst (ZMod p)) (ch : Chal (ZMod p)) (π : BProof (ZMod p) G) (x : ZMod p) : Prop :=
  ∀ pk : ℕ → PKey (ZMod p) G G2, (∀ i < m, preprocess rnd (genSrs x g h M 1) (fs i) = .ok (pk i)) →
    verifyBatch (newDomain S root) e hash (fun _ _ _ => ch) ((List.range m).map (fun i => (pk i).vk))
      ((List.range m).map (fun i => (I i).inputs)) π = .ok false

/-- C73, the secret of the reference string: if the verifier's equation fails for the polynomials then the
verifier rejects the commitments for all but few secrets. -/
theorem secret (hB : Frame S root m d I) {w : ℕ → ℕ → (ZMod p)[X]}
    {h1 h2 z prod : ℕ → (ZMod p)[X]} (hw : ∀ i j, Low d (w i j)) (hh1 : ∀ i, Low d (h1 i))
    (hh2 : ∀ i, Low d (h2 i)) (hz : ∀ i, Low d (z i)) (hp : ∀ i, Low d (prod i))
    (cl : ℕ → Claims (ZMod p)) {ts : List (ZMod p)[X]} (hts : ts ≠ []) (hlow : ∀ t ∈ ts, Low d t)
    {τ : ZMod p} {o : Option (ZMod p)} (hτ : ∀ i < m, (I i).lookup.isSome → o = some τ) (α β γ ζ v u : ZMod p)
    {W W' : (ZMod p)[X]} (hW : Low d W) (hW' : Low d W')
    (hno : ¬ Holds d ⟨o, α, β, γ, ζ, v, u⟩ (withClaims m I w h1 h2 z prod cl) ts W W')
    (e : G →ₗ[ZMod p] G2 →ₗ[ZMod p] GT) (hash : List (ZMod p) → ZMod p) (g : G) (h : G2) (he : e g h ≠ 0) :
    AllBut (d.size + 3) fun x => verifyBatch (newDomain S root) e hash (fun _ _ _ => ⟨o, α, β, γ, ζ, v, u⟩)
      ((List.range m).map (fun i => (I i).key (kzg x g) d (openKey x g h)))
      ((List.range m).map (fun i => (I i).inputs)) (proof (kzg x g) (withClaims m I w h1 h2 z prod cl) ts W W') =
        .ok false := by
  classical
  obtain ⟨hd, ho, hnew, hn⟩ := hB.good
  have hs := hB.setting w h1 h2 z prod cl hts hτ α β γ ζ v u
  obtain ⟨info, i1, i2, i3, i4, i5, i6, i7⟩ := onPolynomials_ok hs W W'
  have hfits : ∀ x ∈ withClaims m I w h1 h2 z prod cl, x.1.Fits (d.size + 2) := by
    intro x hx
    obtain ⟨k, hk, rfl⟩ := List.mem_map.1 hx
    exact hB.fits hw hh1 hh2 hz hp (List.mem_range.1 hk)
  set P := (X - C info.point) * info.opening + C info.u * ((X - C info.nextPoint) * info.shifted) -
    (info.comm.msm - C info.eval) with hP
  have hP0 : P ≠ 0 := fun h0 => hno ⟨info, i1, sub_eq_zero.1 h0⟩
  have hdeg : P.natDegree ≤ d.size + 3 := by
    rw [hP, i5, i6, i7]
    have hlin : ∀ a : ZMod p, (X - C a : (ZMod p)[X]).natDegree ≤ 1 := fun a =>
      nd_sub natDegree_X_le (nd_C _ _)
    have hparts := parts_natDegree (D := d.size + 2) v (items_natDegree hfits) v 1
    refine nd_sub (nd_add (nd_mul (hlin _) hW (by omega)) (nd_Cmul _ (nd_mul (hlin _) hW' (by omega)))) ?_
    refine nd_add ((residue_natDegree hfits hlow _ _).trans (by omega)) ?_
    exact nd_add (hparts.1.trans (by omega)) (nd_Cmul _ (hparts.2.trans (by omega)))
  refine ⟨P.roots.toFinset, (Multiset.toFinset_card_le _).trans ((card_roots' P).trans hdeg), ?_⟩
  intro x hx
  have hx' : P.eval x ≠ 0 := fun h0 => hx (by rw [Multiset.mem_toFinset, mem_roots hP0]; exact h0)
  obtain ⟨info', j1, j2⟩ := C59_kzg hs W W' (newDomain S root) hnew e hash x (openKey x g h) rfl he
  obtain rfl : info = info' := Except.ok.inj (i1.symm.trans j1)
  have e1 : (List.range m).map (fun i => (I i).key (kzg x g) d (openKey x g h)) = (withClaims m I w h1 h2 z prod cl).map
      (fun y => y.1.key (kzg x (openKey x g h).g) d (openKey x g h)) := by
    unfold withClaims
    rw [List.map_map]
    refine List.map_congr_left fun i hi => ?_
    simp [Inst.key, play, Inst.nw, Inst.nq, openKey, Function.comp_def]
  have e2 : (List.range m).map (fun i => (I i).inputs) = (withClaims m I w h1 h2 z prod cl).map
      (fun y => y.1.inputs) := by
    unfold withClaims
    rw [List.map_map]
    rfl
  rw [e1, e2]
  refine j2.trans ?_
  congr 1
  rw [decide_eq_false_iff_not]
  intro h0
  refine hx' ?_
  rw [hP, eval_sub, h0, sub_self]

theorem Batch.rejected (hB : Batch S root rnd m d cs fs I) {e : G →ₗ[ZMod p] G2 →ₗ[ZMod p] GT}
    {hash : List (ZMod p) → ZMod p} {g : G} {h : G2} {M : ℕ} (hM : d.size + 2 ≤ M) {ch : Chal (ZMod p)}
    {π : BProof (ZMod p) G} {x : ZMod p}
    (hv : verifyBatch (newDomain S root) e hash (fun _ _ _ => ch)
      ((List.range m).map (fun i => (I i).key (kzg x g) d (openKey x g h)))
      ((List.range m).map (fun i => (I i).inputs)) π = .ok false) :
    Rejected S root rnd e hash g h M m fs I ch π x := by
  intro pk hpk
  have hvk : ∀ i < m, (pk i).vk = (I i).key (kzg x g) d (openKey x g h) := by
    intro i hi
    obtain ⟨pk', e1, e2, -⟩ := C73_preprocess (hB.built i hi) hB.prim (hB.final i hi)
      (fun k hk => (hB.supported i hi k hk).1.le) (hB.key i hi) x g h (m := M) (by rw [hB.dom i hi]; exact hM)
    rw [hpk i hi] at e1
    obtain rfl := Except.ok.inj e1
    rw [e2, hB.dom i hi]
  rw [← hv]
  congr 1
  exact List.map_congr_left fun i hi => hvk i (List.mem_range.1 hi)

/-- C73: a prover that commits to polynomials for a batch of circuits of one kind, one of which is not satisfied
by the values on its wires, is rejected except for few values of each challenge in turn (and of the secret of
the reference string, which the polynomials do not depend on).  `tau` is the challenge as the verifier has it: there
has to be one only if there are lookups. -/
theorem C73_sound (hB : Batch S root rnd m d cs fs I) (w : ℕ → ℕ → (ZMod p)[X]) (hw : ∀ i j, Low d (w i j))
    (hno : ∃ i < m, ¬ ∃ a, Carries (fs i) (w i) a ∧ Sat (cs i) (I i).inputs a)
    (e : G →ₗ[ZMod p] G2 →ₗ[ZMod p] GT) (hash : List (ZMod p) → ZMod p) (g : G) (h : G2) (he : e g h ≠ 0)
    {M : ℕ} (hM : d.size + 2 ≤ M) (tau : ZMod p → Option (ZMod p))
    (htau : ∀ i < m, (cs i).ultra.isSome → ∀ τ, tau τ = some τ) :
    AllBut (4 * d.size) fun τ => ∀ h1 h2 : ℕ → (ZMod p)[X], (∀ i, Low d (h1 i)) → (∀ i, Low d (h2 i)) →
    AllBut (12 * d.size * p) fun βγ : ZMod p × ZMod p => ∀ z prod : ℕ → (ZMod p)[X], (∀ i, Low d (z i)) →
      (∀ i, Low d (prod i)) →
    AllBut (7 * m) fun α => ∀ ts : List (ZMod p)[X], ts ≠ [] → (∀ t ∈ ts, Low d t) →
    AllBut (7 * (d.size + 2) + (d.size + 2) * ts.length) fun ζ => ∀ cl : ℕ → Claims (ZMod p),
    AllBut (27 * m) fun v => ∀ W W' : (ZMod p)[X], Low d W → Low d W' →
    AllBut 1 fun u => AllBut (d.size + 3) fun x =>
      Rejected S root rnd e hash g h M m fs I ⟨tau τ, α, βγ.1, βγ.2, ζ, v, u⟩
        (proof (kzg x g) (withClaims m I w h1 h2 z prod cl) ts W W') x := by
  obtain ⟨i, hi, hno⟩ := hno
  have hcirc := C73_circuit (hB.built i hi) hB.prim (hB.final i hi) (hB.supported i hi) (hB.key i hi) (w i) hno
  rw [hB.dom i hi] at hcirc
  obtain ⟨T, hT, hτ⟩ := hcirc
  refine ⟨T, hT, fun τ hτT h1 h2 hh1 hh2 => ?_⟩
  have ho : ∀ i < m, (I i).lookup.isSome → tau τ = some τ := fun k hk hl => htau k hk (by
    rw [← final_ultra (hB.built k hk) (hB.final k hk), ← (hB.key k hk).lookup]
    exact hl) τ
  obtain ⟨B, hBc, hβγ⟩ := hτ τ hτT (h1 i) (h2 i)
  refine ⟨B, hBc, fun βγ hβ z prod hz hp => ?_⟩
  obtain ⟨A, hA, hα⟩ := alpha_zeta hB.frame hw hh1 hh2 hz hp τ βγ.1 βγ.2 hi (hβγ βγ hβ (z i) (prod i))
  refine ⟨A, hA, fun α hαA ts hts hlow => ?_⟩
  obtain ⟨Z, hZ, hζ⟩ := hα α hαA ts hts hlow
  refine ⟨Z, hZ, fun ζ hζZ cl => ?_⟩
  obtain ⟨V, hV, hv⟩ := v_u hB.frame cl hts ho α βγ.1 βγ.2 ζ (hζ ζ hζZ)
  refine ⟨V, hV, fun v hvV W W' hW hW' => ?_⟩
  obtain ⟨U, hU, hu⟩ := hv v hvV W W'
  refine ⟨U, hU, fun u huU => ?_⟩
  obtain ⟨B, hBad, hs⟩ := secret hB.frame hw hh1 hh2 hz hp cl hts hlow ho α βγ.1 βγ.2 ζ v u hW hW' (hu u huU)
    e hash g h he
  exact ⟨B, hBad, fun x hx => hB.rejected hM (hs x hx)⟩

end

/-! ## Examples -/

section examples

instance : Fact (Nat.Prime 97) := ⟨by norm_num⟩

/-- a circuit with one public input whose value is 3 -/
def exP : Circ 97 := withPub (Circ.new 97 none) 3

theorem built_exP : Built exP := built_pub (Built.new none) 3

theorem exP_final : ∃ f : FCirc 97, finalize 5 28 rnd97 exP = .ok f ∧ f.dom.size = 4 ∧
    (f.circ.rows.map (fun r => r.w4))[0]? = some 2 := by
  have h : okAnd (finalize' 5 28 rnd97 exP) (fun f => decide (f.dom.size = 4 ∧
      (f.circ.rows.map (fun r => r.w4))[0]? = some 2)) = true := by decide +kernel
  obtain ⟨f, hf, hP⟩ := okAnd_elim h
  rw [decide_eq_true_iff] at hP
  rw [← finalize_eq] at hf
  exact ⟨f, hf, hP⟩

/-- the pairing of the examples -/
noncomputable def exE : ZMod 97 →ₗ[ZMod 97] ZMod 97 →ₗ[ZMod 97] ZMod 97 := LinearMap.mul (ZMod 97) (ZMod 97)

/-- The circuit with public input 4 and wires carrying the value 3.  With one circuit over a domain of four
points the numbers of exceptions, at most 4656 of 9409 pairs for `β`, `γ` and at most 72 of 97 for the others if
there are five parts of the quotient, leave challenges over. -/
example : ∃ (f : FCirc 97) (I : Inst (ZMod 97)) (w : ℕ → (ZMod 97)[X]),
    Batch 5 28 rnd97 1 f.dom (fun _ => exP) (fun _ => f) (fun _ => I) ∧ I.inputs = [4] ∧
      (∀ j, Low f.dom (w j)) ∧ (¬ ∃ a, Carries f w a ∧ Sat exP I.inputs a) ∧ exE 1 1 ≠ 0 ∧
      12 * f.dom.size * 97 = 4656 ∧ 7 * (f.dom.size + 2) + (f.dom.size + 2) * 5 = 72 := by
  obtain ⟨f, hf, h4, hw⟩ := exP_final
  obtain ⟨I, hI, hin⟩ := C73_key built_exP prim28 hf [4] (by decide +kernel)
  obtain ⟨hdom, -⟩ := finalize_ok hf
  obtain ⟨hd, ho⟩ := good_of_newDomain prim28 hdom
  refine ⟨f, I, fun i => interp f.dom (fun j => if i = 4 ∧ j = 0 then 3 else 0), ⟨by decide, prim28,
    fun _ _ => built_exP, fun _ _ => hf, fun _ _ => rfl, fun _ _ k hk => ?_, fun _ _ => hI, false, fun _ _ => rfl⟩,
    hin, fun j => ?_, ?_, by decide, by rw [h4], by rw [h4]⟩
  · have : exP.ultra = none := by decide +kernel
    rw [this] at hk
    cases hk
  · exact (natDegree_le_of_degree_le (interp_degree _ _).le).trans (by omega)
  · rintro ⟨a, ha, hs⟩
    obtain ⟨r, hr, h2⟩ : ∃ r, f.circ.rows[0]? = some r ∧ r.w4 = 2 := by
      rw [List.getElem?_map] at hw
      exact Option.map_eq_some_iff.1 hw
    have h3 := ha (4, 0) 2 (Or.inl ⟨r, hr, by simp [h2]⟩)
    unfold wireValue at h3
    rw [interp_eval hd _ (by simp [h4])] at h3
    rw [hin] at hs
    have h5 := hs.io 0 2 4 ⟨ioGate, 0, 0, 0, 0, 2⟩ (by decide +kernel) rfl rfl
    simp [Row.Holds, Sel.output, ioGate] at h5 h3
    exact absurd (h5.trans h3.symm) (by decide)

/-- a circuit with lookups and ranges -/
example : ∃ (f : FCirc 97) (I : Inst (ZMod 97)) (pk : PKey (ZMod 97) (ZMod 97) (ZMod 97)),
    KeyOf f I ∧ Supported exU f ∧ preprocess rnd97 (genSrs (5 : ZMod 97) (1 : ZMod 97) (1 : ZMod 97) 10 1) f = .ok pk ∧
      pk.vk = I.key (kzg (5 : ZMod 97) (1 : ZMod 97)) f.dom (openKey (5 : ZMod 97) (1 : ZMod 97) (1 : ZMod 97)) := by
  have h : okAnd (finalize' 5 28 rnd97 exU) (fun f => decide (f.dom.size = 8)) = true := by
    decide +kernel
  obtain ⟨f, hf, hP⟩ := okAnd_elim h
  rw [decide_eq_true_iff] at hP
  rw [← finalize_eq] at hf
  obtain ⟨I, hI, hin⟩ := C73_key built_exU prim28 hf [3, 5] (by decide +kernel)
  have hk : ∀ k, exU.ultra = some k → k = 1 := fun k hk => (Option.some.inj hk).symm
  obtain ⟨pk, e1, e2, -⟩ := C73_preprocess built_exU prim28 hf (fun k h => by rw [hk k h]; norm_num) hI (5 : ZMod 97)
    (1 : ZMod 97) (1 : ZMod 97) (m := 10) (by rw [hP])
  refine ⟨f, I, pk, hI, fun k h => ?_, e1, e2⟩
  rw [hk k h, hP]
  exact ⟨by norm_num, by norm_num, by norm_num, placed_exU⟩

end examples

end Verif.Props.EndToEnd
