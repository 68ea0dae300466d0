import Verif.Plonk.FinalizeSat
import Verif.Plonk.Cosets
import Verif.Circuit.Check
import Mathlib.Tactic.NormNum.Prime

/-!
# C25: finalization preserves the meaning of a circuit

`GatesHold` is what the gate part of the proof system enforces on the finalized circuit: the equation
of row `j` with the `j`-th public input (zero behind the last one), because the verifier puts the
public inputs on the first rows.
-/

set_option linter.unusedSectionVars false

namespace Verif.Props.Finalize

open Verif.Circuit Verif.Pcs Verif.Plonk

variable {p : ℕ} [Fact p.Prime]

/-- every row holds with the public input of its number -/
def GatesHold (rows : List (Row p)) (pi : List (ZMod p)) (w : ℕ → ZMod p) : Prop :=
  ∀ (j : ℕ) (r : Row p), rows[j]? = some r → r.Holds (pi.getD j 0) w

/-- the condition on the tables of an UltraPlonk circuit: no public input is made after the table has
been placed among the first rows, and no table row is placed in the last two rows of the domain -/
def TablesPlaced (c : Circ p) (n : ℕ) : Prop :=
  ∀ t ∈ c.tableGateIds, ∀ i, t.1 ≤ i → i < t.1 + t.2 → c.pubIds.length ≤ i ∧ i + 2 < n

theorem gatesHold_iff {c c' : Circ p} (hc : FinOK c) {n : ℕ} (h : Rearranged c n c')
    (pi : List (ZMod p)) (hl : pi.length = c.pubIds.length) (w : ℕ → ZMod p) :
    GatesHold c'.rows pi w ↔
      (∀ (i g : ℕ) (x : ZMod p) (r : Row p), c.pubIds[i]? = some g → pi[i]? = some x →
        c.rows[g]? = some r → r.Holds x w) ∧ ∀ r ∈ c.rows, r.sel.io = false → r.Holds 0 w := by
  have hio := h.io_rows hc
  constructor
  · intro hg
    refine ⟨?_, ?_⟩
    · intro i g x r h1 h2 h3
      have := hg i r (by rw [h.front i g h1]; exact h3)
      rwa [List.getD_eq_getElem?_getD, h2] at this
    · intro r hr hrio
      obtain ⟨j, hj⟩ := List.mem_iff_getElem?.1 (h.perm.mem_iff.2 (List.mem_append_left _ hr))
      have h1 : ¬ j < c.pubIds.length := fun hlt => by
        rw [(hio j r hj).2 hlt] at hrio
        cases hrio
      have := hg j r hj
      rwa [List.getD_eq_getElem?_getD, List.getElem?_eq_none (by omega)] at this
  · rintro ⟨h1, h2⟩ j r hr
    by_cases hj : j < c.pubIds.length
    · have hg : c.pubIds[j]? = some c.pubIds[j] := List.getElem?_eq_getElem hj
      have hx : pi[j]? = some (pi[j]'(by omega)) := List.getElem?_eq_getElem _
      rw [List.getD_eq_getElem?_getD, hx]
      exact h1 j _ _ r hg hx (by rw [← h.front j _ hg]; exact hr)
    · rw [List.getD_eq_getElem?_getD, List.getElem?_eq_none (by omega)]
      rcases List.mem_append.1 (h.perm.mem_iff.1 (List.mem_of_getElem? hr)) with hm | hm
      · refine h2 r hm ?_
        by_contra hc'
        exact hj ((hio j r hr).1 (by simpa using hc'))
      · rw [List.eq_of_mem_replicate hm]
        exact paddingRow_holds w

theorem rearranged_of {S : ℕ} {root : ZMod p} {rnd : List (ZMod p)} {c : Circ p} {f : FCirc p}
    (hc : FinOK c) (hf : finalize S root rnd c = .ok f)
    (hT : c.ultra = none ∨ TablesPlaced c f.dom.size) :
    Rearranged c f.dom.size f.circ ∧ numSlots c ≤ f.dom.size ∧
      (c.ultra ≠ none → ∀ i (hi : i < (tableIds c.tableGateIds).length),
        f.circ.rows[f.dom.size - 2 - i]? = c.rows[(tableIds c.tableGateIds)[i]]?) := by
  obtain ⟨hd, -, hr, -⟩ := finalize_ok hf
  have hn := newDomain_size hd
  have hl := rows_le_numSlots c
  obtain ⟨c', e, h1, h2⟩ := rearrange_ok hc (n := f.dom.size) (by omega) (by
    rcases hT with h | h
    · exact Or.inl h
    · refine Or.inr ?_
      rintro i ⟨t, ht, h1, h2⟩
      exact h t ht i h1 h2)
  rw [e] at hr
  injection hr with hr
  subst hr
  exact ⟨h1, hn, h2⟩

theorem rangeVars_le {c : Circ p} (hc : FinOK c) : c.rangeVars.length ≤ numSlots c := by
  unfold numSlots
  split
  · rename_i h
    rw [hc.noUltra h]
    simp
  · omega

theorem rangeBound_pos {k : ℕ} (hk : k < 32) (hp : p ≠ 2) : 0 < rangeBound p k := by
  unfold rangeBound
  rw [Nat.mod_eq_of_lt (Nat.pow_lt_pow_right (by omega) hk)]
  refine Nat.pos_of_ne_zero ?_
  rw [Ne, ZMod.val_eq_zero, ZMod.natCast_eq_zero_iff]
  intro h
  have := (Nat.prime_dvd_prime_iff_eq (Fact.out : p.Prime) Nat.prime_two).1
    ((Fact.out : p.Prime).dvd_of_dvd_pow h)
  exact hp this

/-- C25, TurboPlonk: for every circuit that can be built, whatever the order of its gates, the
finalized circuit has the same satisfying assignments and the same public inputs, the `i`-th public
input is on row `i`, and the rows hold with the public inputs on the first rows exactly when the
original circuit is satisfied. -/
theorem C25_turbo {S : ℕ} {root : ZMod p} {rnd : List (ZMod p)} {c : Circ p} {f : FCirc p}
    (hc : Built c) (ht : c.ultra = none) (hf : finalize S root rnd c = .ok f) :
    f.circ.rows.length = f.dom.size ∧ publicInput f.circ = publicInput c ∧
      f.circ.pubIds = List.range c.pubIds.length ∧
      (∀ pi w, Sat f.circ pi w ↔ Sat c pi w) ∧
      ∀ pi w, pi.length = c.pubIds.length → (GatesHold f.circ.rows pi w ↔ Sat c pi w) := by
  have hok := hc.ok
  obtain ⟨h, hn, -⟩ := rearranged_of hok hf (Or.inl ht)
  have hr := rangeVars_le hok
  refine ⟨h.len, h.publicInput, h.pubIds, ?_, ?_⟩
  · exact h.sat_iff hok (by omega) (fun k hk => by rw [ht] at hk; cases hk)
  · intro pi w hl
    rw [gatesHold_iff hok h pi hl w]
    exact ⟨fun hs => ⟨hl, hs.1, hs.2, fun k hk => absurd (ht.symm.trans hk) (by simp),
      fun k hk => absurd (ht.symm.trans hk) (by simp)⟩, fun hs => ⟨hs.io, hs.plain⟩⟩

/-- C25, UltraPlonk: the same, when the tables are placed after the first rows and before the last
two rows of the domain. -/
theorem C25_ultra {S : ℕ} {root : ZMod p} {rnd : List (ZMod p)} {c : Circ p} {f : FCirc p} {k : ℕ}
    (hc : Built c) (ht : c.ultra = some k) (hk : k < 32) (hp : p ≠ 2)
    (hf : finalize S root rnd c = .ok f) (hT : TablesPlaced c f.dom.size) :
    f.circ.rows.length = f.dom.size ∧ f.circ.rangeVars.length = f.dom.size ∧
      publicInput f.circ = publicInput c ∧
      f.circ.pubIds = List.range c.pubIds.length ∧
      (∀ pi w, Sat f.circ pi w ↔ Sat c pi w) ∧
      ∀ pi w, pi.length = c.pubIds.length → (GatesHold f.circ.rows pi w ↔
        (∀ (i g : ℕ) (x : ZMod p) (r : Row p), c.pubIds[i]? = some g → pi[i]? = some x →
          c.rows[g]? = some r → r.Holds x w) ∧ ∀ r ∈ c.rows, r.sel.io = false → r.Holds 0 w) := by
  have hok := hc.ok
  obtain ⟨h, hn, -⟩ := rearranged_of hok hf (Or.inr hT)
  have hr := rangeVars_le hok
  refine ⟨h.len, ?_, h.publicInput, h.pubIds, ?_, ?_⟩
  · rw [h.rangeVars]
    show (match c.ultra with | none => c.rangeVars | some _ => resize f.dom.size c.rangeVars).length = _
    rw [ht]
    simp [resize]
    omega
  · refine h.sat_iff hok (by omega) ?_
    intro k' hk'
    rw [ht] at hk'
    injection hk' with hk'
    subst hk'
    exact rangeBound_pos hk hp
  · intro pi w hl
    exact gatesHold_iff hok h pi hl w

/-- C25, UltraPlonk: under the same condition the lookup rows end, in their order, in the segment just
before the last row, behind the range table and all range-checked wires; no other row is a lookup
row. -/
theorem C25_lookup_rows {S : ℕ} {root : ZMod p} {rnd : List (ZMod p)} {c : Circ p} {f : FCirc p} {k : ℕ}
    (hc : Built c) (ht : c.ultra = some k) (hf : finalize S root rnd c = .ok f)
    (hT : TablesPlaced c f.dom.size) :
    let T := (c.rows.filter (fun r => decide (r.sel.lookup ≠ 0))).length
    let s := f.dom.size - 1 - T
    s + T + 1 = f.dom.size ∧ 2 ^ k ≤ s ∧ c.rangeVars.length ≤ s ∧
      (f.circ.rows.drop s).take T = c.rows.filter (fun r => decide (r.sel.lookup ≠ 0)) ∧
      ∀ i r, f.circ.rows[i]? = some r → (r.sel.lookup ≠ 0 ↔ s ≤ i ∧ i + 1 < f.dom.size) := by
  intro T s
  have hok := hc.ok
  obtain ⟨h, hn, hrows⟩ := rearranged_of hok hf (Or.inr hT)
  replace hrows := hrows (by rw [ht]; simp)
  have hTe : T = c.numTableElems := by
    show (c.rows.filter _).length = _
    rw [← List.countP_eq_length_filter, hok.tabCount]
  have hTi : (tableIds c.tableGateIds).length = T := by
    rw [tableIds_length, ← hok.tabSum, hTe]
  have hslots : max (2 ^ k) c.rangeVars.length + T + 1 ≤ f.dom.size := by
    refine le_trans ?_ hn
    unfold numSlots
    rw [ht, hTe]
    exact le_max_right _ _
  have hm1 : 2 ^ k ≤ max (2 ^ k) c.rangeVars.length := le_max_left _ _
  have hm2 : c.rangeVars.length ≤ max (2 ^ k) c.rangeVars.length := le_max_right _ _
  have h2k : 0 < 2 ^ k := by positivity
  have hs : s = f.dom.size - 1 - T := rfl
  set ids := tableIds c.tableGateIds with hids
  have hidrow : ∀ g ∈ ids, ∃ r, c.rows[g]? = some r ∧ decide (r.sel.lookup ≠ 0) = true := by
    intro g hg
    obtain ⟨t, htm, h1, h2⟩ := mem_tableIds.1 hg
    have hb := hok.tabBound t htm
    refine ⟨c.rows[g]'(by omega), List.getElem?_eq_getElem _, ?_⟩
    rw [decide_eq_true_iff]
    exact (hok.tabRows g _ (List.getElem?_eq_getElem (by omega))).2 (mem_tableIds.1 hg)
  have hseg : ∀ i, s ≤ i → i < s + T → ∃ hi : f.dom.size - 2 - i < ids.length,
      f.circ.rows[i]? = c.rows[ids[f.dom.size - 2 - i]]? := by
    intro i h1 h2
    have hi : f.dom.size - 2 - i < ids.length := by omega
    refine ⟨hi, ?_⟩
    have := hrows _ hi
    rwa [show f.dom.size - 2 - (f.dom.size - 2 - i) = i by omega] at this
  refine ⟨by omega, by omega, by omega, ?_, ?_⟩
  · have hsorted := tableIds_sorted hok.tabSorted
    have : Inhabited (Row p) := ⟨paddingRow⟩
    rw [filter_eq_map (fun r : Row p => decide (r.sel.lookup ≠ 0)) c.rows ids.reverse
      (List.pairwise_reverse.2 hsorted) ?_ ?_]
    · refine List.ext_getElem ?_ ?_
      · simp [h.len, hTi]
        omega
      · intro i h1 h2
        have hi : i < T := by
          simp at h1
          omega
        obtain ⟨hi', he⟩ := hseg (s + i) (by omega) (by omega)
        have hmem : ids[f.dom.size - 2 - (s + i)] ∈ ids := List.getElem_mem _
        obtain ⟨r, hr, _⟩ := hidrow _ hmem
        rw [hr] at he
        have e1 : ((f.circ.rows.drop s).take T)[i] = r := by
          have : ((f.circ.rows.drop s).take T)[i]? = some r := by
            rw [List.getElem?_take_of_lt hi, List.getElem?_drop]
            exact he
          rw [List.getElem?_eq_getElem h1] at this
          injection this
        rw [e1, List.getElem_map, List.getElem_reverse]
        have : ids.length - 1 - i = f.dom.size - 2 - (s + i) := by omega
        simp only [this]
        rw [List.getD_eq_getElem?_getD, hr]
        rfl
    · intro i hi
      obtain ⟨r, hr, _⟩ := hidrow i (List.mem_reverse.1 hi)
      exact (List.getElem?_eq_some_iff.1 hr).1
    · intro i r hr
      rw [decide_eq_true_iff, hok.tabRows i r hr, List.mem_reverse, mem_tableIds]
  · intro i r hr
    have := count_segment (fun r : Row p => decide (r.sel.lookup ≠ 0)) f.circ.rows s T
      ((h.countLookup hok).trans hTe.symm) (by
        intro i h1 h2
        obtain ⟨hi, he⟩ := hseg i h1 h2
        obtain ⟨r, hr, hp⟩ := hidrow _ (List.getElem_mem hi)
        exact ⟨r, he.trans hr, hp⟩) i r hr
    rw [decide_eq_true_iff] at this
    rw [this]
    omega

/-- C25, without conditions: the rows of the finalized circuit are the rows of the circuit and padding
rows in some order, so no gate is lost or added. -/
theorem C25_rows {S : ℕ} {root : ZMod p} {rnd : List (ZMod p)} {c : Circ p} {f : FCirc p}
    (hc : Built c) (hf : finalize S root rnd c = .ok f) :
    f.circ.rows.Perm (c.rows ++ List.replicate (f.dom.size - c.rows.length) ⟨{}, 0, 0, 0, 0, 0⟩) ∧
      f.circ.pubIds.length = c.pubIds.length ∧ f.circ.numVars = c.numVars ∧
      f.circ.witness = c.witness ∧ f.circ.rows.length = f.dom.size := by
  have hok := hc.ok
  obtain ⟨hd, -, hr, -⟩ := finalize_ok hf
  have hn := newDomain_size hd
  have hl := rows_le_numSlots c
  have hlen2 : 2 ≤ c.rows.length := by
    obtain ⟨t, ht⟩ := hok.wf.consts
    rw [ht]; simp
  have hpb : ∀ g ∈ c.pubIds, g < c.rows.length := by
    intro g hg
    obtain ⟨x, h1, _⟩ := hok.wf.pub g hg
    exact (List.getElem?_eq_some_iff.1 h1).1
  set n := f.dom.size with hn'
  have hrlen : (padCirc c n).rows.length = n := by
    show (c.rows ++ List.replicate (n - c.rows.length) (paddingRow (p := p))).length = n
    rw [List.length_append, List.length_replicate]
    omega
  obtain ⟨r1, e1, p1, l1, -⟩ := moveIo_ok (padCirc c n).pubIds 0 (padCirc c n).rows hok.pubSorted (by
    intro g hg
    have := hpb g hg
    omega)
  unfold rearrangeGates at hr
  rw [e1] at hr
  simp only at hr
  split at hr
  · injection hr with hr
    rw [← hr]
    exact ⟨p1, by simp [padCirc], rfl, rfl, by simp [l1, hrlen]⟩
  · obtain ⟨r2, e2, p2⟩ := moveLookups_perm (tableIds (padCirc c n).tableGateIds)
      ((padCirc c n).domSize - 2) r1 (by
        rw [l1, hrlen]
        show n - 2 < n
        omega)
    rw [e2] at hr
    simp only at hr
    injection hr with hr
    rw [← hr]
    refine ⟨p2.trans p1, by simp [padCirc], rfl, rfl, ?_⟩
    rw [(p2.trans p1).length_eq, hrlen]

/-! ### Where the conditions fail -/

instance : Fact (Nat.Prime 97) := ⟨by norm_num⟩

/-- the result of building, or the empty circuit -/
def built (r : Except CErr (Unit × Circ p)) : Circ p :=
  match r with
  | .ok (_, c) => c
  | .error _ => Circ.new p none

/-- a circuit with a public input of the given value added -/
def withPub (c : Circ p) (x : ZMod p) : Circ p :=
  built ((do let _ ← createPublicVariable x; pure () : Build p Unit) c)

/-- a circuit with a table added -/
def withTab (c : Circ p) (lookups : List (ℕ × ℕ × ℕ)) (table : List (ℕ × ℕ)) : Circ p :=
  built (createTableAndLookupVariables lookups table c)

theorem built_pub {c : Circ p} (h : Built c) (x : ZMod p) : Built (withPub c x) := by
  have ho := h.ok.wf.opn
  have h1 : createVariable x c =
      .ok (c.numVars, { c with numVars := c.numVars + 1, witness := c.witness ++ [x] }) := by
    unfold createVariable
    rw [if_neg (by simp [ho])]
  have h2 := Built.var c _ x _ h h1
  have h3 : setVariablePublic c.numVars
      { c with numVars := c.numVars + 1, witness := c.witness ++ [x] } = .ok ((),
      { c with numVars := c.numVars + 1, witness := c.witness ++ [x],
               pubIds := c.pubIds ++ [c.rows.length],
               rows := c.rows ++ [⟨ioGate, 0, 0, 0, 0, c.numVars⟩] }) := by
    unfold setVariablePublic
    rw [if_neg (by simp [ho])]
  have h4 := Built.pub _ _ _ h2 (by simp) h3
  have : (do let _ ← createPublicVariable x; pure () : Build p Unit) c = .ok ((),
      { c with numVars := c.numVars + 1, witness := c.witness ++ [x],
               pubIds := c.pubIds ++ [c.rows.length],
               rows := c.rows ++ [⟨ioGate, 0, 0, 0, 0, c.numVars⟩] }) := by
    have h5 : (createPublicVariable x : Build p ℕ) c = .ok (c.numVars,
      { c with numVars := c.numVars + 1, witness := c.witness ++ [x],
               pubIds := c.pubIds ++ [c.rows.length],
               rows := c.rows ++ [⟨ioGate, 0, 0, 0, 0, c.numVars⟩] }) := by
      unfold createPublicVariable
      rw [bind_of_ok h1, bind_of_ok h3]
      rfl
    rw [bind_of_ok h5]
    rfl
  unfold withPub
  rw [this]
  exact h4

theorem built_tab {c : Circ p} (h : Built c) {lookups : List (ℕ × ℕ × ℕ)} {table : List (ℕ × ℕ)}
    (hl : ∀ x ∈ lookups, x.1 < c.numVars ∧ x.2.1 < c.numVars ∧ x.2.2 < c.numVars)
    (ht : ∀ x ∈ table, x.1 < c.numVars ∧ x.2 < c.numVars) : Built (withTab c lookups table) := by
  have e := createTable_eq h.ok.wf hl ht
  have := Built.table c _ lookups table h e
  unfold withTab
  rw [e]
  exact this

/-- some elements of `ZMod 97` to draw coset representatives from -/
def rnd97 : List (ZMod 97) := [5, 25, 28, 43, 21, 8, 40]

/-- an UltraPlonk circuit (ranges of one bit) with a table of one entry made before three public
inputs 3, 5, 7 -/
def exA : Circ 97 :=
  withPub (withPub (withPub (withTab (Circ.new 97 (some 1)) [] [(1, 1)]) 3) 5) 7

theorem built_exA : Built exA :=
  built_pub (built_pub (built_pub (built_tab (Built.new (some 1)) (by simp)
    (by simp [Circ.new])) 3) 5) 7

/-- C25 counterexample: a table made before three public inputs.  The original circuit is satisfied
with public inputs 3, 5, 7 and not with 3, 5, 0.  In the finalized circuit the gate of the third input
has been moved away from row 2: the circuit reports the inputs as 3, 5, 0 and its own check accepts
them and rejects 3, 5, 7, and no list of public inputs makes all its rows hold. -/
theorem C25_displaced_input_counterexample :
    ∃ (c : Circ 97) (f : FCirc 97), Built c ∧ finalize 5 28 rnd97 c = .ok f ∧
      publicInput c = .ok [3, 5, 7] ∧ Sat c [3, 5, 7] c.val ∧ ¬ Sat c [3, 5, 0] c.val ∧
      publicInput f.circ = .ok [3, 5, 0] ∧ checkSat f.circ [3, 5, 0] = .ok () ∧
      checkSat f.circ [3, 5, 7] = .error .gateCheckFailure ∧
      ∀ pi : List (ZMod 97), pi.length = 3 → ¬ GatesHold f.circ.rows pi f.circ.val := by
  have h : okAnd (finalize' 5 28 rnd97 exA) (fun f => decide (
      publicInput f.circ = .ok [3, 5, 0] ∧ checkSat f.circ [3, 5, 0] = .ok () ∧
      checkSat f.circ [3, 5, 7] = .error .gateCheckFailure ∧
      (f.circ.rows[6]?.map (fun r => decide (r.Holds 0 f.circ.val))) = some false)) = true := by
    decide +kernel
  obtain ⟨f, hf, hP⟩ := okAnd_elim h
  rw [decide_eq_true_iff] at hP
  refine ⟨exA, f, built_exA, by rw [finalize_eq]; exact hf, by decide +kernel, ?_, ?_, hP.1, hP.2.1,
    hP.2.2.1, ?_⟩
  · exact (checkSat_ok built_exA.ok.wf _).1 (by decide +kernel)
  · intro hs
    have := (checkSat_ok built_exA.ok.wf _).2 hs
    revert this
    decide +kernel
  · intro pi hl hg
    rcases hr : f.circ.rows[6]? with _ | r
    · have := hP.2.2.2
      rw [hr] at this
      cases this
    · have h1 := hg 6 r hr
      have h2 := hP.2.2.2
      rw [hr] at h2
      rw [List.getD_eq_getElem?_getD, List.getElem?_eq_none (by omega)] at h1
      have h3 : decide (r.Holds 0 f.circ.val) = false := by simpa using h2
      exact absurd h1 (by simpa using h3)

/-- a circuit with a gate `0 = 0` added -/
def withEq (c : Circ p) : Circ p := built (insertGate 0 0 0 0 0 equalityGate c)

theorem built_eq {c : Circ p} (h : Built c) : Built (withEq c) := by
  have e : insertGate 0 0 0 0 0 equalityGate c =
      .ok ((), { c with rows := c.rows ++ [⟨equalityGate, 0, 0, 0, 0, 0⟩] }) := by
    unfold insertGate
    rw [if_neg (by simp [h.ok.wf.opn])]
  have h0 : 0 < c.numVars := by have := h.ok.wf.two; omega
  have := Built.gate c _ 0 0 0 0 0 equalityGate h rfl rfl h0 h0 h0 h0 h0 e
  unfold withEq
  rw [e]
  exact this

/-- a circuit with a range-checked variable added -/
def withRange (c : Circ p) (v : ℕ) : Circ p := built (addRangeCheckVariable v c)

theorem built_range {c : Circ p} (h : Built c) {v : ℕ} (hv : v < c.numVars) {k : ℕ}
    (hu : c.ultra = some k) : Built (withRange c v) := by
  have e : addRangeCheckVariable v c = .ok ((), { c with rangeVars := c.rangeVars ++ [v] }) := by
    unfold addRangeCheckVariable
    rw [if_neg (by rw [hu]; simp), if_neg (by simp [h.ok.wf.opn]), if_neg (by omega)]
  have := Built.range c _ v h e
  unfold withRange
  rw [e]
  exact this

/-- an UltraPlonk circuit that fills its domain of four rows and has its only lookup row last; the
lookup asks for the values `1, 1` under key 0 in a table whose entry of key 0 is `0, 0` -/
def exB : Circ 97 := withTab (withPub (Circ.new 97 (some 1)) 3) [(0, 1, 1)] [(0, 0)]

theorem built_exB : Built exB :=
  built_tab (built_pub (Built.new (some 1)) 3) (by decide) (by decide)

/-- C25 counterexample: a circuit that fills its domain with a table row last.  The lookup row stays on
the very last row of the domain. -/
theorem C25_last_row_counterexample :
    ∃ (c : Circ 97) (f : FCirc 97) (r : Row 97), Built c ∧ finalize 5 28 rnd97 c = .ok f ∧
      r.sel.lookup ≠ 0 ∧ f.circ.rows[f.dom.size - 1]? = some r := by
  have h : okAnd (finalize' 5 28 rnd97 exB) (fun f => decide (
      (f.circ.rows[f.dom.size - 1]?.map (fun r => decide (r.sel.lookup ≠ 0))) = some true)) = true := by
    decide +kernel
  obtain ⟨f, hf, hP⟩ := okAnd_elim h
  rw [decide_eq_true_iff, Option.map_eq_some_iff] at hP
  obtain ⟨r, h1, h2⟩ := hP
  exact ⟨exB, f, r, built_exB, by rw [finalize_eq]; exact hf, by simpa using h2, h1⟩

/-- an UltraPlonk circuit (ranges of two bits) with one table row at row 2 and one at row 6, in a domain
of eight rows -/
def exC : Circ 97 :=
  withTab (withEq (withEq (withEq (withTab (Circ.new 97 (some 2)) [(0, 0, 0)] [(0, 0)]))))
    [(0, 1, 1)] [(1, 1)]

theorem built_exC : Built exC :=
  built_tab (built_eq (built_eq (built_eq (built_tab (Built.new (some 2)) (by decide) (by decide)))))
    (by decide) (by decide)

/-- C25 counterexample: a table row that is already on the last but one row.  It is exchanged with a row
of an earlier table and ends among the rows that hold the range table. -/
theorem C25_range_area_counterexample :
    ∃ (c : Circ 97) (f : FCirc 97) (i : ℕ) (r : Row 97), Built c ∧ c.ultra = some 2 ∧
      Sat c [] c.val ∧
      finalize 5 28 rnd97 c = .ok f ∧ r.sel.lookup ≠ 0 ∧ f.circ.rows[i]? = some r ∧ i < 2 ^ 2 := by
  have h : okAnd (finalize' 5 28 rnd97 exC) (fun f => decide (
      (f.circ.rows[2]?.map (fun r => decide (r.sel.lookup ≠ 0))) = some true)) = true := by
    decide +kernel
  obtain ⟨f, hf, hP⟩ := okAnd_elim h
  rw [decide_eq_true_iff, Option.map_eq_some_iff] at hP
  obtain ⟨r, h1, h2⟩ := hP
  exact ⟨exC, f, 2, r, built_exC, rfl, (checkSat_ok built_exC.ok.wf _).1 (by decide +kernel),
    by rw [finalize_eq]; exact hf, by simpa using h2, h1, by norm_num⟩

/-! ### Examples -/

/-- a TurboPlonk circuit with public inputs between other gates -/
def exT : Circ 97 := withPub (withEq (withPub (withEq (Circ.new 97 none)) 3)) 5

theorem built_exT : Built exT := built_pub (built_eq (built_pub (built_eq (Built.new none)) 3)) 5

example : ∃ f : FCirc 97, Built exT ∧ exT.ultra = none ∧ finalize 5 28 rnd97 exT = .ok f ∧
    f.dom.size = 8 ∧ exT.pubIds = [3, 5] ∧ f.circ.pubIds = [0, 1] ∧
    publicInput f.circ = .ok [3, 5] ∧ GatesHold f.circ.rows [3, 5] exT.val := by
  have h : okAnd (finalize' 5 28 rnd97 exT) (fun f => decide (f.dom.size = 8)) = true := by
    decide +kernel
  obtain ⟨f, hf, hP⟩ := okAnd_elim h
  rw [decide_eq_true_iff] at hP
  rw [← finalize_eq] at hf
  obtain ⟨-, h2, h3, -, h5⟩ := C25_turbo built_exT rfl hf
  refine ⟨f, built_exT, rfl, hf, hP, by decide +kernel, h3.trans (by decide +kernel),
    h2.trans (by decide +kernel), ?_⟩
  exact (h5 [3, 5] _ (by decide +kernel)).2 ((checkSat_ok built_exT.ok.wf _).1 (by decide +kernel))

/-- an UltraPlonk circuit with two public inputs, a table of two rows, gates and a range check -/
def exU : Circ 97 :=
  withRange (withEq (withTab (withPub (withPub (Circ.new 97 (some 1)) 3) 5) [(0, 2, 3)]
    [(2, 3), (1, 1)])) 1

theorem built_exU : Built exU :=
  built_range (built_eq (built_tab (built_pub (built_pub (Built.new (some 1)) 3) 5) (by decide)
    (by decide))) (by decide) (k := 1) rfl

theorem placed_exU : TablesPlaced exU 8 := by
  have h1 : exU.tableGateIds = [(4, 2)] := by decide +kernel
  have h2 : exU.pubIds.length = 2 := by decide +kernel
  intro t ht i hi1 hi2
  rw [h1, List.mem_singleton] at ht
  subst ht
  simp at hi1 hi2
  omega

example : ∃ f : FCirc 97, Built exU ∧ exU.ultra = some 1 ∧ finalize 5 28 rnd97 exU = .ok f ∧
    f.dom.size = 8 ∧ TablesPlaced exU f.dom.size ∧ publicInput f.circ = .ok [3, 5] ∧
    Sat f.circ [3, 5] exU.val ∧
    ∀ (i : ℕ) (r : Row 97), f.circ.rows[i]? = some r → (r.sel.lookup ≠ 0 ↔ i = 5 ∨ i = 6) := by
  have h : okAnd (finalize' 5 28 rnd97 exU) (fun f => decide (f.dom.size = 8)) = true := by
    decide +kernel
  obtain ⟨f, hf, hP⟩ := okAnd_elim h
  rw [decide_eq_true_iff] at hP
  rw [← finalize_eq] at hf
  have hT : TablesPlaced exU f.dom.size := by rw [hP]; exact placed_exU
  obtain ⟨-, -, h3, -, h5, -⟩ := C25_ultra built_exU rfl (by norm_num) (by norm_num) hf hT
  obtain ⟨-, -, -, -, h9⟩ := C25_lookup_rows built_exU rfl hf hT
  have hc : (exU.rows.filter (fun r => decide (r.sel.lookup ≠ 0))).length = 2 := by decide +kernel
  refine ⟨f, built_exU, rfl, hf, hP, hT, h3.trans (by decide +kernel),
    (h5 _ _).2 ((checkSat_ok built_exU.ok.wf _).1 (by decide +kernel)), ?_⟩
  intro i r hr
  rw [h9 i r hr, hc, hP]
  omega

end Verif.Props.Finalize
