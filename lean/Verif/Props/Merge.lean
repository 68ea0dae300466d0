import Verif.Plonk.MergeLemmas
import Verif.Props.CopyConstraints

/-!
# C27: merging circuits

The two circuits are built, finalized as circuits of type A and type B and merged.  `rowInput` is the
public input the verifier puts on a row of the merged circuit: the inputs of the first circuit from the
first row on, the inputs of the second circuit from the last row backwards.
-/

set_option linter.unusedSectionVars false

namespace Verif.Props.Merge

open Verif.Circuit Verif.Pcs Verif.Plonk Verif.Props.Finalize Verif.Props.CopyConstraints

variable {p : ℕ} [Fact p.Prime]

/-- the two mergeable circuits -/
structure Pair (S : ℕ) (root : ZMod p) (rnd : List (ZMod p)) (c1 c2 : Circ p) (a b : FCirc p) :
    Prop where
  built1 : Built c1
  built2 : Built c2
  typeA : finalizeMergeable .a S root rnd c1 = .ok a
  typeB : finalizeMergeable .b S root rnd c2 = .ok b
  size : a.dom.size = b.dom.size
  inputs : c1.pubIds.length = c2.pubIds.length

/-- the public input of a row of the merged circuit with `N` rows -/
def rowInput (N : ℕ) (pi1 pi2 : List (ZMod p)) (j : ℕ) : ZMod p :=
  if 2 * j < N then pi1.getD j 0 else pi2.getD (N - 1 - j) 0

variable {S : ℕ} {root : ZMod p} {rnd : List (ZMod p)} {c1 c2 : Circ p} {a b : FCirc p}

/-- everything known about the two halves and the merged circuit -/
structure Info (S : ℕ) (root : ZMod p) (rnd : List (ZMod p)) (c1 c2 : Circ p) (a b f f1 f2 : FCirc p)
    (n : ℕ) : Prop where
  fin1 : finalize S root rnd c1 = .ok f1
  fin2 : finalize S root rnd c2 = .ok f2
  merged : Merged f1 f2 f n
  r1 : Rearranged c1 n f1.circ
  r2 : Rearranged c2 n f2.circ
  u1 : c1.ultra = none
  u2 : c2.ultra = none
  dom : f.dom = a.dom
  dom' : a.dom = b.dom
  newDom : newDomain S root (2 * n) = some f.dom
  ids : f.ids = a.ids
  ids' : b.ids = a.ids
  cosets : ∃ ks, Distinct f.dom.size ks ∧ ks.length = 5 ∧ f.ids = extIdPermutation ks f.dom
  permA : a.perm = typeAPerm 5 n f1.perm
  permB : b.perm = typeBPerm 5 n f2.perm
  circA : a.circ = mergeableCirc .a n (2 * n) f1.circ
  circB : b.circ = mergeableCirc .b n (2 * n) f2.circ

theorem info (h : Pair S root rnd c1 c2 a b) (hpos : c1.pubIds ≠ []) :
    ∃ f, merge a b = .ok f ∧ ∃ f1 f2 n, Info S root rnd c1 c2 a b f f1 f2 n := by
  obtain ⟨u1, f1, hf1, ha1, ha2, ha3, ha4, ks, hks, hids⟩ := finalizeMergeable_ok h.typeA
  obtain ⟨u2, f2, hf2, hb1, hb2, hb3, hb4, ks', hks', hids'⟩ := finalizeMergeable_ok h.typeB
  have hn : f1.dom.size = f2.dom.size := by
    have := h.size
    omega
  obtain ⟨r1, -, -⟩ := rearranged_of h.built1.ok hf1 (Or.inl u1)
  obtain ⟨r2, -, -⟩ := rearranged_of h.built2.ok hf2 (Or.inl u2)
  obtain ⟨m, hm⟩ : ∃ m, c1.pubIds.length = m + 1 := by
    have := List.length_pos_iff.2 hpos
    exact ⟨c1.pubIds.length - 1, by omega⟩
  obtain ⟨f, e, M, hd, hi⟩ := merge_ok (r1.ultra.trans u1) (r2.ultra.trans u2) r1.len r2.len hn ha2 ha3 ha4
    hb2 hb3 hb4 (m := m) (by rw [r1.pubIds, hm]) (by rw [r2.pubIds, ← h.inputs, hm])
  have hdom : a.dom = b.dom := by
    rw [← hn, ha1] at hb1
    injection hb1
  have hk : ks = ks' := by
    rw [← h.size, hks] at hks'
    injection hks'
  obtain ⟨k1, k2⟩ := cosetReps_distinct hks
  refine ⟨f, e, f1, f2, f1.dom.size, hf1, hf2, M, r1, by rw [hn]; exact r2, u1, u2, hd, hdom,
    by rw [hd]; exact ha1, hi, by rw [hids', hids, hdom, hk],
    ⟨ks, by rw [hd]; exact k1, k2, by rw [hi, hd]; exact hids⟩, ha4, by rw [hn]; exact hb4, ?_, ?_⟩
  · rw [ha3, ha2]
  · rw [hb3, hb2, hn]

theorem info' (h : Pair S root rnd c1 c2 a b) (hpos : c1.pubIds ≠ []) {f : FCirc p}
    (hf : merge a b = .ok f) : ∃ f1 f2 n, Info S root rnd c1 c2 a b f f1 f2 n := by
  obtain ⟨f', e, hi⟩ := info h hpos
  rw [hf] at e
  injection e with e
  rw [e]
  exact hi

/-- C27: a circuit that can be built can be finalized for merging, when the field has a subgroup of twice
the size needed and enough coset representatives are drawn. -/
theorem C27_mergeable {c : Circ p} (ty : MergeType) (hc : Built c) (hu : c.ultra = none) {k : ℕ}
    (hk : Nat.clog 2 c.rows.length = k) (hS : k + 1 ≤ S) {ks ks' : List (ZMod p)}
    (h1 : cosetReps rnd 5 (2 ^ k) = .ok ks) (h2 : cosetReps rnd 5 (2 ^ (k + 1)) = .ok ks') :
    ∃ m, finalizeMergeable ty S root rnd c = .ok m ∧ m.dom.size = 2 ^ (k + 1) := by
  have hs : numSlots c = c.rows.length := by unfold numSlots; rw [hu]
  have hw : width c = 5 := by unfold width; rw [hu]; rfl
  obtain ⟨f, hf, hsz⟩ := C25_succeeds (S := S) (root := root) (rnd := rnd) hc (by rw [hs, hk]; omega)
    (ks := ks) (by rw [hw, hs, hk]; exact h1)
  rw [hs, hk] at hsz
  have e : Nat.clog 2 (2 * f.dom.size) = k + 1 := by
    rw [hsz, ← Nat.pow_succ', Nat.clog_pow 2 _ (by omega)]
  have hd := newDomain_eq S root (2 * f.dom.size) (by rw [e]; exact hS)
  rw [e] at hd
  obtain ⟨m, hm, hdm⟩ := mergeable_exists ty hu hf hd (ks := ks') h2
  exact ⟨m, hm, by rw [hdm]; rfl⟩

/-- C27: the circuits with at least one public input are merged, on the same domain. -/
theorem C27_succeeds (h : Pair S root rnd c1 c2 a b) (hpos : c1.pubIds ≠ []) :
    ∃ f, merge a b = .ok f ∧ f.dom = a.dom ∧ f.circ.rows.length = f.dom.size ∧
      f.circ.numVars = c1.numVars + c2.numVars ∧ f.circ.witness = c1.witness ++ c2.witness := by
  obtain ⟨f, e, f1, f2, n, i⟩ := info h hpos
  refine ⟨f, e, i.dom, ?_, ?_, ?_⟩
  · rw [i.merged.length i.r1.len i.r2.len, i.merged.size]
  · rw [i.merged.numVars, i.r1.numVars, i.r2.numVars]
  · rw [i.merged.witness, i.r1.witness, i.r2.witness]

theorem shift_holds (m : ℕ) (r : Row p) (x : ZMod p) (w : ℕ → ZMod p) :
    (shiftRow m r).Holds x w ↔ r.Holds x (fun v => w (m + v)) := by
  unfold Row.Holds shiftRow
  simp only [Nat.add_comm m]

/-- C27: with the public inputs on their rows, the rows of the merged circuit hold exactly when the first
circuit is satisfied by the assignment of the first variables and the second one by the assignment of
the others. -/
theorem C27_gates (h : Pair S root rnd c1 c2 a b) (hpos : c1.pubIds ≠ []) {f : FCirc p}
    (hf : merge a b = .ok f) (pi1 pi2 : List (ZMod p)) (h1 : pi1.length = c1.pubIds.length)
    (h2 : pi2.length = c2.pubIds.length) (w : ℕ → ZMod p) :
    (∀ (j : ℕ) (r : Row p), f.circ.rows[j]? = some r → r.Holds (rowInput f.dom.size pi1 pi2 j) w) ↔
      Sat c1 pi1 w ∧ Sat c2 pi2 (fun v => w (c1.numVars + v)) := by
  obtain ⟨f1, f2, n, i⟩ := info' h hpos hf
  have hl1 := i.r1.len
  have hl2 := i.r2.len
  have hl := i.merged.length hl1 hl2
  rw [← (C25_turbo h.built1 i.u1 i.fin1).2.2.2.2 pi1 w h1,
    ← (C25_turbo h.built2 i.u2 i.fin2).2.2.2.2 pi2 _ h2, i.merged.size]
  unfold GatesHold
  constructor
  · intro hg
    refine ⟨?_, ?_⟩
    · intro j r hr
      have hj : j < n := by
        have := (List.getElem?_eq_some_iff.1 hr).1
        omega
      have := hg j r (by rw [i.merged.rowA hl1 hj]; exact hr)
      unfold rowInput at this
      rwa [if_pos (by omega)] at this
    · intro j r hr
      have hj : j < n := by
        have := (List.getElem?_eq_some_iff.1 hr).1
        omega
      have := hg (2 * n - 1 - j) (shiftRow f1.circ.numVars r) (by
        rw [i.merged.rowB hl1 hl2 hj, hr]
        rfl)
      unfold rowInput at this
      rw [if_neg (by omega), show 2 * n - 1 - (2 * n - 1 - j) = j by omega, shift_holds,
        i.r1.numVars] at this
      exact this
  · rintro ⟨g1, g2⟩ j r hr
    have hj : j < 2 * n := by
      have := (List.getElem?_eq_some_iff.1 hr).1
      omega
    unfold rowInput
    by_cases hjn : j < n
    · rw [if_pos (by omega)]
      rw [i.merged.rowA hl1 hjn] at hr
      exact g1 j r hr
    · rw [if_neg (by omega)]
      have e : j = 2 * n - 1 - (2 * n - 1 - j) := by omega
      rw [e, i.merged.rowB hl1 hl2 (by omega), Option.map_eq_some_iff] at hr
      obtain ⟨r', hr', rfl⟩ := hr
      rw [shift_holds, i.r1.numVars]
      exact g2 _ r' hr'

/-- C27: the merged circuit is satisfied with the concatenated public inputs exactly when both circuits
are satisfied. -/
theorem C27_sat (h : Pair S root rnd c1 c2 a b) (hpos : c1.pubIds ≠ []) {f : FCirc p}
    (hf : merge a b = .ok f) (pi1 pi2 : List (ZMod p)) (h1 : pi1.length = c1.pubIds.length)
    (w : ℕ → ZMod p) :
    Sat f.circ (pi1 ++ pi2) w ↔ Sat c1 pi1 w ∧ Sat c2 pi2 (fun v => w (c1.numVars + v)) := by
  obtain ⟨f1, f2, n, i⟩ := info' h hpos hf
  have hl1 := i.r1.len
  have hl2 := i.r2.len
  have hl := i.merged.length hl1 hl2
  have hio1 := i.r1.io_rows h.built1.ok
  have hio2 := i.r2.io_rows h.built2.ok
  have hpub : f.circ.pubIds = List.range c1.pubIds.length ++
      (List.range c2.pubIds.length).map (fun g => 2 * n - 1 - g) := by
    rw [i.merged.pubIds, i.r1.pubIds, i.r2.pubIds]
  have hm1 : c1.pubIds.length ≤ n := by
    have := h.built1.ok.ioCount
    have := List.countP_le_length (p := fun r : Row p => r.sel.io) (l := c1.rows)
    have := rows_le_numSlots c1
    have := newDomain_size (finalize_ok i.fin1).1
    have := i.merged.n1
    omega
  have hm2 : c2.pubIds.length ≤ n := by
    have := h.inputs
    omega
  by_cases h2 : pi2.length = c2.pubIds.length
  · rw [← C27_gates h hpos hf pi1 pi2 h1 h2 w, i.merged.size]
    have hrowio : ∀ j r, f.circ.rows[j]? = some r →
        (r.sel.io = true ↔ j < c1.pubIds.length ∨
          2 * n - c2.pubIds.length ≤ j) := by
      intro j r hr
      have hj : j < 2 * n := by
        have := (List.getElem?_eq_some_iff.1 hr).1
        omega
      by_cases hjn : j < n
      · rw [i.merged.rowA hl1 hjn] at hr
        rw [hio1 j r hr]
        omega
      · have e : j = 2 * n - 1 - (2 * n - 1 - j) := by omega
        rw [e, i.merged.rowB hl1 hl2 (by omega), Option.map_eq_some_iff] at hr
        obtain ⟨r', hr', rfl⟩ := hr
        have := hio2 _ r' hr'
        show r'.sel.io = true ↔ _
        rw [this]
        omega
    constructor
    · intro hs j r hr
      have hj : j < 2 * n := by
        have := (List.getElem?_eq_some_iff.1 hr).1
        omega
      unfold rowInput
      by_cases hio : r.sel.io = true
      · rcases (hrowio j r hr).1 hio with hlt | hge
        · rw [if_pos (by omega), List.getD_eq_getElem?_getD, List.getElem?_eq_getElem (by omega)]
          refine hs.io j j _ r ?_ ?_ hr
          · rw [hpub, List.getElem?_append_left (by simpa using hlt)]
            simp [hlt]
          · rw [List.getElem?_append_left (by omega), List.getElem?_eq_getElem (by omega)]
            rfl
        · rw [if_neg (by omega), List.getD_eq_getElem?_getD, List.getElem?_eq_getElem (by omega)]
          refine hs.io (c1.pubIds.length + (2 * n - 1 - j)) j _ r ?_ ?_ hr
          · rw [hpub, List.getElem?_append_right (by simp)]
            have e : c1.pubIds.length + (2 * n - 1 - j) - (List.range c1.pubIds.length).length =
                2 * n - 1 - j := by simp
            rw [e, List.getElem?_map, List.getElem?_range (by omega)]
            simp only [Option.map_some, Option.some.injEq]
            omega
          · rw [List.getElem?_append_right (by omega), h1, Nat.add_sub_cancel_left,
              List.getElem?_eq_getElem (by omega)]
            rfl
      · have hno := mt (hrowio j r hr).2 hio
        have hx : (if 2 * j < 2 * n then pi1.getD j 0 else pi2.getD (2 * n - 1 - j) 0) = 0 := by
          split
          · rw [List.getD_eq_getElem?_getD, List.getElem?_eq_none (by omega)]
            rfl
          · rw [List.getD_eq_getElem?_getD, List.getElem?_eq_none (by omega)]
            rfl
        rw [hx]
        exact hs.plain r (List.mem_of_getElem? hr) (by simpa using hio)
    · intro hg
      refine ⟨?_, ?_, ?_, ?_, ?_⟩
      · rw [hpub]
        simp [h1, h2]
      · intro k g x r hk hx hr
        have := hg g r hr
        unfold rowInput at this
        rw [hpub] at hk
        by_cases hkm : k < c1.pubIds.length
        · rw [List.getElem?_append_left (by simpa using hkm), List.getElem?_range hkm] at hk
          injection hk with hk
          subst hk
          rw [List.getElem?_append_left (by omega)] at hx
          rwa [if_pos (by omega), List.getD_eq_getElem?_getD, hx] at this
        · have hb := (List.getElem?_eq_some_iff.1 hk).1
          simp only [List.length_append, List.length_range, List.length_map] at hb
          rw [List.getElem?_append_right (by simp; omega), List.getElem?_map, List.length_range,
            List.getElem?_range (by omega)] at hk
          simp only [Option.map_some, Option.some.injEq] at hk
          rw [List.getElem?_append_right (by omega), h1] at hx
          have e : 2 * n - 1 - g = k - c1.pubIds.length := by omega
          rwa [if_neg (by omega), List.getD_eq_getElem?_getD, e, hx] at this
      · intro r hr hio
        obtain ⟨j, hj⟩ := List.mem_iff_getElem?.1 hr
        have hjl : j < 2 * n := by
          have := (List.getElem?_eq_some_iff.1 hj).1
          omega
        have hno : ¬ (j < c1.pubIds.length ∨ 2 * n - c2.pubIds.length ≤ j) := by
          rw [← hrowio j r hj, hio]
          simp
        have := hg j r hj
        unfold rowInput at this
        have hx : (if 2 * j < 2 * n then pi1.getD j 0 else pi2.getD (2 * n - 1 - j) 0) = 0 := by
          split
          · rw [List.getD_eq_getElem?_getD, List.getElem?_eq_none (by omega)]
            rfl
          · rw [List.getD_eq_getElem?_getD, List.getElem?_eq_none (by omega)]
            rfl
        rwa [hx] at this
      · intro k hk
        rw [i.merged.ultra] at hk
        cases hk
      · intro k hk
        rw [i.merged.ultra] at hk
        cases hk
  · constructor
    · intro hs
      exfalso
      have := hs.len
      rw [hpub] at this
      simp [h1] at this
      exact h2 this
    · rintro ⟨-, hs⟩
      exact absurd hs.len h2

theorem mapM_append_ok {α β : Type} (g : α → Except CErr β) : ∀ (l1 l2 : List α) (x y : List β),
    l1.mapM g = .ok x → l2.mapM g = .ok y → (l1 ++ l2).mapM g = .ok (x ++ y) := by
  intro l1 l2 x y h1 h2
  rw [List.mapM_append, h1, h2]
  rfl

/-- C27: the public inputs of the merged circuit are the concatenated public inputs. -/
theorem C27_public_input (h : Pair S root rnd c1 c2 a b) (hpos : c1.pubIds ≠ []) {f : FCirc p}
    (hf : merge a b = .ok f) {x y : List (ZMod p)} (h1 : publicInput c1 = .ok x)
    (h2 : publicInput c2 = .ok y) : publicInput f.circ = .ok (x ++ y) := by
  obtain ⟨f1, f2, n, i⟩ := info' h hpos hf
  have hl1 := i.r1.len
  have hl2 := i.r2.len
  rw [← i.r1.publicInput] at h1
  rw [← i.r2.publicInput] at h2
  have hw1 : f1.circ.witness.length = f1.circ.numVars := by
    rw [i.r1.witness, i.r1.numVars, h.built1.ok.wf.len]
  have hb1 : ∀ r ∈ f1.circ.rows, r.w4 < f1.circ.numVars := by
    intro r hr
    rw [i.r1.numVars]
    have hwf := h.built1.ok.wf
    rcases List.mem_append.1 (i.r1.perm.mem_iff.1 hr) with hm | hm
    · exact (hwf.wires r hm).2.2.2.2
    · rw [List.eq_of_mem_replicate hm]
      have := hwf.two
      show 0 < _
      omega
  have hm1 : ∀ g ∈ f1.circ.pubIds, ∃ r, f1.circ.rows[g]? = some r := by
    intro g hg
    rw [i.r1.pubIds, List.mem_range] at hg
    have hgl : c1.pubIds[g]? = some c1.pubIds[g] := List.getElem?_eq_getElem hg
    obtain ⟨v, hv⟩ := h.built1.ok.pubRow _ (List.getElem_mem hg)
    exact ⟨_, (i.r1.front g _ hgl).trans hv⟩
  have hm2 : ∀ g ∈ f2.circ.pubIds, ∃ r, f2.circ.rows[g]? = some r := by
    intro g hg
    rw [i.r2.pubIds, List.mem_range] at hg
    have hgl : c2.pubIds[g]? = some c2.pubIds[g] := List.getElem?_eq_getElem hg
    obtain ⟨v, hv⟩ := h.built2.ok.pubRow _ (List.getElem_mem hg)
    exact ⟨_, (i.r2.front g _ hgl).trans hv⟩
  unfold publicInput
  rw [i.merged.pubIds]
  refine mapM_append_ok _ _ _ _ _ ?_ ?_
  · rw [← h1]
    unfold publicInput
    refine mapM_congr' ?_
    intro g hg
    obtain ⟨r, hr⟩ := hm1 g hg
    have hg' : g < n := by
      have := (List.getElem?_eq_some_iff.1 hr).1
      omega
    unfold ioValue
    rw [i.merged.rowA hl1 hg', hr]
    simp only
    have hlt := hb1 r (List.mem_of_getElem? hr)
    rw [if_neg (by rw [i.merged.numVars]; omega), if_neg (by omega)]
    unfold Circ.val
    rw [i.merged.witness, List.getD_append _ _ _ _ (by omega)]
  · rw [List.mapM_map, ← h2]
    unfold publicInput
    refine mapM_congr' ?_
    intro g hg
    obtain ⟨r, hr⟩ := hm2 g hg
    have hg' : g < n := by
      have := (List.getElem?_eq_some_iff.1 hr).1
      omega
    show ioValue f.circ (2 * n - 1 - g) = _
    unfold ioValue
    rw [i.merged.rowB hl1 hl2 hg', hr]
    simp only [Option.map_some]
    have e : (shiftRow f1.circ.numVars r).w4 = r.w4 + f1.circ.numVars := rfl
    rw [e, i.merged.numVars]
    have hv : f.circ.val (r.w4 + f1.circ.numVars) = f2.circ.val r.w4 := by
      unfold Circ.val
      rw [i.merged.witness, List.getD_append_right _ _ _ _ (by omega), hw1, Nat.add_sub_cancel]
    by_cases hc : f2.circ.numVars ≤ r.w4
    · rw [if_pos hc, if_pos (by omega)]
    · rw [if_neg hc, if_neg (by omega), hv]

/-! ### The wire permutation of the merged circuit -/

theorem next_eq {f1 f2 f : FCirc p} {n : ℕ} (m : Merged f1 f2 f n) (s : ℕ × ℕ) (h1 : s.1 < 5) (h2 : s.2 < n) :
    next f s = next f1 s ∧
      next f (s.1, 2 * n - 1 - s.2) = ((next f2 s).1, 2 * n - 1 - (next f2 s).2) := by
  unfold next
  rw [m.n1, m.n2, m.size, m.perm, grid_getD _ h1 (by omega), grid_getD _ h1 (by omega), if_pos h2,
    if_neg (by omega)]
  refine ⟨rfl, ?_⟩
  rw [show 2 * n - 1 - (2 * n - 1 - s.2) = s.2 by omega]

theorem slotVar_none {c : Circ p} (hu : c.ultra = none) (s : ℕ × ℕ) (v : ℕ) :
    SlotVar c s v ↔ ∃ r, c.rows[s.2]? = some r ∧
    (s.1 = 0 ∧ v = r.w0 ∨ s.1 = 1 ∧ v = r.w1 ∨ s.1 = 2 ∧ v = r.w2 ∨ s.1 = 3 ∧ v = r.w3 ∨
      s.1 = 4 ∧ v = r.w4) := by
  unfold SlotVar
  constructor
  · rintro (h | ⟨-, h, -⟩)
    · exact h
    · exact absurd hu h
  · exact Or.inl

theorem Info.linked {f f1 f2 : FCirc p} {n : ℕ} (h : Pair S root rnd c1 c2 a b)
    (i : Info S root rnd c1 c2 a b f f1 f2 n) : Linked f := by
  have hl1 := i.r1.len
  have hl2 := i.r2.len
  have hl := i.merged.length hl1 hl2
  have L1 := linked_of h.built1 i.fin1
  have L2 := linked_of h.built2 i.fin2
  have u1 : f1.circ.ultra = none := i.r1.ultra.trans i.u1
  have u2 : f2.circ.ultra = none := i.r2.ultra.trans i.u2
  have u := i.merged.ultra
  have w5 : ∀ c : Circ p, c.ultra = none → width c = 5 := fun c hc => by unfold width; rw [hc]; rfl
  have sl1 : ∀ s : ℕ × ℕ, s ∈ slots f1 ↔ s.1 < 5 ∧ s.2 < n := by
    intro s
    unfold slots
    rw [Finset.mem_product, Finset.mem_range, Finset.mem_range, w5 _ u1, i.merged.n1]
  have sl2 : ∀ s : ℕ × ℕ, s ∈ slots f2 ↔ s.1 < 5 ∧ s.2 < n := by
    intro s
    unfold slots
    rw [Finset.mem_product, Finset.mem_range, Finset.mem_range, w5 _ u2, i.merged.n2]
  have sl : ∀ s : ℕ × ℕ, s ∈ slots f ↔ s.1 < 5 ∧ s.2 < 2 * n := by
    intro s
    unfold slots
    rw [Finset.mem_product, Finset.mem_range, Finset.mem_range, w5 _ u, i.merged.size]
  -- the variables
  have v1 : ∀ (s : ℕ × ℕ) (v : ℕ), s.2 < n → (SlotVar f.circ s v ↔ SlotVar f1.circ s v) := by
    intro s v hs
    rw [slotVar_none u, slotVar_none u1, i.merged.rowA hl1 hs]
  have v2 : ∀ (s : ℕ × ℕ) (v : ℕ), s.2 < n → (SlotVar f.circ (s.1, 2 * n - 1 - s.2) v ↔
      ∃ v', v = v' + f1.circ.numVars ∧ SlotVar f2.circ s v') := by
    intro s v hs
    rw [slotVar_none u]
    simp only [slotVar_none u2]
    rw [i.merged.rowB hl1 hl2 hs]
    constructor
    · rintro ⟨r, hr, hv⟩
      rw [Option.map_eq_some_iff] at hr
      obtain ⟨r', hr', rfl⟩ := hr
      have hsh : v - f1.circ.numVars + f1.circ.numVars = v := by
        unfold shiftRow at hv
        simp only at hv
        omega
      refine ⟨v - f1.circ.numVars, hsh.symm, r', hr', ?_⟩
      unfold shiftRow at hv
      simp only at hv
      omega
    · rintro ⟨v', rfl, r, hr, hv⟩
      refine ⟨shiftRow f1.circ.numVars r, by rw [hr]; rfl, ?_⟩
      unfold shiftRow
      simp only
      omega
  have b1 : ∀ s v, SlotVar f1.circ s v → v < f1.circ.numVars := fun s v hv =>
    L1.full.bound s v ((varAt_iff _ _ _).2 hv)
  have b2 : ∀ s v, SlotVar f2.circ s v → v < f2.circ.numVars := fun s v hv =>
    L2.full.bound s v ((varAt_iff _ _ _).2 hv)
  -- the two halves
  have half : ∀ s : ℕ × ℕ, s ∈ slots f → s ∈ slots f1 ∨
      ∃ t ∈ slots f2, s = (t.1, 2 * n - 1 - t.2) := by
    intro s hs
    rw [sl] at hs
    by_cases hj : s.2 < n
    · exact Or.inl ((sl1 s).2 ⟨hs.1, hj⟩)
    · refine Or.inr ⟨(s.1, 2 * n - 1 - s.2), (sl2 _).2 ⟨hs.1, ?_⟩, ?_⟩
      · show 2 * n - 1 - s.2 < n
        omega
      · refine Prod.ext rfl ?_
        show s.2 = 2 * n - 1 - (2 * n - 1 - s.2)
        omega
  have it1 : ∀ (k : ℕ) (s : ℕ × ℕ), s ∈ slots f1 → (next f)^[k] s = (next f1)^[k] s ∧
      (next f1)^[k] s ∈ slots f1 := by
    intro k
    induction k with
    | zero => intro s hs; exact ⟨rfl, hs⟩
    | succ k ih =>
      intro s hs
      have hs' := (sl1 s).1 hs
      rw [Function.iterate_succ_apply, Function.iterate_succ_apply, (next_eq i.merged s hs'.1 hs'.2).1]
      exact ih _ (L1.bij.mapsTo hs)
  have it2 : ∀ (k : ℕ) (s : ℕ × ℕ), s ∈ slots f2 →
      (next f)^[k] (s.1, 2 * n - 1 - s.2) =
        (((next f2)^[k] s).1, 2 * n - 1 - ((next f2)^[k] s).2) ∧ (next f2)^[k] s ∈ slots f2 := by
    intro k
    induction k with
    | zero => intro s hs; exact ⟨rfl, hs⟩
    | succ k ih =>
      intro s hs
      have hs' := (sl2 s).1 hs
      rw [Function.iterate_succ_apply, Function.iterate_succ_apply, (next_eq i.merged s hs'.1 hs'.2).2]
      exact ih _ (L2.bij.mapsTo hs)
  have hvarslot : ∀ s v, SlotVar f.circ s v → s ∈ slots f := by
    intro s v hv
    rw [slotVar_none u] at hv
    obtain ⟨r, hr, hv⟩ := hv
    have := (List.getElem?_eq_some_iff.1 hr).1
    rw [sl]
    omega
  have hmaps : Set.MapsTo (next f) (slots f) (slots f) := by
    intro s hs
    rcases half s hs with h1 | ⟨t, ht, rfl⟩
    · have hs' := (sl1 s).1 h1
      rw [(next_eq i.merged s hs'.1 hs'.2).1]
      have := (sl1 _).1 (L1.bij.mapsTo h1)
      exact (sl _).2 ⟨this.1, by omega⟩
    · have ht' := (sl2 t).1 ht
      rw [(next_eq i.merged t ht'.1 ht'.2).2]
      have := (sl2 _).1 (L2.bij.mapsTo ht)
      exact (sl _).2 ⟨this.1, by show 2 * n - 1 - (next f2 t).2 < 2 * n; omega⟩
  have hinj : Set.InjOn (next f) (slots f) := by
    intro s hs t ht he
    rcases half s hs with h1 | ⟨s', hs', rfl⟩
    · have hs1 := (sl1 s).1 h1
      have hn1 := (sl1 _).1 (L1.bij.mapsTo h1)
      rw [(next_eq i.merged s hs1.1 hs1.2).1] at he
      rcases half t ht with h2 | ⟨t', ht', rfl⟩
      · have ht1 := (sl1 t).1 h2
        rw [(next_eq i.merged t ht1.1 ht1.2).1] at he
        exact L1.bij.injOn h1 h2 he
      · have ht1 := (sl2 t').1 ht'
        have hn2 := (sl2 _).1 (L2.bij.mapsTo ht')
        rw [(next_eq i.merged t' ht1.1 ht1.2).2] at he
        have := congrArg Prod.snd he
        simp only at this
        omega
    · have hs1 := (sl2 s').1 hs'
      have hn1 := (sl2 _).1 (L2.bij.mapsTo hs')
      rw [(next_eq i.merged s' hs1.1 hs1.2).2] at he
      rcases half t ht with h2 | ⟨t', ht', rfl⟩
      · have ht1 := (sl1 t).1 h2
        have hn2 := (sl1 _).1 (L1.bij.mapsTo h2)
        rw [(next_eq i.merged t ht1.1 ht1.2).1] at he
        have := congrArg Prod.snd he
        simp only at this
        omega
      · have ht1 := (sl2 t').1 ht'
        have hn2 := (sl2 _).1 (L2.bij.mapsTo ht')
        rw [(next_eq i.merged t' ht1.1 ht1.2).2] at he
        have e1 := congrArg Prod.fst he
        have e2 := congrArg Prod.snd he
        simp only at e1 e2
        have : s' = t' := L2.bij.injOn hs' ht' (Prod.ext e1 (by omega))
        rw [this]
  have hlinks : ∀ s t : ℕ × ℕ, s ∈ slots f →
      ((∃ k : ℕ, (next f)^[k] s = t) ↔ ∃ v, SlotVar f.circ s v ∧ SlotVar f.circ t v) := by
    intro s t hs
    rcases half s hs with h1 | ⟨s', hs', rfl⟩
    · have hs1 := (sl1 s).1 h1
      constructor
      · rintro ⟨k, rfl⟩
        obtain ⟨e, hm⟩ := it1 k s h1
        obtain ⟨v, hv1, hv2⟩ := (L1.links s _ h1).1 ⟨k, rfl⟩
        have := (sl1 _).1 hm
        exact ⟨v, (v1 s v hs1.2).2 hv1, by rw [e]; exact (v1 _ v this.2).2 hv2⟩
      · rintro ⟨v, hv1, hv2⟩
        rw [v1 s v hs1.2] at hv1
        rcases half t (hvarslot t v hv2) with h2 | ⟨t', ht', rfl⟩
        · have ht1 := (sl1 t).1 h2
          rw [v1 t v ht1.2] at hv2
          obtain ⟨k, hk⟩ := (L1.links s t h1).2 ⟨v, hv1, hv2⟩
          exact ⟨k, by rw [(it1 k s h1).1, hk]⟩
        · have ht1 := (sl2 t').1 ht'
          rw [v2 t' v ht1.2] at hv2
          obtain ⟨v', rfl, -⟩ := hv2
          have := b1 s _ hv1
          omega
    · have hs1 := (sl2 s').1 hs'
      constructor
      · rintro ⟨k, rfl⟩
        obtain ⟨e, hm⟩ := it2 k s' hs'
        obtain ⟨v, hv1, hv2⟩ := (L2.links s' _ hs').1 ⟨k, rfl⟩
        have := (sl2 _).1 hm
        exact ⟨v + f1.circ.numVars, (v2 s' _ hs1.2).2 ⟨v, rfl, hv1⟩,
          by rw [e]; exact (v2 _ _ this.2).2 ⟨v, rfl, hv2⟩⟩
      · rintro ⟨v, hv1, hv2⟩
        rw [v2 s' v hs1.2] at hv1
        obtain ⟨v', rfl, hv1⟩ := hv1
        rcases half t (hvarslot t _ hv2) with h2 | ⟨t', ht', rfl⟩
        · have ht1 := (sl1 t).1 h2
          rw [v1 t _ ht1.2] at hv2
          have := b1 t _ hv2
          omega
        · have ht1 := (sl2 t').1 ht'
          rw [v2 t' _ ht1.2] at hv2
          obtain ⟨v'', he, hv2⟩ := hv2
          have : v' = v'' := by omega
          subst this
          obtain ⟨k, hk⟩ := (L2.links s' t' hs').2 ⟨v', hv1, hv2⟩
          exact ⟨k, by rw [(it2 k s' hs').1, hk]⟩
  have hwv : wireVecs f.circ = [f.circ.rows.map Row.w0, f.circ.rows.map Row.w1,
      f.circ.rows.map Row.w2, f.circ.rows.map Row.w3, f.circ.rows.map Row.w4] := by
    unfold wireVecs
    rw [u]
  refine ⟨⟨?_, ?_, ?_, ?_⟩, ?_, ⟨hmaps, hinj, ?_⟩, hlinks, ?_⟩
  · intro v hv
    rw [hwv] at hv
    rw [i.merged.size]
    simp only [List.mem_cons, List.not_mem_nil, or_false] at hv
    rcases hv with rfl | rfl | rfl | rfl | rfl <;> rw [List.length_map, hl]
  · intro s v hv
    rw [varAt_iff] at hv
    rw [i.merged.numVars]
    rcases half s (hvarslot s v hv) with h1 | ⟨s', hs', rfl⟩
    · rw [v1 s v ((sl1 s).1 h1).2] at hv
      have := b1 s v hv
      omega
    · rw [v2 s' v ((sl2 s').1 hs').2] at hv
      obtain ⟨v', rfl, hv⟩ := hv
      have := b2 s' v' hv
      omega
  · rw [i.merged.witness, i.merged.numVars, List.length_append, i.r1.witness, i.r2.witness,
      i.r1.numVars, i.r2.numVars, h.built1.ok.wf.len, h.built2.ok.wf.len]
  · rw [i.merged.domSize, i.merged.size]
  · rw [i.merged.perm, grid_length, w5 _ u, i.merged.size]
  · exact Finset.surjOn_of_injOn_of_card_le (next f) hmaps hinj le_rfl
  · obtain ⟨ks, k1, k2, k3⟩ := i.cosets
    refine ⟨ks, k1, ?_, k3⟩
    rw [k2]
    unfold numWireTypes
    rw [u]

theorem Info.gen {f f1 f2 : FCirc p} {n : ℕ} (hroot : IsPrimitiveRoot root (2 ^ S))
    (i : Info S root rnd c1 c2 a b f f1 f2 n) :
    IsPrimitiveRoot f.dom.gen f.dom.size ∧ 0 < f.dom.size := gen_of_newDomain hroot i.newDom

/-- C27: the wire permutation of the merged circuit permutes its slots and links two slots exactly when
they carry the same variable; the slots have different labels. -/
theorem C27_permutation (h : Pair S root rnd c1 c2 a b) (hpos : c1.pubIds ≠ []) {f : FCirc p}
    (hf : merge a b = .ok f) (hroot : IsPrimitiveRoot root (2 ^ S)) :
    f.perm.length = 5 * f.dom.size ∧ Set.BijOn (next f) (slots f) (slots f) ∧
      (∀ s t : ℕ × ℕ, s ∈ slots f →
        ((∃ k : ℕ, (next f)^[k] s = t) ↔ ∃ v, SlotVar f.circ s v ∧ SlotVar f.circ t v)) ∧
      Set.InjOn (label f) (slots f) := by
  obtain ⟨f1, f2, n, i⟩ := info' h hpos hf
  have L := i.linked h
  have hw : width f.circ = 5 := by unfold width; rw [i.merged.ultra]; rfl
  exact ⟨by rw [← hw]; exact L.len, L.bij, L.links, L.labels (i.gen hroot).1⟩

/-- C27: for the wire values of an assignment of the variables of both circuits the permutation product
of the merged circuit closes up. -/
theorem C27_product_complete (h : Pair S root rnd c1 c2 a b) (hpos : c1.pubIds ≠ []) {f : FCirc p}
    (hf : merge a b = .ok f) (w : ℕ → ZMod p) (v : ℕ × ℕ → ZMod p)
    (hv : ∀ s x, SlotVar f.circ s x → v s = w x) (β γ : ZMod p) :
    ∏ j ∈ Finset.range f.dom.size, rowNum f v β γ j =
      ∏ j ∈ Finset.range f.dom.size, rowDen f v β γ j := by
  obtain ⟨f1, f2, n, i⟩ := info' h hpos hf
  exact (i.linked h).complete w v hv β γ

/-- C27: the product polynomial of the code for the merged circuit. -/
theorem C27_product_polynomial (h : Pair S root rnd c1 c2 a b) (hpos : c1.pubIds ≠ []) {f : FCirc p}
    (hf : merge a b = .ok f) (hroot : IsPrimitiveRoot root (2 ^ S)) (v : ℕ × ℕ → ZMod p)
    (hv : ∀ s x, SlotVar f.circ s x → v s = f.circ.val x) (β γ : ZMod p)
    (hden : ∀ j, j + 1 < f.dom.size → rowDen f v β γ j ≠ 0) :
    ∃ Z : List (ZMod p), prodPermPoly f β γ = .ok Z ∧ evalAt Z (1 : ZMod p) = 1 ∧
      ∀ j < f.dom.size, evalAt Z (f.dom.gen ^ (j + 1)) * rowDen f v β γ j =
        evalAt Z (f.dom.gen ^ j) * rowNum f v β γ j := by
  obtain ⟨f1, f2, n, i⟩ := info' h hpos hf
  exact (i.linked h).polynomial (i.gen hroot).1 (i.gen hroot).2 v hv β γ hden

/-- C27: for a table of wire values that is not the table of an assignment of the variables of both
circuits, the product of the merged circuit closes up for at most `2 * 5 * N * p` of the `p * p` pairs
of challenges. -/
theorem C27_product_sound (h : Pair S root rnd c1 c2 a b) (hpos : c1.pubIds ≠ []) {f : FCirc p}
    (hf : merge a b = .ok f) (hroot : IsPrimitiveRoot root (2 ^ S)) (v : ℕ × ℕ → ZMod p)
    (hv : ¬ ∃ w : ℕ → ZMod p, ∀ s x, SlotVar f.circ s x → v s = w x) :
    {x : ZMod p × ZMod p | Closes f v x.1 x.2}.ncard ≤ 2 * (5 * f.dom.size) * p := by
  obtain ⟨f1, f2, n, i⟩ := info' h hpos hf
  have hw : width f.circ = 5 := by unfold width; rw [i.merged.ultra]; rfl
  have := (i.linked h).sound (i.gen hroot).1 v hv
  rwa [hw] at this

/-! ### The keys of the merged circuit are the sums of the keys -/

theorem mapM_some {α β : Type} (g : α → Option β) (g' : α → β) : ∀ l : List α,
    (∀ x ∈ l, g x = some (g' x)) → l.mapM g = some (l.map g') := by
  intro l
  induction l with
  | nil => intro _; rfl
  | cons x l ih =>
    intro hl
    rw [List.mapM_cons, hl x (by simp), ih (fun y hy => hl y (by simp [hy]))]
    rfl

theorem extPermutation_grid {f : FCirc p} (hu : f.circ.ultra = none) {g : ℕ → ℕ → ℕ × ℕ}
    (hp : f.perm = grid 5 f.dom.size g)
    (hg : ∀ i < 5, ∀ j < f.dom.size, 5 ≤ (g i j).1 ∨ (g i j).1 * f.dom.size + (g i j).2 < f.ids.length) :
    extPermutation f = .ok (grid 5 f.dom.size (fun i j =>
      if 5 ≤ (g i j).1 then 0 else f.ids.getD ((g i j).1 * f.dom.size + (g i j).2) 0)) := by
  have hW : numWireTypes f.circ = 5 := by unfold numWireTypes; rw [hu]
  have hm : f.perm.mapM (fun s => if 5 ≤ s.1 then some (0 : ZMod p) else f.ids[s.1 * f.dom.size + s.2]?) =
      some (f.perm.map (fun s => if 5 ≤ s.1 then 0 else f.ids.getD (s.1 * f.dom.size + s.2) 0)) := by
    refine mapM_some _ _ _ ?_
    intro s hs
    rw [hp] at hs
    unfold grid at hs
    rw [List.mem_flatMap] at hs
    obtain ⟨i, hi, hs⟩ := hs
    rw [List.mem_map] at hs
    obtain ⟨j, hj, rfl⟩ := hs
    rcases hg i (List.mem_range.1 hi) j (List.mem_range.1 hj) with h5 | hlt
    · rw [if_pos h5, if_pos h5]
    · by_cases h5 : 5 ≤ (g i j).1
      · rw [if_pos h5, if_pos h5]
      · rw [if_neg h5, if_neg h5, List.getD_eq_getElem?_getD, List.getElem?_eq_getElem hlt]
        rfl
  unfold extPermutation
  simp only
  rw [hW, hm]
  simp only
  rw [if_neg (by rw [List.length_map, hp, grid_length]; simp), hp, grid_map]

/-- C27: the extended permutation of the merged circuit is the sum of those of the two circuits, so the
sigma polynomials of the merged key are the sums. -/
theorem C27_sigma (h : Pair S root rnd c1 c2 a b) (hpos : c1.pubIds ≠ []) {f : FCirc p}
    (hf : merge a b = .ok f) :
    ∃ la lb, extPermutation a = .ok la ∧ extPermutation b = .ok lb ∧
      extPermutation f = .ok (List.zipWith (· + ·) la lb) ∧ la.length = 5 * f.dom.size ∧
      lb.length = 5 * f.dom.size := by
  obtain ⟨f1, f2, n, i⟩ := info' h hpos hf
  have L1 := linked_of h.built1 i.fin1
  have L2 := linked_of h.built2 i.fin2
  have u1 : f1.circ.ultra = none := i.r1.ultra.trans i.u1
  have u2 : f2.circ.ultra = none := i.r2.ultra.trans i.u2
  have w5 : ∀ c : Circ p, c.ultra = none → width c = 5 := fun c hc => by unfold width; rw [hc]; rfl
  have ua : a.circ.ultra = none := by rw [i.circA]; exact u1
  have ub : b.circ.ultra = none := by rw [i.circB]; exact u2
  have hsz := i.merged.size
  have hda : a.dom.size = 2 * n := by rw [← i.dom]; exact hsz
  have hdb : b.dom.size = 2 * n := by rw [← i.dom']; exact hda
  have hidl : a.ids.length = 5 * (2 * n) := by
    obtain ⟨ks, k1, k2, k3⟩ := i.cosets
    rw [← i.ids, k3, extId_length, k2, hsz]
  have nx1 : ∀ i' < 5, ∀ j < n, (next f1 (i', j)).1 < 5 ∧ (next f1 (i', j)).2 < n := by
    intro i' hi' j hj
    have : next f1 (i', j) ∈ slots f1 := L1.bij.mapsTo (by
      show (i', j) ∈ (slots f1 : Set (ℕ × ℕ))
      rw [Finset.mem_coe]
      unfold slots
      rw [Finset.mem_product, Finset.mem_range, Finset.mem_range, w5 _ u1, i.merged.n1]
      exact ⟨hi', hj⟩)
    unfold slots at this
    rwa [Finset.mem_product, Finset.mem_range, Finset.mem_range, w5 _ u1, i.merged.n1] at this
  have nx2 : ∀ i' < 5, ∀ j < n, (next f2 (i', j)).1 < 5 ∧ (next f2 (i', j)).2 < n := by
    intro i' hi' j hj
    have : next f2 (i', j) ∈ slots f2 := L2.bij.mapsTo (by
      show (i', j) ∈ (slots f2 : Set (ℕ × ℕ))
      rw [Finset.mem_coe]
      unfold slots
      rw [Finset.mem_product, Finset.mem_range, Finset.mem_range, w5 _ u2, i.merged.n2]
      exact ⟨hi', hj⟩)
    unfold slots at this
    rwa [Finset.mem_product, Finset.mem_range, Finset.mem_range, w5 _ u2, i.merged.n2] at this
  have bnd : ∀ x y : ℕ, x < 5 → y < 2 * n → x * (2 * n) + y < 5 * (2 * n) := by
    intro x y hx hy
    have : x * (2 * n) ≤ 4 * (2 * n) := Nat.mul_le_mul_right _ (by omega)
    omega
  have e1 : ∀ i' j, f1.perm.getD (i' * n + j) (0, 0) = next f1 (i', j) := by
    intro i' j; unfold next; rw [i.merged.n1]
  have e2 : ∀ i' j, f2.perm.getD (i' * n + j) (0, 0) = next f2 (i', j) := by
    intro i' j; unfold next; rw [i.merged.n2]
  have hA := extPermutation_grid (f := a) ua (by
    rw [hda, i.permA]
    exact typeAPerm_eq n f1.perm) (by
    intro i' hi' j hj
    by_cases hjn : j < n
    · right
      rw [if_pos hjn, e1, hda, hidl]
      have := nx1 i' hi' j hjn
      exact bnd _ _ this.1 (by omega)
    · left
      rw [if_neg hjn])
  have hB := extPermutation_grid (f := b) ub (by
    rw [hdb, i.permB]
    exact typeBPerm_eq n f2.perm) (by
    intro i' hi' j hj
    by_cases hjn : n ≤ j
    · right
      rw [if_pos hjn, e2, hdb, i.ids', hidl]
      rw [hdb] at hj
      have := nx2 i' hi' (2 * n - 1 - j) (by omega)
      refine bnd _ _ this.1 ?_
      show 2 * n - 1 - _ < 2 * n
      omega
    · left
      rw [if_neg hjn])
  have hF := extPermutation_grid (f := f) i.merged.ultra (by
    rw [hsz]
    exact i.merged.perm) (by
    intro i' hi' j hj
    right
    rw [hsz] at hj
    by_cases hjn : j < n
    · rw [if_pos hjn, e1, hsz, i.ids, hidl]
      have := nx1 i' hi' j hjn
      exact bnd _ _ this.1 (by omega)
    · rw [if_neg hjn, e2, hsz, i.ids, hidl]
      have := nx2 i' hi' (2 * n - 1 - j) (by omega)
      refine bnd _ _ this.1 ?_
      show 2 * n - 1 - _ < 2 * n
      omega)
  refine ⟨_, _, hA, hB, ?_, by rw [grid_length, i.dom], by rw [grid_length, ← i.dom', i.dom]⟩
  rw [hF, hda, hdb, hsz, zipWith_grid, i.ids, i.ids']
  congr 1
  refine grid_congr ?_
  intro i' hi' j hj
  by_cases hjn : j < n
  · have := nx1 i' hi' j hjn
    simp only [if_pos hjn, if_neg (show ¬ n ≤ j by omega), e1,
      if_neg (show ¬ 5 ≤ (next f1 (i', j)).1 by omega)]
    simp
  · have := nx2 i' hi' (2 * n - 1 - j) (by omega)
    simp only [if_neg hjn, if_pos (show n ≤ j by omega), e2,
      if_neg (show ¬ 5 ≤ (next f2 (i', 2 * n - 1 - j)).1 by omega)]
    simp

/-- C27: every selector of the merged circuit is the sum of the selectors of the two circuits on every
row (a selector is any function of the gate that is zero for a padding gate). -/
theorem C27_selectors (h : Pair S root rnd c1 c2 a b) (hpos : c1.pubIds ≠ []) {f : FCirc p}
    (hf : merge a b = .ok f) (q : Sel p → ZMod p) (hq : q {} = 0) :
    f.circ.rows.map (fun r => q r.sel) =
      List.zipWith (· + ·) (a.circ.rows.map (fun r => q r.sel)) (b.circ.rows.map (fun r => q r.sel)) := by
  obtain ⟨f1, f2, n, i⟩ := info' h hpos hf
  have hl1 := i.r1.len
  have hl2 := i.r2.len
  have hA : a.circ.rows = f1.circ.rows ++ List.replicate n paddingRow := by rw [i.circA]; rfl
  have hB : b.circ.rows = (f2.circ.rows ++ List.replicate n paddingRow).reverse := by rw [i.circB]; rfl
  have hpad : q (paddingRow (p := p)).sel = 0 := hq
  rw [i.merged.rows, hA, hB, List.reverse_append, List.map_append, List.map_append, List.map_append,
    List.zipWith_append (by simp [hl1])]
  congr 1
  · refine List.ext_getElem (by simp [hl1]) ?_
    intro k h1 h2
    simp [hpad]
  · refine List.ext_getElem (by simp [hl2]) ?_
    intro k h1 h2
    simp [hpad, shiftRow]

/-! ### What is not merged -/

/-- C27: only a circuit of type A is merged with a circuit of type B, in this order. -/
theorem C27_types {ta tb : MergeType} (h1 : Built c1) (h2 : Built c2)
    (ha : finalizeMergeable ta S root rnd c1 = .ok a) (hb : finalizeMergeable tb S root rnd c2 = .ok b)
    (ht : ¬ (ta = .a ∧ tb = .b)) (f : FCirc p) : merge a b ≠ .ok f := by
  obtain ⟨u1, f1, hf1, ha1, ha2, ha3, -⟩ := finalizeMergeable_ok ha
  obtain ⟨u2, f2, hf2, hb1, hb2, hb3, -⟩ := finalizeMergeable_ok hb
  obtain ⟨r1, -, -⟩ := rearranged_of h1.ok hf1 (Or.inl u1)
  obtain ⟨r2, -, -⟩ := rearranged_of h2.ok hf2 (Or.inl u2)
  have hpos : ∀ {c : Circ p} {g : FCirc p}, Built c → finalize S root rnd c = .ok g → 2 ≤ g.dom.size := by
    intro c g hc hg
    obtain ⟨t, ht⟩ := hc.ok.wf.consts
    have e1 := rows_le_numSlots c
    have e2 := newDomain_size (finalize_ok hg).1
    have : 2 ≤ c.rows.length := by rw [ht]; simp
    omega
  have p1 := hpos h1 hf1
  have p2 := hpos h2 hf2
  intro hm
  unfold merge at hm
  split at hm
  · cases hm
  split at hm
  · cases hm
  split at hm
  · cases hm
  split at hm
  · cases hm
  split at hm
  · rename_i ga gb hga hgb
    split at hm
    · cases hm
    · rename_i hga0
      split at hm
      · cases hm
      · rename_i hgb0
        simp only [not_not] at hga0 hgb0
        subst hga0
        apply ht
        constructor
        · cases ta with
          | a => rfl
          | b =>
            exfalso
            rw [ha3] at hga
            have e : (mergeableCirc MergeType.b f1.dom.size a.dom.size f1.circ).pubIds =
              f1.circ.pubIds.map (fun g => 2 * f1.dom.size - 1 - g) := rfl
            rw [e, List.getElem?_map, Option.map_eq_some_iff] at hga
            obtain ⟨g, hg, hz⟩ := hga
            rw [r1.pubIds] at hg
            have hg0 : g = 0 := by
              have := (List.getElem?_eq_some_iff.1 hg).2
              rw [← this]
              simp
            omega
        · cases tb with
          | b => rfl
          | a =>
            exfalso
            rw [hb3] at hgb
            have e : (mergeableCirc MergeType.a f2.dom.size b.dom.size f2.circ).pubIds =
              f2.circ.pubIds := rfl
            rw [e, r2.pubIds] at hgb
            have hg0 : gb = 0 := by
              have := (List.getElem?_eq_some_iff.1 hgb).2
              rw [← this]
              simp
            omega
  · cases hm

/-- C27 counterexample: circuits without public inputs.  Merging them panics. -/
theorem C27_no_inputs_panics (h : Pair S root rnd c1 c2 a b) (h0 : c1.pubIds = []) :
    merge a b = .error .panic := by
  obtain ⟨u1, f1, hf1, ha1, ha2, ha3, -⟩ := finalizeMergeable_ok h.typeA
  obtain ⟨u2, f2, hf2, hb1, hb2, hb3, -⟩ := finalizeMergeable_ok h.typeB
  obtain ⟨r1, -, -⟩ := rearranged_of h.built1.ok hf1 (Or.inl u1)
  obtain ⟨r2, -, -⟩ := rearranged_of h.built2.ok hf2 (Or.inl u2)
  have h0' : c2.pubIds = [] := by
    have := h.inputs
    rw [h0] at this
    exact List.length_eq_zero_iff.1 this.symm
  have ua : a.circ.ultra = none := by rw [ha3]; exact r1.ultra.trans u1
  have ub : b.circ.ultra = none := by rw [hb3]; exact r2.ultra.trans u2
  have pa : a.circ.pubIds = [] := by
    rw [ha3]
    show f1.circ.pubIds = []
    rw [r1.pubIds, h0]
    rfl
  have pb : b.circ.pubIds = [] := by
    rw [hb3]
    show f2.circ.pubIds.map _ = []
    rw [r2.pubIds, h0']
    rfl
  have da : a.circ.domSize = a.dom.size := by rw [ha3]; rfl
  have db : b.circ.domSize = b.dom.size := by rw [hb3]; rfl
  unfold merge
  rw [if_neg (by omega), if_neg (by simp [h.size]), if_neg (by simp [ua, ub]), if_neg (by simp [pa, pb]), pa,
    pb]
  rfl

/-! ### Examples -/

/-- a second TurboPlonk circuit with two public inputs -/
def exT2 : Circ 97 := withPub (withPub (withEq (Circ.new 97 none)) 7) 11

theorem built_exT2 : Built exT2 := built_pub (built_pub (built_eq (Built.new none)) 7) 11

theorem cosets8 : cosetReps rnd97 5 (2 ^ 3) = .ok [1, 5, 25, 28, 43] := by
  rw [cosetReps_eq]
  decide +kernel

theorem cosets16 : cosetReps rnd97 5 (2 ^ (3 + 1)) = .ok [1, 5, 25, 28, 43] := by
  rw [cosetReps_eq]
  decide +kernel

theorem exPair : ∃ a b : FCirc 97, Pair 5 28 rnd97 exT exT2 a b ∧ a.dom.size = 16 := by
  obtain ⟨a, ha, sa⟩ := C27_mergeable (S := 5) (root := 28) (rnd := rnd97) (c := exT) .a built_exT rfl
    (k := 3) (by decide +kernel) (by omega) cosets8 cosets16
  obtain ⟨b, hb, sb⟩ := C27_mergeable (S := 5) (root := 28) (rnd := rnd97) (c := exT2) .b built_exT2 rfl
    (k := 3) (by decide +kernel) (by omega) cosets8 cosets16
  exact ⟨a, b, ⟨built_exT, built_exT2, ha, hb, by rw [sa, sb], by decide +kernel⟩, sa.trans (by norm_num)⟩

/-- the merged circuit of the examples is satisfied with the inputs 3, 5 and 7, 11 by the witnesses of
both circuits -/
example : ∃ a b f : FCirc 97, Pair 5 28 rnd97 exT exT2 a b ∧ merge a b = .ok f ∧ f.dom.size = 16 ∧
    publicInput f.circ = .ok [3, 5, 7, 11] ∧ Sat f.circ [3, 5, 7, 11] f.circ.val := by
  obtain ⟨a, b, h, hs⟩ := exPair
  have hp : exT.pubIds ≠ [] := by decide +kernel
  obtain ⟨f, hf, hd, -, -, hw⟩ := C27_succeeds h hp
  refine ⟨a, b, f, h, hf, by rw [hd, hs], C27_public_input (x := [3, 5]) (y := [7, 11]) h hp hf
    (by decide +kernel) (by decide +kernel), ?_⟩
  refine (C27_sat h hp hf [3, 5] [7, 11] (by decide +kernel) f.circ.val).2 ⟨?_, ?_⟩
  · refine Sat.congr built_exT.ok.wf ?_ ((checkSat_ok built_exT.ok.wf _).1 (by decide +kernel))
    intro v hv
    have hl : exT.witness.length = exT.numVars := built_exT.ok.wf.len
    unfold Circ.val
    rw [hw, List.getD_append _ _ _ _ (by omega)]
  · have e : (fun v => f.circ.val (exT.numVars + v)) = exT2.val := by
      have hl : exT.witness.length = exT.numVars := built_exT.ok.wf.len
      funext v
      unfold Circ.val
      rw [hw, List.getD_append_right _ _ _ _ (by omega), hl, Nat.add_sub_cancel_left]
    rw [e]
    exact (checkSat_ok built_exT2.ok.wf _).1 (by decide +kernel)

/-- the circuits of the examples in the wrong order are not merged -/
example : ∃ a b : FCirc 97, finalizeMergeable .b 5 28 rnd97 exT = .ok a ∧
    finalizeMergeable .a 5 28 rnd97 exT2 = .ok b ∧ ∀ f, merge a b ≠ .ok f := by
  obtain ⟨a, ha, -⟩ := C27_mergeable (S := 5) (root := 28) (rnd := rnd97) (c := exT) .b built_exT rfl
    (k := 3) (by decide +kernel) (by omega) cosets8 cosets16
  obtain ⟨b, hb, -⟩ := C27_mergeable (S := 5) (root := 28) (rnd := rnd97) (c := exT2) .a built_exT2 rfl
    (k := 3) (by decide +kernel) (by omega) cosets8 cosets16
  exact ⟨a, b, ha, hb, C27_types built_exT built_exT2 ha hb (by simp)⟩

/-- the wire values of the merged circuit -/
def mergedVals (f : FCirc 97) (s : ℕ × ℕ) : ZMod 97 :=
  f.circ.val (((wireVecs f.circ).getD s.1 []).getD s.2 0)

theorem mergedVals_spec (f : FCirc 97) (s : ℕ × ℕ) (x : ℕ) (h : SlotVar f.circ s x) :
    mergedVals f s = f.circ.val x := by
  have := (varAt_iff _ _ _).2 h
  unfold varAt at this
  rw [Option.bind_eq_some_iff] at this
  obtain ⟨l, h1, h2⟩ := this
  unfold mergedVals
  have e : (wireVecs f.circ).getD s.1 [] = l := by rw [List.getD_eq_getElem?_getD, h1]; rfl
  rw [e, List.getD_eq_getElem?_getD, h2]
  rfl

/-- the product polynomial of the merged circuit of the examples is computed for some challenges -/
example : ∃ a b f : FCirc 97, Pair 5 28 rnd97 exT exT2 a b ∧ merge a b = .ok f ∧
    ∃ Z : List (ZMod 97), prodPermPoly f 2 3 = .ok Z ∧ evalAt Z (1 : ZMod 97) = 1 ∧
      ∀ j < 16, evalAt Z (f.dom.gen ^ (j + 1)) * rowDen f (mergedVals f) 2 3 j =
        evalAt Z (f.dom.gen ^ j) * rowNum f (mergedVals f) 2 3 j := by
  have hh : okAnd (finalizeMergeable .a 5 28 rnd97 exT) (fun a =>
      okAnd (finalizeMergeable .b 5 28 rnd97 exT2) (fun b =>
        decide (a.dom.size = 16 ∧ b.dom.size = 16) && okAnd (merge a b) (fun f => decide
          (∀ j ∈ List.range 15, rowDen f (mergedVals f) 2 3 j ≠ 0)))) = true := by
    unfold finalizeMergeable
    simp only [finalize_eq, cosetReps_eq]
    decide +kernel
  obtain ⟨a, ha, h1⟩ := okAnd_elim hh
  obtain ⟨b, hb, h2⟩ := okAnd_elim h1
  rw [Bool.and_eq_true, decide_eq_true_iff] at h2
  obtain ⟨f, hf, h3⟩ := okAnd_elim h2.2
  rw [decide_eq_true_iff] at h3
  have h : Pair 5 28 rnd97 exT exT2 a b := ⟨built_exT, built_exT2, ha, hb, by rw [h2.1.1, h2.1.2],
    by decide +kernel⟩
  have hp : exT.pubIds ≠ [] := by decide +kernel
  obtain ⟨f', hf', hd, -⟩ := C27_succeeds h hp
  rw [hf] at hf'
  injection hf' with hf'
  subst hf'
  have h16 : f.dom.size = 16 := by rw [hd, h2.1.1]
  obtain ⟨Z, z1, z2, z3⟩ := C27_product_polynomial h hp hf prim28 (mergedVals f) (mergedVals_spec f) 2 3 (by
    rw [h16]
    intro j hj
    exact h3 j (List.mem_range.2 (by omega)))
  rw [h16] at z3
  exact ⟨a, b, f, h, hf, Z, z1, z2, z3⟩

/-- C27 counterexample: two circuits without public inputs, finalized for merging, cannot be merged. -/
theorem C27_no_inputs_counterexample : ∃ a b : FCirc 97,
    Pair 5 28 rnd97 (Circ.new 97 none) (Circ.new 97 none) a b ∧ merge a b = .error .panic := by
  have k2 : cosetReps rnd97 5 (2 ^ 1) = .ok [1, 5, 25, 28, 43] := by
    rw [cosetReps_eq]
    decide +kernel
  have k4 : cosetReps rnd97 5 (2 ^ (1 + 1)) = .ok [1, 5, 25, 28, 43] := by
    rw [cosetReps_eq]
    decide +kernel
  obtain ⟨a, ha, sa⟩ := C27_mergeable (S := 5) (root := 28) (rnd := rnd97) (c := Circ.new 97 none) .a
    (Built.new none) rfl (k := 1) (by decide +kernel) (by omega) k2 k4
  obtain ⟨b, hb, sb⟩ := C27_mergeable (S := 5) (root := 28) (rnd := rnd97) (c := Circ.new 97 none) .b
    (Built.new none) rfl (k := 1) (by decide +kernel) (by omega) k2 k4
  have h : Pair 5 28 rnd97 (Circ.new 97 none) (Circ.new 97 none) a b :=
    ⟨Built.new none, Built.new none, ha, hb, by rw [sa, sb], rfl⟩
  exact ⟨a, b, h, C27_no_inputs_panics h rfl⟩

end Verif.Props.Merge
