import Verif.Plonk.PermLemmas
import Verif.Props.Finalize

/-!
# C23, C24: the wire permutation and its product

`SlotVar` says which variable the circuit puts on a wire slot, read directly off the rows and the range
wires; a slot is a pair (wire, row).  The other definitions spell out what the permutation argument is
about, for an arbitrary table of wire values.
-/

set_option linter.unusedSectionVars false

namespace Verif.Props.CopyConstraints

open Verif.Circuit Verif.Pcs Verif.Plonk Verif.Props.Finalize

variable {p : ℕ} [Fact p.Prime]

/-- slot `s` of the circuit carries variable `v` -/
def SlotVar (c : Circ p) (s : ℕ × ℕ) (v : ℕ) : Prop :=
  (∃ r, c.rows[s.2]? = some r ∧
    (s.1 = 0 ∧ v = r.w0 ∨ s.1 = 1 ∧ v = r.w1 ∨ s.1 = 2 ∧ v = r.w2 ∨ s.1 = 3 ∧ v = r.w3 ∨
      s.1 = 4 ∧ v = r.w4)) ∨
  s.1 = 5 ∧ c.ultra ≠ none ∧ c.rangeVars[s.2]? = some v

/-- number of wires of a row -/
def width (c : Circ p) : ℕ := if c.ultra = none then 5 else 6

/-- the slots of the finalized circuit -/
def slots (f : FCirc p) : Finset (ℕ × ℕ) := Finset.range (width f.circ) ×ˢ Finset.range f.dom.size

/-- the slot the wire permutation sends a slot to -/
def next (f : FCirc p) (s : ℕ × ℕ) : ℕ × ℕ := f.perm.getD (s.1 * f.dom.size + s.2) (0, 0)

/-- the field element that labels a slot -/
def label (f : FCirc p) (s : ℕ × ℕ) : ZMod p := f.ids.getD (s.1 * f.dom.size + s.2) 0

theorem width_eq (c : Circ p) : width c = numWireTypes c := by
  unfold width numWireTypes
  cases c.ultra <;> simp

theorem varAt_iff (c : Circ p) (s : ℕ × ℕ) (v : ℕ) :
    varAt (wireVecs c) s = some v ↔ SlotVar c s v := by
  obtain ⟨i, j⟩ := s
  unfold varAt wireVecs SlotVar
  simp only
  have hcase : i = 0 ∨ i = 1 ∨ i = 2 ∨ i = 3 ∨ i = 4 ∨ i = 5 ∨ ∃ k, i = k + 6 := by
    by_cases h : i < 6
    · omega
    · exact Or.inr (Or.inr (Or.inr (Or.inr (Or.inr (Or.inr ⟨i - 6, by omega⟩)))))
  rcases hu : c.ultra with _ | k <;>
    rcases hcase with rfl | rfl | rfl | rfl | rfl | rfl | ⟨k, rfl⟩ <;>
    simp [List.getElem?_map, eq_comm]

theorem slots_iff {f : FCirc p} {s : ℕ × ℕ} :
    s ∈ slots f ↔ IsSlot (wireVecs f.circ).length f.dom.size s := by
  unfold slots IsSlot
  rw [Finset.mem_product, Finset.mem_range, Finset.mem_range, width_eq, wireVecs_length]

variable {S : ℕ} {root : ZMod p} {rnd : List (ZMod p)} {c : Circ p} {f : FCirc p}

/-- C23: every slot carries exactly one variable. -/
theorem C23_slots (hc : Built c) (hf : finalize S root rnd c = .ok f) (s : ℕ × ℕ) :
    s ∈ slots f ↔ ∃! v, SlotVar f.circ s v := by
  obtain ⟨hfull, -, -⟩ := finalized_full hc.ok hf
  rw [slots_iff, isSlot_iff rfl hfull.len]
  simp only [← varAt_iff]
  constructor
  · rintro ⟨v, hv⟩
    exact ⟨v, hv, fun v' hv' => by rw [hv] at hv'; injection hv' with h; exact h.symm⟩
  · rintro ⟨v, hv, -⟩
    exact ⟨v, hv⟩

/-- C23: the wire permutation links two slots exactly when they carry the same variable. -/
theorem C23_links (hc : Built c) (hf : finalize S root rnd c = .ok f) {a b : ℕ × ℕ}
    (ha : a ∈ slots f) :
    (∃ k : ℕ, (next f)^[k] a = b) ↔ ∃ v, SlotVar f.circ a v ∧ SlotVar f.circ b v := by
  obtain ⟨hfull, hperm, -⟩ := finalized_full hc.ok hf
  have ha' := slots_iff.1 ha
  have e : next f = nextSlot f.dom.size (permOf f.circ.numVars f.dom.size (wireVecs f.circ)) := by
    funext s
    unfold next nextSlot
    rw [hperm]
  rw [e, linked_iff hfull.len hfull.bound ha']
  simp only [← varAt_iff]
  obtain ⟨v, hv⟩ := (isSlot_iff rfl hfull.len a).1 ha'
  constructor
  · intro h
    exact ⟨v, hv, h ▸ hv⟩
  · rintro ⟨v, h1, h2⟩
    rw [h1, h2]

/-- C23: the wire permutation permutes the slots. -/
theorem C23_permutation (hc : Built c) (hf : finalize S root rnd c = .ok f) :
    f.perm.length = width f.circ * f.dom.size ∧ Set.BijOn (next f) (slots f) (slots f) := by
  obtain ⟨hfull, hperm, -⟩ := finalized_full hc.ok hf
  have e : next f = nextSlot f.dom.size (permOf f.circ.numVars f.dom.size (wireVecs f.circ)) := by
    funext s
    unfold next nextSlot
    rw [hperm]
  have es : ((slots f : Finset (ℕ × ℕ)) : Set (ℕ × ℕ)) =
      {s | IsSlot (wireVecs f.circ).length f.dom.size s} := by
    ext s
    exact slots_iff
  rw [e, es]
  refine ⟨?_, nextSlot_bij hfull.len hfull.bound⟩
  rw [hperm, (permOf_spec hfull.len).1, width_eq, wireVecs_length]

/-- What the permutation argument needs of a circuit: the wire permutation permutes the slots, links two
slots exactly when they carry the same variable, and the slots are labelled by cosets. -/
structure Linked (f : FCirc p) : Prop where
  full : FullWires f.circ f.dom.size
  len : f.perm.length = width f.circ * f.dom.size
  bij : Set.BijOn (next f) (slots f) (slots f)
  links : ∀ a b : ℕ × ℕ, a ∈ slots f →
    ((∃ k : ℕ, (next f)^[k] a = b) ↔ ∃ v, SlotVar f.circ a v ∧ SlotVar f.circ b v)
  ids : ∃ ks, Distinct f.dom.size ks ∧ ks.length = numWireTypes f.circ ∧
    f.ids = extIdPermutation ks f.dom

theorem linked_of (hc : Built c) (hf : finalize S root rnd c = .ok f) : Linked f := by
  obtain ⟨hfull, -, hks⟩ := finalized_full hc.ok hf
  exact ⟨hfull, (C23_permutation hc hf).1, (C23_permutation hc hf).2,
    fun _ _ ha => C23_links hc hf ha, hks⟩

theorem Linked.slot (h : Linked f) {s : ℕ × ℕ} {x : ℕ} (hx : SlotVar f.circ s x) : s ∈ slots f := by
  rw [slots_iff, isSlot_iff rfl h.full.len]
  exact ⟨x, (varAt_iff _ _ _).2 hx⟩

theorem Linked.values (h : Linked f) (v : ℕ × ℕ → ZMod p) :
    (∀ s ∈ slots f, v (next f s) = v s) ↔
      ∃ w : ℕ → ZMod p, ∀ s x, SlotVar f.circ s x → v s = w x := by
  constructor
  · intro hv
    have hiter : ∀ (k : ℕ) (s : ℕ × ℕ), s ∈ slots f → v ((next f)^[k] s) = v s := by
      intro k
      induction k with
      | zero => intro s _; rfl
      | succ k ih =>
        intro s hs
        rw [Function.iterate_succ_apply, ih _ (h.bij.mapsTo hs), hv s hs]
    classical
    refine ⟨fun x => if hx : ∃ s, SlotVar f.circ s x then v hx.choose else 0, ?_⟩
    intro s x hsx
    have hx : ∃ s, SlotVar f.circ s x := ⟨s, hsx⟩
    simp only [dif_pos hx]
    have hs : s ∈ slots f := h.slot hsx
    obtain ⟨k, hk⟩ := (h.links _ _ hs).2 ⟨x, hsx, hx.choose_spec⟩
    rw [← hk, hiter k s hs]
  · rintro ⟨w, hw⟩ s hs
    obtain ⟨x, h1, h2⟩ := (h.links s (next f s) hs).1 ⟨1, rfl⟩
    rw [hw s x h1, ← hw (next f s) x h2]

/-- C23: a table of wire values is invariant under the wire permutation exactly when all slots of one
variable carry one value. -/
theorem C23_values (hc : Built c) (hf : finalize S root rnd c = .ok f) (v : ℕ × ℕ → ZMod p) :
    (∀ s ∈ slots f, v (next f s) = v s) ↔
      ∃ w : ℕ → ZMod p, ∀ s x, SlotVar f.circ s x → v s = w x :=
  (linked_of hc hf).values v

/-- C25: finalization succeeds for every circuit that can be built, when the field has a subgroup of
the size needed and enough coset representatives are drawn. -/
theorem C25_succeeds (hc : Built c) (hS : Nat.clog 2 (numSlots c) ≤ S) {ks : List (ZMod p)}
    (hk : cosetReps rnd (width c) (2 ^ Nat.clog 2 (numSlots c)) = .ok ks) :
    ∃ f, finalize S root rnd c = .ok f ∧ f.dom.size = 2 ^ Nat.clog 2 (numSlots c) := by
  have hlen2 : 2 ≤ c.rows.length := by
    obtain ⟨t, ht⟩ := hc.ok.wf.consts
    rw [ht]; simp
  have h1 := rows_le_numSlots c
  have h2 := rangeVars_le_slots hc.ok
  have hd := newDomain_eq S root (numSlots c) hS
  have hsz : (circDomain S root (Nat.clog 2 (numSlots c))).size = 2 ^ Nat.clog 2 (numSlots c) := rfl
  have hn := newDomain_size hd
  obtain ⟨c', hr⟩ := rearrange_exists hc.ok
    (n := (circDomain S root (Nat.clog 2 (numSlots c))).size) (by omega)
  have hfull := rearrange_full hc.ok (by omega) (by omega) hr
  obtain ⟨-, -, -, hu, -⟩ := rearrange_fields hc.ok (by omega) hr
  have hW : numWireTypes c' = width c := by
    rw [width_eq]
    unfold numWireTypes
    rw [hu]
  refine ⟨⟨c', circDomain S root (Nat.clog 2 (numSlots c)), permOf c'.numVars
    (circDomain S root (Nat.clog 2 (numSlots c))).size (wireVecs c'),
    extIdPermutation ks (circDomain S root (Nat.clog 2 (numSlots c)))⟩, ?_, hsz⟩
  unfold finalize
  rw [hd]
  simp only
  rw [if_neg (by omega), hr]
  simp only
  rw [wirePermutation_ok hfull]
  simp only
  rw [hW, hsz, hk]

/-! ### C24 -/

/-- numerator of row `j` for a table of wire values -/
def rowNum (f : FCirc p) (v : ℕ × ℕ → ZMod p) (β γ : ZMod p) (j : ℕ) : ZMod p :=
  ∏ i ∈ Finset.range (width f.circ), (v (i, j) + γ + β * label f (i, j))

/-- denominator of row `j` for a table of wire values -/
def rowDen (f : FCirc p) (v : ℕ × ℕ → ZMod p) (β γ : ZMod p) (j : ℕ) : ZMod p :=
  ∏ i ∈ Finset.range (width f.circ), (v (i, j) + γ + β * label f (next f (i, j)))

/-- the rows are linked by an accumulator that starts with one and returns to one -/
def Closes (f : FCirc p) (v : ℕ × ℕ → ZMod p) (β γ : ZMod p) : Prop :=
  ∃ z : ℕ → ZMod p, z 0 = 1 ∧ z f.dom.size = 1 ∧
    ∀ j < f.dom.size, z (j + 1) * rowDen f v β γ j = z j * rowNum f v β γ j

theorem prod_slots (f : FCirc p) (g : ℕ × ℕ → ZMod p) :
    ∏ s ∈ slots f, g s =
      ∏ j ∈ Finset.range f.dom.size, ∏ i ∈ Finset.range (width f.circ), g (i, j) := by
  unfold slots
  rw [Finset.prod_product_right]

theorem Linked.labels (h : Linked f) (hg : IsPrimitiveRoot f.dom.gen f.dom.size) :
    Set.InjOn (label f) (slots f) := by
  obtain ⟨ks, hk1, hk2, hk3⟩ := h.ids
  intro s hs t ht he
  have hs' := slots_iff.1 hs
  have ht' := slots_iff.1 ht
  rw [wireVecs_length, ← hk2] at hs' ht'
  exact idLabel_inj hk1 hk3 hg hs' ht' he

theorem Linked.complete (h : Linked f) (w : ℕ → ZMod p)
    (v : ℕ × ℕ → ZMod p) (hv : ∀ s x, SlotVar f.circ s x → v s = w x) (β γ : ZMod p) :
    ∏ j ∈ Finset.range f.dom.size, rowNum f v β γ j =
      ∏ j ∈ Finset.range f.dom.size, rowDen f v β γ j := by
  have := product_complete (slots f) (next f) h.bij (label f) v ((h.values v).2 ⟨w, hv⟩) β γ
  rw [prod_slots, prod_slots] at this
  exact this

theorem list_prod_range (n : ℕ) (g : ℕ → ZMod p) :
    ((List.range n).map g).prod = ∏ i ∈ Finset.range n, g i := by
  induction n with
  | zero => simp
  | succ n ih => rw [List.range_succ, List.map_append, List.prod_append, ih, Finset.prod_range_succ]; simp

theorem Linked.rowFactors (h : Linked f) (v : ℕ × ℕ → ZMod p)
    (hv : ∀ s x, SlotVar f.circ s x → v s = f.circ.val x) (β γ : ZMod p) :
    ∀ j ∈ List.range (f.dom.size - 1),
      rowFactors f β γ j (List.range (numWireTypes f.circ)) (1, 1) =
        .ok (rowNum f v β γ j, rowDen f v β γ j) := by
  obtain ⟨ks, hk1, hk2, hk3⟩ := h.ids
  have hv' : ∀ s x, varAt (wireVecs f.circ) s = some x → v s = f.circ.val x :=
    fun s x hx => hv s x ((varAt_iff _ _ _).1 hx)
  have hids : f.ids.length = numWireTypes f.circ * f.dom.size := by
    rw [hk3, extId_length, hk2]
  have hplen : f.perm.length = (wireVecs f.circ).length * f.dom.size := by
    rw [h.len, width_eq, wireVecs_length]
  intro j hj
  have hj' := List.mem_range.1 hj
  rw [rowFactors_ok h.full hids hplen (fun s hs => slots_iff.1 (h.bij.mapsTo (slots_iff.2 hs))) v hv' β γ
    j (by omega) _ _ (fun i hi => List.mem_range.1 hi)]
  congr 1
  unfold rowNum rowDen
  rw [width_eq, one_mul, one_mul, list_prod_range, list_prod_range]
  rfl

theorem Linked.polynomial (h : Linked f) (hg : IsPrimitiveRoot f.dom.gen f.dom.size)
    (hpos : 0 < f.dom.size) (v : ℕ × ℕ → ZMod p)
    (hv : ∀ s x, SlotVar f.circ s x → v s = f.circ.val x) (β γ : ZMod p)
    (hden : ∀ j, j + 1 < f.dom.size → rowDen f v β γ j ≠ 0) :
    ∃ Z : List (ZMod p), prodPermPoly f β γ = .ok Z ∧ evalAt Z (1 : ZMod p) = 1 ∧
      ∀ j < f.dom.size, evalAt Z (f.dom.gen ^ (j + 1)) * rowDen f v β γ j =
        evalAt Z (f.dom.gen ^ j) * rowNum f v β γ j := by
  have hrow := h.rowFactors v hv β γ
  obtain ⟨l, e, hl, hrec⟩ := prodLoop_ok (List.range (f.dom.size - 1)) 1 hrow (by
    intro j hj
    exact hden j (by have := List.mem_range.1 hj; omega))
  rw [List.length_range] at hl
  have hll : (1 :: l).length = f.dom.size := by rw [List.length_cons, hl]; omega
  have hev : ∀ k, k < f.dom.size → evalAt (f.dom.ifft (1 :: l)) (f.dom.gen ^ k) = (1 :: l).getD k 0 :=
    fun k hk => ifft_eval f.dom hg (1 :: l) hll.le k hk
  have hstep : ∀ j, j + 1 < f.dom.size → (1 :: l).getD (j + 1) 0 * rowDen f v β γ j =
      (1 :: l).getD j 0 * rowNum f v β γ j := by
    intro j hj
    have := hrec j (by rw [List.length_range]; omega)
    rwa [List.getElem_range] at this
  have hone : evalAt (f.dom.ifft (1 :: l)) (1 : ZMod p) = 1 := by
    have := hev 0 hpos
    rwa [pow_zero] at this
  refine ⟨f.dom.ifft (1 :: l), ?_, hone, ?_⟩
  · unfold prodPermPoly
    rw [e]
  · intro j hj
    by_cases hj1 : j + 1 < f.dom.size
    · rw [hev _ hj1, hev _ hj]
      exact hstep j hj1
    · have hje : f.dom.size = j + 1 := by omega
      have hwrap : f.dom.gen ^ (j + 1) = 1 := by rw [← hje]; exact hg.pow_eq_one
      rw [hwrap, hone, hev j hj]
      have hacc := accumulate (fun k => (1 :: l).getD k 0) (rowNum f v β γ) (rowDen f v β γ) j
        (fun i hi => hstep i (by omega))
      have hcomp := h.complete f.circ.val v hv β γ
      rw [hje, Finset.prod_range_succ, Finset.prod_range_succ] at hcomp
      have hne : ∏ i ∈ Finset.range j, rowDen f v β γ i ≠ 0 := by
        rw [Finset.prod_ne_zero_iff]
        intro i hi
        exact hden i (by have := Finset.mem_range.1 hi; omega)
      apply mul_left_cancel₀ hne
      have h0 : (1 :: l).getD 0 0 = (1 : ZMod p) := rfl
      rw [h0] at hacc
      linear_combination -hcomp - rowNum f v β γ j * hacc

theorem Linked.panics (h : Linked f) (v : ℕ × ℕ → ZMod p)
    (hv : ∀ s x, SlotVar f.circ s x → v s = f.circ.val x) (β γ : ZMod p) {j : ℕ}
    (hj : j + 1 < f.dom.size) (hden : rowDen f v β γ j = 0) :
    prodPermPoly f β γ = .error .panic := by
  have hrow := h.rowFactors v hv β γ
  unfold prodPermPoly
  rw [prodLoop_panic (List.range (f.dom.size - 1)) 1 hrow
    ⟨j, List.mem_range.2 (by omega), hden⟩]

theorem Linked.sound (h : Linked f) (hg : IsPrimitiveRoot f.dom.gen f.dom.size) (v : ℕ × ℕ → ZMod p)
    (hv : ¬ ∃ w : ℕ → ZMod p, ∀ s x, SlotVar f.circ s x → v s = w x) :
    {x : ZMod p × ZMod p | Closes f v x.1 x.2}.ncard ≤ 2 * (width f.circ * f.dom.size) * p := by
  classical
  rw [← h.values v] at hv
  push Not at hv
  obtain ⟨s0, h0, hne⟩ := hv
  have hb := product_sound (slots f) (next f) (fun s hs => h.bij.mapsTo hs)
    (label f) v (fun s hs t ht he => h.labels hg hs ht he) h0 hne
  rw [ZMod.card] at hb
  have hcard : (slots f).card = width f.circ * f.dom.size := by
    unfold slots
    rw [Finset.card_product, Finset.card_range, Finset.card_range]
  rw [hcard] at hb
  refine le_trans ?_ hb
  rw [← Set.ncard_coe_finset]
  refine Set.ncard_le_ncard ?_ (Set.toFinite _)
  rintro ⟨β, γ⟩ ⟨z, hz0, hz1, hz⟩
  rw [Finset.coe_filter]
  refine ⟨Finset.mem_univ _, ?_⟩
  rw [prod_slots, prod_slots]
  have := accumulate z (rowNum f v β γ) (rowDen f v β γ) f.dom.size hz
  rw [hz0, hz1, one_mul, one_mul] at this
  exact this.symm

theorem final_val (hc : Built c) (hf : finalize S root rnd c = .ok f) : f.circ.val = c.val := by
  obtain ⟨hd, hne1, hr, -⟩ := finalize_ok hf
  have hn := newDomain_size hd
  have h1 := rows_le_numSlots c
  obtain ⟨-, -, h, -⟩ := rearrange_fields hc.ok (by omega) hr
  funext x
  unfold Circ.val
  rw [h]

/-- C24: the labels of different slots are different. -/
theorem C24_labels (hc : Built c) (hroot : IsPrimitiveRoot root (2 ^ S))
    (hf : finalize S root rnd c = .ok f) : Set.InjOn (label f) (slots f) :=
  (linked_of hc hf).labels (gen_of_newDomain hroot (finalize_ok hf).1).1

/-- C24, completeness: for the wire values of any assignment of the variables, the product of all
numerators is the product of all denominators. -/
theorem C24_complete (hc : Built c) (hf : finalize S root rnd c = .ok f) (w : ℕ → ZMod p)
    (v : ℕ × ℕ → ZMod p) (hv : ∀ s x, SlotVar f.circ s x → v s = w x) (β γ : ZMod p) :
    ∏ j ∈ Finset.range f.dom.size, rowNum f v β γ j =
      ∏ j ∈ Finset.range f.dom.size, rowDen f v β γ j :=
  (linked_of hc hf).complete w v hv β γ

/-- C24: the accumulated product polynomial of the code.  When the denominators of all but the last row
are not zero, it is computed; it is one at the first point of the domain and goes from the numerator to
the denominator on every row, the last one included, where it returns to one. -/
theorem C24_polynomial (hc : Built c) (hroot : IsPrimitiveRoot root (2 ^ S))
    (hf : finalize S root rnd c = .ok f) (v : ℕ × ℕ → ZMod p)
    (hv : ∀ s x, SlotVar f.circ s x → v s = c.val x) (β γ : ZMod p)
    (hden : ∀ j, j + 1 < f.dom.size → rowDen f v β γ j ≠ 0) :
    ∃ Z : List (ZMod p), prodPermPoly f β γ = .ok Z ∧ evalAt Z (1 : ZMod p) = 1 ∧
      ∀ j < f.dom.size, evalAt Z (f.dom.gen ^ (j + 1)) * rowDen f v β γ j =
        evalAt Z (f.dom.gen ^ j) * rowNum f v β γ j := by
  obtain ⟨hg, hpos⟩ := gen_of_newDomain hroot (finalize_ok hf).1
  exact (linked_of hc hf).polynomial hg hpos v (by rw [final_val hc hf]; exact hv) β γ hden

/-- C24: with a vanishing denominator among those rows the code panics. -/
theorem C24_panic (hc : Built c) (hf : finalize S root rnd c = .ok f) (v : ℕ × ℕ → ZMod p)
    (hv : ∀ s x, SlotVar f.circ s x → v s = c.val x) (β γ : ZMod p) {j : ℕ}
    (hj : j + 1 < f.dom.size) (hden : rowDen f v β γ j = 0) :
    prodPermPoly f β γ = .error .panic :=
  (linked_of hc hf).panics v (by rw [final_val hc hf]; exact hv) β γ hj hden

/-- C24, soundness: for a table of wire values that does not satisfy the copy constraints, an
accumulator that closes up exists for at most `2 * (number of slots) * p` of the `p * p` pairs of
challenges. -/
theorem C24_sound (hc : Built c) (hroot : IsPrimitiveRoot root (2 ^ S))
    (hf : finalize S root rnd c = .ok f) (v : ℕ × ℕ → ZMod p)
    (hv : ¬ ∃ w : ℕ → ZMod p, ∀ s x, SlotVar f.circ s x → v s = w x) :
    {x : ZMod p × ZMod p | Closes f v x.1 x.2}.ncard ≤ 2 * (width f.circ * f.dom.size) * p :=
  (linked_of hc hf).sound (gen_of_newDomain hroot (finalize_ok hf).1).1 v hv

/-- C24: in a field with more than `2 * (number of slots)` elements, a table for which the product
closes up for all challenges satisfies the copy constraints. -/
theorem C24_all_challenges (hc : Built c) (hroot : IsPrimitiveRoot root (2 ^ S))
    (hf : finalize S root rnd c = .ok f) (hp : 2 * (width f.circ * f.dom.size) < p)
    (v : ℕ × ℕ → ZMod p) (h : ∀ β γ, Closes f v β γ) :
    ∃ w : ℕ → ZMod p, ∀ s x, SlotVar f.circ s x → v s = w x := by
  by_contra hv
  have h1 := C24_sound hc hroot hf v hv
  have h2 : {x : ZMod p × ZMod p | Closes f v x.1 x.2} = Set.univ :=
    Set.eq_univ_of_forall (fun x => h x.1 x.2)
  rw [h2, Set.ncard_univ, Nat.card_prod, Nat.card_zmod] at h1
  have hp0 : 0 < p := (Fact.out : p.Prime).pos
  have := Nat.mul_lt_mul_of_pos_right hp hp0
  omega

/-! ### Examples -/

theorem prim28 : IsPrimitiveRoot (28 : ZMod 97) (2 ^ 5) := by
  have h : orderOf (28 : ZMod 97) = 2 ^ (4 + 1) :=
    orderOf_eq_prime_pow (by decide +kernel) (by decide +kernel)
  rw [show 2 ^ 5 = orderOf (28 : ZMod 97) from h.symm]
  exact IsPrimitiveRoot.orderOf _

/-- the wire values of the TurboPlonk circuit of the C25 examples -/
def wireVals (f : FCirc 97) (s : ℕ × ℕ) : ZMod 97 :=
  exT.val (((wireVecs f.circ).getD s.1 []).getD s.2 0)

theorem wireVals_spec (f : FCirc 97) (s : ℕ × ℕ) (x : ℕ) (h : SlotVar f.circ s x) :
    wireVals f s = exT.val x := by
  have := (varAt_iff _ _ _).2 h
  unfold varAt at this
  rw [Option.bind_eq_some_iff] at this
  obtain ⟨l, h1, h2⟩ := this
  unfold wireVals
  have e : (wireVecs f.circ).getD s.1 [] = l := by rw [List.getD_eq_getElem?_getD, h1]; rfl
  rw [e, List.getD_eq_getElem?_getD, h2]
  rfl

/-- the finalized circuit of the examples -/
theorem exT_final : ∃ f : FCirc 97, finalize 5 28 rnd97 exT = .ok f ∧ f.dom.size = 8 ∧
    f.circ.ultra = none ∧
    (∀ j < 7, rowDen f (wireVals f) 2 4 j ≠ 0) ∧
    f.circ.rows.map (fun r => (r.w0, r.w1, r.w4)) =
      [(0, 0, 2), (0, 0, 3), (0, 0, 0), (0, 0, 0), (0, 0, 0), (0, 0, 1), (0, 0, 0), (0, 0, 0)] := by
  have h : okAnd (finalize' 5 28 rnd97 exT) (fun f => decide (f.dom.size = 8 ∧ f.circ.ultra = none ∧
      (∀ j ∈ List.range 7, rowDen f (wireVals f) 2 4 j ≠ 0) ∧
      f.circ.rows.map (fun r => (r.w0, r.w1, r.w4)) =
      [(0, 0, 2), (0, 0, 3), (0, 0, 0), (0, 0, 0), (0, 0, 0), (0, 0, 1), (0, 0, 0), (0, 0, 0)])) = true := by
    decide +kernel
  obtain ⟨f, hf, hP⟩ := okAnd_elim h
  rw [decide_eq_true_iff] at hP
  rw [← finalize_eq] at hf
  exact ⟨f, hf, hP.1, hP.2.1, fun j hj => hP.2.2.1 j (List.mem_range.2 hj), hP.2.2.2⟩

example : ∃ f : FCirc 97, finalize 5 28 rnd97 exT = .ok f ∧
    ∃ Z : List (ZMod 97), prodPermPoly f 2 4 = .ok Z ∧ evalAt Z (1 : ZMod 97) = 1 ∧
      ∀ j < 8, evalAt Z (f.dom.gen ^ (j + 1)) * rowDen f (wireVals f) 2 4 j =
        evalAt Z (f.dom.gen ^ j) * rowNum f (wireVals f) 2 4 j := by
  obtain ⟨f, hf, h8, -, hden, -⟩ := exT_final
  obtain ⟨Z, h1, h2, h3⟩ := C24_polynomial built_exT prim28 hf (wireVals f) (wireVals_spec f) 2 4
    (by rw [h8]; intro j hj; exact hden j (by omega))
  rw [h8] at h3
  exact ⟨f, hf, Z, h1, h2, h3⟩

example : ∃ f : FCirc 97, finalize 5 28 rnd97 exT = .ok f ∧
    ∃ v : ℕ × ℕ → ZMod 97, (¬ ∃ w : ℕ → ZMod 97, ∀ s x, SlotVar f.circ s x → v s = w x) ∧
      {x : ZMod 97 × ZMod 97 | Closes f v x.1 x.2}.ncard ≤ 2 * (5 * 8) * 97 ∧
      2 * (5 * 8) * 97 < 97 * 97 := by
  obtain ⟨f, hf, h8, hu, -, hrows⟩ := exT_final
  have hv : ¬ ∃ w : ℕ → ZMod 97, ∀ s x, SlotVar f.circ s x →
      (fun s : ℕ × ℕ => if s = (0, 0) then (1 : ZMod 97) else 0) s = w x := by
    rintro ⟨w, hw⟩
    obtain ⟨r, hr, h2⟩ : ∃ r, f.circ.rows[0]? = some r ∧ (r.w0, r.w1, r.w4) = (0, 0, 2) := by
      have := congrArg (·[0]?) hrows
      simp only [List.getElem?_map] at this
      rcases hr : f.circ.rows[0]? with _ | r
      · rw [hr] at this; simp at this
      · rw [hr] at this
        exact ⟨r, rfl, by simpa using this⟩
    injection h2 with h3 h4
    injection h4 with h4 _
    have e1 := hw (0, 0) 0 (Or.inl ⟨r, hr, Or.inl ⟨rfl, h3.symm⟩⟩)
    have e2 := hw (1, 0) 0 (Or.inl ⟨r, hr, Or.inr (Or.inl ⟨rfl, h4.symm⟩)⟩)
    rw [← e2] at e1
    revert e1
    decide
  have := C24_sound built_exT prim28 hf _ hv
  have hw : width f.circ = 5 := by unfold width; rw [hu]; rfl
  rw [hw, h8] at this
  exact ⟨f, hf, _, hv, this, by norm_num⟩

example : ∃ ks, Nat.clog 2 (numSlots exT) ≤ 5 ∧
    cosetReps rnd97 (width exT) (2 ^ Nat.clog 2 (numSlots exT)) = .ok ks := by
  have h : Nat.clog 2 (numSlots exT) = 3 := by decide +kernel
  have hw : width exT = 5 := by decide +kernel
  rw [h, hw, cosetReps_eq]
  refine ⟨[1, 5, 25, 28, 43], by norm_num, ?_⟩
  decide +kernel

/-- in the finalized circuit the slots of the public variables 2 and 3 are fixed points of the
permutation: no other slot carries these variables -/
example : ∃ f : FCirc 97, finalize 5 28 rnd97 exT = .ok f ∧ (4, 0) ∈ slots f ∧
    ∀ k : ℕ, (next f)^[k] (4, 0) ≠ (4, 1) := by
  obtain ⟨f, hf, h8, hu, -, hrows⟩ := exT_final
  have hw : width f.circ = 5 := by unfold width; rw [hu]; rfl
  have hs : (4, 0) ∈ slots f := by
    unfold slots
    rw [hw, h8]
    decide
  refine ⟨f, hf, hs, fun k hk => ?_⟩
  obtain ⟨v, h1, h2⟩ := (C23_links built_exT hf hs).1 ⟨k, hk⟩
  have hget : ∀ (i : ℕ) (r : Row 97), f.circ.rows[i]? = some r → (f.circ.rows.map (fun r => (r.w0, r.w1, r.w4)))[i]? =
      some (r.w0, r.w1, r.w4) := fun i r hr => by rw [List.getElem?_map, hr]; rfl
  rcases h1 with ⟨r, hr, h1⟩ | ⟨h1, -⟩
  · rcases h2 with ⟨r', hr', h2⟩ | ⟨h2, -⟩
    · have g1 := hget _ r hr
      have g2 := hget _ r' hr'
      rw [hrows] at g1 g2
      simp at g1 g2 h1 h2
      omega
    · simp at h2
  · simp at h1

end Verif.Props.CopyConstraints
