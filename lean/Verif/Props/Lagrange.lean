import Verif.Plonk.LagrangeLemmas
import Verif.Props.Merge

/-!
# C57: Lagrange coefficients and the public input polynomial

`L d i` is Mathlib's Lagrange basis polynomial of the points `h·g^0, …, h·g^(n-1)`: one at the `i`-th point
and zero at the others.
-/

set_option linter.unusedSectionVars false

namespace Verif.Props.Lagrange

open Verif.Circuit Verif.Pcs Verif.Plonk Polynomial
open Verif.Props.Finalize Verif.Props.Merge Verif.Props.CopyConstraints

/-- the Lagrange basis polynomials of a domain -/
noncomputable def L {F : Type} [Field F] (d : Domain F) (i : ℕ) : F[X] :=
  Lagrange.basis (Finset.range d.size) (fun j => d.offset * d.gen ^ j) i

section general

variable {F : Type} [Field F] [DecidableEq F] {d : Domain F}

/-- C57: the first coefficient, at every point in the domain or not. -/
theorem C57_first (hg : IsPrimitiveRoot d.gen d.size) (ho : d.offset ≠ 0) (τ : F) :
    firstLagrange d τ = .ok ((L d 0).eval τ) := by
  have h : Good d := ⟨hg, ho⟩
  have hs := size_pos d
  show _ = Except.ok ((basis d 0).eval τ)
  unfold firstLagrange
  by_cases e : τ = d.offset
  · rw [if_pos e, e]
    have := h.basis_on hs hs
    unfold point at this
    rw [pow_zero, mul_one] at this
    rw [this, if_pos rfl]
  · rw [if_neg e]
    by_cases hz : vanishing d τ = 0
    · rw [if_pos hz]
      obtain ⟨j, hj, rfl⟩ := (h.mem_iff τ).1 hz
      rw [h.basis_on hs hj, if_neg]
      rintro rfl
      exact e (by simp [point])
    · rw [if_neg hz, div_offset h]
      exact h.firstTerm hz

/-- C57: the last coefficient, at every point in the domain or not. -/
theorem C57_last (hg : IsPrimitiveRoot d.gen d.size) (ho : d.offset ≠ 0) (τ : F) :
    lastLagrange d τ = .ok ((L d (d.size - 1)).eval τ) := by
  have h : Good d := ⟨hg, ho⟩
  have hs := size_pos d
  show _ = Except.ok ((basis d (d.size - 1)).eval τ)
  unfold lastLagrange
  rw [← h.last]
  by_cases e : τ = point d (d.size - 1)
  · rw [if_pos e, e, h.basis_on (by omega) (by omega), if_pos rfl]
  · rw [if_neg e]
    by_cases hz : vanishing d τ = 0
    · rw [if_pos hz]
      obtain ⟨j, hj, rfl⟩ := (h.mem_iff τ).1 hz
      rw [h.basis_on (by omega) hj, if_neg]
      rintro rfl
      exact e rfl
    · rw [if_neg hz, div_offset h]
      exact h.lastTerm hz

/-- C57: both coefficients together, when the domain has at least two points. -/
theorem C57_first_and_last (hg : IsPrimitiveRoot d.gen d.size) (ho : d.offset ≠ 0) (h2 : d.size ≠ 1)
    (τ : F) :
    firstAndLast d τ = .ok ((L d 0).eval τ, (L d (d.size - 1)).eval τ) := by
  have h : Good d := ⟨hg, ho⟩
  have hs := size_pos d
  show _ = Except.ok ((basis d 0).eval τ, (basis d (d.size - 1)).eval τ)
  have h0 : point d 0 = d.offset := by simp [point]
  unfold firstAndLast
  rw [← h.last, ← h0]
  by_cases e : τ = point d 0
  · rw [if_pos e, e, h.basis_on hs hs, h.basis_on (by omega) hs, if_pos rfl, if_neg (by omega)]
  · rw [if_neg e]
    by_cases e' : τ = point d (d.size - 1)
    · rw [if_pos e', e', h.basis_on hs (by omega), h.basis_on (by omega) (by omega), if_pos rfl,
        if_neg (by omega)]
    · rw [if_neg e']
      by_cases hz : vanishing d τ = 0
      · rw [if_pos hz]
        obtain ⟨j, hj, rfl⟩ := (h.mem_iff τ).1 hz
        rw [h.basis_on hs hj, h.basis_on (by omega) hj, if_neg, if_neg]
        · rintro rfl
          exact e' rfl
        · rintro rfl
          exact e rfl
      · rw [if_neg hz, h0, div_offset h]
        simp only
        rw [h.firstTerm hz, h.lastTerm hz]

/-- C57 counterexample: on a domain of one point the two values of the combined function differ from
those of the two functions: its last coefficient at the point is zero instead of one. -/
theorem C57_one_point_counterexample :
    ∃ (d : Domain ℚ) (τ : ℚ), IsPrimitiveRoot d.gen d.size ∧ d.offset ≠ 0 ∧
      firstAndLast d τ = .ok (1, 0) ∧ lastLagrange d τ = .ok 1 ∧ (L d (d.size - 1)).eval τ = 1 := by
  have hg : IsPrimitiveRoot (1 : ℚ) 1 := IsPrimitiveRoot.one
  have hl : lastLagrange (⟨0, 1, 1⟩ : Domain ℚ) 1 = .ok 1 := by
    unfold lastLagrange
    rw [if_pos (by norm_num)]
  refine ⟨⟨0, 1, 1⟩, 1, hg, one_ne_zero, by unfold firstAndLast; rw [if_pos rfl], hl, ?_⟩
  have := C57_last (d := (⟨0, 1, 1⟩ : Domain ℚ)) hg one_ne_zero 1
  rw [hl] at this
  injection this with this
  exact this.symm

/-- C57: the coefficients of a range, for every range inside the domain and at every point. -/
theorem C57_range (hg : IsPrimitiveRoot d.gen d.size) (ho : d.offset ≠ 0) (start stop : ℕ)
    (h1 : start ≤ stop) (h2 : stop ≤ d.size) (τ : F) :
    lagrangeRange d start stop τ =
      .ok ((List.range' start (stop - start)).map (fun i => (L d i).eval τ)) :=
  lagrangeRange_eq ⟨hg, ho⟩ h1 h2 τ

/-- C57: a range that is not inside the domain panics. -/
theorem C57_range_panics (start stop : ℕ) (h : d.size < stop ∨ stop < start) (τ : F) :
    lagrangeRange d start stop τ = .error .panic := by
  unfold lagrangeRange
  split
  · rfl
  · rw [if_pos (by omega)]

/-- C57: the verifier's evaluation of the public inputs is the value of the polynomial of degree less than
the size of the domain whose values on the domain are the public inputs and zeros. -/
theorem C57_evaluate (hg : IsPrimitiveRoot d.gen d.size) (ho : d.offset ≠ 0) (pi : List F)
    (hl : pi.length ≤ d.size) {P : F[X]} (hP : P.degree < d.size)
    (hv : ∀ i < d.size, P.eval (d.offset * d.gen ^ i) = pi.getD i 0) (z : F) :
    evaluatePi d pi z false = .ok (P.eval z) := by
  have h : Good d := ⟨hg, ho⟩
  rw [evaluatePi_plain h pi hl, h.interpolate hP]
  congr 1
  have : ∀ i ∈ Finset.range d.size, P.eval (point d i) * (basis d i).eval z =
      pi.getD i 0 * (basis d i).eval z := by
    intro i hi
    rw [show P.eval (point d i) = pi.getD i 0 from hv i (by simpa using hi)]
  rw [Finset.sum_congr rfl this]
  refine Finset.sum_subset (Finset.range_mono hl) fun i _ hi => ?_
  rw [List.getD_eq_default _ _ (by simpa using hi), zero_mul]

/-- C57: more public inputs than points in the domain panic. -/
theorem C57_too_many (pi : List F) (hl : d.size < pi.length) (z : F) :
    evaluatePi d pi z false = .error .panic := by
  unfold evaluatePi
  simp only [Bool.false_eq_true, if_false]
  rw [C57_range_panics _ _ (Or.inl hl)]

theorem sum_flip (n l : ℕ) (hl : l ≤ n) (x : ℕ → F) (g : ℕ → F) (hx : ∀ i, l ≤ i → x i = 0) :
    ∑ i ∈ Finset.range l, x i * g (n - 1 - i) = ∑ j ∈ Finset.range n, x (n - 1 - j) * g j := by
  have e : ∑ i ∈ Finset.range l, x i * g (n - 1 - i) = ∑ i ∈ Finset.range n, x i * g (n - 1 - i) := by
    refine Finset.sum_subset (Finset.range_mono hl) fun i _ hi => ?_
    rw [hx i (by simpa using hi), zero_mul]
  rw [e, ← Finset.sum_range_reflect]
  refine Finset.sum_congr rfl fun j hj => ?_
  rw [Finset.mem_range] at hj
  rw [show n - 1 - (n - 1 - j) = j by omega]

/-- C57, merged circuits: the inputs of the first circuit stand on the first points of the domain, the
inputs of the second circuit on the last points, backwards. -/
theorem C57_evaluate_merged (hg : IsPrimitiveRoot d.gen d.size) (ho : d.offset ≠ 0) (pi1 pi2 : List F)
    (he : pi1.length = pi2.length) (hl : pi1.length ≤ d.size) {P : F[X]} (hP : P.degree < d.size)
    (hv : ∀ i < d.size, P.eval (d.offset * d.gen ^ i) = pi1.getD i 0 + pi2.getD (d.size - 1 - i) 0) (z : F) :
    evaluatePi d (pi1 ++ pi2) z true = .ok (P.eval z) := by
  have h : Good d := ⟨hg, ho⟩
  rw [evaluatePi_merged h pi1 pi2 he hl, h.interpolate hP]
  congr 1
  have : ∀ i ∈ Finset.range d.size, P.eval (point d i) * (basis d i).eval z =
      pi1.getD i 0 * (basis d i).eval z + pi2.getD (d.size - 1 - i) 0 * (basis d i).eval z := by
    intro i hi
    rw [show P.eval (point d i) = _ from hv i (by simpa using hi), add_mul]
  rw [Finset.sum_congr rfl this, Finset.sum_add_distrib,
    sum_flip d.size pi1.length hl (fun i => pi2.getD i 0) (fun i => (basis d i).eval z) (by
      intro i hi
      exact List.getD_eq_default _ _ (by omega))]
  congr 1
  refine Finset.sum_subset (Finset.range_mono hl) fun i _ hi => ?_
  rw [List.getD_eq_default _ _ (by simpa using hi), zero_mul]

/-- C57: with an odd number of inputs the last input of a merged circuit is ignored (the keys made by
merging have an even number). -/
theorem C57_merged_odd (hg : IsPrimitiveRoot d.gen d.size) (ho : d.offset ≠ 0) (pi1 pi2 : List F)
    (he : pi1.length = pi2.length) (hl : pi1.length ≤ d.size) (x z : F) :
    evaluatePi d (pi1 ++ pi2 ++ [x]) z true = evaluatePi d (pi1 ++ pi2) z true := by
  have h : Good d := ⟨hg, ho⟩
  have hlen : (pi1 ++ pi2 ++ [x]).length / 2 = pi1.length := by simp; omega
  have hlen' : (pi1 ++ pi2).length / 2 = pi1.length := by simp; omega
  unfold evaluatePi
  simp only [if_true, hlen, hlen']
  rw [lagrangeRange_eq h (Nat.zero_le _) hl]
  simp only
  rw [if_neg (by omega), if_neg (by omega), lagrangeRange_eq h (by omega) le_rfl]
  simp only [List.append_assoc, List.take_left, List.drop_left]
  congr 2
  rw [← List.append_nil (List.reverse _), List.zip_append (by simp; omega)]
  simp

end general

section circuit

variable {p : ℕ} [Fact p.Prime] {S : ℕ} {root : ZMod p} {rnd : List (ZMod p)}

/-- C57: for every circuit that can be built and finalized, the verifier works on the same domain, the
polynomial of the public inputs takes the `i`-th input at the `i`-th point and zero at the other points,
and the verifier's evaluation of the public inputs is its value, at every point. -/
theorem C57_public_input (hroot : IsPrimitiveRoot root (2 ^ S)) {c : Circ p} {f : FCirc p} (hc : Built c)
    (hf : finalize S root rnd c = .ok f) {x : List (ZMod p)} (hx : publicInput f.circ = .ok x) :
    newDomain S root f.dom.size = some f.dom ∧
    ∃ poly, pubInputPoly f = .ok poly ∧ poly.length = f.dom.size ∧
      (∀ i < f.dom.size, evalAt poly (f.dom.gen ^ i) = x.getD i 0) ∧
      ∀ z, evaluatePi f.dom x z false = .ok (evalAt poly z) := by
  have hd := (finalize_ok hf).1
  obtain ⟨hg, ho⟩ := good_of_newDomain hroot hd
  obtain ⟨h1, h2, h3, h4, h5⟩ := finalize_pubIds hc.ok hf
  have hw : f.circ.witness.length = f.circ.numVars := by rw [h3, h4, hc.ok.wf.len]
  unfold publicInput at hx
  rw [h1] at hx
  obtain ⟨v, e, l1, l2, a, b⟩ := writeInputs_ok f.circ hw _ x (List.replicate f.dom.size 0) hx (by
    intro g hg
    rw [List.mem_range] at hg
    rw [List.length_replicate]
    omega) List.nodup_range
  rw [List.length_replicate] at l1
  rw [List.length_range] at l2
  have hv : ∀ i < f.dom.size, v.getD i 0 = x.getD i 0 := by
    intro i hi
    rw [List.getD_eq_getElem?_getD, List.getD_eq_getElem?_getD]
    by_cases hlt : i < c.pubIds.length
    · rw [b i i (List.getElem?_range hlt)]
    · rw [a i (by simpa using hlt), List.getElem?_replicate, if_pos hi,
        List.getElem?_eq_none (l := x) (by omega)]
      rfl
  refine ⟨newDomain_again hd, f.dom.ifft v, ?_, by simp [Domain.ifft], ?_, ?_⟩
  · unfold pubInputPoly
    rw [if_neg (by rw [h2]; exact (finalize_ok hf).2.1), h1, e]
  · intro i hi
    rw [ifft_eval f.dom hg.prim v (by omega) i hi, hv i hi]
  · intro z
    rw [evaluatePi_plain hg x (by omega), evalAt_ifft hg ho v (by omega)]
    congr 1
    have e2 : ∀ i ∈ Finset.range f.dom.size, v.getD i 0 * (basis f.dom i).eval z =
        x.getD i 0 * (basis f.dom i).eval z := fun i hi => by rw [hv i (by simpa using hi)]
    rw [Finset.sum_congr rfl e2]
    refine Finset.sum_subset (Finset.range_mono (by omega)) fun i _ hi => ?_
    rw [List.getD_eq_default _ _ (by simpa using hi), zero_mul]

/-- C57: the domain of a finalized circuit has more than one point. -/
theorem C57_circuit_size {c : Circ p} {f : FCirc p} (hf : finalize S root rnd c = .ok f) :
    f.dom.size ≠ 1 := (finalize_ok hf).2.1

/-- C57, merged circuits: the same for the circuit merged from two circuits. -/
theorem C57_public_input_merged (hroot : IsPrimitiveRoot root (2 ^ S)) {c1 c2 : Circ p} {a b f : FCirc p}
    (h : Pair S root rnd c1 c2 a b) (hpos : c1.pubIds ≠ []) (hf : merge a b = .ok f)
    {x y : List (ZMod p)} (h1 : publicInput c1 = .ok x) (h2 : publicInput c2 = .ok y) :
    newDomain S root f.dom.size = some f.dom ∧
    ∃ poly, pubInputPoly f = .ok poly ∧ poly.length = f.dom.size ∧
      (∀ i < f.dom.size, evalAt poly (f.dom.gen ^ i) = rowInput f.dom.size x y i) ∧
      ∀ z, evaluatePi f.dom (x ++ y) z true = .ok (evalAt poly z) := by
  obtain ⟨f1, f2, n, i⟩ := info' h hpos hf
  have hd := i.newDom
  obtain ⟨hg, ho⟩ := good_of_newDomain hroot hd
  have hx := C27_public_input h hpos hf h1 h2
  have hN := i.merged.size
  have hp1 := i.r1.pubIds
  have hp2 := i.r2.pubIds
  have hk1 : c1.pubIds.length ≤ n := by
    have := (finalize_pubIds h.built1.ok i.fin1).2.2.2.2
    rwa [i.merged.n1] at this
  have hk2 : c2.pubIds.length ≤ n := by
    have := (finalize_pubIds h.built2.ok i.fin2).2.2.2.2
    rwa [i.merged.n2] at this
  have hn1 : n ≠ 0 := by
    have := size_pos f1.dom
    rw [i.merged.n1] at this
    omega
  have hw : f.circ.witness.length = f.circ.numVars := by
    rw [i.merged.witness, i.merged.numVars, List.length_append, i.r1.witness, i.r1.numVars, i.r2.witness,
      i.r2.numVars, h.built1.ok.wf.len, h.built2.ok.wf.len]
  have hids : f.circ.pubIds = List.range c1.pubIds.length ++
      (List.range c1.pubIds.length).map (fun g => 2 * n - 1 - g) := by
    rw [i.merged.pubIds, hp1, hp2, h.inputs]
  have lx : x.length = c1.pubIds.length := by
    have := mapM_length' h1
    exact this
  have ly : y.length = c1.pubIds.length := by
    have := mapM_length' h2
    rw [this, h.inputs]
  unfold publicInput at hx
  rw [hids] at hx
  obtain ⟨v, e, l1, l2, ha, hb⟩ := writeInputs_ok f.circ hw _ (x ++ y) (List.replicate f.dom.size 0) hx (by
    intro g hg
    rw [List.length_replicate, hN]
    rcases List.mem_append.1 hg with hg | hg
    · rw [List.mem_range] at hg
      omega
    · obtain ⟨g', hg', rfl⟩ := List.mem_map.1 hg
      omega) (by
    rw [List.nodup_append]
    refine ⟨List.nodup_range, ?_, ?_⟩
    · refine List.Nodup.map_on ?_ List.nodup_range
      intro g1 m1 g2 m2 e
      rw [List.mem_range] at m1 m2
      omega
    · intro g1 m1 g2 m2
      obtain ⟨g', hg', rfl⟩ := List.mem_map.1 m2
      rw [List.mem_range] at m1 hg'
      omega)
  rw [List.length_replicate] at l1
  have hv : ∀ j < f.dom.size, v.getD j 0 = x.getD j 0 + y.getD (f.dom.size - 1 - j) 0 := by
    intro j hj
    rw [hN] at hj ⊢
    rw [List.getD_eq_getElem?_getD]
    by_cases c1' : j < c1.pubIds.length
    · have : (List.range c1.pubIds.length ++
        (List.range c1.pubIds.length).map (fun g => 2 * n - 1 - g))[j]? = some j := by
        rw [List.getElem?_append_left (by simpa using c1'), List.getElem?_range c1']
      rw [hb j j this, List.getElem?_append_left (by omega), ← List.getD_eq_getElem?_getD,
        List.getD_eq_default y _ (by omega), add_zero]
    · by_cases c2' : 2 * n - 1 - j < c1.pubIds.length
      · have : (List.range c1.pubIds.length ++
          (List.range c1.pubIds.length).map (fun g => 2 * n - 1 - g))[c1.pubIds.length + (2 * n - 1 - j)]?
            = some j := by
          rw [List.getElem?_append_right (by simp), List.length_range, Nat.add_sub_cancel_left,
            List.getElem?_map, List.getElem?_range c2', Option.map_some]
          congr 1
          omega
        rw [hb _ j this, List.getElem?_append_right (by omega), lx, Nat.add_sub_cancel_left,
          ← List.getD_eq_getElem?_getD, List.getD_eq_default x _ (by omega), zero_add]
      · rw [ha j ?_, List.getElem?_replicate, if_pos (by omega),
          List.getD_eq_default x _ (by omega), List.getD_eq_default y _ (by omega),
          add_zero]
        · rfl
        · rw [List.mem_append, not_or]
          refine ⟨by simpa using c1', ?_⟩
          intro hm
          obtain ⟨g', hg', e'⟩ := List.mem_map.1 hm
          rw [List.mem_range] at hg'
          omega
  have hdom : f.circ.domSize ≠ 1 := by
    rw [i.merged.domSize]
    omega
  refine ⟨newDomain_again hd, f.dom.ifft v, ?_, by simp [Domain.ifft], ?_, ?_⟩
  · unfold pubInputPoly
    rw [if_neg hdom, hids, e]
  · intro j hj
    rw [ifft_eval f.dom hg.prim v (by omega) j hj, hv j hj]
    unfold rowInput
    split
    · rw [List.getD_eq_default y _ (by omega), add_zero]
    · rw [List.getD_eq_default x _ (by omega), zero_add]
  · intro z
    have hdeg : (toPoly (f.dom.ifft v)).degree < f.dom.size := by
      have := toPoly_degree_lt (f.dom.ifft v)
      rwa [show (f.dom.ifft v).length = f.dom.size by simp [Domain.ifft]] at this
    rw [C57_evaluate_merged hg.prim hg.off x y (by omega) (by omega) hdeg, toPoly_eval]
    intro j hj
    rw [toPoly_eval, ho, one_mul, ifft_eval f.dom hg.prim v (by omega) j hj, hv j hj]

end circuit

/-! ### Examples -/

/-- a coset of four points of `ZMod 97` -/
def exD : Domain (ZMod 97) := ⟨2, 22, 5⟩

theorem exD_prim : IsPrimitiveRoot exD.gen exD.size := by
  have h : orderOf (22 : ZMod 97) = 2 ^ (1 + 1) :=
    orderOf_eq_prime_pow (by decide +kernel) (by decide +kernel)
  show IsPrimitiveRoot (22 : ZMod 97) (2 ^ 2)
  rw [show 2 ^ 2 = orderOf (22 : ZMod 97) from h.symm]
  exact IsPrimitiveRoot.orderOf _

example : exD.offset ≠ 0 ∧ exD.size = 4 ∧ vanishing exD 1 ≠ 0 ∧ vanishing exD (5 * 22) = 0 := by
  refine ⟨by decide, rfl, by decide +kernel, by decide +kernel⟩

/-- the second coefficient is one at the second point, found by search -/
example : lagrangeRange exD 1 3 (5 * 22) = .ok [1, 0] := by
  unfold lagrangeRange
  rw [if_neg (by decide), if_neg (by decide), if_pos (by decide +kernel)]
  decide +kernel

/-- a circuit with two public inputs -/
example : ∃ (f : FCirc 97) (poly : List (ZMod 97)), Built exT ∧ finalize 5 28 rnd97 exT = .ok f ∧
    publicInput f.circ = .ok [3, 5] ∧ pubInputPoly f = .ok poly ∧
    evalAt poly (1 : ZMod 97) = 3 ∧ evaluatePi f.dom [3, 5] 2 false = .ok (evalAt poly (2 : ZMod 97)) := by
  have h : okAnd (finalize' 5 28 rnd97 exT) (fun f => decide (f.dom.size = 8)) = true := by
    decide +kernel
  obtain ⟨f, hf, hP⟩ := okAnd_elim h
  rw [decide_eq_true_iff] at hP
  rw [← finalize_eq] at hf
  have hx : publicInput f.circ = .ok [3, 5] :=
    (C25_turbo built_exT rfl hf).2.1.trans (by decide +kernel)
  obtain ⟨-, poly, h1, -, h2, h3⟩ := C57_public_input prim28 built_exT hf hx
  refine ⟨f, poly, built_exT, hf, hx, h1, ?_, h3 2⟩
  have := h2 0 (by omega)
  rw [pow_zero] at this
  exact this

/-- two merged circuits with two public inputs each -/
example : ∃ (a b f : FCirc 97) (poly : List (ZMod 97)), Pair 5 28 rnd97 exT exT2 a b ∧
    merge a b = .ok f ∧ pubInputPoly f = .ok poly ∧ evalAt poly (f.dom.gen ^ 15) = 7 ∧
    evaluatePi f.dom [3, 5, 7, 11] 2 true = .ok (evalAt poly (2 : ZMod 97)) := by
  obtain ⟨a, b, h, hs⟩ := exPair
  have hp : exT.pubIds ≠ [] := by decide +kernel
  obtain ⟨f, hf, hd, -, -, -⟩ := C27_succeeds h hp
  obtain ⟨-, poly, h1, -, h2, h3⟩ := C57_public_input_merged (x := [3, 5]) (y := [7, 11]) prim28 h hp hf
    (by decide +kernel) (by decide +kernel)
  have hsz : f.dom.size = 16 := by rw [hd, hs]
  refine ⟨a, b, f, poly, h, hf, h1, ?_, h3 2⟩
  rw [h2 15 (by omega), hsz]
  rfl

end Verif.Props.Lagrange
