import Verif.Circuit.VerifierAdv
import Verif.Plonk.Verifier
import Verif.Plonk.LagrangeLemmas

/-! # The values of the verifier circuit against the native verifier -/

set_option linter.unusedSectionVars false

namespace Verif.Circuit.VerifierPoly

open Verif.Circuit Verif.Pcs Verif.Plonk

variable {Q : ℕ} [hQ : Fact Q.Prime] {d : Domain (ZMod Q)}

theorem van_eq (ho : d.offset = 1) (a : ZMod Q) : vanishing d a = a ^ d.size - 1 := by
  unfold vanishing; rw [ho, one_pow]

/-- the first Lagrange coefficient is determined by its equation -/
theorem first_native (h : Good d) (ho : d.offset = 1) {a l : ZMod Q} (ha : a ≠ 1)
    (hl : (d.size : ZMod Q) * l * (a - 1) = a ^ d.size - 1) : firstLagrange d a = .ok l := by
  have hs := h.size_ne
  have ha' : a - 1 ≠ 0 := sub_ne_zero.2 ha
  unfold firstLagrange
  rw [van_eq ho, ho, if_neg ha, one_pow]
  by_cases hz : a ^ d.size - 1 = 0
  · rw [if_pos hz]
    rw [hz] at hl
    rcases mul_eq_zero.1 hl with g | g
    · rcases mul_eq_zero.1 g with g | g
      · exact absurd g hs
      · rw [g]
    · exact absurd g ha'
  · rw [if_neg hz]
    unfold divP
    rw [if_neg one_ne_zero]
    simp only [div_one, mul_one]
    rw [if_neg (mul_ne_zero hs ha')]
    congr 1
    rw [← hl]
    field_simp

/-- a Lagrange coefficient is determined by its equation -/
theorem lag_native (h : Good d) (ho : d.offset = 1) {a l : ZMod Q} {i : ℕ} (hi : i < d.size) (hz : vanishing d a ≠ 0)
    (hl : l * (a - d.gen ^ i) = vanishing d a * (d.gen ^ i * (d.size : ZMod Q)⁻¹)) : l = (basis d i).eval a := by
  have hs := h.size_ne
  have hg := h.gen_ne
  have hne : a - d.gen ^ i ≠ 0 := by
    refine sub_ne_zero.2 fun e => hz ((h.mem_iff a).2 ⟨i, hi, ?_⟩)
    rw [e]; unfold point; rw [ho, one_mul]
  rw [h.basis_off hi hz]
  unfold point
  rw [ho, one_pow, one_mul, mul_one, ← mul_left_inj' hne, hl, inv_pow]
  field_simp

theorem lag_list {n : ℕ} {g a van : ZMod Q} {f : ℕ → ZMod Q} {ls : List (ZMod Q)} {is : List ℕ}
    (h : List.Forall₂ (fun l i => l * (a - g ^ i) = van * (g ^ i * (n : ZMod Q)⁻¹)) ls is)
    (hf : ∀ i ∈ is, ∀ l : ZMod Q, l * (a - g ^ i) = van * (g ^ i * (n : ZMod Q)⁻¹) → l = f i) : ls = is.map f := by
  induction h with
  | nil => rfl
  | cons h1 _ ih =>
    rw [List.map_cons, ← hf _ (by simp) _ h1, ← ih fun i hi => hf i (by simp [hi])]

theorem zip_foldl_sum (l : List (ZMod Q × ZMod Q)) : ∀ r, l.foldl (fun r x => r + x.2 * x.1) r =
    r + (l.map fun x => x.2 * x.1).sum := by
  induction l with
  | nil => intro r; simp
  | cons x l ih =>
    intro r
    rw [List.foldl_cons, ih, List.map_cons, List.sum_cons, add_assoc]

theorem prods_zip_sum : ∀ (a b : List (ZMod Q × ZMod Q)), a.length = b.length →
    (prods (a.zip b)).sum = (a.map fun x => x.1 * x.2).sum + (b.map fun x => x.1 * x.2).sum
  | [], [], _ => by simp [prods]
  | x :: a, y :: b, h => by
    have ih := prods_zip_sum a b (by simpa using h)
    unfold prods at ih ⊢
    simp only [List.zip_cons_cons, List.flatMap_cons, List.sum_append, List.sum_cons, List.sum_nil, List.map_cons, ih]
    ring

theorem zip_swap_sum (a b : List (ZMod Q)) :
    ((a.zip b).map fun x => x.1 * x.2).sum = ((b.zip a).map fun x => x.2 * x.1).sum := by
  rw [← List.zip_swap b a, List.map_map]
  rfl

theorem zip_take_right {α β : Type} : ∀ (a : List α) (b : List β), (a.take b.length).zip b = a.zip b
  | [], b => by simp
  | _ :: _, [] => by simp
  | x :: a, y :: b => by
    rw [List.length_cons, List.take_succ_cons, List.zip_cons_cons, List.zip_cons_cons, zip_take_right]

/-- the sum of the circuit is the public input polynomial of the native verifier -/
theorem pi_native (h : Good d) (pis : List (ZMod Q)) (hl : pis.length / 2 ≤ d.size) (a : ZMod Q) :
    evaluatePi d pis a true = .ok (prods (piPairs ((piIdx d.size (pis.length / 2)).map fun i => (basis d i).eval a) pis)).sum := by
  unfold evaluatePi
  simp only [if_true]
  rw [lagrangeRange_eq h (Nat.zero_le _) hl]
  simp only
  rw [if_neg (by omega), lagrangeRange_eq h (by omega) le_rfl]
  simp only
  generalize hlen : pis.length / 2 = len at *
  have e1 : d.size - (d.size - len) = len := by omega
  rw [e1, Nat.sub_zero, zip_foldl_sum, zip_foldl_sum, zero_add]
  congr 1
  unfold piPairs
  simp only [hlen]
  have t1 : ((piIdx d.size len).map fun i => (basis d i).eval a).take len =
      (List.range' 0 len).map fun i => (basis d i).eval a := by
    unfold piIdx
    rw [List.map_append, List.take_left' (by simp), List.range_eq_range']
  have t2 : ((piIdx d.size len).map fun i => (basis d i).eval a).reverse.take len =
      ((List.range' (d.size - len) len).map fun i => (basis d i).eval a).reverse := by
    unfold piIdx
    rw [List.map_append, List.reverse_append, List.take_left' (by simp)]
  rw [t1, t2, prods_zip_sum]
  · rw [zip_swap_sum, zip_swap_sum]
    congr 3
    have := zip_take_right (pis.drop len) ((List.range' (d.size - len) len).map fun i => (basis d i).eval a).reverse
    rw [List.length_reverse, List.length_map, List.length_range'] at this
    exact this.symm
  · simp only [List.length_zip, List.length_take, List.length_drop, List.length_reverse, List.length_map,
      List.length_range']
    omega

theorem piIdx_lt {n len i : ℕ} (hl : len ≤ n) (hi : i ∈ piIdx n len) : i < n := by
  unfold piIdx at hi
  rw [List.mem_append, List.mem_range, List.mem_range'_1] at hi
  omega

/-- outside of the domain the relation of the circuit determines the value -/
theorem piRel_native (h : Good d) (ho : d.offset = 1) {pis : List (ZMod Q)} (hl : pis.length / 2 ≤ d.size) {a v : ZMod Q}
    (hz : vanishing d a ≠ 0) (hr : PiRel d.size d.gen a (vanishing d a) pis v) : evaluatePi d pis a true = .ok v := by
  obtain ⟨ls, h1, rfl⟩ := hr
  rw [pi_native h pis hl, lag_list h1 (f := fun i => (basis d i).eval a)]
  intro i hi l hh
  exact lag_native h ho (piIdx_lt hl hi) hz hh

theorem lagVal_native (h : Good d) (ho : d.offset = 1) {pis : List (ZMod Q)} (hl : pis.length / 2 ≤ d.size) {a : ZMod Q}
    (hz : vanishing d a ≠ 0) :
    evaluatePi d pis a true =
      .ok (prods (piPairs ((piIdx d.size (pis.length / 2)).map (lagVal d.size d.gen a (vanishing d a))) pis)).sum := by
  rw [pi_native h pis hl]
  congr 4
  refine List.map_congr_left fun i hi => (lag_native h ho (piIdx_lt hl hi) hz ?_).symm
  have hne : a - d.gen ^ i ≠ 0 := by
    refine sub_ne_zero.2 fun e => hz ((h.mem_iff a).2 ⟨i, piIdx_lt hl hi, ?_⟩)
    rw [e]; unfold point; rw [ho, one_mul]
  unfold lagVal
  field_simp

theorem ne_of_vanishing (h : Good d) (ho : d.offset = 1) {a : ZMod Q} (hz : vanishing d a ≠ 0) {i : ℕ} (hi : i < d.size) :
    a ≠ d.gen ^ i := fun e => hz ((h.mem_iff a).2 ⟨i, hi, by rw [e]; unfold point; rw [ho, one_mul]⟩)

section lin

variable {G G2 : Type}

theorem perm_foldl (β γ : ZMod Q) (l : List (ZMod Q × ZMod Q)) : ∀ r,
    l.foldl (fun acc x => acc * (γ + x.1 + β * x.2)) r = r * permVal β γ l := by
  induction l with
  | nil => intro r; simp [permVal]
  | cons x l ih =>
    intro r
    rw [List.foldl_cons, ih]
    simp only [permVal, List.map_cons, List.prod_cons]
    ring

/-- the evaluations as used by the circuit -/
def evalsVal (e : Evals (ZMod Q)) : EvalsVal Q := ⟨e.wires, e.sigmas, e.permNext⟩

theorem constInstance_native (ch : Chal (ZMod Q)) (l1 ln α2 α3 : ZMod Q) (ap : List (ZMod Q)) (e : Evals (ZMod Q))
    (hw : 5 ≤ e.wires.length) (ps : List (ZMod Q)) (vk : VKey (ZMod Q) G G2) (hm : vk.merged = true) {V : ZMod Q}
    (hV : evaluatePi d ps ch.ζ true = .ok V) :
    Verif.Plonk.constInstance d ch l1 ln (α2 :: α3 :: ap) e (none : Option (LkProof (ZMod Q) G)) ps vk =
      .ok (V - l1 * α2 - permTerm ch.α ch.β ch.γ (evalsVal e)) := by
  unfold Verif.Plonk.constInstance
  rw [hm, hV]
  simp only [List.getElem?_cons_zero, List.getElem?_cons_succ, Option.isSome_none, Bool.false_eq_true, if_false,
    Nat.add_zero]
  rw [List.getElem?_eq_getElem (show 5 - 1 < e.wires.length by omega)]
  simp only [Nat.add_one_sub_one, perm_foldl]
  congr 1
  have : e.wires.getD 4 0 = e.wires[4] := by
    rw [List.getD_eq_getElem?_getD, List.getElem?_eq_getElem (by omega)]; rfl
  unfold permTerm evalsVal
  simp only [this]
  ring

theorem constLoop_native (ch : Chal (ZMod Q)) (l1 ln α2 α3 : ZMod Q) (ap : List (ZMod Q)) (ps : List (ZMod Q)) {V : ZMod Q}
    (hV : evaluatePi d ps ch.ζ true = .ok V) :
    ∀ (es : List (Evals (ZMod Q))) (lks : List (Option (LkProof (ZMod Q) G))) (pis : List (List (ZMod Q)))
      (vks : List (VKey (ZMod Q) G G2)) (ab : List (ZMod Q)), lks.length = es.length → pis.length = es.length →
      vks.length = es.length → ab.length = es.length → (∀ e ∈ es, 5 ≤ e.wires.length) → (∀ l ∈ lks, l = none) →
      (∀ x ∈ pis, x = ps) → (∀ vk ∈ vks, vk.merged = true) → ∀ r,
      Verif.Plonk.constLoop d ch l1 ln (α2 :: α3 :: ap) (es.zip (lks.zip (pis.zip (vks.zip ab)))) r =
        .ok (r + (constTerms (fun e => V - l1 * α2 - permTerm ch.α ch.β ch.γ e) (es.map evalsVal) ab).sum)
  | [], [], [], [], [], _, _, _, _, _, _, _, _, r => by
    simp [Verif.Plonk.constLoop, constTerms]
  | e :: es, lk :: lks, pi :: pis, vk :: vks, b :: ab, h1, h2, h3, h4, hw, hl, hp, hm, r => by
    have ih := constLoop_native ch l1 ln α2 α3 ap ps hV es lks pis vks ab (by simpa using h1) (by simpa using h2)
      (by simpa using h3) (by simpa using h4) (fun x hx => hw x (by simp [hx])) (fun x hx => hl x (by simp [hx]))
      (fun x hx => hp x (by simp [hx])) (fun x hx => hm x (by simp [hx]))
    rw [List.zip_cons_cons, List.zip_cons_cons, List.zip_cons_cons, List.zip_cons_cons, Verif.Plonk.constLoop,
      hl lk (by simp), hp pi (by simp), constInstance_native ch l1 ln α2 α3 ap e (hw e (by simp)) ps vk (hm vk (by simp)) hV]
    simp only
    rw [ih]
    congr 1
    simp only [constTerms, List.map_cons, List.zipWith_cons_cons, List.sum_cons]
    ring

variable [DecidableEq G]

theorem linConst_native (ch : Chal (ZMod Q)) (l1 ln α2 α3 : ZMod Q) (ap ps : List (ZMod Q)) {V : ZMod Q}
    (hV : evaluatePi d ps ch.ζ true = .ok V) (b : BProof (ZMod Q) G) (vks : List (VKey (ZMod Q) G G2)) (ab : List (ZMod Q))
    (h1 : b.lookups = b.evals.map fun _ => none) (h2 : b.len = b.evals.length) (h3 : vks.length = b.evals.length)
    (h4 : ab.length = b.evals.length) (hw : ∀ e ∈ b.evals, 5 ≤ e.wires.length) (hm : ∀ vk ∈ vks, vk.merged = true) :
    linPolyConst d ch vks (List.replicate b.evals.length ps) b l1 ln (α2 :: α3 :: ap) ab =
      .ok (constTerms (fun e => V - l1 * α2 - permTerm ch.α ch.β ch.γ e) (b.evals.map evalsVal) ab).sum := by
  unfold linPolyConst
  rw [if_neg (by rw [h3, h2, h4, List.length_replicate]; simp),
    constLoop_native ch l1 ln α2 α3 ap ps hV _ _ _ _ _ (by rw [h1, List.length_map]) (by rw [List.length_replicate]) h3 h4 hw
      (by rw [h1]; intro l hl; obtain ⟨_, _, rfl⟩ := List.mem_map.1 hl; rfl)
      (fun x hx => (List.mem_replicate.1 hx).2) hm, zero_add]

end lin

end Verif.Circuit.VerifierPoly
