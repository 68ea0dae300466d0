import Verif.Plonk.ProverSplit
import Verif.Props.Verifier

/-!
# Linearization and opening proofs of the prover
-/

set_option linter.unusedSectionVars false

namespace Verif.Plonk

open Verif.Circuit Verif.Pcs Polynomial
open Verif.Props.Lagrange (C57_first C57_first_and_last L)
open Verif.Props.Verifier (truth)

variable {F G G2 : Type} [Field F] [DecidableEq F] [AddCommGroup G] [Module F G]

/-! ## Evaluations -/

theorem map_toPoly_getElem? {l : List (List F)} {n : ℕ} {P : ℕ → F[X]}
    (h : l.map toPoly = (List.range n).map P) {j : ℕ} (hj : j < n) : ∃ q, l[j]? = some q ∧ toPoly q = P j := by
  have hl := map_toPoly_length h
  refine ⟨_, List.getElem?_eq_getElem (by omega), ?_⟩
  rw [← map_toPoly_get h hj, List.getD_eq_getElem?_getD, List.getElem?_eq_getElem (by omega)]
  rfl

theorem map_evalAt {l : List (List F)} {n : ℕ} {P : ℕ → F[X]} (h : l.map toPoly = (List.range n).map P) (x : F) :
    l.map (evalAt · x) = (List.range n).map (fun i => (P i).eval x) := by
  have e : l.map (evalAt · x) = (l.map toPoly).map (eval x) := by
    rw [List.map_map]
    exact List.map_congr_left fun p _ => (toPoly_eval p x).symm
  rw [e, h, List.map_map]
  rfl

theorem runEvals_ok {d : Domain F} {r : Run F G G2} {I : Inst F} (h : PolysAre d r I) (ζ : F) :
    runEvals d I.nw ζ r = I.evals (truth d ζ I) := by
  unfold runEvals Inst.evals truth
  have h1 := map_evalAt h.wires ζ
  have h2 : (r.pk.sigmas.take (I.nw - 1)).map (evalAt · ζ) = (List.range (I.nw - 1)).map (fun i => (I.σ i).eval ζ) := by
    rw [List.map_take, map_evalAt h.sigmas, map_range_take _ _ _ (Nat.sub_le _ _)]
  rw [h1, h2, ← toPoly_eval, h.z]

theorem selectors_last {d : Domain F} {r : Run F G G2} {I : Inst F} (h : PolysAre d r I) {L : LkPolys F}
    (hL : I.lookup = some L) : ∃ q, r.pk.selectors.getLast? = some q ∧ r.pk.selectors.getLastD [] = q ∧
      toPoly q = I.q 13 := by
  have hs := h.selectors
  have hnq : I.nq = 14 := by simp [Inst.nq, hL]
  rw [hnq] at hs
  have hl := map_toPoly_length hs
  obtain ⟨q, h1, h2⟩ := map_toPoly_getElem? hs (show 13 < 14 by omega)
  have h3 : r.pk.selectors.getLast? = some q := by rw [List.getLast?_eq_getElem?, hl, ← h1]
  refine ⟨q, h3, ?_, h2⟩
  rw [List.getLastD_eq_getLast?, h3]
  rfl

theorem runLkEvals_ok {d : Domain F} {r : Run F G G2} {I : Inst F} (h : PolysAre d r I)
    (hb : r.cs.lookup = I.lookup.isSome) (ζ : F) :
    runLkEvals d ζ r = .ok (I.lookup.map (fun _ => (truth d ζ I).lk)) := by
  unfold runLkEvals
  rw [hb]
  rcases h.lookup.cases with ⟨-, -, e3⟩ | ⟨a, o, L, e1, e2, e3, ⟨h1, h2, h3, h4⟩, h5, h6, h7⟩
  · rw [e3]
    rfl
  · obtain ⟨q, hq, -, hq'⟩ := selectors_last h e3
    have hnw : I.nw = 6 := by simp [Inst.nw, e3]
    have hw := h.wires
    rw [hnw] at hw
    obtain ⟨w3, hw3, hw3'⟩ := map_toPoly_getElem? hw (show 3 < 6 by omega)
    obtain ⟨w4, hw4, hw4'⟩ := map_toPoly_getElem? hw (show 4 < 6 by omega)
    rw [e3, e1, e2, hq, hw3, hw4]
    simp only [Option.isSome_some, if_true, Option.map_some, truth, Inst.lkEvals, e3, Option.getD_some,
      ← toPoly_eval, h1, h2, h3, h4, h5, h6, h7, hq', hw3', hw4']

/-! ## Linearization -/

theorem linCircuit_ok {d : Domain F} {r : Run F G G2} {I : Inst F} (h : PolysAre d r I) (c : Claims F) {w : ℕ → F}
    (hw : ∀ i < 5, w i = c.w i) {N : ℕ} (hN : ∀ q ∈ r.pk.selectors, q.length ≤ N) :
    toPoly (linCircuit r.pk w) = I.linGate c ∧ (linCircuit r.pk w).length ≤ N := by
  have hnq : 13 ≤ I.nq := by unfold Inst.nq; split <;> omega
  have q : ∀ i < 13, toPoly (r.pk.selectors.getD i []) = I.q i := fun i hi =>
    map_toPoly_get h.selectors (by omega)
  have hlen : ∀ i, (r.pk.selectors.getD i []).length ≤ N := by
    intro i
    rw [List.getD_eq_getElem?_getD]
    cases e : r.pk.selectors[i]? with
    | none => simp
    | some q => exact hN q (List.mem_of_getElem? e)
  constructor
  · unfold linCircuit Inst.linGate
    simp only [List.foldl_cons, List.foldl_nil, toPoly_dAdd, toPoly_mulScalar, q 0 (by omega), q 1 (by omega),
      q 2 (by omega), q 3 (by omega), q 4 (by omega), q 5 (by omega), q 6 (by omega), q 7 (by omega),
      q 8 (by omega), q 9 (by omega), q 10 (by omega), q 11 (by omega), q 12 (by omega), hw 0 (by omega),
      hw 1 (by omega), hw 2 (by omega), hw 3 (by omega), hw 4 (by omega), C_1]
    ring
  · unfold linCircuit
    have hm : ∀ c i, (mulScalar c (r.pk.selectors.getD i [])).length ≤ N := fun c i =>
      (mulScalar_length _ _).trans (hlen i)
    have key : ∀ (l : List (List F)) (a : List F), a.length ≤ N → (∀ q ∈ l, q.length ≤ N) →
        (l.foldl dAdd a).length ≤ N := by
      intro l
      induction l with
      | nil => intro a ha _; exact ha
      | cons b l ih =>
        intro a ha hl
        exact ih _ (dAdd_length_le ha (hl b (by simp))) (fun q hq => hl q (by simp [hq]))
    refine key _ _ (hm _ _) ?_
    simp only [List.mem_cons, List.not_mem_nil, or_false, forall_eq_or_imp, forall_eq]
    exact ⟨hm _ _, hm _ _, hm _ _, hm _ _, hm _ _, hm _ _, hm _ _, hm _ _, hm _ _, hm _ _, hm _ _, hlen _⟩

section lin
variable {d : Domain F} (hd : Good d) (ho : d.offset = 1) (h2 : d.size ≠ 1) {r : Run F G G2} {I : Inst F}
  (h : PolysAre d r I) (c : Claims F) (ch : Chal F) {N : ℕ}
include hd h

theorem linPerm_ok (hz : r.z.length ≤ N) (hσ : ∀ q ∈ r.pk.sigmas, q.length ≤ N) :
    ∃ p, linPerm d ch.α ch.β ch.γ ch.ζ r.pk (I.evals c) r.z = .ok p ∧
      toPoly p = C (I.coeffZ c ch ((lag d 0).eval ch.ζ)) * I.z + C (-I.coeffσ c ch) * I.σ (I.nw - 1) ∧
      p.length ≤ N := by
  have hn := I.nw_pos
  obtain ⟨σ, hσ1, hσ2⟩ := map_toPoly_getElem? h.sigmas (show I.nw - 1 < I.nw by omega)
  have hL : L d 0 = lag d 0 := rfl
  unfold linPerm
  rw [C57_first hd.prim hd.off, hL]
  have hlen : (I.evals c).wires.length = I.nw := by simp [Inst.evals]
  simp only
  rw [hlen, if_neg (by rw [h.k]; simp; omega), hσ1]
  refine ⟨_, rfl, ?_, ?_⟩
  · rw [toPoly_dAdd, toPoly_mulScalar, toPoly_mulScalar, h.z, hσ2, h.k,
      foldl_mul (fun x : F × F => x.1 + ch.β * x.2 * ch.ζ + ch.γ),
      foldl_mul (fun x : F × F => x.1 + ch.β * x.2 + ch.γ)]
    simp only [Inst.evals, map_range_take _ _ _ (Nat.sub_le _ _), zip_map_range, List.map_map]
    unfold Inst.coeffZ Inst.coeffσ
    rw [← map_range_prod, ← map_range_prod]
    have e1 : ((fun x : F × F => x.1 + ch.β * x.2 * ch.ζ + ch.γ) ∘ fun i => (c.w i, I.k i)) =
        fun i => ch.β * I.k i * ch.ζ + ch.γ + c.w i := by
      funext i
      simp only [Function.comp_apply]
      ring
    have e2 : ((fun x : F × F => x.1 + ch.β * x.2 + ch.γ) ∘ fun i => (c.w i, c.σ i)) =
        fun i => ch.β * c.σ i + ch.γ + c.w i := by
      funext i
      simp only [Function.comp_apply]
      ring
    rw [e1, e2]
    congr 3
    ring
  · exact dAdd_length_le ((mulScalar_length _ _).trans hz)
      ((mulScalar_length _ _).trans (hσ σ (List.mem_of_getElem? hσ1)))

include h2 in
theorem linLookupPoly_ok {o : LkRun F G} {l : LkPolys F} {τ : F} (hτ : ch.τ = some τ) (hl : I.lookup = some l)
    (hp : toPoly o.prod = l.prod) (hh : toPoly o.h2 = l.h2) (hp' : o.prod.length ≤ N) (hh' : o.h2.length ≤ N) :
    ∃ p, linLookupPoly d ch.τ ch.α ch.β ch.γ ch.ζ (I.evals c).wires c.lk o = .ok p ∧
      toPoly p = I.linLk c d ch τ ((lag d 0).eval ch.ζ) ((lag d (d.size - 1)).eval ch.ζ) l ∧
      p.length ≤ N := by
  have hL : ∀ i, L d i = lag d i := fun _ => rfl
  have hw : (I.evals c).wires = [c.w 0, c.w 1, c.w 2, c.w 3, c.w 4, c.w 5] := by
    have : I.nw = 6 := by simp [Inst.nw, hl]
    simp only [Inst.evals, this]
    rfl
  unfold linLookupPoly
  rw [C57_first_and_last hd.prim hd.off h2, hτ, hw, hL, hL]
  refine ⟨_, rfl, ?_, ?_⟩
  · rw [toPoly_dAdd, toPoly_mulScalar, toPoly_mulScalar, hp, hh]
    unfold Inst.linLk
    congr 3 <;> ring
  · exact dAdd_length_le ((mulScalar_length _ _).trans hp') ((mulScalar_length _ _).trans hh')

/-- the lengths of the polynomials of a run -/
def RunLen (N : ℕ) (r : Run F G G2) : Prop :=
  (∀ q ∈ r.wires, q.length ≤ N) ∧ (∀ q ∈ r.pk.sigmas, q.length ≤ N) ∧ (∀ q ∈ r.pk.selectors, q.length ≤ N) ∧
    r.z.length ≤ N ∧ (∀ o, r.lk = some o → o.h1.length ≤ N ∧ o.h2.length ≤ N ∧ o.prod.length ≤ N) ∧
    ∀ a, r.pk.lookup = some a → a.range.length ≤ N ∧ a.key.length ≤ N ∧ a.tableDomSep.length ≤ N ∧
      a.qDomSep.length ≤ N

include h2 in
theorem linInstancePoly_ok (hN : RunLen N r) {τ : F} (hτ : I.lookup.isSome → ch.τ = some τ) (base : F) :
    ∃ p, linInstancePoly d base ch.τ ch.α ch.β ch.γ ch.ζ r (I.evals c) (I.lookup.map (fun _ => c.lk)) = .ok p ∧
      toPoly p = C base * I.lin c d ch τ ((lag d 0).eval ch.ζ) ((lag d (d.size - 1)).eval ch.ζ) ∧
      p.length ≤ N := by
  obtain ⟨-, n1, n2, n3, n4, -⟩ := hN
  have hn := I.nw_pos
  have hw : ∀ i < 5, (I.evals c).wires.getD i 0 = c.w i := by
    intro i hi
    rw [List.getD_eq_getElem?_getD]
    simp only [Inst.evals]
    rw [getElem?_map_range _ _ _ (by omega)]
    rfl
  obtain ⟨c1, c2⟩ := linCircuit_ok h c hw n2
  obtain ⟨q, p1, p2, p3⟩ := linPerm_ok hd h c ch n3 n1
  unfold linInstancePoly
  rw [p1]
  rcases h.lookup.cases with ⟨-, e2, e3⟩ | ⟨a, o, l, e1, e2, e3, -, h5, h6, h7⟩
  · rw [e3, e2]
    refine ⟨_, rfl, ?_, ?_⟩
    · rw [toPoly_mulScalar, toPoly_dAdd, c1, p2]
      unfold Inst.lin
      rw [e3]
      ring
    · exact (mulScalar_length _ _).trans (dAdd_length_le c2 p3)
  · obtain ⟨m1, m2, m3⟩ := n4 o e2
    obtain ⟨k, k1, k2, k3⟩ := linLookupPoly_ok hd h2 h c ch (hτ (by simp [e3])) e3 h7 h6 m3 m2
    rw [e3, e2]
    simp only [Option.map_some, bind, Except.bind, k1]
    refine ⟨_, rfl, ?_, ?_⟩
    · rw [toPoly_mulScalar, toPoly_dAdd, toPoly_dAdd, c1, p2, k2]
      unfold Inst.lin
      rw [e3]
      ring
    · exact (mulScalar_length _ _).trans (dAdd_length_le (dAdd_length_le c2 p3) k3)

end lin

theorem linPolyLoop_ok {d : Domain F} (hd : Good d) (h2 : d.size ≠ 1) (ch : Chal F) {τ : F} {N : ℕ} {b : Bool}
    {rs : List (Run F G G2)} {Is : List (Inst F)} (hr : List.Forall₂ (PolysAre d) rs Is)
    (hN : ∀ r ∈ rs, RunLen N r) (hb : ∀ I ∈ Is, I.lookup.isSome = b)
    (hτ : ∀ I ∈ Is, I.lookup.isSome → ch.τ = some τ) (base : F) {acc : List F} (hacc : acc.length ≤ N) :
    ∃ p, linPolyLoop d ch.τ ch.α ch.β ch.γ ch.ζ (rs.zip ((Is.map (fun I => I.evals (truth d ch.ζ I))).zip
        (Is.map (fun I => I.lookup.map (fun _ => (truth d ch.ζ I).lk))))) base acc = .ok p ∧
      toPoly p = toPoly acc + (List.zipWith (fun (x : Inst F × Claims F) b => C b *
        x.1.lin x.2 d ch τ ((lag d 0).eval ch.ζ) ((lag d (d.size - 1)).eval ch.ζ))
        (Is.map (fun I => (I, truth d ch.ζ I)))
        ((List.range Is.length).map (fun j => base * (ch.α ^ (if b then 7 else 3)) ^ j))).sum ∧
      p.length ≤ N := by
  induction hr generalizing base acc with
  | nil => exact ⟨acc, rfl, by simp, hacc⟩
  | @cons r I rs Is hrI hrs ih =>
    obtain ⟨p, h3, h4, h5⟩ := linInstancePoly_ok hd h2 hrI (truth d ch.ζ I) ch (hN r (by simp))
      (hτ I (by simp)) base
    simp only [List.map_cons, List.zip_cons_cons]
    rw [linPolyLoop, h3]
    simp only
    have hstep : (if (I.lookup.map (fun _ => (truth d ch.ζ I).lk)).isSome then (ch.α ^ 2 * ch.α) ^ 2 * ch.α
        else ch.α ^ 2 * ch.α) = ch.α ^ (if b then 7 else 3) := by
      rw [Option.isSome_map, hb I (by simp)]
      cases b <;> simp <;> ring
    rw [hstep]
    obtain ⟨q, h6, h7, h8⟩ := ih (fun r hr => hN r (by simp [hr])) (fun J hJ => hb J (by simp [hJ]))
      (fun J hJ => hτ J (by simp [hJ])) (base * ch.α ^ (if b then 7 else 3)) (dAdd_length_le hacc h5)
    refine ⟨q, h6, ?_, h8⟩
    rw [h7, toPoly_dAdd, h4, List.length_cons, List.range_succ_eq_map, List.map_cons, List.map_map,
      List.zipWith_cons_cons, List.sum_cons, pow_zero, mul_one, add_assoc]
    congr 4
    refine List.map_congr_left fun j _ => ?_
    simp only [Function.comp_apply, Nat.succ_eq_add_one]
    rw [pow_succ]
    ring

theorem linQuotLoop_ok (step : F) {N : ℕ} : ∀ (ps : List (List F)) (coeff : F) (acc : List F),
    acc.length ≤ N → (∀ p ∈ ps, p.length ≤ N) →
    toPoly (linQuotLoop step coeff acc ps) = toPoly acc + C (coeff * step) * combine (C step) (ps.map toPoly) ∧
      (linQuotLoop step coeff acc ps).length ≤ N := by
  intro ps
  induction ps with
  | nil => intro coeff acc hacc _; exact ⟨by simp [linQuotLoop, combine], hacc⟩
  | cons p ps ih =>
    intro coeff acc hacc hp
    rw [linQuotLoop]
    obtain ⟨h1, h2⟩ := ih (coeff * step) (dAdd acc (mulScalar (coeff * step) p))
      (dAdd_length_le hacc ((mulScalar_length _ _).trans (hp p (by simp)))) (fun q hq => hp q (by simp [hq]))
    refine ⟨?_, h2⟩
    rw [h1, toPoly_dAdd, toPoly_mulScalar, List.map_cons, combine]
    simp only [C_mul]
    ring

theorem linQuot_ok {d : Domain F} (ho : d.offset = 1) (ζ : F) {ts : List (List F)} (hts : ts ≠ []) {N : ℕ}
    (hN : ∀ t ∈ ts, t.length ≤ N) :
    ∃ p, linQuot d.size ζ ts = .ok p ∧ toPoly p = C (-vanishing d ζ) *
      combine (C ((1 + vanishing d ζ) * ζ * ζ)) (ts.map toPoly) ∧ p.length ≤ N := by
  have hZ : vanishing d ζ = ζ ^ d.size - 1 := by rw [vanishing, ho, one_pow]
  obtain _ | ⟨t, ts⟩ := ts
  · exact absurd rfl hts
  obtain ⟨h1, h2⟩ := linQuotLoop_ok ((ζ ^ d.size - 1 + 1) * ζ * ζ) ts 1 t (hN t (by simp))
    (fun q hq => hN q (by simp [hq]))
  refine ⟨_, rfl, ?_, (mulScalar_length _ _).trans h2⟩
  rw [toPoly_mulScalar, h1, hZ, List.map_cons, combine, one_mul, add_comm 1]

/-! ## Opening proofs -/

theorem batchPolys_ok (v : F) {N : ℕ} : ∀ (ps : List (List F)) (c : F) (acc : List F),
    acc.length ≤ N → (∀ p ∈ ps, p.length ≤ N) →
    toPoly (batchPolys v c acc ps) = toPoly acc + C c * combine (C v) (ps.map toPoly) ∧
      (batchPolys v c acc ps).length ≤ N := by
  intro ps
  induction ps with
  | nil => intro c acc hacc _; exact ⟨by simp [batchPolys, combine], hacc⟩
  | cons p ps ih =>
    intro c acc hacc hp
    rw [batchPolys]
    obtain ⟨h1, h2⟩ := ih (c * v) (dAdd acc (mulScalar c p))
      (dAdd_length_le hacc ((mulScalar_length _ _).trans (hp p (by simp)))) (fun q hq => hp q (by simp [hq]))
    refine ⟨?_, h2⟩
    rw [h1, toPoly_dAdd, toPoly_mulScalar, List.map_cons, combine, C_mul]
    ring

/-- the items opened at one of the two points -/
noncomputable def opened (t : Bool) (l : List (Bool × F[X] × F)) : List F[X] :=
  (l.filter (fun x => x.1 == t)).map (fun x => x.2.1)

theorem opened_append (t : Bool) (l l' : List (Bool × F[X] × F)) :
    opened t (l ++ l') = opened t l ++ opened t l' := by simp [opened]

theorem parts_opened (v : F) (l : List (Bool × F[X] × F)) (a b : F) :
    (∃ c, C a * combine (C v) (opened false l) = (parts v l a b).1 + C c) ∧
      ∃ c, C b * combine (C v) (opened true l) = (parts v l a b).2 + C c := by
  induction l generalizing a b with
  | nil => exact ⟨⟨0, by simp [parts, opened, combine]⟩, 0, by simp [parts, opened, combine]⟩
  | cons x l ih =>
    obtain ⟨t, p, y⟩ := x
    cases t
    · obtain ⟨⟨c1, h1⟩, c2, h2⟩ := ih (a * v) b
      have e1 : opened false ((false, p, y) :: l) = p :: opened false l := by simp [opened]
      have e2 : opened true ((false, p, y) :: l) = opened true l := by simp [opened]
      rw [e1, e2]
      refine ⟨⟨c1 + a * y, ?_⟩, c2, h2⟩
      simp only [parts, combine, C_add, C_mul]
      rw [C_mul] at h1
      linear_combination h1
    · obtain ⟨⟨c1, h1⟩, c2, h2⟩ := ih a (b * v)
      have e1 : opened true ((true, p, y) :: l) = p :: opened true l := by simp [opened]
      have e2 : opened false ((true, p, y) :: l) = opened false l := by simp [opened]
      rw [e1, e2]
      refine ⟨⟨c1, h1⟩, c2 + b * y, ?_⟩
      simp only [parts, combine, C_add, C_mul]
      rw [C_mul] at h2
      linear_combination h2

theorem openPolys_ok {d : Domain F} {r : Run F G G2} {I : Inst F} (h : PolysAre d r I) (c : Claims F) :
    (openPolys r).map toPoly = opened false (I.items c) ∧ (shiftedPolys r).map toPoly = opened true (I.items c) := by
  have hσl := map_toPoly_length h.sigmas
  have e0 : (r.pk.sigmas.take (r.pk.sigmas.length - 1)).map toPoly = (List.range (I.nw - 1)).map I.σ := by
    rw [List.map_take, h.sigmas, hσl, map_range_take _ _ _ (Nat.sub_le _ _)]
  have f1 : ∀ (n : ℕ) (P : ℕ → F[X]) (y : ℕ → F), opened false ((List.range n).map (fun i => (false, P i, y i))) =
      (List.range n).map P := by
    intro n P y
    unfold opened
    rw [List.filter_eq_self.2 (by simp), List.map_map]
    rfl
  have f2 : ∀ (n : ℕ) (P : ℕ → F[X]) (y : ℕ → F), opened true ((List.range n).map (fun i => (false, P i, y i))) =
      [] := by
    intro n P y
    unfold opened
    rw [List.filter_eq_nil_iff.2 (by simp), List.map_nil]
  unfold openPolys shiftedPolys Inst.items
  rcases h.lookup.cases with ⟨e1, e2, e3⟩ | ⟨a, o, l, e1, e2, e3, ⟨h1, h2, h3, h4⟩, h5, h6, h7⟩
  · rw [e1, e2, e3]
    simp only [List.map_append, opened_append, f1, f2, h.wires, e0, List.map_cons, List.map_nil, h.z]
    simp [opened]
  · obtain ⟨q, -, hq, hq'⟩ := selectors_last h e3
    have hnw : I.nw = 6 := by simp [Inst.nw, e3]
    rw [e1, e2, e3, hq]
    simp only [List.map_append, opened_append, f1, f2, h.wires, e0, List.map_cons, List.map_nil, h.z, h1, h2, h3, h4,
      h5, h6, h7, hq', map_toPoly_get h.wires (show 3 < I.nw by omega), map_toPoly_get h.wires (show 4 < I.nw by omega)]
    simp [opened]

theorem openPolys_length {r : Run F G G2} {N : ℕ} (h : RunLen N r) :
    (∀ p ∈ openPolys r, p.length ≤ N) ∧ ∀ p ∈ shiftedPolys r, p.length ≤ N := by
  obtain ⟨n0, n1, n2, n3, n4, n5⟩ := h
  have hlast : (r.pk.selectors.getLastD []).length ≤ N := by
    rw [List.getLastD_eq_getLast?]
    cases e : r.pk.selectors.getLast? with
    | none => simp
    | some q => exact n2 q (List.mem_of_getLast? e)
  have hw : ∀ i, (r.wires.getD i []).length ≤ N := by
    intro i
    rw [List.getD_eq_getElem?_getD]
    cases e : r.wires[i]? with
    | none => simp
    | some q => exact n0 q (List.mem_of_getElem? e)
  unfold openPolys shiftedPolys
  constructor
  · intro p hp
    rw [List.mem_append, List.mem_append] at hp
    rcases hp with (hp | hp) | hp
    · exact n0 p hp
    · exact n1 p (List.mem_of_mem_take hp)
    · cases e1 : r.pk.lookup with
      | none => rw [e1] at hp; simp at hp
      | some a =>
        cases e2 : r.lk with
        | none => rw [e1, e2] at hp; simp at hp
        | some o =>
          rw [e1, e2] at hp
          obtain ⟨m1, m2, m3⟩ := n4 o e2
          obtain ⟨k1, k2, k3, k4⟩ := n5 a e1
          simp only [List.mem_cons, List.not_mem_nil, or_false] at hp
          rcases hp with rfl | rfl | rfl | rfl | rfl | rfl <;> assumption
  · intro p hp
    rw [List.mem_cons] at hp
    rcases hp with rfl | hp
    · exact n3
    · cases e1 : r.pk.lookup with
      | none => rw [e1] at hp; simp at hp
      | some a =>
        cases e2 : r.lk with
        | none => rw [e1, e2] at hp; simp at hp
        | some o =>
          rw [e1, e2] at hp
          obtain ⟨m1, m2, m3⟩ := n4 o e2
          obtain ⟨k1, k2, k3, k4⟩ := n5 a e1
          simp only [List.mem_cons, List.not_mem_nil, or_false] at hp
          rcases hp with rfl | rfl | rfl | rfl | rfl | rfl | rfl | rfl | rfl
          · exact m3
          · exact k1
          · exact k2
          · exact m1
          · exact m2
          · exact hlast
          · exact hw 3
          · exact hw 4
          · exact k3

theorem allOpened {d : Domain F} {ζ : F} {rs : List (Run F G G2)} {Is : List (Inst F)}
    (hr : List.Forall₂ (PolysAre d) rs Is) :
    ((rs.map openPolys).flatten).map toPoly = opened false (allItems (Is.map (fun I => (I, truth d ζ I)))) ∧
      ((rs.map shiftedPolys).flatten).map toPoly = opened true (allItems (Is.map (fun I => (I, truth d ζ I)))) := by
  induction hr with
  | nil => simp [opened, allItems]
  | @cons r I rs Is hrI hrs ih =>
    obtain ⟨h1, h2⟩ := openPolys_ok hrI (truth d ζ I)
    have e : allItems ((I :: Is).map (fun I => (I, truth d ζ I))) =
        I.items (truth d ζ I) ++ allItems (Is.map (fun I => (I, truth d ζ I))) := by
      simp [allItems]
    rw [e, opened_append, opened_append]
    simp only [List.map_cons, List.flatten_cons, List.map_append, h1, h2, ih.1, ih.2, and_self]

end Verif.Plonk
