import Verif.Plonk.VerifierLemmas
import Mathlib.LinearAlgebra.Dual.Lemmas

/-!
# C58, C59: what the PLONK verifier checks

An instance is given by polynomials (`Inst`), its constraints are written down in
`Plonk/ConstraintSpec.lean` without reference to the verifier.  A proof consists of commitments to
polynomials and of claimed values.  The verifier is run on the polynomials themselves in place of
commitments (`Holds`) and on KZG commitments.
-/

set_option linter.unusedSectionVars false

namespace Verif.Props.Verifier

open Verif.Circuit Verif.Pcs Verif.Plonk Polynomial
open Verif.Props.Lagrange

variable {F G G2 GT : Type} [Field F] [DecidableEq F] [DecidableEq F[X]]
  [AddCommGroup G] [Module F G] [DecidableEq G] [AddCommGroup G2] [Module F G2]
  [AddCommGroup GT] [Module F GT] [DecidableEq GT]

/-- The assumptions: a domain with at least two points, at least one instance, at least one part of the
quotient, polynomials of the public inputs, and the challenge of the lookup tables if there is a lookup
table. -/
structure Setting (d : Domain F) (ch : Chal F) (τ : F) (Is : List (Inst F × Claims F)) (ts : List F[X]) :
    Prop where
  prim : IsPrimitiveRoot d.gen d.size
  offset : d.offset = 1
  size : d.size ≠ 1
  instances : Is ≠ []
  inputs : ∀ x ∈ Is, IsInputs d x.1.merged x.1.inputs x.1.pi
  tau : ∀ x ∈ Is, x.1.lookup.isSome → ch.τ = some τ
  quot : ts ≠ []

/-- what it means for polynomials that an opening is correct -/
def Opens (info : PcsInfo F F[X]) : Prop :=
  (X - C info.point) * info.opening + C info.u * ((X - C info.nextPoint) * info.shifted) =
    info.comm.msm - C info.eval

/-- what the verifier computes when the polynomials are their own commitments -/
noncomputable def onPolynomials (d : Domain F) (ch : Chal F) (Is : List (Inst F × Claims F))
    (ts : List F[X]) (W W' : F[X]) : Except VErr (PcsInfo F F[X]) :=
  prepare d (Is.map (fun x => x.1.key LinearMap.id d (⟨0, 0, 0, [], []⟩ : VerifierParam F[X] F)))
    (Is.map (fun x => x.1.inputs)) (proof LinearMap.id Is ts W W') ch

/-- the verifier's equation holds for the polynomials -/
def Holds (d : Domain F) (ch : Chal F) (Is : List (Inst F × Claims F)) (ts : List F[X]) (W W' : F[X]) :
    Prop :=
  ∃ info, onPolynomials d ch Is ts W W' = .ok info ∧ Opens info

/-- the combination of the constraints of all instances -/
noncomputable def combined (d : Domain F) (τ α β γ : F) (Is : List (Inst F)) : F[X] :=
  batch d τ α β γ Is (alphaBases α (firstLookup Is) Is.length)

/-- a KZG commitment -/
noncomputable def kzg (x : F) (g : G) : F[X] →ₗ[F] G where
  toFun p := p.eval x • g
  map_add' p q := by rw [eval_add, add_smul]
  map_smul' a p := by rw [eval_smul, smul_eq_mul, mul_smul]; rfl

theorem onPolynomials_ok {d : Domain F} {ch : Chal F} {τ : F} {Is : List (Inst F × Claims F)}
    {ts : List F[X]} (hs : Setting d ch τ Is ts) (W W' : F[X]) :
    ∃ info, onPolynomials d ch Is ts W W' = .ok info ∧ info.u = ch.u ∧ info.point = ch.ζ ∧
      info.nextPoint = ch.ζ * d.gen ∧ info.opening = W ∧ info.shifted = W' ∧
      info.comm.msm - C info.eval = residue d ch τ Is ts +
          ((parts ch.v (allItems Is) ch.v 1).1 + C ch.u * (parts ch.v (allItems Is) ch.v 1).2) := by
  obtain ⟨info, h1, h2, h3, h4, h5, h6, h7⟩ := prepare_ok LinearMap.id hs.prim hs.offset hs.size ch τ Is
    hs.instances hs.inputs hs.tau ts hs.quot W W' (⟨0, 0, 0, [], []⟩ : VerifierParam F[X] F)
  refine ⟨info, h1, h2, h3, h4, h5, h6, ?_⟩
  rw [LinearMap.id_apply, LinearMap.id_apply, smul_eq_C_mul, mul_one] at h7
  exact h7

theorem holds_iff {d : Domain F} {ch : Chal F} {τ : F} {Is : List (Inst F × Claims F)}
    {ts : List F[X]} (hs : Setting d ch τ Is ts) (W W' : F[X]) :
    Holds d ch Is ts W W' ↔
      (X - C ch.ζ) * W + C ch.u * ((X - C (ch.ζ * d.gen)) * W') = residue d ch τ Is ts +
          ((parts ch.v (allItems Is) ch.v 1).1 + C ch.u * (parts ch.v (allItems Is) ch.v 1).2) := by
  obtain ⟨info, h1, h2, h3, h4, h5, h6, h7⟩ := onPolynomials_ok hs W W'
  unfold Holds Opens
  constructor
  · rintro ⟨info', h, h'⟩
    obtain rfl : info = info' := by
      rw [h1] at h
      exact Except.ok.inj h
    rwa [h2, h3, h4, h5, h6, h7] at h'
  · intro h
    exact ⟨info, h1, by rw [h2, h3, h4, h5, h6, h7]; exact h⟩

theorem Setting.with {d : Domain F} {ch : Chal F} {τ : F} {Is : List (Inst F × Claims F)}
    {ts : List F[X]} (hs : Setting d ch τ Is ts) (v u : F) : Setting d { ch with v := v, u := u } τ Is ts :=
  ⟨hs.prim, hs.offset, hs.size, hs.instances, hs.inputs, hs.tau, hs.quot⟩

/-- C59, soundness: given the polynomials and the claims, if the verifier's equation can be met, for two
different last challenges, for more than 27 challenges `v` per instance, then all claims are true and the
combined constraints are the vanishing polynomial times the quotient, at the evaluation point. -/
theorem C59_sound {d : Domain F} {ch : Chal F} {τ : F} {Is : List (Inst F × Claims F)}
    {ts : List F[X]} (hs : Setting d ch τ Is ts) (V : Finset F) (hV : 27 * Is.length < V.card)
    (h : ∀ v ∈ V, ∃ W W' : F[X], ∃ u₁ u₂ : F, u₁ ≠ u₂ ∧
      Holds d { ch with v := v, u := u₁ } Is ts W W' ∧ Holds d { ch with v := v, u := u₂ } Is ts W W') :
    (∀ x ∈ Is, x.1.True x.2 d ch.ζ) ∧
      (combined d τ ch.α ch.β ch.γ (Is.map (·.1))).eval ch.ζ =
        (ch.ζ ^ d.size - 1) * (joinQuot d ts).eval ch.ζ := by
  have key : ∀ v ∈ V, (residue d ch τ Is ts).eval ch.ζ +
        v * combine v (diffs ch.ζ false (allItems Is)) = 0 ∧
      combine v (diffs (ch.ζ * d.gen) true (allItems Is)) = 0 := by
    intro v hv
    obtain ⟨W, W', u₁, u₂, hu, h1, h2⟩ := h v hv
    rw [holds_iff (hs.with v u₁)] at h1
    rw [holds_iff (hs.with v u₂)] at h2
    simp only at h1 h2
    have e : ∀ u, residue d { ch with v := v, u := u } τ Is ts = residue d ch τ Is ts := fun _ => rfl
    rw [e] at h1 h2
    have hu' : C (u₁ - u₂) ≠ (0 : F[X]) := by
      rw [Ne, C_eq_zero, sub_eq_zero]; exact hu
    have h3 : (X - C (ch.ζ * d.gen)) * W' = (parts v (allItems Is) v 1).2 := by
      refine mul_left_cancel₀ hu' ?_
      rw [C_sub]
      linear_combination h1 - h2
    have h4 : (X - C ch.ζ) * W = residue d ch τ Is ts + (parts v (allItems Is) v 1).1 := by
      linear_combination h1 - C u₁ * h3
    have h5 := congrArg (eval ch.ζ) h4
    have h6 := congrArg (eval (ch.ζ * d.gen)) h3
    rw [eval_add, (parts_diffs v _ _ v 1).1] at h5
    rw [(parts_diffs v _ _ v 1).2] at h6
    simp at h5 h6
    exact ⟨h5.symm, h6.symm⟩
  have hlen := allItems_length Is
  have hA : ∀ c ∈ (residue d ch τ Is ts).eval ch.ζ :: diffs ch.ζ false (allItems Is), c = 0 := by
    refine combine_zero V ?_ fun v hv => (key v hv).1
    have := diffs_length ch.ζ false (allItems Is)
    rw [List.length_cons]
    omega
  have hB : ∀ c ∈ diffs (ch.ζ * d.gen) true (allItems Is), c = 0 := by
    refine combine_zero V ?_ fun v hv => (key v hv).2
    have := diffs_length (ch.ζ * d.gen) true (allItems Is)
    omega
  have hT : ∀ x ∈ Is, x.1.True x.2 d ch.ζ := by
    intro x hx
    rw [← items_true]
    intro y hy
    have hmem : y ∈ allItems Is := List.mem_flatMap.2 ⟨x, hx, hy⟩
    obtain ⟨t, p, z⟩ := y
    cases t
    · have := hA (p.eval ch.ζ - z) (List.mem_cons_of_mem _ (List.mem_map.2 ⟨(false, p, z),
        List.mem_filter.2 ⟨hmem, rfl⟩, rfl⟩))
      simpa using (sub_eq_zero.1 this).symm
    · have := hB (p.eval (ch.ζ * d.gen) - z) (List.mem_map.2 ⟨(true, p, z),
        List.mem_filter.2 ⟨hmem, rfl⟩, rfl⟩)
      simpa using (sub_eq_zero.1 this).symm
  refine ⟨hT, ?_⟩
  have hR := hA _ List.mem_cons_self
  rw [residue_eval hs.prim hs.offset ch τ Is hT ts, sub_eq_zero] at hR
  unfold combined
  rw [List.length_map]
  exact hR

/-- C59, completeness: if the claims are true and the combined constraints are the vanishing polynomial times
the quotient, at the evaluation point, then there are opening proofs that satisfy the verifier's equation
for all last challenges. -/
theorem C59_complete {d : Domain F} {ch : Chal F} {τ : F} {Is : List (Inst F × Claims F)}
    {ts : List F[X]} (hs : Setting d ch τ Is ts) (hc : ∀ x ∈ Is, x.1.True x.2 d ch.ζ)
    (he : (combined d τ ch.α ch.β ch.γ (Is.map (·.1))).eval ch.ζ =
      (ch.ζ ^ d.size - 1) * (joinQuot d ts).eval ch.ζ) :
    ∃ W W' : F[X], ∀ u, Holds d { ch with u := u } Is ts W W' := by
  have hT : ∀ x ∈ allItems Is, x.2.2 = x.2.1.eval (if x.1 then ch.ζ * d.gen else ch.ζ) := by
    intro y hy
    obtain ⟨x, hx, hy⟩ := List.mem_flatMap.1 hy
    exact (items_true x.1 x.2 d ch.ζ).2 (hc x hx) y hy
  obtain ⟨hA, hB⟩ := parts_eval ch.ζ (ch.ζ * d.gen) ch.v (allItems Is) hT ch.v 1
  have hR := residue_eval hs.prim hs.offset ch τ Is hc ts
  unfold combined at he
  rw [List.length_map] at he
  rw [he, sub_self] at hR
  have h1 : (residue d ch τ Is ts + (parts ch.v (allItems Is) ch.v 1).1).IsRoot ch.ζ := by
    rw [IsRoot, eval_add, hR, hA, add_zero]
  obtain ⟨W, hW⟩ := dvd_iff_isRoot.2 h1
  obtain ⟨W', hW'⟩ := dvd_iff_isRoot.2 (show IsRoot _ _ from hB)
  refine ⟨W, W', fun u => ?_⟩
  rw [holds_iff (hs.with ch.v u)]
  have e : residue d { ch with u := u } τ Is ts = residue d ch τ Is ts := rfl
  simp only
  rw [e, ← hW, ← hW']
  ring

private theorem kzg_opening (e : G →ₗ[F] G2 →ₗ[F] GT) (hash : List F → F) (x : F) (ok : VerifierParam G G2)
    (hx : ok.betaH = x • ok.h) (he : e ok.g ok.h ≠ 0) {info : PcsInfo F G} {u z z' : F} {W W' Q : F[X]}
    (h1 : info.u = u) (h2 : info.point = z) (h3 : info.nextPoint = z') (h4 : info.opening = kzg x ok.g W)
    (h5 : info.shifted = kzg x ok.g W')
    (h6 : info.comm.msm - info.eval • kzg x ok.g 1 = kzg x ok.g Q) :
    batchVerifyOpening e hash ok [info] =
      decide (((X - C z) * W + C u * ((X - C z') * W')).eval x = Q.eval x) := by
  unfold batchVerifyOpening innerA innerB
  simp only [innerA, innerB]
  refine decide_eq_decide.2 ?_
  simp only [sb_push, sb_merge, sb_msm_nil, h1, h2, h3, h4, h5]
  have hk : ∀ p : F[X], kzg x ok.g p = p.eval x • ok.g := fun _ => rfl
  have h7 : info.comm.msm = Q.eval x • ok.g + info.eval • ok.g := by
    rw [hk, hk, eval_one, one_smul] at h6
    rw [← h6]
    abel
  rw [h7]
  simp only [hk, hx, eval_add, eval_mul, eval_sub, eval_X, eval_C]
  have : e (0 + (1 : F) • W.eval x • ok.g + (1 * u) • W'.eval x • ok.g) (x • ok.h) +
      e (-(0 + (1 : F) • (Q.eval x • ok.g + info.eval • ok.g) + (1 * z) • W.eval x • ok.g +
        (1 * u * z') • W'.eval x • ok.g + (-(0 + 1 * info.eval)) • ok.g)) ok.h =
      ((x - z) * W.eval x + u * ((x - z') * W'.eval x) - Q.eval x) • e ok.g ok.h := by
    simp only [map_add, map_neg, map_smul, LinearMap.add_apply, LinearMap.neg_apply, LinearMap.smul_apply,
      map_zero, LinearMap.zero_apply]
    module
  rw [this, smul_eq_zero, or_iff_left he, sub_eq_zero]

/-- C59: on KZG commitments the verifier's answer is the equation for the polynomials, at the secret point. -/
theorem C59_kzg {d : Domain F} {ch : Chal F} {τ : F} {Is : List (Inst F × Claims F)}
    {ts : List F[X]} (hs : Setting d ch τ Is ts) (W W' : F[X])
    (newDom : ℕ → Option (Domain F)) (hd : newDom d.size = some d)
    (e : G →ₗ[F] G2 →ₗ[F] GT) (hash : List F → F) (x : F) (ok : VerifierParam G G2)
    (hx : ok.betaH = x • ok.h) (he : e ok.g ok.h ≠ 0) :
    ∃ info, onPolynomials d ch Is ts W W' = .ok info ∧
      verifyBatch newDom e hash (fun _ _ _ => ch) (Is.map (fun y => y.1.key (kzg x ok.g) d ok))
          (Is.map (fun y => y.1.inputs)) (proof (kzg x ok.g) Is ts W W') =
        .ok (decide (((X - C info.point) * info.opening +
          C info.u * ((X - C info.nextPoint) * info.shifted)).eval x =
            (info.comm.msm - C info.eval).eval x)) := by
  obtain ⟨info, h1, h2, h3, h4, h5, h6, h7⟩ := onPolynomials_ok hs W W'
  refine ⟨info, h1, ?_⟩
  obtain ⟨info', k1, k2, k3, k4, k5, k6, k7⟩ := prepare_ok (kzg x ok.g) hs.prim hs.offset hs.size ch τ Is
    hs.instances hs.inputs hs.tau ts hs.quot W W' ok
  have hvk : ∃ vk l, Is.map (fun y => y.1.key (kzg x ok.g) d ok) = vk :: l ∧ vk.domSize = d.size ∧
      vk.openKey = ok := by
    obtain _ | ⟨I, Js⟩ := Is
    · exact absurd rfl hs.instances
    · exact ⟨_, _, rfl, rfl, rfl⟩
  obtain ⟨vk, l, hvk1, hvk2, hvk3⟩ := hvk
  unfold verifyBatch
  rw [hvk1]
  simp only
  unfold verifierDomain
  rw [hvk2, hd]
  simp only
  rw [← hvk1, k1]
  simp only
  rw [hvk3]
  rw [kzg_opening e hash x ok hx he k2 k3 k4 k5 k6 k7, h2, h3, h4, h5, h6, h7]

/-- C59: an honest prover convinces the verifier, whatever the last challenge. -/
theorem C59_accepted {d : Domain F} {ch : Chal F} {τ : F} {Is : List (Inst F × Claims F)}
    {ts : List F[X]} (hs : Setting d ch τ Is ts) (hc : ∀ x ∈ Is, x.1.True x.2 d ch.ζ)
    (hi : (combined d τ ch.α ch.β ch.γ (Is.map (·.1))).eval ch.ζ =
      (ch.ζ ^ d.size - 1) * (joinQuot d ts).eval ch.ζ)
    (newDom : ℕ → Option (Domain F)) (hd : newDom d.size = some d)
    (e : G →ₗ[F] G2 →ₗ[F] GT) (hash : List F → F) (x : F) (ok : VerifierParam G G2)
    (hx : ok.betaH = x • ok.h) (he : e ok.g ok.h ≠ 0) :
    ∃ W W' : F[X], ∀ u, verifyBatch newDom e hash (fun _ _ _ => { ch with u := u })
        (Is.map (fun y => y.1.key (kzg x ok.g) d ok)) (Is.map (fun y => y.1.inputs))
        (proof (kzg x ok.g) Is ts W W') = .ok true := by
  obtain ⟨W, W', h⟩ := C59_complete hs hc hi
  refine ⟨W, W', fun u => ?_⟩
  obtain ⟨info, h1, h2⟩ := C59_kzg (hs.with ch.v u) W W' newDom hd e hash x ok hx he
  obtain ⟨info', h3, h4⟩ := h u
  obtain rfl : info = info' := by
    rw [h1] at h3
    exact Except.ok.inj h3
  rw [h2, decide_eq_true]
  unfold Opens at h4
  rw [h4]

/-- C59: if the identity holds at more points than the degree, then it holds for the polynomials. -/
theorem C59_identity (d : Domain F) (τ α β γ : F) (Is : List (Inst F)) (ts : List F[X]) (S : Finset F)
    (hS : (combined d τ α β γ Is - (X ^ d.size - 1) * joinQuot d ts).natDegree < S.card)
    (h : ∀ ζ ∈ S, (combined d τ α β γ Is).eval ζ = (ζ ^ d.size - 1) * (joinQuot d ts).eval ζ) :
    combined d τ α β γ Is = (X ^ d.size - 1) * joinQuot d ts := by
  rw [← sub_eq_zero]
  refine eq_zero_of_natDegree_lt_card_of_eval_eq_zero' _ S (fun ζ hζ => ?_) hS
  simp [h ζ hζ]

/-! ## Several proofs -/

/-- the pairing equation of one opening -/
def single (e : G →ₗ[F] G2 →ₗ[F] GT) (k : VerifierParam G G2) (i : PcsInfo F G) : GT :=
  e (i.opening + i.u • i.shifted) k.betaH -
    e (i.comm.msm + i.point • i.opening + (i.u * i.nextPoint) • i.shifted - i.eval • k.g) k.h

private theorem inner_eq (e : G →ₗ[F] G2 →ₗ[F] GT) (k : VerifierParam G G2) (r : F)
    (l : List (PcsInfo F G)) (rb s : F) (a b : SB F G) :
    e (innerA r l rb a).msm k.betaH +
        e (-((innerB r l rb s b).2.push (-(innerB r l rb s b).1) k.g).msm) k.h =
      e a.msm k.betaH + e (-(b.push (-s) k.g).msm) k.h +
        (l.zipIdx.map (fun x => (rb * r ^ x.2) • single e k x.1)).sum := by
  induction l generalizing rb s a b with
  | nil => simp [innerA, innerB]
  | cons i l ih =>
    rw [innerA, innerB, ih]
    have hz : ((i :: l).zipIdx.map (fun x => (rb * r ^ x.2) • single e k x.1)).sum =
        rb • single e k i + (l.zipIdx.map (fun x => (rb * r * r ^ x.2) • single e k x.1)).sum := by
      rw [List.zipIdx_cons, List.map_cons, List.sum_cons, pow_zero, mul_one]
      congr 2
      rw [Nat.zero_add, List.zipIdx_eq_map_add, List.map_map]
      refine List.map_congr_left fun x _ => ?_
      simp only [Function.comp]
      rw [Nat.add_comm, pow_succ', mul_assoc]
    rw [hz]
    simp only [sb_push, sb_merge, single]
    simp only [map_add, map_neg, map_sub, map_smul, LinearMap.add_apply, LinearMap.neg_apply,
      LinearMap.smul_apply, LinearMap.sub_apply]
    module

/-- C59: several proofs are accepted together if and only if the combination of their equations with the
powers of the challenge holds. -/
theorem C59_batch_equation (e : G →ₗ[F] G2 →ₗ[F] GT) (hash : List F → F) (k : VerifierParam G G2)
    (l : List (PcsInfo F G)) :
    batchVerifyOpening e hash k l = true ↔
      (l.zipIdx.map (fun x => ((if l.length = 1 then 1 else hash (l.map (·.u))) ^ x.2) •
        single e k x.1)).sum = 0 := by
  unfold batchVerifyOpening
  simp only [decide_eq_true_eq]
  rw [inner_eq]
  simp [sb_push, sb_msm_nil]

/-- C59: several proofs accepted one by one are accepted together. -/
theorem C59_batch_complete (e : G →ₗ[F] G2 →ₗ[F] GT) (hash hash' : List F → F) (k : VerifierParam G G2)
    (l : List (PcsInfo F G)) (h : ∀ i ∈ l, batchVerifyOpening e hash k [i] = true) :
    batchVerifyOpening e hash' k l = true := by
  rw [C59_batch_equation]
  refine List.sum_eq_zero ?_
  intro y hy
  obtain ⟨⟨i, j⟩, hx, rfl⟩ := List.mem_map.1 hy
  have hi := h i (List.fst_mem_of_mem_zipIdx hx)
  rw [C59_batch_equation] at hi
  simp only [List.zipIdx_singleton, List.map_cons, List.map_nil, List.sum_cons, List.sum_nil, pow_zero,
    one_smul, add_zero] at hi
  simp only [hi, smul_zero]

private theorem sum_combine (f : GT →ₗ[F] F) (r : F) (g : PcsInfo F G → GT) (l : List (PcsInfo F G)) (n : ℕ) :
    f ((l.zipIdx n).map (fun x => (r ^ x.2) • g x.1)).sum = r ^ n * combine r (l.map (fun i => f (g i))) := by
  induction l generalizing n with
  | nil => simp [combine]
  | cons i l ih =>
    rw [List.zipIdx_cons, List.map_cons, List.sum_cons, map_add, ih, map_smul, List.map_cons, combine,
      smul_eq_mul]
    ring

/-- C59: if several proofs are accepted together for as many values of the challenge as there are proofs then
each of them is accepted. -/
theorem C59_batch_sound (e : G →ₗ[F] G2 →ₗ[F] GT) (hash : List F → F) (k : VerifierParam G G2)
    (l : List (PcsInfo F G)) (S : Finset F) (hS : l.length ≤ S.card)
    (h : ∀ r ∈ S, batchVerifyOpening e (fun _ => r) k l = true) :
    ∀ i ∈ l, batchVerifyOpening e hash k [i] = true := by
  intro i hi
  rw [C59_batch_equation]
  simp only [List.zipIdx_singleton, List.map_cons, List.map_nil, List.sum_cons, List.sum_nil, pow_zero,
    one_smul, add_zero]
  rw [← Module.forall_dual_apply_eq_zero_iff F]
  intro f
  by_cases hl : l.length = 1
  · obtain ⟨j, rfl⟩ := List.length_eq_one_iff.1 hl
    obtain rfl : i = j := by simpa using hi
    obtain ⟨r, hr⟩ := Finset.card_pos.1 (lt_of_lt_of_le (by simp) hS)
    have := h r hr
    rw [C59_batch_equation] at this
    simp only [List.zipIdx_singleton, List.map_cons, List.map_nil, List.sum_cons, List.sum_nil, pow_zero,
      one_smul, add_zero] at this
    rw [this, map_zero]
  · refine combine_zero (l := l.map (fun i => f (single e k i))) S (by simpa using hS) (fun r hr => ?_) _
      (List.mem_map.2 ⟨i, hi, rfl⟩)
    have := h r hr
    rw [C59_batch_equation, if_neg hl] at this
    have h2 := sum_combine f r (single e k) l 0
    rw [this, map_zero, pow_zero, one_mul] at h2
    exact h2.symm

/-! ## C58: the powers of the challenge -/

/-- The first instance has lookups, or no instance but the last has. -/
def Separate (Is : List (Inst F)) : Prop :=
  firstLookup Is = true ∨ ∀ I ∈ Is.dropLast, I.lookup = none

/-- C58: unless an instance without lookups comes first and one with lookups is followed by another one, the
combination vanishes for many challenges (at least seven per instance) only if every constraint of every
instance vanishes. -/
theorem C58_separate_partial (d : Domain F) (τ β γ : F) (Is : List (Inst F)) (hsep : Separate Is) (z : F)
    (S : Finset F) (hS : 7 * Is.length ≤ S.card)
    (h : ∀ α ∈ S, (combined d τ α β γ Is).eval z = 0) :
    ∀ I ∈ Is, ∀ c ∈ I.constraints d τ β γ, c.eval z = 0 := by
  by_cases hne : Is = []
  · subst hne; simp
  have hz : blocks (if firstLookup Is then 7 else 3)
      (Is.map (fun I => (I.constraints d τ β γ).map (·.eval z))) = 0 := by
    refine eq_zero_of_many_roots (n := 7 * Is.length) ?_ S hS fun α hα => ?_
    · have := blocks_degree (F := F) (if firstLookup Is then 7 else 3) 7 (by split <;> omega)
        (Is.map (fun I => (I.constraints d τ β γ).map (·.eval z))) ?_
      · rwa [List.length_map] at this
      · intro l hl
        obtain ⟨I, -, rfl⟩ := List.mem_map.1 hl
        rw [List.length_map, constraints_length]
        split <;> omega
    · rw [← batch_blocks d τ α β γ z Is hne]
      exact h α hα
  intro I hI c hc
  refine blocks_zero _ _ ?_ hz ((I.constraints d τ β γ).map (·.eval z)) (List.mem_map.2 ⟨I, hI, rfl⟩) _
    (List.mem_map.2 ⟨c, hc, rfl⟩)
  intro l hl
  rw [← List.map_dropLast] at hl
  obtain ⟨J, hJ, rfl⟩ := List.mem_map.1 hl
  rw [List.length_map, constraints_length]
  rcases hsep with hf | hf
  · rw [if_pos hf]
    split <;> omega
  · rw [hf J hJ]
    simp only [Option.isSome_none, Bool.false_eq_true, if_false]
    split <;> omega

/-- C58: batches of one kind are combined with separate powers. -/
theorem C58_homogeneous (d : Domain F) (τ β γ : F) (Is : List (Inst F)) (b : Bool)
    (hb : ∀ I ∈ Is, I.lookup.isSome = b) (z : F) (S : Finset F) (hS : 7 * Is.length ≤ S.card)
    (h : ∀ α ∈ S, (combined d τ α β γ Is).eval z = 0) :
    ∀ I ∈ Is, ∀ c ∈ I.constraints d τ β γ, c.eval z = 0 := by
  refine C58_separate_partial d τ β γ Is ?_ z S hS h
  cases b with
  | true =>
    obtain _ | ⟨I, Js⟩ := Is
    · exact .inr (by simp)
    · exact .inl (hb I (by simp))
  | false =>
    refine .inr fun I hI => ?_
    have := hb I (List.mem_of_mem_dropLast hI)
    cases hl : I.lookup with
    | none => rfl
    | some l => rw [hl] at this; cases this

/-- an instance with nothing to prove -/
noncomputable def idle (k : ℕ → F) (b : Bool) : Inst F where
  w := 0
  σ i := C (k i) * X
  q := 0
  k := k
  z := 1
  pi := 0
  inputs := []
  merged := false
  lookup := if b then some ⟨0, 0, 0, 0, 0, 0, 1⟩ else none

/-- the last gate is the equation `-1 = 0` -/
noncomputable def absurdGate (d : Domain F) (k : ℕ → F) (b : Bool) : Inst F :=
  { idle k b with q := fun i => if i = 11 then -lag d (d.size - 1) else 0 }

/-- the number one is looked up in the table with nothing but zero -/
noncomputable def absurdLookup (k : ℕ → F) : Inst F :=
  { idle k true with w := fun i => if i = 5 then 1 else 0, lookup := some ⟨0, 0, 0, 0, 1, 0, 1⟩ }

private theorem shift_one (d : Domain F) : Plonk.shift d 1 = 1 := by
  unfold Plonk.shift; simp

private theorem shift_zero (d : Domain F) : Plonk.shift d 0 = 0 := by
  unfold Plonk.shift; simp

private theorem idle_zero (d : Domain F) (k : ℕ → F) (b : Bool) (τ α β γ : F) :
    combine (C α) ((idle k b).constraints d τ β γ) = 0 := by
  have hp : (idle k b).perm d β γ = 0 := by
    simp [Inst.perm, idle, shift_one, mul_assoc]
  unfold Inst.constraints
  rw [hp]
  cases b
  · simp [combine, idle, Inst.gate, Inst.start]
  · simp only [idle, Inst.gate, Inst.start, Inst.lookupConstraints, Inst.table, Inst.looked, shift_one,
      shift_zero, combine, List.cons_append, List.nil_append, if_true, C_mul, C_add, C_1]
    simp [shift_zero]
    right
    right
    ring

private theorem absurdGate_eq (d : Domain F) (k : ℕ → F) (b : Bool) (τ α β γ : F) :
    combine (C α) ((absurdGate d k b).constraints d τ β γ) = -lag d (d.size - 1) := by
  have hp : (absurdGate d k b).perm d β γ = 0 := by
    simp [Inst.perm, absurdGate, idle, shift_one, mul_assoc]
  unfold Inst.constraints
  rw [hp]
  cases b
  · simp [combine, absurdGate, idle, Inst.gate, Inst.start]
  · simp only [absurdGate, idle, Inst.gate, Inst.start, Inst.lookupConstraints, Inst.table, Inst.looked,
      shift_one, shift_zero, combine, List.cons_append, List.nil_append, if_true, C_mul, C_add, C_1]
    simp [shift_zero]
    right
    right
    ring

private theorem absurdLookup_eq (d : Domain F) (k : ℕ → F) (τ α β γ : F) :
    combine (C α) ((absurdLookup k).constraints d τ β γ) = C (α ^ 3) * lag d (d.size - 1) := by
  have hp : (absurdLookup k).perm d β γ = 0 := by
    simp [Inst.perm, absurdLookup, idle, shift_one, mul_assoc]
  unfold Inst.constraints
  rw [hp]
  simp only [absurdLookup, idle, Inst.gate, Inst.start, Inst.lookupConstraints, Inst.table, Inst.looked,
    shift_one, shift_zero, combine, List.cons_append, List.nil_append, if_true, C_mul, C_add, C_1, C_pow]
  simp [shift_zero]
  ring

private theorem batch_append (d : Domain F) (τ α β γ : F) (A B : List (Inst F)) (a b : List F)
    (h : A.length = a.length) :
    batch d τ α β γ (A ++ B) (a ++ b) = batch d τ α β γ A a + batch d τ α β γ B b := by
  unfold batch
  rw [List.zipWith_append h, List.sum_append]

private theorem batch_idle (d : Domain F) (k : ℕ → F) (τ α β γ : F) (l : List Bool) (a : List F) :
    batch d τ α β γ (l.map (idle k)) a = 0 := by
  unfold batch
  refine List.sum_eq_zero fun x hx => ?_
  obtain ⟨i, hi, rfl⟩ := List.mem_iff_getElem.1 hx
  rw [List.getElem_zipWith, List.getElem_map, idle_zero, mul_zero]

/-- the batch: two circuits that cannot be satisfied among circuits with nothing to prove -/
noncomputable def mixed (d : Domain F) (k : ℕ → F) (a : List Bool) (b : Bool) (c : List Bool) :
    List (Inst F) :=
  (false :: a).map (idle k) ++ (absurdLookup k :: absurdGate d k b :: c.map (idle k))

/-- C58, the other batches: if an instance without lookups comes first and an instance with lookups is
followed by another one, then the powers of the challenge overlap.  There is a batch of these kinds with
a gate equation `-1 = 0` whose combination is zero for all challenges. -/
theorem C58_mixed_counterexample {d : Domain F} (hg : IsPrimitiveRoot d.gen d.size) (ho : d.offset = 1)
    (k : ℕ → F) (a : List Bool) (b : Bool) (c : List Bool) :
    (mixed d k a b c).map (fun I => I.lookup.isSome) = false :: a ++ true :: b :: c ∧
    (∃ I ∈ mixed d k a b c, I.gate.eval (d.gen ^ (d.size - 1)) = -1 ∧ ∀ i, I.w i = 0) ∧
    ∀ τ α β γ, combined d τ α β γ (mixed d k a b c) = 0 := by
  refine ⟨?_, ⟨absurdGate d k b, by simp [mixed], ?_, fun i => rfl⟩, ?_⟩
  · have h : ∀ l : List Bool, (l.map (idle k)).map (fun I => I.lookup.isSome) = l := by
      intro l
      rw [List.map_map]
      conv_rhs => rw [← List.map_id l]
      refine List.map_congr_left fun b _ => ?_
      cases b <;> rfl
    unfold mixed
    rw [List.map_append, h, List.map_cons, List.map_cons, h]
    have : (absurdGate d k b).lookup.isSome = b := by cases b <;> rfl
    rw [this]
    rfl
  · have hgd : Good d := ⟨hg, by rw [ho]; exact one_ne_zero⟩
    have hl : (lag d (d.size - 1)).eval (d.gen ^ (d.size - 1)) = 1 := by
      have h1 := hgd.basis_on (i := d.size - 1) (j := d.size - 1) (by have := size_pos d; omega)
        (by have := size_pos d; omega)
      rw [if_pos rfl] at h1
      have h2 : point d (d.size - 1) = d.gen ^ (d.size - 1) := by simp [point, ho]
      rw [h2] at h1
      exact h1
    simp [Inst.gate, absurdGate, idle, hl]
  · intro τ α β γ
    unfold combined
    have hf : firstLookup (mixed d k a b c) = false := rfl
    rw [hf, alphaBases_eq _ _ (by simp [mixed])]
    have hlen : (mixed d k a b c).length = (a.length + 1) + (c.length + 2) := by
      simp [mixed]
      omega
    rw [hlen, List.range_add, List.map_append]
    unfold mixed
    rw [batch_append _ _ _ _ _ _ _ _ _ (by simp), batch_idle, zero_add]
    have hr : ((List.range (c.length + 2)).map (a.length + 1 + ·)).map
        (fun j => (α ^ (if false = true then 7 else 3)) ^ j) =
        [(α ^ 3) ^ (a.length + 1), (α ^ 3) ^ (a.length + 2)] ++ (List.range c.length).map
          (fun j => (α ^ 3) ^ (a.length + 1 + (j + 2))) := by
      rw [Nat.add_comm c.length 2, List.range_add]
      simp only [List.map_append, List.map_map, Bool.false_eq_true, if_false]
      congr 1
      refine List.map_congr_left fun j _ => ?_
      simp only [Function.comp]
      congr 1
      omega
    rw [hr, show absurdLookup k :: absurdGate d k b :: c.map (idle k) =
      [absurdLookup k, absurdGate d k b] ++ c.map (idle k) from rfl,
      batch_append _ _ _ _ _ _ _ _ _ rfl, batch_idle, add_zero]
    unfold batch
    simp only [List.zipWith_cons_cons, List.zipWith_nil_left, List.sum_cons, List.sum_nil, absurdLookup_eq,
      absurdGate_eq, C_pow]
    ring

/-- the true claims of a list of instances -/
noncomputable def truth (d : Domain F) (ζ : F) (I : Inst F) : Claims F where
  w i := (I.w i).eval ζ
  σ i := (I.σ i).eval ζ
  zNext := I.z.eval (ζ * d.gen)
  lk := I.lkEvals (I.lookup.getD ⟨0, 0, 0, 0, 0, 0, 0⟩) d ζ

private theorem truth_true (d : Domain F) (ζ : F) (I : Inst F) : I.True (truth d ζ I) d ζ := by
  refine ⟨fun _ _ => rfl, fun _ _ => rfl, rfl, fun l hl => ?_⟩
  simp [truth, hl]

/-- C58: the verifier accepts a proof for such a batch, whatever the challenges, although one of the circuits
has the gate `-1 = 0`. -/
theorem C58_mixed_accepted_counterexample {d : Domain F} (hg : IsPrimitiveRoot d.gen d.size)
    (ho : d.offset = 1) (h2 : d.size ≠ 1) (k : ℕ → F) (a : List Bool) (b : Bool) (c : List Bool)
    (newDom : ℕ → Option (Domain F)) (hd : newDom d.size = some d)
    (e : G →ₗ[F] G2 →ₗ[F] GT) (hash : List F → F) (x : F) (ok : VerifierParam G G2)
    (hx : ok.betaH = x • ok.h) (he : e ok.g ok.h ≠ 0) (ch : Chal F) (hτ : ch.τ.isSome) :
    ∃ cs W W', ∀ u, verifyBatch newDom e hash (fun _ _ _ => { ch with u := u })
        ((mixed d k a b c).map (fun I => I.key (kzg x ok.g) d ok)) ((mixed d k a b c).map (·.inputs))
        (proof (kzg x ok.g) ((mixed d k a b c).zip cs) [0] W W') = .ok true := by
  obtain ⟨τ, hτ⟩ := Option.isSome_iff_exists.1 hτ
  set Is := (mixed d k a b c).map (fun I => (I, truth d ch.ζ I)) with hIs
  have hfst : Is.map (·.1) = mixed d k a b c := by
    rw [hIs, List.map_map]
    exact List.map_id _
  have hI : ∀ I ∈ mixed d k a b c, I.merged = false ∧ I.inputs = [] ∧ I.pi = 0 := by
    intro I hI
    unfold mixed at hI
    simp only [List.mem_append, List.mem_map, List.mem_cons] at hI
    rcases hI with ⟨b, -, rfl⟩ | rfl | rfl | ⟨b, -, rfl⟩ <;> exact ⟨rfl, rfl, rfl⟩
  have hs : Setting d ch τ Is [0] := by
    refine ⟨hg, ho, h2, by simp [hIs, mixed], ?_, fun _ _ _ => hτ, by simp⟩
    intro y hy
    obtain ⟨I, hm, rfl⟩ := List.mem_map.1 hy
    obtain ⟨e1, e2, e3⟩ := hI I hm
    simp only [e1, e2, e3]
    refine ⟨by simp, by simp, fun i _ => by simp⟩
  have hz : Is = (mixed d k a b c).zip ((mixed d k a b c).map (truth d ch.ζ)) := by
    rw [hIs, List.zip_map_right, List.zip_eq_zipWith]
    clear * -
    induction mixed d k a b c with
    | nil => rfl
    | cons I l ih => simp [ih]
  obtain ⟨W, W', h⟩ := C59_accepted hs (fun y hy => by
      obtain ⟨I, -, rfl⟩ := List.mem_map.1 hy
      exact truth_true d ch.ζ I) (by
      rw [hfst, (C58_mixed_counterexample hg ho k a b c).2.2]
      simp [joinQuot, combine]) newDom hd e hash x ok hx he
  refine ⟨(mixed d k a b c).map (truth d ch.ζ), W, W', fun u => ?_⟩
  have := h u
  rw [show Is.map (fun y => y.1.key (kzg x ok.g) d ok) =
      (mixed d k a b c).map (fun I => I.key (kzg x ok.g) d ok) by
      rw [hIs, List.map_map]; rfl,
    show Is.map (fun y => y.1.inputs) = (mixed d k a b c).map (·.inputs) by
      rw [hIs, List.map_map]; rfl, hz] at this
  exact this

/-! ## The shape of the proof is not checked -/

/-- A proof for one instance without lookups, with ten commitments to wires instead of five and with two
entries of evaluations instead of one.  The evaluations of `σ 0, …, σ 3` and of the shifted permutation
product that the verifier uses are those of the additional commitments; the second entry holds the
evaluations of the commitments of the key. -/
noncomputable def misshapen (com : F[X] →ₗ[F] G) (d : Domain F) (ζ : F) (I : Inst F) (S : ℕ → F[X])
    (P : F[X]) (ts : List F[X]) (W W' : F[X]) : BProof F G where
  wires := [(List.range 5).map (fun i => com (I.w i)) ++ ((List.range 4).map (fun i => com (S i)) ++ [com P])]
  prodPerm := [com I.z]
  evals := [⟨(List.range 5).map (fun i => (I.w i).eval ζ), (List.range 4).map (fun i => (S i).eval ζ),
      P.eval ζ⟩,
    ⟨(List.range 5).map (fun i => (I.σ i).eval ζ), [], I.z.eval (ζ * d.gen)⟩]
  lookups := [none, none]
  quot := ts.map com
  opening := com W
  shifted := com W'

/-- what the verifier takes the evaluations of the misshapen proof for -/
private noncomputable def fake (ζ : F) (I : Inst F) (S : ℕ → F[X]) (P : F[X]) : Claims F where
  w i := (I.w i).eval ζ
  σ i := (S i).eval ζ
  zNext := P.eval ζ
  lk := I.lkEvals ⟨0, 0, 0, 0, 0, 0, 0⟩ ⟨0, 0, 0⟩ 0

private noncomputable def misItems (d : Domain F) (ζ : F) (I : Inst F) (S : ℕ → F[X]) (P : F[X]) :
    List (Bool × F[X] × F) :=
  (List.range 5).map (fun i => (false, I.w i, (I.w i).eval ζ)) ++
    ((List.range 4).map (fun i => (false, S i, (S i).eval ζ)) ++ ([(false, P, P.eval ζ)] ++
      ((List.range 5).map (fun i => (false, I.σ i, (I.σ i).eval ζ)) ++ [(true, I.z, I.z.eval (ζ * d.gen))])))

private theorem misItems_true (d : Domain F) (ζ : F) (I : Inst F) (S : ℕ → F[X]) (P : F[X]) :
    ∀ x ∈ misItems d ζ I S P, x.2.2 = x.2.1.eval (if x.1 then ζ * d.gen else ζ) := by
  unfold misItems
  simp [or_imp, forall_and]

private theorem agg_misshapen (com : F[X] →ₗ[F] G) (d : Domain F) (ch : Chal F) (I : Inst F)
    (hl : I.lookup = none) (S : ℕ → F[X]) (P : F[X]) (ts : List F[X]) (W W' : F[X]) (ok : VerifierParam G G2)
    (s : AggState F G) :
    aggLoop ch (misshapen com d ch.ζ I S P ts W W') 0 [I.key com d ok] s =
      .ok (((misItems d ch.ζ I S P).map (fun x => (x.1, com x.2.1))).foldl (addItem ch.v) s) := by
  have hnw : I.nw = 5 := by simp [Inst.nw, hl]
  have hσ : (I.key com d ok).sigmas = (List.range 5).map (fun i => com (I.σ i)) := by
    simp only [Inst.key, hnw]
  simp only [aggLoop, aggInstance, misshapen, List.getElem?_cons_zero]
  rw [if_neg (by simp), hσ, List.take_of_length_le (by simp)]
  simp only [addV_eq, addUV_eq, misItems, List.map_append, List.foldl_append, List.map_map, List.map_cons,
    List.map_nil]
  rfl

private theorem eval_misshapen (com : F[X] →ₗ[F] G) (d : Domain F) (ch : Chal F) (I : Inst F)
    (S : ℕ → F[X]) (P : F[X]) (ts : List F[X]) (W W' : F[X]) (s : F × List F) :
    evalLoop ((misshapen com d ch.ζ I S P ts W W').evals.zip (misshapen com d ch.ζ I S P ts W W').lookups) s =
      addEvals ((misItems d ch.ζ I S P).map (fun x => x.2.2)) s := by
  simp only [misshapen, List.zip_cons_cons, List.zip_nil_left]
  rw [evalLoop_cons]
  have he : (evalLoop : List (Evals F × Option (LkProof F G)) → _) [] = Except.ok := by
    funext s; rfl
  have hbind : ∀ x : Except VErr (F × List F), x.bind Except.ok = x := by
    intro x; cases x <;> rfl
  have h1 : evalLoop [((⟨(List.range 5).map (fun i => (I.σ i).eval ch.ζ), [],
      I.z.eval (ch.ζ * d.gen)⟩ : Evals F), (none : Option (LkProof F G)))] =
      addEvals ((List.range 5).map (fun i => (I.σ i).eval ch.ζ) ++ [I.z.eval (ch.ζ * d.gen)]) := by
    funext s
    rw [evalLoop_cons, he, hbind]
    simp [entry]
  rw [h1, ← addEvals_append]
  congr 1

private theorem prepare_misshapen (com : F[X] →ₗ[F] G) {d : Domain F} (hg : IsPrimitiveRoot d.gen d.size)
    (ho : d.offset = 1) (h2 : d.size ≠ 1) (ch : Chal F) (I : Inst F) (hl : I.lookup = none)
    (hI : IsInputs d I.merged I.inputs I.pi) (S : ℕ → F[X]) (P : F[X])
    (ts : List F[X]) (hts : ts ≠ []) (W W' : F[X]) (ok : VerifierParam G G2) :
    ∃ info, prepare d [I.key com d ok] [I.inputs] (misshapen com d ch.ζ I S P ts W W') ch = .ok info ∧
        info.u = ch.u ∧ info.point = ch.ζ ∧ info.nextPoint = ch.ζ * d.gen ∧ info.opening = com W ∧
        info.shifted = com W' ∧
        info.comm.msm - info.eval • com 1 = com (residue d ch 0 [(I, fake ch.ζ I S P)] ts +
          ((parts ch.v (misItems d ch.ζ I S P) ch.v 1).1 +
            C ch.u * (parts ch.v (misItems d ch.ζ I S P) ch.v 1).2)) := by
  have ho' : d.offset ≠ 0 := by rw [ho]; exact one_ne_zero
  have hnw : I.nw = 5 := by simp [Inst.nw, hl]
  have hev : (⟨(List.range 5).map (fun i => (I.w i).eval ch.ζ), (List.range 4).map (fun i => (S i).eval ch.ζ),
      P.eval ch.ζ⟩ : Evals F) = I.evals (fake ch.ζ I S P) := by
    unfold Inst.evals fake
    rw [hnw]
  set b := misshapen com d ch.ζ I S P ts W W' with hb
  set c := fake ch.ζ I S P with hc
  have hbs : alphaBases ch.α false 1 = [1] := rfl
  unfold prepare
  have hcn : checkNumbers [I.key com d ok] [I.inputs] b = true := rfl
  have hci : checkInstances d b.lookups 0 ([I.inputs].zip [I.key com d ok]) = .ok () := by
    simp [checkInstances, hb, misshapen, Inst.key, hl]
  rw [hcn, hci]
  simp only [Bool.not_true, Bool.false_eq_true, if_false, List.length_singleton]
  rw [C57_first_and_last hg ho' h2]
  have hlag : ∀ i, L d i = lag d i := fun _ => rfl
  have hvl : (I.key com d ok).lookup.isSome = false := by simp [Inst.key, hl]
  rw [hlag, hlag, hvl, hbs]
  simp only
  have hconst : linPolyConst d ch [I.key com d ok] [I.inputs] b ((lag d 0).eval ch.ζ)
      ((lag d (d.size - 1)).eval ch.ζ) (alphaPowers ch.α) [1] =
      .ok (I.const c d ch ((lag d 0).eval ch.ζ) ((lag d (d.size - 1)).eval ch.ζ)) := by
    unfold linPolyConst
    rw [if_neg (by simp [BProof.len, hb, misshapen])]
    simp only [hb, misshapen, List.zip_cons_cons, List.zip_nil_right, constLoop]
    rw [hev]
    have := constInstance_ok com hg ho' ch ((lag d 0).eval ch.ζ) ((lag d (d.size - 1)).eval ch.ζ) I c hI ok
    rw [hl] at this
    simp only [Option.map_none] at this
    rw [this]
    simp
  rw [hconst]
  simp only
  unfold aggregateComms linScalarsAndBases
  rw [if_neg (by simp [BProof.len, hb, misshapen]), if_neg (by simp [BProof.len, hb, misshapen])]
  obtain ⟨sb, hs1, hs2⟩ := linInstance_gen com d ch 0 ((lag d 0).eval ch.ζ)
    ((lag d (d.size - 1)).eval ch.ζ) (b := b) (i := 0) (I := I) (c := c) rfl
    (by rw [hnw]; simp) rfl (by rw [← hev]; rfl) (by rw [hl]; rfl) (by simp [hl]) ok 1 []
  simp only [List.zip_cons_cons, List.zip_nil_left, linLoop]
  rw [hs1]
  simp only
  obtain _ | ⟨t, ts⟩ := ts
  · exact absurd rfl hts
  have hq : b.quot = com t :: ts.map com := rfl
  rw [hq]
  simp only
  set sb1 := pushQuot ((1 + vanishing d ch.ζ) * ch.ζ * ch.ζ) (-vanishing d ch.ζ) (ts.map com)
    (sb.push (-vanishing d ch.ζ) (com t)) with hsb1
  have hagg := agg_misshapen com d ch I hl S P (t :: ts) W W' ok ⟨sb1, ch.v, ch.u, []⟩
  rw [← hb] at hagg
  rw [hagg]
  obtain ⟨sb', a', b', bs, h3, h4⟩ := items_ok com ch.v ch.u (misItems d ch.ζ I S P) sb1 ch.v 1 []
  rw [mul_one] at h3
  rw [h3]
  simp only [List.nil_append]
  unfold aggregateEvals
  rw [if_neg (by simp [hb, misshapen])]
  obtain ⟨r', h5, h6⟩ := h4 (-I.const c d ch ((lag d 0).eval ch.ζ) ((lag d (d.size - 1)).eval ch.ζ)) []
  have hel := eval_misshapen com d ch I S P (t :: ts) W W'
    (-I.const c d ch ((lag d 0).eval ch.ζ) ((lag d (d.size - 1)).eval ch.ζ), bs)
  rw [← hb] at hel
  rw [hel]
  rw [List.append_nil] at h5
  rw [h5]
  refine ⟨_, rfl, rfl, rfl, rfl, rfl, rfl, ?_⟩
  simp only
  rw [h6, hsb1, pushQuot_msm, sb_push, hs2, sb_msm_nil]
  unfold residue
  simp only [List.map_cons, List.map_nil, firstLookup, hl, Option.isSome_none, List.length_singleton, hbs,
    List.zipWith_cons_cons, List.zipWith_nil_left, List.sum_cons, List.sum_nil, add_zero, one_mul]
  rw [combine]
  generalize (parts ch.v (misItems d ch.ζ I S P) ch.v 1).1 +
    C ch.u * (parts ch.v (misItems d ch.ζ I S P) ch.v 1).2 = Q
  generalize I.const c d ch ((lag d 0).eval ch.ζ) ((lag d (d.size - 1)).eval ch.ζ) = a
  have ha : com (C a) = a • com 1 := by rw [← com.map_smul, smul_eq_C_mul, mul_one]
  simp only [com.map_add, ha]
  simp only [← smul_eq_C_mul, com.map_add, com.map_smul]
  module

private theorem fake_eval (d : Domain F) (ch : Chal F) (I : Inst F) (hl : I.lookup = none) (S : ℕ → F[X])
    (P : F[X]) (l1 ln : F) :
    (I.lin (fake ch.ζ I S P) d ch 0 l1 ln).eval ch.ζ + I.const (fake ch.ζ I S P) d ch l1 ln =
      (I.gate + C ch.α * (I.z * ∏ i ∈ Finset.range 5, (I.w i + C (ch.β * I.k i) * X + C ch.γ) -
        P * (∏ i ∈ Finset.range 4, (I.w i + C ch.β * S i + C ch.γ)) * (I.w 4 + C ch.β * I.σ 4 + C ch.γ)) +
        C (ch.α ^ 2) * (C l1 * (I.z - 1))).eval ch.ζ := by
  have hnw : I.nw = 5 := by simp [Inst.nw, hl]
  unfold Inst.lin Inst.const Inst.coeffZ Inst.coeffσ Inst.gate Inst.linGate fake
  rw [hnw, hl]
  simp only [Finset.prod_range_succ, Finset.prod_range_zero, Finset.sum_range_succ, Finset.sum_range_zero,
    eval_add, eval_mul, eval_sub, eval_C, eval_X, eval_pow, eval_one, add_zero, zero_add, one_mul,
    Nat.reduceSub, Nat.reduceAdd]
  ring

/-- C72: the shape of the proof is not checked. Take a circuit without lookups whose first row has an output
wire that occurs nowhere else (`σ 4` at `1` is `k 4`), and wires satisfying the gates of all rows, whether
they satisfy the copy constraints or not.  For challenges at which the denominators do not vanish there
are a polynomial in the place of the permutation product and a quotient such that the verifier accepts
a proof with ten instead of five commitments to wires and two instead of one entries of evaluations, whatever
the other challenges. -/
theorem C72_shape_counterexample {d : Domain F} (hg : IsPrimitiveRoot d.gen d.size)
    (ho : d.offset = 1) (h2 : d.size ≠ 1) (I : Inst F) (hl : I.lookup = none)
    (hI : IsInputs d I.merged I.inputs I.pi)
    (hgate : ∀ i < d.size, I.gate.eval (d.gen ^ i) = 0) (hσ : (I.σ 4).eval 1 = I.k 4)
    (newDom : ℕ → Option (Domain F)) (hd : newDom d.size = some d)
    (e : G →ₗ[F] G2 →ₗ[F] GT) (hash : List F → F) (x : F) (ok : VerifierParam G G2)
    (hx : ok.betaH = x • ok.h) (he : e ok.g ok.h ≠ 0)
    (β γ : F) (hden : ∀ i < d.size, (I.w 4).eval (d.gen ^ i) + β * I.k 4 * d.gen ^ i + γ ≠ 0) :
    ∃ z : F[X], ∀ α, ∃ t : F[X], ∀ ζ v, ∃ W W' : F[X], ∀ u,
      verifyBatch newDom e hash (fun _ _ _ => ⟨none, α, β, γ, ζ, v, u⟩) [I.key (kzg x ok.g) d ok] [I.inputs]
        (misshapen (kzg x ok.g) d ζ { I with z := z } (fun i => C (I.k i) * X) 1 [t] W W') = .ok true := by
  have hgd : Good d := ⟨hg, by rw [ho]; exact one_ne_zero⟩
  have hpt : ∀ i, d.offset * d.gen ^ i = d.gen ^ i := fun i => by rw [ho, one_mul]
  have hinj : Set.InjOn (fun i => d.offset * d.gen ^ i) (Finset.range d.size) := by
    intro i hi j hj hij
    simp only [hpt] at hij
    exact hg.pow_inj (by simpa using hi) (by simpa using hj) hij
  obtain ⟨z, hz⟩ : ∃ z : F[X], ∀ i < d.size, z.eval (d.gen ^ i) =
      ((I.w 4).eval (d.gen ^ i) + β * (I.σ 4).eval (d.gen ^ i) + γ) /
        ((I.w 4).eval (d.gen ^ i) + β * I.k 4 * d.gen ^ i + γ) := by
    refine ⟨Lagrange.interpolate (Finset.range d.size) (fun i => d.offset * d.gen ^ i) (fun i =>
      ((I.w 4).eval (d.gen ^ i) + β * (I.σ 4).eval (d.gen ^ i) + γ) /
        ((I.w 4).eval (d.gen ^ i) + β * I.k 4 * d.gen ^ i + γ)), fun i hi => ?_⟩
    have := Lagrange.eval_interpolate_at_node (fun i =>
      ((I.w 4).eval (d.gen ^ i) + β * (I.σ 4).eval (d.gen ^ i) + γ) /
        ((I.w 4).eval (d.gen ^ i) + β * I.k 4 * d.gen ^ i + γ)) hinj (Finset.mem_range.2 hi)
    simp only [hpt] at this ⊢
    exact this
  refine ⟨z, fun α => ?_⟩
  set J : Inst F := { I with z := z } with hJ
  set E : F[X] := J.gate + C α * (J.z * ∏ i ∈ Finset.range 5, (J.w i + C (β * J.k i) * X + C γ) -
        1 * (∏ i ∈ Finset.range 4, (J.w i + C β * (C (I.k i) * X) + C γ)) *
          (J.w 4 + C β * J.σ 4 + C γ)) + C (α ^ 2) * (lag d 0 * (J.z - 1)) with hE
  have hEz : ∀ i < d.size, E.eval (d.gen ^ i) = 0 := by
    intro i hi
    have h1 : J.gate.eval (d.gen ^ i) = 0 := hgate i hi
    have h3 : (lag d 0).eval (d.gen ^ i) * (z.eval (d.gen ^ i) - 1) = 0 := by
      have hb := hgd.basis_on (i := 0) (j := i) (size_pos d) hi
      have hp : point d i = d.gen ^ i := hpt i
      rw [hp] at hb
      have hb' : (lag d 0).eval (d.gen ^ i) = if 0 = i then 1 else 0 := hb
      by_cases h0 : 0 = i
      · subst h0
        rw [hz 0 hi, pow_zero, hσ, mul_one, div_self (by simpa using hden 0 hi), sub_self, mul_zero]
      · rw [hb', if_neg h0, zero_mul]
    have h4 := hz i hi
    rw [eq_div_iff (hden i hi)] at h4
    have hw : J.w = I.w := rfl
    have hk : J.k = I.k := rfl
    have hzz : J.z = z := rfl
    have hs : J.σ = I.σ := rfl
    rw [hE, hw, hk, hzz, hs]
    simp only [eval_add, eval_mul, eval_sub, eval_C, h1, eval_prod, Finset.prod_range_succ,
      Finset.prod_range_zero, eval_one, eval_X, eval_pow]
    linear_combination (α * ((I.w 0).eval (d.gen ^ i) + β * (I.k 0 * d.gen ^ i) + γ) *
      ((I.w 1).eval (d.gen ^ i) + β * (I.k 1 * d.gen ^ i) + γ) *
      ((I.w 2).eval (d.gen ^ i) + β * (I.k 2 * d.gen ^ i) + γ) *
      ((I.w 3).eval (d.gen ^ i) + β * (I.k 3 * d.gen ^ i) + γ)) * h4 + α ^ 2 * h3
  obtain ⟨t, ht⟩ : (X ^ d.size - 1 : F[X]) ∣ E := hgd.dvd ho hEz
  refine ⟨t, fun ζ v => ?_⟩
  set S : ℕ → F[X] := fun i => C (I.k i) * X with hS
  have hJl : J.lookup = none := hl
  have hres : ∀ u, (residue d ⟨none, α, β, γ, ζ, v, u⟩ 0 [(J, fake ζ J S 1)] [t]).eval ζ = 0 := by
    intro u
    have hf := fake_eval d ⟨none, α, β, γ, ζ, v, u⟩ J hJl S 1 ((lag d 0).eval ζ)
      ((lag d (d.size - 1)).eval ζ)
    simp only at hf
    have hbs : alphaBases α false 1 = [1] := rfl
    unfold residue
    simp only [List.map_cons, List.map_nil, firstLookup, hJl, Option.isSome_none, List.length_singleton, hbs,
      List.zipWith_cons_cons, List.zipWith_nil_left, List.sum_cons, List.sum_nil, add_zero, one_mul, combine,
      mul_zero]
    have hEe : (J.gate + C α * (J.z * ∏ i ∈ Finset.range 5, (J.w i + C (β * J.k i) * X + C γ) -
        1 * (∏ i ∈ Finset.range 4, (J.w i + C β * S i + C γ)) * (J.w 4 + C β * J.σ 4 + C γ)) +
        C (α ^ 2) * (C ((lag d 0).eval ζ) * (J.z - 1))).eval ζ = E.eval ζ := by
      rw [hE]
      simp only [eval_add, eval_mul, eval_C]
      rfl
    rw [hEe, ht] at hf
    rw [eval_add, eval_add, eval_C, add_right_comm, C_1, one_mul, hf, eval_mul, eval_mul, eval_C, vanishing, ho,
      one_pow]
    simp
    ring
  obtain ⟨hA, hB⟩ := parts_eval ζ (ζ * d.gen) v (misItems d ζ J S 1) (misItems_true d ζ J S 1) v 1
  have h1 : (residue d ⟨none, α, β, γ, ζ, v, 0⟩ 0 [(J, fake ζ J S 1)] [t] +
      (parts v (misItems d ζ J S 1) v 1).1).IsRoot ζ := by
    rw [IsRoot, eval_add, hres, hA, add_zero]
  obtain ⟨W, hW⟩ := dvd_iff_isRoot.2 h1
  obtain ⟨W', hW'⟩ := dvd_iff_isRoot.2 (show IsRoot _ _ from hB)
  refine ⟨W, W', fun u => ?_⟩
  obtain ⟨info, k1, k2, k3, k4, k5, k6, k7⟩ := prepare_misshapen (kzg x ok.g) hg ho h2
    ⟨none, α, β, γ, ζ, v, u⟩ J hJl hI S 1 [t] (by simp) W W' ok
  have hkey : J.key (kzg x ok.g) d ok = I.key (kzg x ok.g) d ok := rfl
  rw [hkey] at k1
  unfold verifyBatch verifierDomain
  have hds : (I.key (kzg x ok.g) d ok).domSize = d.size := rfl
  simp only
  rw [hds, hd]
  simp only
  have hin : J.inputs = I.inputs := rfl
  rw [hin] at k1
  simp only at k1
  rw [k1]
  have hok : (I.key (kzg x ok.g) d ok).openKey = ok := rfl
  simp only
  rw [hok, kzg_opening e hash x ok hx he k2 k3 k4 k5 k6 k7]
  congr 1
  rw [decide_eq_true_eq]
  congr 1
  have e1 : residue d ⟨none, α, β, γ, ζ, v, u⟩ 0 [(J, fake ζ J S 1)] [t] =
    residue d ⟨none, α, β, γ, ζ, v, 0⟩ 0 [(J, fake ζ J S 1)] [t] := rfl
  simp only
  rw [e1, ← hW']
  linear_combination -hW

/-! ## Examples -/

section examples

local instance : Fact (Nat.Prime 97) := ⟨by norm_num⟩

noncomputable local instance : DecidableEq (ZMod 97)[X] := Classical.decEq _

private def exD : Domain (ZMod 97) := ⟨2, 22, 1⟩

private theorem exD_prim : IsPrimitiveRoot exD.gen exD.size := by
  refine IsPrimitiveRoot.mk_of_lt _ (by decide) (by decide +kernel) fun l h0 hl => ?_
  rw [show exD.size = 4 from rfl] at hl
  interval_cases l <;> decide +kernel

private def exOk : VerifierParam (ZMod 97) (ZMod 97) := ⟨1, 1, 5, [], []⟩

private noncomputable def exE : ZMod 97 →ₗ[ZMod 97] ZMod 97 →ₗ[ZMod 97] ZMod 97 :=
  LinearMap.mul (ZMod 97) (ZMod 97)

private theorem exE_ne : exE exOk.g exOk.h ≠ 0 := by
  show (1 : ZMod 97) * 1 ≠ 0
  decide

private def exK (i : ℕ) : ZMod 97 := [1, 2, 3, 5, 7, 11].getD i 0

/-- the gate `w 0 + w 1 = 0`, with wires that satisfy it on the domain only: `X ^ 4 - 1` -/
private noncomputable def exI : Inst (ZMod 97) :=
  { idle exK false with
    w := fun i => if i = 0 then X ^ 4 else if i = 1 then -1 else 0
    q := fun i => if i = 0 ∨ i = 1 then 1 else 0 }

private theorem exI_gate : exI.gate = X ^ 4 - 1 := by
  simp [Inst.gate, exI, idle, Finset.sum_range_succ]
  ring

private theorem exI_combined (α τ β γ : ZMod 97) : combined exD τ α β γ [exI] = X ^ 4 - 1 := by
  have hp : exI.perm exD β γ = 0 := by
    simp [Inst.perm, exI, idle, shift_one, mul_assoc]
  have hl : exI.lookup = none := rfl
  have hs : exI.start exD = 0 := by simp [Inst.start, exI, idle]
  have : alphaBases α (firstLookup [exI]) [exI].length = [1] := rfl
  unfold combined batch
  rw [this]
  simp only [List.zipWith_cons_cons, List.zipWith_nil_left, List.sum_cons, List.sum_nil, Inst.constraints, hl,
    hp, hs, exI_gate]
  simp [combine]

private theorem exI_inputs : IsInputs exD exI.merged exI.inputs exI.pi := by
  refine ⟨by simp [exI, idle], by simp [exI, idle], fun i _ => by simp [exI, idle]⟩

private def exCh : Chal (ZMod 97) := ⟨none, 2, 3, 4, 50, 6, 7⟩

private theorem exSetting (v u : ZMod 97) : Setting exD { exCh with v := v, u := u } 0
    [(exI, truth exD 50 exI)] [1] := by
  refine ⟨exD_prim, rfl, by decide, by simp, ?_, ?_, by simp⟩
  · intro x hx
    obtain rfl : x = _ := by simpa using hx
    exact exI_inputs
  · intro x hx h
    obtain rfl : x = _ := by simpa using hx
    cases h

private theorem exIdentity : (combined exD 0 exCh.α exCh.β exCh.γ
    ([(exI, truth exD 50 exI)].map (·.1))).eval exCh.ζ =
      (exCh.ζ ^ exD.size - 1) * (joinQuot exD [1]).eval exCh.ζ := by
  have : [(exI, truth exD 50 exI)].map (·.1) = [exI] := rfl
  rw [this, exI_combined]
  simp [joinQuot, combine, Domain.size, exD]

private theorem exTrue : ∀ x ∈ [(exI, truth exD 50 exI)], x.1.True x.2 exD exCh.ζ := by
  intro x hx
  obtain rfl : x = _ := by simpa using hx
  exact truth_true exD 50 exI

/-- the honest prover -/
example : ∃ W W' : (ZMod 97)[X], ∀ u, verifyBatch (fun n => if n = 4 then some exD else none) exE
    (fun _ => 0) (fun _ _ _ => { exCh with u := u }) [exI.key (kzg 5 1) exD exOk] [[]]
    (proof (kzg 5 1) [(exI, truth exD 50 exI)] [1] W W') = .ok true :=
  C59_accepted (exSetting 6 7) exTrue exIdentity _ rfl exE _ 5 exOk (by decide) exE_ne

/-- the soundness theorem applies: all challenges `v` can be answered -/
example : (∀ x ∈ [(exI, truth exD 50 exI)], x.1.True x.2 exD exCh.ζ) ∧
      (combined exD 0 exCh.α exCh.β exCh.γ ([(exI, truth exD 50 exI)].map (·.1))).eval exCh.ζ =
        (exCh.ζ ^ exD.size - 1) * (joinQuot exD [1]).eval exCh.ζ := by
  refine C59_sound (exSetting 6 7) Finset.univ (by decide +kernel) fun v _ => ?_
  obtain ⟨W, W', h⟩ := C59_complete (exSetting v 7) exTrue exIdentity
  exact ⟨W, W', 0, 1, by decide, h 0, h 1⟩

example : combined exD 0 2 3 4 [exI] = (X ^ exD.size - 1) * joinQuot exD [1] := by
  have h : combined exD 0 2 3 4 [exI] = (X ^ exD.size - 1) * joinQuot exD [1] := by
    rw [exI_combined]
    simp [joinQuot, combine, Domain.size, exD]
  refine C59_identity exD 0 2 3 4 [exI] [1] Finset.univ ?_ fun ζ _ => ?_
  · rw [h, sub_self, natDegree_zero]
    decide +kernel
  · rw [h]
    simp

/-- two openings: `e(opening, [x]) = e(7·g + 2·opening - 4·g, h)` -/
private def exInfo : PcsInfo (ZMod 97) (ZMod 97) := ⟨0, 2, 3, 4, [(1, 7)], 1, 0⟩

private theorem exInfo_ok (hash : List (ZMod 97) → ZMod 97) :
    batchVerifyOpening exE hash exOk [exInfo] = true := by
  rw [C59_batch_equation]
  have : single exE exOk exInfo = 0 := by
    show (1 + (0 : ZMod 97) * 0) * 5 - (SB.msm [((1 : ZMod 97), (7 : ZMod 97))] + 2 * 1 + 0 * 3 * 0 - 4 * 1) * 1 = 0
    rw [sb_msm_eq]
    decide
  simp [this]

example : batchVerifyOpening exE (fun l => l.sum + 9) exOk [exInfo, exInfo, exInfo] = true :=
  C59_batch_complete exE (fun _ => 0) _ exOk _ (fun i hi => by
    obtain rfl : i = exInfo := by simpa using hi
    exact exInfo_ok _)

example : ∀ i ∈ [exInfo, exInfo, exInfo], batchVerifyOpening exE (fun _ => 0) exOk [i] = true :=
  C59_batch_sound exE _ exOk _ {1, 2, 3} (by decide) fun r _ =>
    C59_batch_complete exE (fun _ => 0) _ exOk _ (fun i hi => by
      obtain rfl : i = exInfo := by simpa using hi
      exact exInfo_ok _)

/-- one instance without and one with lookups: at the points of the domain the combination vanishes for all
challenges -/
example : ∀ I ∈ [exI, idle exK true], ∀ c ∈ I.constraints exD 9 3 4, c.eval 22 = 0 := by
  refine C58_separate_partial exD 9 3 4 _ (.inr (by simp [exI, idle])) 22 Finset.univ (by decide +kernel) ?_
  intro α _
  have hb : alphaBases α (firstLookup [exI, idle exK true]) [exI, idle exK true].length = [1] ++ [α * α * α] := rfl
  have h1 : combined exD 9 α 3 4 [exI, idle exK true] = X ^ 4 - 1 := by
    unfold combined
    rw [hb, show [exI, idle exK true] = [exI] ++ [true].map (idle exK) from rfl,
      batch_append _ _ _ _ _ _ _ _ _ rfl, batch_idle, add_zero]
    exact exI_combined α 9 3 4
  rw [h1]
  simp
  decide +kernel

/-- a batch of three circuits, the last one with the gate `-1 = 0` -/
example : ∃ cs W W', ∀ u, verifyBatch (fun n => if n = 4 then some exD else none) exE
    (fun _ => 0) (fun _ _ _ => { exCh with τ := some 9, u := u })
    ((mixed exD exK [] false []).map (fun I => I.key (kzg 5 exOk.g) exD exOk))
    ((mixed exD exK [] false []).map (·.inputs))
    (proof (kzg 5 exOk.g) ((mixed exD exK [] false []).zip cs) [0] W W') = .ok true :=
  C58_mixed_accepted_counterexample exD_prim rfl (by decide) exK [] false [] _ rfl exE _ 5 exOk (by decide)
    exE_ne { exCh with τ := some 9 } rfl

/-- the wires `0` and `1` are to be equal, and are not -/
private noncomputable def exBad : Inst (ZMod 97) :=
  { idle exK false with
    w := fun i => if i = 1 then 1 else 0
    σ := fun i => C (exK (if i = 0 then 1 else if i = 1 then 0 else i)) * X }

example : ∃ z : (ZMod 97)[X], ∀ α, ∃ t : (ZMod 97)[X], ∀ ζ v, ∃ W W' : (ZMod 97)[X], ∀ u,
    verifyBatch (fun n => if n = 4 then some exD else none) exE (fun _ => 0)
      (fun _ _ _ => ⟨none, α, 3, 4, ζ, v, u⟩) [exBad.key (kzg 5 exOk.g) exD exOk] [[]]
      (misshapen (kzg 5 exOk.g) exD ζ { exBad with z := z } (fun i => C (exK i) * X) 1 [t] W W') =
        .ok true := by
  refine C72_shape_counterexample exD_prim rfl (by decide) exBad rfl ?_ ?_ ?_ _ rfl exE _ 5 exOk (by decide)
    exE_ne 3 4 ?_
  · exact ⟨by simp [exBad, idle], by simp [exBad, idle], fun i _ => by simp [exBad, idle]⟩
  · intro i _
    simp [Inst.gate, exBad, idle]
  · simp [exBad, idle]
  · intro i hi
    rw [show exD.size = 4 from rfl] at hi
    simp only [exBad, idle]
    interval_cases i <;> simp <;> decide +kernel

end examples

end Verif.Props.Verifier
