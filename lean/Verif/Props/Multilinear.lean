import Verif.Pcs.MultilinearBatch
import Verif.Util.Toy
import Mathlib.LinearAlgebra.BilinearMap
import Mathlib.Algebra.Algebra.Bilinear

/-!
# C51, C52: multilinear commitments, single and batch openings

`Verif.Pcs.Multilinear` models `pcs/src/multilinear_kzg`.
-/

set_option linter.unusedSectionVars false

namespace Verif.Props.Ml

open Verif.Pcs

variable {F G1 G2 GT : Type} [Field F] [DecidableEq F]
  [AddCommGroup G1] [Module F G1] [DecidableEq G1]
  [AddCommGroup G2] [Module F G2] [DecidableEq G2]
  [AddCommGroup GT] [Module F GT] [DecidableEq GT]

/-! ## Specification -/

/-- The multilinear extension of the table `f` at the point `x`: the sum over the cube of the table
entries times the Lagrange basis polynomials of the cube.  Variable `j` is bit `j` of the index. -/
def mle (f x : List F) : F :=
  ∑ b ∈ Finset.range (2 ^ x.length), f.getD b 0 *
    ∏ j ∈ Finset.range x.length, (if b.testBit j then x.getD j 0 else 1 - x.getD j 0)

/-- the last `k` trapdoors -/
def lastVars (t : List F) (k : ℕ) : List F := t.drop (t.length - k)

/-- number of variables of a merged polynomial -/
def mergedVars (n m : ℕ) : ℕ := n + Nat.clog 2 m

/-- number of points on which the code evaluates the composed polynomial, for `m` polynomials in
`n` variables -/
def evalPoints (n m : ℕ) : ℕ :=
  nextPow2 ((Nat.clog 2 (mergedVars n m) + 2) * (nextPow2 m - 1))

/-- the largest degree the composed polynomial can have -/
def maxDegree (n m : ℕ) : ℕ := mergedVars n m * (nextPow2 m - 1)

/-! ### Examples: the field with 101 elements, the trapdoors 7, 5, 11 -/

/-- multiplication as the pairing of the additive group with itself -/
def toyE : F101 →ₗ[F101] F101 →ₗ[F101] F101 := LinearMap.mul F101 F101

/-- a polynomial in two variables, `3 + x0 + 2 x1 + 5 x0 x1` -/
def toyP : Mle F101 := ⟨2, [3, 4, 5, 11]⟩

example : mle [3, 4, 5, 11] [(2 : F101), 6] = 3 + 2 + 2 * 6 + 5 * 2 * 6 := by decide +kernel

/-! ## C51 -/

/-- Parameter generation for any number of trapdoors, trimming to any supported size, committing,
opening and verifying succeed for every polynomial of at most that many variables and every point;
the value returned is the evaluation, and the commitment is the evaluation at the trapdoors. -/
theorem C51_completeness (e : G1 →ₗ[F] G2 →ₗ[F] GT) (t : List F) (ht : t ≠ []) (g : G1) (h : G2)
    (sup : ℕ) (hsup : sup ≤ t.length) (p : Mle F) (hp : p.WF) (hn : p.numVars ≤ sup) (z : List F)
    (hz : z.length = p.numVars) :
    ∃ srs pp vp comm proof,
      genMSrs t g h = .ok srs ∧ mTrim srs sup = .ok (pp, vp) ∧
      mCommit pp p = .ok comm ∧ comm = mle p.evals (lastVars t p.numVars) • g ∧
      mOpen pp p z = .ok (proof, mle p.evals z) ∧ proof.length = p.numVars ∧
      mVerify e vp comm z (mle p.evals z) proof = .ok true := by
  refine ⟨_, (paramsOf (t.drop (t.length - sup)) g h).1, (paramsOf (t.drop (t.length - sup)) g h).2,
    mleSum p.evals (lastVars t p.numVars) • g,
    (quots z (lastVars t p.numVars) p.evals).map (· • g), genMSrs_ok t ht g h,
    mTrim_ok t g h sup hsup, ?_, rfl, ?_, ?_, ?_⟩
  all_goals
    have hlen : (t.drop (t.length - sup)).length = sup := by simp; omega
    have hlast : (t.drop (t.length - sup)).drop (sup - p.numVars) = lastVars t p.numVars := by
      unfold lastVars; rw [List.drop_drop]; congr 1; omega
    have hll : (lastVars t p.numVars).length = p.numVars := by unfold lastVars; simp; omega
  · rw [mCommit_honest _ g h p hp (by omega), hlen, hlast]
  · rw [mOpen_honest _ g h p hp (by omega) z hz, hlen, hlast]; rfl
  · rw [List.length_map, quots_length _ _ _ (by omega)]; exact hz
  · have hq := quots_length z (lastVars t p.numVars) p.evals (by omega)
    rw [mVerify_eq e _ g h _ z _ _ (by omega) (by rw [List.length_map, hq]), hlen, hz, hlast]
    congr 1
    rw [decide_eq_true_iff]
    have hid := quots_identity z (lastVars t p.numVars) p.evals (by omega)
    have hs : ∑ i ∈ Finset.range p.numVars, ((lastVars t p.numVars).getD i 0 - z.getD i 0) •
        ((quots z (lastVars t p.numVars) p.evals).map (· • g)).getD i 0 =
        (∑ i ∈ Finset.range z.length, ((lastVars t p.numVars).getD i 0 - z.getD i 0) *
          (quots z (lastVars t p.numVars) p.evals).getD i 0) • g := by
      rw [Finset.sum_smul, hz]
      refine Finset.sum_congr rfl fun i _ => ?_
      rw [getD_map_smul, smul_smul]
    rw [hs, hid]
    have : mle p.evals z • g - (mleSum p.evals z + ∑ i ∈ Finset.range z.length,
        ((lastVars t p.numVars).getD i 0 - z.getD i 0) *
          (quots z (lastVars t p.numVars) p.evals).getD i 0) • g +
        (∑ i ∈ Finset.range z.length, ((lastVars t p.numVars).getD i 0 - z.getD i 0) *
          (quots z (lastVars t p.numVars) p.evals).getD i 0) • g = 0 := by
      rw [show mle p.evals z = mleSum p.evals z from rfl]
      module
    rw [this]
    simp

example : (genMSrs ([7, 5, 11] : List F101) (2 : F101) (3 : F101)).toOption.isSome = true ∧
    toyP.WF ∧ mCommit (paramsOf ([7, 5, 11] : List F101) (2 : F101) (3 : F101)).1 toyP =
      .ok (2 * (3 + 5 + 22 + 5 * 55)) := by
  refine ⟨by decide +kernel, by unfold Mle.WF; decide, by decide +kernel⟩

/-- The verifier's answer for a proof of the right length: exactly when the commitment is the
claimed value plus the proof elements weighted with the distances of the trapdoors from the point
(for a pairing that is injective on the first group). -/
theorem C51_verify_iff (e : G1 →ₗ[F] G2 →ₗ[F] GT) (t : List F) (ht : t ≠ []) (g : G1) (h : G2)
    (he : ∀ x, e x h = 0 → x = 0) (sup : ℕ) (hsup : sup ≤ t.length) (srs : MSrs G1 G2)
    (hsrs : genMSrs t g h = .ok srs) (pp : MProverParam G1 G2) (vp : MVerifierParam G1 G2)
    (htrim : mTrim srs sup = .ok (pp, vp)) (comm : G1) (z : List F) (hz : z.length ≤ sup) (v : F)
    (proof : List G1) (hp : proof.length = z.length) :
    mVerify e vp comm z v proof = .ok true ↔
      comm = v • g + ∑ i ∈ Finset.range z.length,
        ((lastVars t z.length).getD i 0 - z.getD i 0) • proof.getD i 0 := by
  rw [genMSrs_ok t ht g h] at hsrs
  injection hsrs with hsrs
  subst hsrs
  rw [mTrim_ok t g h sup hsup] at htrim
  injection htrim with htrim
  have hvp : vp = (paramsOf (t.drop (t.length - sup)) g h).2 := by rw [htrim]
  have hlen : (t.drop (t.length - sup)).length = sup := by simp; omega
  have hlast : (t.drop (t.length - sup)).drop (sup - z.length) = lastVars t z.length := by
    unfold lastVars; rw [List.drop_drop]; congr 1; omega
  rw [hvp, mVerify_eq e _ g h comm z v proof (by omega) hp, hlen, hlast]
  rw [Except.ok.injEq, decide_eq_true_iff]
  constructor
  · intro h0
    have := he _ h0
    rw [sub_add_eq_add_sub, sub_eq_zero] at this
    exact this.symm
  · intro h0
    rw [h0]
    have : v • g - (v • g + ∑ i ∈ Finset.range z.length,
        ((lastVars t z.length).getD i 0 - z.getD i 0) • proof.getD i 0) +
        ∑ i ∈ Finset.range z.length,
        ((lastVars t z.length).getD i 0 - z.getD i 0) • proof.getD i 0 = 0 := by abel
    rw [this]; simp

example : (∀ x : F101, toyE x 3 = 0 → x = 0) ∧
    mVerify toyE (paramsOf ([7, 5, 11] : List F101) (2 : F101) (3 : F101)).2 100 [2, 6] 7 [1, 2]
      = .ok false ∧
    mVerify toyE (paramsOf ([7, 5, 11] : List F101) (2 : F101) (3 : F101)).2
      (7 * 2 + (5 - 2) * 1 + (11 - 6) * 2) [2, 6] 7 [1, 2] = .ok true := by
  decide +kernel

/-- With the honest proof no value other than the evaluation is accepted. -/
theorem C51_no_other_value (e : G1 →ₗ[F] G2 →ₗ[F] GT) (t : List F) (ht : t ≠ []) (g : G1) (h : G2)
    (he : e g h ≠ 0) (sup : ℕ) (hsup : sup ≤ t.length) (p : Mle F) (hp : p.WF)
    (hn : p.numVars ≤ sup) (z : List F) (hz : z.length = p.numVars) (srs : MSrs G1 G2)
    (hsrs : genMSrs t g h = .ok srs) (pp : MProverParam G1 G2) (vp : MVerifierParam G1 G2)
    (htrim : mTrim srs sup = .ok (pp, vp)) (comm : G1) (hcomm : mCommit pp p = .ok comm)
    (proof : List G1) (v' : F) (hopen : mOpen pp p z = .ok (proof, v')) (v : F) :
    mVerify e vp comm z v proof = .ok true ↔ v = mle p.evals z := by
  obtain ⟨srs', pp', vp', comm', proof', h1, h2, h3, _, h5, h6, h7⟩ :=
    C51_completeness e t ht g h sup hsup p hp hn z hz
  rw [hsrs] at h1
  injection h1 with h1
  subst h1
  rw [htrim] at h2
  injection h2 with h2
  injection h2 with h2 h2'
  subst h2; subst h2'
  rw [hcomm] at h3
  injection h3 with h3
  subst h3
  rw [hopen] at h5
  injection h5 with h5
  injection h5 with h5 _
  subst h5
  constructor
  · intro hv
    rw [genMSrs_ok t ht g h] at hsrs
    injection hsrs with hsrs
    subst hsrs
    rw [mTrim_ok t g h sup hsup] at htrim
    injection htrim with htrim
    have hvp : vp = (paramsOf (t.drop (t.length - sup)) g h).2 := by rw [htrim]
    have hlen : (t.drop (t.length - sup)).length = sup := by simp; omega
    rw [hvp, mVerify_eq e _ g h comm z _ proof (by omega) (by omega), Except.ok.injEq,
      decide_eq_true_iff] at hv h7
    rw [map_add, map_sub, LinearMap.add_apply, LinearMap.sub_apply] at hv h7
    rw [map_smul, LinearMap.smul_apply] at hv h7
    have hd : (v - mle p.evals z) • e g h = 0 := by
      rw [sub_smul]
      have := hv.trans h7.symm
      have h8 := sub_eq_zero.2 this
      rw [← h8]
      abel
    rcases smul_eq_zero.1 hd with h0 | h0
    · exact sub_eq_zero.1 h0
    · exact absurd h0 he
  · rintro rfl
    exact h7

/-- Two accepted proofs for different values at one point give a relation between the trapdoors
that can be read off the proofs; in particular the point is not the trapdoor itself. -/
theorem C51_evaluation_binding (e : G1 →ₗ[F] G2 →ₗ[F] GT) (t : List F) (ht : t ≠ []) (g : G1)
    (h : G2) (hg : g ≠ 0)
    (he : ∀ x, e x h = 0 → x = 0) (sup : ℕ) (hsup : sup ≤ t.length) (srs : MSrs G1 G2)
    (hsrs : genMSrs t g h = .ok srs) (pp : MProverParam G1 G2) (vp : MVerifierParam G1 G2)
    (htrim : mTrim srs sup = .ok (pp, vp)) (comm : G1) (z : List F) (hz : z.length ≤ sup) (v v' : F)
    (proof proof' : List G1) (hp : proof.length = z.length) (hp' : proof'.length = z.length)
    (h1 : mVerify e vp comm z v proof = .ok true) (h2 : mVerify e vp comm z v' proof' = .ok true)
    (hne : v ≠ v') :
    (v - v') • g = ∑ i ∈ Finset.range z.length,
      ((lastVars t z.length).getD i 0 - z.getD i 0) • (proof'.getD i 0 - proof.getD i 0) ∧
    lastVars t z.length ≠ z := by
  rw [C51_verify_iff e t ht g h he sup hsup srs hsrs pp vp htrim comm z hz v proof hp] at h1
  rw [C51_verify_iff e t ht g h he sup hsup srs hsrs pp vp htrim comm z hz v' proof' hp'] at h2
  have hrel : (v - v') • g = ∑ i ∈ Finset.range z.length,
      ((lastVars t z.length).getD i 0 - z.getD i 0) • (proof'.getD i 0 - proof.getD i 0) := by
    simp only [smul_sub]
    rw [Finset.sum_sub_distrib]
    have h3 := h1.symm.trans h2
    rw [sub_smul, sub_eq_sub_iff_add_eq_add]
    rw [h3]
    abel
  refine ⟨hrel, ?_⟩
  intro heq
  rw [heq] at hrel
  simp only [sub_self, zero_smul, Finset.sum_const_zero] at hrel
  rcases smul_eq_zero.1 hrel with h0 | h0
  · exact hne (sub_eq_zero.1 h0)
  · exact hg h0

example : mVerify toyE (paramsOf ([7, 5] : List F101) (2 : F101) (3 : F101)).2 10 [2, 6] 1 [0, 93]
      = .ok true ∧
    mVerify toyE (paramsOf ([7, 5] : List F101) (2 : F101) (3 : F101)).2 10 [2, 6] 0 [2, 0]
      = .ok true := by decide +kernel

/-- Inputs that do not fit are refused by every function. -/
theorem C51_refused (e : G1 →ₗ[F] G2 →ₗ[F] GT) (t : List F) (g : G1) (h : G2) :
    genMSrs ([] : List F) g h = .error .invalidParameters ∧
    ∀ srs, genMSrs t g h = .ok srs →
      (∀ sup, t.length < sup → mTrim srs sup = .error .invalidParameters) ∧
      ∀ sup pp vp, mTrim srs sup = .ok (pp, vp) →
        (∀ p : Mle F, sup < p.numVars → mCommit pp p = .error .invalidParameters ∧
          ∀ z, mOpen pp p z = .error .invalidParameters) ∧
        (∀ (p : Mle F) (z : List F), z.length ≠ p.numVars →
          mOpen pp p z = .error .invalidParameters) ∧
        ∀ (z : List F) comm v proof, sup < z.length →
          mVerify e vp comm z v proof = .error .invalidParameters := by
  refine ⟨rfl, fun srs hsrs => ?_⟩
  have ht : t ≠ [] := by rintro rfl; cases hsrs
  rw [genMSrs_ok t ht g h] at hsrs
  injection hsrs with hsrs
  subst hsrs
  refine ⟨fun sup hs => ?_, fun sup pp vp htrim => ?_⟩
  · unfold mTrim paramsOf
    simp only
    rw [if_pos hs]
  · have hsup : sup ≤ t.length := by
      by_contra hlt
      unfold mTrim paramsOf at htrim
      simp only at htrim
      rw [if_pos (by omega)] at htrim
      cases htrim
    rw [mTrim_ok t g h sup hsup] at htrim
    injection htrim with htrim
    have hpp : pp.numVars = sup := by
      have : pp = (paramsOf (t.drop (t.length - sup)) g h).1 := by rw [htrim]
      rw [this]; simp [paramsOf]; omega
    have hvp : vp.numVars = sup := by
      have : vp = (paramsOf (t.drop (t.length - sup)) g h).2 := by rw [htrim]
      rw [this]; simp [paramsOf]; omega
    refine ⟨fun p hlt => ⟨?_, fun z => ?_⟩, fun p z hz => ?_, fun z comm v proof hz => ?_⟩
    · unfold mCommit; rw [if_pos (by omega)]
    · unfold mOpen; rw [if_pos (by omega)]
    · unfold mOpen
      split
      · rfl
      · rw [if_pos (by omega)]
    · unfold mVerify
      simp only
      rw [if_pos (by omega)]

example : mTrim ⟨(paramsOf ([7, 5] : List F101) (2 : F101) (3 : F101)).1,
    ([7, 5] : List F101).map (fun s => s • (3 : F101))⟩ 3 = .error .invalidParameters := by
  decide +kernel

/-- The verifier does not check the length of the proof: every proof of another length makes it
panic (in `multi_pairing`) instead of being refused. -/
theorem C51_length_counterexample (e : G1 →ₗ[F] G2 →ₗ[F] GT) (t : List F) (ht : t ≠ []) (g : G1)
    (h : G2) (sup : ℕ) (hsup : sup ≤ t.length) (srs : MSrs G1 G2)
    (hsrs : genMSrs t g h = .ok srs) (pp : MProverParam G1 G2) (vp : MVerifierParam G1 G2)
    (htrim : mTrim srs sup = .ok (pp, vp)) (comm : G1) (z : List F) (hz : z.length ≤ sup) (v : F)
    (proof : List G1) (hp : proof.length ≠ z.length) :
    mVerify e vp comm z v proof = .error .panic := by
  rw [genMSrs_ok t ht g h] at hsrs
  injection hsrs with hsrs
  subst hsrs
  rw [mTrim_ok t g h sup hsup] at htrim
  injection htrim with htrim
  have hvp : vp = (paramsOf (t.drop (t.length - sup)) g h).2 := by rw [htrim]
  have hlen : (t.drop (t.length - sup)).length = sup := by simp; omega
  rw [hvp]
  exact mVerify_length e _ g h comm z v proof (by omega) hp

example : mVerify toyE (paramsOf ([7, 5] : List F101) (2 : F101) (3 : F101)).2 10 [2, 6] 1 [0] =
    .error .panic := by decide +kernel

/-! ## C52 -/

/-- univariate parameters of degree `D` obtained by generation and trimming -/
def UniParams (τ : F) (gu : G1) (hu : G2) (D : ℕ) (upp : ProverParam G1)
    (uvp : VerifierParam G1 G2) : Prop :=
  ∃ a b, trim (genSrs τ gu hu a b) D = .ok (upp, uvp)

/-- multilinear parameters for `sup` variables obtained by generation and trimming -/
def MlParams (t : List F) (g : G1) (h : G2) (sup : ℕ) (pp : MProverParam G1 G2)
    (vp : MVerifierParam G1 G2) : Prop :=
  ∃ srs, genMSrs t g h = .ok srs ∧ mTrim srs sup = .ok (pp, vp)

theorem uniParams_eq {τ : F} {gu : G1} {hu : G2} {D : ℕ} {upp : ProverParam G1}
    {uvp : VerifierParam G1 G2} (H : UniParams τ gu hu D upp uvp) :
    upp = ⟨powers τ gu (D + 1)⟩ ∧ uvp.g = gu ∧ uvp.h = hu ∧ uvp.betaH = τ • hu := by
  obtain ⟨a, b, h⟩ := H
  have hD : D ≤ max a b ∧ 1 ≤ b := by
    unfold trim trimWithVerifierDegree at h
    simp only [genSrs, List.length_map, List.length_range] at h
    split at h
    · split at h <;> cases h
    · split at h
      · split at h <;> cases h
      · omega
  rw [trim, trim_genSrs τ gu hu a b D 1 hD.1 (le_refl _) hD.2] at h
  injection h with h
  injection h with h1 h2
  subst h1; subst h2
  exact ⟨rfl, rfl, rfl, rfl⟩

theorem mlParams_eq {t : List F} {g : G1} {h : G2} {sup : ℕ} {pp : MProverParam G1 G2}
    {vp : MVerifierParam G1 G2} (H : MlParams t g h sup pp vp) :
    sup ≤ t.length ∧ (lastVars t sup).length = sup ∧ pp = (paramsOf (lastVars t sup) g h).1 ∧
      vp = (paramsOf (lastVars t sup) g h).2 := by
  obtain ⟨srs, h1, h2⟩ := H
  have ht : t ≠ [] := by rintro rfl; cases h1
  rw [genMSrs_ok t ht g h] at h1
  injection h1 with h1
  subst h1
  have hsup : sup ≤ t.length := by
    by_contra hlt
    unfold mTrim paramsOf at h2
    simp only at h2
    rw [if_pos (by omega)] at h2
    cases h2
  rw [mTrim_ok t g h sup hsup] at h2
  injection h2 with h2
  refine ⟨hsup, by unfold lastVars; simp; omega, ?_, ?_⟩ <;> unfold lastVars <;> rw [h2]

theorem mlParams_exists (t : List F) (ht : t ≠ []) (g : G1) (h : G2) (sup : ℕ)
    (hs : sup ≤ t.length) : MlParams t g h sup (paramsOf (lastVars t sup) g h).1
      (paramsOf (lastVars t sup) g h).2 :=
  ⟨_, genMSrs_ok t ht g h, mTrim_ok t g h sup hs⟩

theorem uniParams_exists (τ : F) (gu : G1) (hu : G2) (D : ℕ) :
    UniParams τ gu hu D ⟨powers τ gu (D + 1)⟩ ⟨gu, hu, τ • hu, powers τ hu 2, powers τ gu 2⟩ :=
  ⟨D, 1, trim_genSrs τ gu hu D 1 D 1 (by omega) (le_refl _) (le_refl _)⟩

/-- The merged polynomial is the table of all polynomials one after the other, filled up with
zeros: with the additional variables set to the bits of `i` it is polynomial number `i`. -/
theorem C52_merge (polys : List (Mle F)) (n : ℕ) (hne : polys ≠ [])
    (hwf : ∀ p ∈ polys, p.WF ∧ p.numVars = n) :
    ∃ w : Mle F, mergePolys polys = .ok w ∧ w.WF ∧ w.numVars = mergedVars n polys.length ∧
      ∀ x : List F, ∀ b : List F, x.length = n → ∀ i, i < polys.length →
        b = (List.range (Nat.clog 2 polys.length)).map (fun j => if i.testBit j then 1 else 0) →
        mle w.evals (x ++ b) = mle (polys.getD i ⟨0, []⟩).evals x := by
  obtain ⟨w, h1, h2, h3, h4⟩ := mergePolys_ok polys n hne hwf
  refine ⟨w, h1, h2, h3, fun x b hx i hi hb => ?_⟩
  have hsel := mleSum_select w.evals x i (Nat.clog 2 polys.length)
    (lt_of_lt_of_le hi (le_two_pow_clog _))
  rw [hb]
  refine hsel.trans ?_
  refine mleSum_congr _ _ _ fun j hj => ?_
  rw [getD_drop']
  rw [hx] at hj ⊢
  exact h4 i hi j hj

example : mergePolys [toyP, ⟨2, [1, 0, 0, 7]⟩, ⟨2, [9, 9, 9, 9]⟩] =
    .ok (⟨4, [3, 4, 5, 11, 1, 0, 0, 7, 9, 9, 9, 9, 0, 0, 0, 0]⟩ : Mle F101) := by decide +kernel

theorem msm_range' (s : ℕ → F) (g : G1) (n : ℕ) (f : List F) :
    msm ((List.range n).map (fun b => s b • g)) f =
      (∑ b ∈ Finset.range n, f.getD b 0 * s b) • g := by
  induction n generalizing f s with
  | zero => simp [msm]
  | succ n ih =>
    cases f with
    | nil => simp [msm]
    | cons c f =>
      have := ih (fun b => s (b + 1)) f
      rw [List.range_succ_eq_map, List.map_cons, List.map_map]
      unfold msm at *
      rw [List.zipWith_cons_cons, List.sum_cons]
      rw [show (fun b => s b • g) ∘ Nat.succ = (fun b => s (b + 1) • g) from rfl, this,
        Finset.sum_range_succ']
      simp only [List.getD_cons_succ, List.getD_cons_zero]
      rw [smul_smul, ← add_smul, add_comm]

/-- The batch commitment is the evaluation of the merged table at *all* trapdoors of the parameters,
whatever the number of variables of the merged polynomial. -/
theorem C52_commit (t : List F) (g : G1) (h : G2) (sup : ℕ) (pp : MProverParam G1 G2)
    (vp : MVerifierParam G1 G2) (H : MlParams t g h sup pp vp) (polys : List (Mle F)) (w : Mle F)
    (hw : mergePolys polys = .ok w) :
    mBatchCommit pp polys = .ok (mle w.evals (lastVars t sup) • g) := by
  obtain ⟨_, hlen, rfl, _⟩ := mlParams_eq H
  unfold mBatchCommit paramsOf
  rw [hw]
  simp only
  rw [powersML_get _ _ 0 (by omega)]
  simp only
  rw [msm_range']
  rfl

example : mBatchCommit (paramsOf ([7, 5, 11] : List F101) (2 : F101) (3 : F101)).1 [toyP] =
    .ok (2 * ((3 + 7 + 10 + 5 * 35) * (1 - 11))) := by decide +kernel

/-- the curve through the points, as in `build_l`, with the composition of the merged polynomial -/
noncomputable def composition (S : ℕ) (root : F) (n m : ℕ) (w : List F) (points : List (List F)) :
    Polynomial F := circPoly w (buildL n points (circDomain S root (Nat.clog 2 m)))

/-- What batch opening does for inputs and parameters that fit.  There is a polynomial `q` of less
than `evalPoints` coefficients, agreeing with the composition at the points `omega^i`, such that
the outcome is decided by whether it also agrees at the challenge. -/
theorem C52_open_exact (S : ℕ) (root : F) (hr : IsPrimitiveRoot root (2 ^ S))
    (polys : List (Mle F)) (n : ℕ) (hne : polys ≠ []) (hwf : ∀ p ∈ polys, p.WF ∧ p.numVars = n)
    (points : List (List F)) (hl : points.length = polys.length)
    (hp : ∀ x ∈ points, x.length = n) (hpos : 0 < mergedVars n polys.length)
    (hS : evalPoints n polys.length ≤ 2 ^ S) :
    ∃ (w : Mle F) (Q : Polynomial F) (q : List F) (omega : F), mergePolys polys = .ok w ∧ w.WF ∧
      w.numVars = mergedVars n polys.length ∧
      Q = composition S root n polys.length w.evals points ∧
      Q.natDegree ≤ maxDegree n polys.length ∧
      IsPrimitiveRoot omega (nextPow2 polys.length) ∧
      (∀ i, i < polys.length →
        Q.eval (omega ^ i) = mle (polys.getD i ⟨0, []⟩).evals (points.getD i []).reverse ∧
        evalAt q (omega ^ i) = Q.eval (omega ^ i)) ∧
      q.length ≤ evalPoints n polys.length ∧
      (Q.natDegree < evalPoints n polys.length → ∀ x, evalAt q x = Q.eval x) ∧
      ∀ (chal : G1 → List (List F) → G1 → F) (τ : F) (gu : G1) (hu : G2) (D : ℕ)
        (upp : ProverParam G1) (uvp : VerifierParam G1 G2) (_ : UniParams τ gu hu D upp uvp)
        (_ : evalPoints n polys.length ≤ D + 1) (t : List F) (g : G1) (h : G2) (sup : ℕ)
        (pp : MProverParam G1 G2) (vp : MVerifierParam G1 G2) (_ : MlParams t g h sup pp vp)
        (_ : mergedVars n polys.length ≤ sup) (comm : G1) (r : F)
        (_ : r = chal comm points (evalAt q τ • gu)),
        ∃ (proof : List G1) (opens : List G1),
        mBatchOpen S root chal upp pp polys comm points =
          (if Q.eval r = evalAt q r then
            .ok (⟨proof, evalAt q τ • gu, opens⟩,
              (List.range polys.length).map
                (fun i => mle (polys.getD i ⟨0, []⟩).evals (points.getD i []).reverse) ++
                  [evalAt q r])
          else .error .invalidProver) ∧
        (Q.eval r = evalAt q r →
          ∀ (GT : Type) [AddCommGroup GT] [Module F GT] [DecidableEq GT]
            (e : G1 →ₗ[F] G2 →ₗ[F] GT) (c : F), comm = c • g →
            mBatchVerify S root chal e uvp vp comm points
              ((List.range polys.length).map
                (fun i => mle (polys.getD i ⟨0, []⟩).evals (points.getD i []).reverse) ++
                  [evalAt q r]) ⟨proof, evalAt q τ • gu, opens⟩ =
              .ok (decide ((mle w.evals (lastVars t (mergedVars n polys.length)) - c) • e g h = 0))) := by
  obtain ⟨w, h1, h2, h3, h4⟩ := mergePolys_ok polys n hne hwf
  have hposp : 0 < polys.length := List.length_pos_of_ne_nil hne
  set P := Nat.clog 2 polys.length with hP
  have hS' : circLog (n + P) (2 ^ P) ≤ S := (Nat.pow_le_pow_iff_right (by norm_num)).1 hS
  have hge : P ≤ circLog (n + P) (2 ^ P) := circLog_ge _ _ (by unfold mergedVars at hpos; omega)
  have hprim : IsPrimitiveRoot (root ^ 2 ^ (S - P)) (2 ^ P) := gen_primitive S root hr P (by omega)
  have hlep : polys.length ≤ 2 ^ P := le_two_pow_clog _
  set d := circDomain S root P with hd
  set l := buildL n points d with hldef
  set q := qPoly S root w l (circLog (n + P) (2 ^ P)) with hqdef
  have hQval : ∀ x, (circPoly w.evals l).eval x = mleSum w.evals (lPoint l x) :=
    fun x => circPoly_eval _ _ _
  have hom : ∀ i, i < polys.length →
      mleSum w.evals (lPoint l ((root ^ 2 ^ (S - P)) ^ i)) =
        mle (polys.getD i ⟨0, []⟩).evals (points.getD i []).reverse := fun i hi =>
    merged_omega polys n w h4 points d hprim (by rw [hl]; exact hlep) hp hl i (by omega)
  have hqom : ∀ i, i < polys.length → evalAt q ((root ^ 2 ^ (S - P)) ^ i) =
      mleSum w.evals (lPoint l ((root ^ 2 ^ (S - P)) ^ i)) := fun i hi =>
    qPoly_small S root hr w l _ _ hS' hge i (lt_of_lt_of_le hi hlep)
  refine ⟨w, circPoly w.evals l, q, root ^ 2 ^ (S - P), h1, h2, h3, rfl, ?_, hprim, fun i hi => ⟨?_, ?_⟩,
    qPoly_length _ _ _ _ _, fun hlt x => ?_, ?_⟩
  · have := circPoly_natDegree w.evals l (2 ^ P) (buildL_mem_length n points d)
    rw [hldef, buildL_length, hl] at this
    exact this
  · rw [hQval, hom i hi]
  · rw [hQval, hqom i hi]
  · refine interpolate_recovers (circDomain S root (circLog (n + P) (2 ^ P)))
      (circDomain_primitive S root hr _ hS') (circPoly w.evals l) hlt _ ?_ x
    refine List.map_congr_left fun k _ => ?_
    rw [hQval, mleEval_eq]
  · intro chal τ gu hu D upp uvp HU hD t g h sup pp vp HM hsup comm r hrdef
    obtain ⟨rfl, hug, huh, hub⟩ := uniParams_eq HU
    obtain ⟨hst, hlen, rfl, rfl⟩ := mlParams_eq HM
    have hlast : (lastVars t sup).drop (sup - (n + P)) = lastVars t (n + P) := by
      have : n + P ≤ sup := hsup
      unfold lastVars; rw [List.drop_drop]; congr 1; omega
    have heq := mBatchOpen_eq S root hr chal τ gu (D + 1) (lastVars t sup) g h polys n hne hwf points
      hl hp hpos hS' hD (by rw [hlen]; exact hsup) comm w h1 h2 h3 l rfl q rfl r hrdef _ rfl
    rw [hlen, hlast] at heq
    refine ⟨(quots (lPoint l r) (lastVars t (n + P)) w.evals).map (· • g),
      ((List.range points.length).map (fun i => (root ^ 2 ^ (S - P)) ^ i) ++ [r]).map
        (fun z => evalAt (divPoly q [-z, 1]) τ • gu), ?_, ?_⟩
    · rw [heq, hQval]
      by_cases hc : mleSum w.evals (lPoint l r) = evalAt q r
      · rw [if_pos hc, if_pos hc]
        congr 2
        rw [List.map_append, List.map_map, hl]
        congr 1
        refine List.map_congr_left fun i hi => ?_
        have hi : i < polys.length := by simpa using hi
        rw [Function.comp_apply, hqom i hi, hom i hi]
      · rw [if_neg hc, if_neg hc]
    · intro hc GT _ _ _ e c hcomm
      have hlp : (lPoint l r).length = n + P := by rw [hldef, lPoint_length, hl]
      have hvals : (List.range polys.length).map
            (fun i => mle (polys.getD i ⟨0, []⟩).evals (points.getD i []).reverse) ++ [evalAt q r] =
          ((List.range points.length).map (fun i => (root ^ 2 ^ (S - P)) ^ i) ++ [r]).map
            (fun z => evalAt q z) := by
        rw [List.map_append, List.map_map, hl]
        congr 1
        refine List.map_congr_left fun i hi => ?_
        have hi : i < polys.length := by simpa using hi
        rw [Function.comp_apply, hqom i hi, hom i hi]
      have hget : ∀ (f : F → G1) (i : ℕ), i < polys.length →
          (((List.range points.length).map (fun i => (root ^ 2 ^ (S - P)) ^ i) ++ [r]).map f).getD i 0
            = f ((root ^ 2 ^ (S - P)) ^ i) := by
        intro f i hi
        rw [List.map_append, List.map_map, getD_append_left' _ _ _ _ (by simp; omega),
          getD_range_map _ _ _ _ (by omega)]
        rfl
      have hgetF : ∀ (f : F → F) (i : ℕ), i < polys.length →
          (((List.range points.length).map (fun i => (root ^ 2 ^ (S - P)) ^ i) ++ [r]).map f).getD i 0
            = f ((root ^ 2 ^ (S - P)) ^ i) := by
        intro f i hi
        rw [List.map_append, List.map_map, getD_append_left' _ _ _ _ (by simp; omega),
          getD_range_map _ _ _ _ (by omega)]
        rfl
      have hgetL : ∀ (f : F → G1),
          (((List.range points.length).map (fun i => (root ^ 2 ^ (S - P)) ^ i) ++ [r]).map f).getD
            points.length 0 = f r := by
        intro f
        rw [List.map_append, getD_append_right' _ _ _ _ (by simp)]
        simp
      have hgetLF : ∀ (f : F → F),
          (((List.range points.length).map (fun i => (root ^ 2 ^ (S - P)) ^ i) ++ [r]).map f).getD
            points.length 0 = f r := by
        intro f
        rw [List.map_append, getD_append_right' _ _ _ _ (by simp)]
        simp
      have hnum : (points.getD 0 []).length = n := by
        rw [List.getD_eq_getElem _ _ (by omega)]; exact hp _ (List.getElem_mem _)
      rw [hvals]
      unfold mBatchVerify
      rw [if_neg (by omega), if_neg (by simp), if_neg (by simp)]
      simp only
      rw [hnum, if_neg (by
        rw [List.any_eq_true]; push Not
        intro x hx
        rw [hp x hx]; simp)]
      rw [newDomain_eq S root points.length (by rw [hl]; omega)]
      simp only
      rw [← hrdef]
      have hver : ∀ z : F, verify e uvp (evalAt q τ • gu) z (evalAt q z)
          (evalAt (divPoly q [-z, 1]) τ • gu) = true := by
        intro z
        have := verify_value e uvp τ (by rw [hub, huh]) q z
        rwa [hug] at this
      rw [if_neg]
      · rw [if_neg]
        · rw [hgetLF]
          have hlr : lPoint (buildL n points (circDomain S root (Nat.clog 2 points.length))) r =
              lPoint l r := by rw [hl]
          rw [hlr]
          have hqlen := quots_length (lPoint l r) (lastVars t (n + P)) w.evals
            (by rw [hlp]; unfold lastVars; simp; unfold mergedVars at hsup; omega)
          rw [mVerify_eq e _ g h comm _ _ _ (by rw [hlp, hlen]; exact hsup)
            (by rw [List.length_map, hqlen]), hlp, hlen, hlast]
          congr 2
          have hid := quots_identity (lPoint l r) (lastVars t (n + P)) w.evals
            (by rw [hlp]; unfold lastVars; simp; unfold mergedVars at hsup; omega)
          rw [hlp] at hid
          have hs : ∑ i ∈ Finset.range (n + P),
              ((lastVars t (n + P)).getD i 0 - (lPoint l r).getD i 0) •
              ((quots (lPoint l r) (lastVars t (n + P)) w.evals).map (· • g)).getD i 0 =
              (mleSum w.evals (lastVars t (n + P)) - mleSum w.evals (lPoint l r)) • g := by
            rw [hid, add_sub_cancel_left, Finset.sum_smul]
            refine Finset.sum_congr rfl fun i _ => ?_
            rw [getD_map_smul, smul_smul]
          rw [hs, hcomm, ← hc, hQval]
          have hfin : mleSum w.evals (lPoint l r) • g - c • g +
              (mleSum w.evals (lastVars t (n + P)) - mleSum w.evals (lPoint l r)) • g =
              (mleSum w.evals (lastVars t (n + P)) - c) • g := by module
          rw [hfin, map_smul, LinearMap.smul_apply]
          rfl
        · rw [hgetLF, hgetL, hver]; simp
      · rw [Bool.not_eq_false, List.all_eq_true]
        intro i hi
        have hi : i < points.length := by simpa using hi
        rw [hget _ i (by omega), hgetF _ i (by omega), hl]
        exact hver _

/-- Batch completeness, for sizes for which the composed polynomial fits on the evaluation points
and parameters trimmed to exactly the number of variables of the merged polynomial.

Missing for the full statement: both restrictions are needed (see the counterexamples below), and
the values are those at the points read backwards. -/
theorem C52_completeness_partial (e : G1 →ₗ[F] G2 →ₗ[F] GT) (S : ℕ) (root : F)
    (hr : IsPrimitiveRoot root (2 ^ S))
    (polys : List (Mle F)) (n : ℕ) (hne : polys ≠ []) (hwf : ∀ p ∈ polys, p.WF ∧ p.numVars = n)
    (points : List (List F)) (hl : points.length = polys.length)
    (hp : ∀ x ∈ points, x.length = n) (hpos : 0 < mergedVars n polys.length)
    (hS : evalPoints n polys.length ≤ 2 ^ S)
    (hfit : maxDegree n polys.length < evalPoints n polys.length)
    (chal : G1 → List (List F) → G1 → F) (τ : F) (gu : G1) (hu : G2) (D : ℕ)
    (upp : ProverParam G1) (uvp : VerifierParam G1 G2) (HU : UniParams τ gu hu D upp uvp)
    (hD : evalPoints n polys.length ≤ D + 1) (t : List F) (g : G1) (h : G2)
    (pp : MProverParam G1 G2) (vp : MVerifierParam G1 G2)
    (HM : MlParams t g h (mergedVars n polys.length) pp vp) :
    ∃ comm proof vals, mBatchCommit pp polys = .ok comm ∧
      mBatchOpen S root chal upp pp polys comm points = .ok (proof, vals) ∧
      vals.length = polys.length + 1 ∧
      (∀ i, i < polys.length →
        vals.getD i 0 = mle (polys.getD i ⟨0, []⟩).evals (points.getD i []).reverse) ∧
      mBatchVerify S root chal e uvp vp comm points vals proof = .ok true := by
  obtain ⟨w, Q, q, omega, h1, h2, h3, _, h4, h5, h6, h7, h8, h9⟩ :=
    C52_open_exact (G1 := G1) (G2 := G2) S root hr polys n hne hwf points hl hp hpos hS
  have hc := C52_commit t g h _ pp vp HM polys w h1
  have hq := h8 (lt_of_le_of_lt h4 hfit)
  obtain ⟨proof, opens, ho, hv⟩ := h9 chal τ gu hu D upp uvp HU hD t g h _ pp vp HM (le_refl _)
    (mle w.evals (lastVars t (mergedVars n polys.length)) • g) _ rfl
  rw [if_pos (hq _).symm] at ho
  refine ⟨_, _, _, hc, ho, by simp, fun i hi => ?_, ?_⟩
  · rw [getD_append_left' _ _ _ _ (by simpa using hi), getD_range_map _ _ _ _ hi]
  · rw [hv (hq _).symm GT e _ rfl]
    simp

/-- parameters of the examples: the univariate trapdoor 5 and degree 7 -/
def toyU : ProverParam F101 × VerifierParam F101 F101 :=
  (⟨powers (5 : F101) 2 8⟩, ⟨2, 3, (5 : F101) • 3, powers (5 : F101) 3 2, powers (5 : F101) 2 2⟩)

/-- three variables -/
def toyM : MProverParam F101 F101 × MVerifierParam F101 F101 :=
  paramsOf ([7, 5, 11] : List F101) (2 : F101) (3 : F101)

/-- a challenge that depends on everything -/
def toyChal (c : F101) (pts : List (List F101)) (q : F101) : F101 := c + 3 * q + pts.flatten.sum

example : UniParams (5 : F101) 2 3 7 toyU.1 toyU.2 := uniParams_exists _ _ _ _

example : MlParams ([7, 5, 11] : List F101) (2 : F101) (3 : F101) 3 toyM.1 toyM.2 :=
  mlParams_exists ([7, 5, 11] : List F101) (by decide) _ _ 3 (by decide)

theorem toy_root : IsPrimitiveRoot (10 : F101) (2 ^ 2) := by
  refine IsPrimitiveRoot.of_map_of_injective (f := MonoidHom.id F101) ?_ Function.injective_id
  rw [IsPrimitiveRoot.iff (by norm_num)]
  refine ⟨by decide +kernel, fun l h0 hl => ?_⟩
  have : l = 1 ∨ l = 2 ∨ l = 3 := by omega
  rcases this with rfl | rfl | rfl <;> decide +kernel

example : evalPoints 2 2 = 4 ∧ maxDegree 2 2 = 3 ∧ mergedVars 2 2 = 3 := by
  decide +kernel

/-- **The points are read backwards.**  The value `batch_open` reports (and `batch_verify` accepts)
for a polynomial and a point is its evaluation at the reversed point, so it differs from the value
of `open` for the same polynomial and point. -/
theorem C52_order_counterexample :
    let pv := paramsOf ([5, 11] : List F101) (2 : F101) (3 : F101)
    let bp : MBatchProof F101 := ⟨[11, 64], 45, [0, 0]⟩
    toyP.WF ∧ toyP.numVars = 2 ∧
      mBatchCommit pv.1 [toyP] = .ok 4 ∧
      mBatchOpen 2 (10 : F101) toyChal toyU.1 pv.1 [toyP] 4 [[2, 6]] = .ok (bp, [73, 73]) ∧
      mBatchVerify 2 (10 : F101) toyChal toyE toyU.2 pv.2 4 [[2, 6]] [73, 73] bp = .ok true ∧
      mOpen pv.1 toyP [2, 6] = .ok ([11, 24], 77) ∧
      mle toyP.evals [2, 6] = 77 ∧ mle toyP.evals [6, 2] = 73 := by
  refine ⟨by unfold Mle.WF; decide, ?_, ?_, ?_, ?_, ?_, ?_, ?_⟩ <;> decide +kernel

/-- For every input: when the composed polynomial has degree at least the number of evaluation
points, honest batch opening fails except for the challenges that are roots of a fixed polynomial
`E`, non-zero and of degree at most `maxDegree`. -/
theorem C52_degree_counterexample (S : ℕ) (root : F) (hr : IsPrimitiveRoot root (2 ^ S))
    (polys : List (Mle F)) (n : ℕ) (hne : polys ≠ []) (hwf : ∀ p ∈ polys, p.WF ∧ p.numVars = n)
    (points : List (List F)) (hl : points.length = polys.length)
    (hp : ∀ x ∈ points, x.length = n) (hpos : 0 < mergedVars n polys.length)
    (hS : evalPoints n polys.length ≤ 2 ^ S) :
    ∃ (w : Mle F), mergePolys polys = .ok w ∧
      (evalPoints n polys.length ≤
          (composition S root n polys.length w.evals points).natDegree →
        ∃ (E : Polynomial F) (q : List F), E ≠ 0 ∧ E.natDegree ≤ maxDegree n polys.length ∧
          ∀ (chal : G1 → List (List F) → G1 → F) (τ : F) (gu : G1) (hu : G2) (D : ℕ)
            (upp : ProverParam G1) (uvp : VerifierParam G1 G2) (_ : UniParams τ gu hu D upp uvp)
            (_ : evalPoints n polys.length ≤ D + 1) (t : List F) (g : G1) (h : G2) (sup : ℕ)
            (pp : MProverParam G1 G2) (vp : MVerifierParam G1 G2) (_ : MlParams t g h sup pp vp)
            (_ : mergedVars n polys.length ≤ sup) (comm : G1),
            E.eval (chal comm points (evalAt q τ • gu)) ≠ 0 →
              mBatchOpen S root chal upp pp polys comm points = .error .invalidProver) := by
  obtain ⟨w, Q, q, omega, h1, h2, h3, hQ, h4, h5, h6, h7, h8, h9⟩ :=
    C52_open_exact (G1 := G1) (G2 := G2) S root hr polys n hne hwf points hl hp hpos hS
  refine ⟨w, h1, fun hdeg => ?_⟩
  rw [← hQ] at hdeg
  have h0 : 0 < evalPoints n polys.length := by unfold evalPoints nextPow2; positivity
  have hqd : (toPoly q).natDegree < Q.natDegree := by
    have := toPoly_natDegree q
    omega
  refine ⟨Q - toPoly q, q, fun h => ?_, ?_, ?_⟩
  · rw [sub_eq_zero] at h
    rw [h] at hqd
    omega
  · rw [Polynomial.natDegree_sub_eq_left_of_natDegree_lt hqd]
    exact h4
  · intro chal τ gu hu D upp uvp HU hD t g h sup pp vp HM hsup comm hE
    obtain ⟨proof, opens, ho, -⟩ := h9 chal τ gu hu D upp uvp HU hD t g h sup pp vp HM hsup comm _
      rfl
    rw [ho, if_neg]
    rw [Polynomial.eval_sub, toPoly_eval] at hE
    exact fun hc => hE (sub_eq_zero.2 hc)

/-- the polynomial that is one where all variables are one -/
def lastOne (F : Type) [Field F] (n : ℕ) : Mle F := ⟨n, List.replicate (2 ^ n - 1) 0 ++ [1]⟩

/-- the zero polynomial -/
def zeroMle (F : Type) [Field F] (n : ℕ) : Mle F := ⟨n, List.replicate (2 ^ n) 0⟩

theorem lastOne_getD (n j : ℕ) (hj : j < 2 ^ n) :
    (lastOne F n).evals.getD j 0 = if j = 2 ^ n - 1 then 1 else 0 := by
  unfold lastOne
  simp only
  split
  · next h => rw [h, List.getD_eq_getElem?_getD]; simp
  · next h =>
    rw [getD_append_left' _ _ _ _ (by rw [List.length_replicate]; omega)]
    simp

theorem zeroMle_getD (n j : ℕ) : (zeroMle F n).evals.getD j 0 = 0 := by
  unfold zeroMle
  simp

/-- the composed polynomial for these two polynomials has the full degree, as soon as the two
points differ in all coordinates -/
theorem composition_two (S : ℕ) (hS : 1 ≤ S) (root : F) (hr : IsPrimitiveRoot root (2 ^ S)) (n : ℕ)
    (x y : List F) (hxy : ∀ i, i < n → x.getD i 0 ≠ y.getD i 0) (w : Mle F)
    (hw : mergePolys [zeroMle F n, lastOne F n] = .ok w) :
    (composition S root n 2 w.evals [x, y]).natDegree = n + 1 := by
  obtain ⟨w', h1, h2, h3, h4⟩ := mergePolys_ok [zeroMle F n, lastOne F n] n (by simp) (by
    intro p hp
    simp only [List.mem_cons, List.not_mem_nil, or_false] at hp
    have := Nat.one_le_two_pow (n := n)
    rcases hp with rfl | rfl
    · simp [zeroMle, Mle.WF]
    · simp [lastOne, Mle.WF]; omega)
  rw [h1] at hw
  cases hw
  have hc : Nat.clog 2 2 = 1 := by decide +kernel
  have hprim := circDomain_primitive S root hr 1 hS
  have hsz : (circDomain S root 1).size = 2 := rfl
  set d := circDomain S root 1 with hd
  have hcoef : ∀ b, b < 2 ^ (n + 1) → w.evals.getD b 0 = if b = 2 ^ (n + 1) - 1 then 1 else 0 := by
    intro b hb
    have hpow : 2 ^ (n + 1) = 2 * 2 ^ n := by ring
    have h0 := Nat.one_le_two_pow (n := n)
    by_cases hlt : b < 2 ^ n
    · have := h4 0 (by simp) b hlt
      rw [Nat.zero_mul, Nat.zero_add] at this
      rw [this, if_neg (by omega)]
      exact zeroMle_getD n b
    · have := h4 1 (by simp) (b - 2 ^ n) (by omega)
      rw [Nat.one_mul, show 2 ^ n + (b - 2 ^ n) = b by omega] at this
      rw [this]
      refine (lastOne_getD n _ (by omega)).trans ?_
      by_cases hb' : b = 2 ^ (n + 1) - 1
      · rw [if_pos hb', if_pos (by omega)]
      · rw [if_neg hb', if_neg (by omega)]
  unfold composition
  rw [hc, ← hd]
  unfold circPoly mleSum
  have hlen : ((buildL n [x, y] d).reverse.map toPoly).length = n + 1 := by
    rw [List.length_map, List.length_reverse, buildL_length]
    rw [show ([x, y] : List (List F)).length = 2 from rfl, hc]
  rw [hlen]
  rw [Finset.sum_eq_single (2 ^ (n + 1) - 1)]
  · have hone : (w.evals.map Polynomial.C).getD (2 ^ (n + 1) - 1) 0 = (1 : Polynomial F) := by
      have := hcoef (2 ^ (n + 1) - 1) (by have := Nat.one_le_two_pow (n := n + 1); omega)
      rw [if_pos rfl, List.getD_eq_getElem?_getD] at this
      rw [List.getD_eq_getElem?_getD, List.getElem?_map]
      cases hh : w.evals[2 ^ (n + 1) - 1]? with
      | none => rw [hh] at this; simp at this
      | some c => rw [hh] at this; simp at this; simp [this]
    rw [hone, one_mul]
    unfold eqW
    rw [hlen]
    have hdeg : ∀ p ∈ buildL n [x, y] d, (toPoly p).natDegree = 1 := by
      intro p hp
      have hle : (toPoly p).natDegree ≤ 1 := by
        have h5 := buildL_mem_length n [x, y] d p hp
        have h6 := toPoly_natDegree p
        omega
      have hev : evalAt p (d.gen ^ 0) ≠ evalAt p (d.gen ^ 1) := by
        unfold buildL at hp
        simp only at hp
        rw [show ([x, y] : List (List F)).length = 2 from rfl, hc] at hp
        rw [List.mem_append, List.mem_map, List.mem_map] at hp
        rcases hp with ⟨i, hi, rfl⟩ | ⟨i, hi, rfl⟩
        · have hi : i = 0 := by simpa using hi
          subst hi
          rw [interpolate_eval d hprim _ (by simp [hsz]) 0 (by omega),
            interpolate_eval d hprim _ (by simp [hsz]) 1 (by omega)]
          simp [List.range_succ, bitDecompose]
        · have hi := List.mem_range.1 hi
          rw [interpolate_eval d hprim _ (by simp [hsz]) 0 (by omega),
            interpolate_eval d hprim _ (by simp [hsz]) 1 (by omega)]
          simpa using hxy i hi
      by_contra hne
      have h0 : (toPoly p).natDegree = 0 := by omega
      obtain ⟨c, hcc⟩ := Polynomial.natDegree_eq_zero.1 h0
      rw [← toPoly_eval, ← toPoly_eval, ← hcc] at hev
      simp at hev
    have hne : ∀ j ∈ Finset.range (n + 1),
        (if (2 ^ (n + 1) - 1).testBit j then ((buildL n [x, y] d).reverse.map toPoly).getD j 0
          else 1 - ((buildL n [x, y] d).reverse.map toPoly).getD j 0).natDegree = 1 := by
      intro j hj
      have hj := Finset.mem_range.1 hj
      rw [Nat.testBit_two_pow_sub_one, if_pos (by simpa using hj),
        List.getD_eq_getElem _ _ (by omega), List.getElem_map]
      exact hdeg _ (List.mem_reverse.1 (List.getElem_mem _))
    rw [Polynomial.natDegree_prod]
    · rw [Finset.sum_congr rfl hne]; simp
    · intro j hj h
      have := hne j hj
      rw [h] at this
      simp at this
  · intro b hb hne
    have := hcoef b (Finset.mem_range.1 hb)
    rw [if_neg hne, List.getD_eq_getElem?_getD] at this
    rw [List.getD_eq_getElem?_getD, List.getElem?_map]
    cases hh : w.evals[b]? with
    | none => simp
    | some c => rw [hh] at this; simp at this; simp [this]
  · intro h
    exact absurd (Finset.mem_range.2 (by have := Nat.one_le_two_pow (n := n + 1); omega)) h

theorem evalPoints_two (n : ℕ) (h : n = 3 ∨ 7 ≤ n) : evalPoints n 2 ≤ n + 1 := by
  have hc : Nat.clog 2 2 = 1 := by decide +kernel
  unfold evalPoints mergedVars nextPow2
  rw [hc]
  by_cases hs : n < 12
  · interval_cases n <;> first | (exfalso; omega) | decide +kernel
  · have hpow : ∀ m, 5 ≤ m → 2 * m + 4 ≤ 2 ^ m := by
      intro m hm
      induction m, hm using Nat.le_induction with
      | base => norm_num
      | succ m hm ih => rw [pow_succ]; omega
    have h1 := hpow ((n - 2) / 2) (by omega)
    have h2 : Nat.clog 2 (n + 1) ≤ (n - 2) / 2 := Nat.clog_le_of_le_pow (by omega)
    generalize Nat.clog 2 (n + 1) = k at *
    rw [pow_one, show 2 - 1 = 1 from rfl, mul_one]
    by_cases hk : k + 2 ≤ 1
    · omega
    have h3 := Nat.pow_pred_clog_lt_self (b := 2) (by norm_num) (x := k + 2) (by omega)
    have h4 : 0 < Nat.clog 2 (k + 2) := Nat.clog_pos (by norm_num) (by omega)
    generalize Nat.clog 2 (k + 2) = c at *
    obtain ⟨c', rfl⟩ : ∃ c', c = c' + 1 := ⟨c - 1, by omega⟩
    rw [Nat.pred_succ] at h3
    rw [pow_succ]
    omega

/-- **Batch opening of two polynomials.**  For three variables, and for every number of variables
from seven on, there are two polynomials for which honest batch opening fails with
`InvalidProver` at all but at most `n + 1` challenges, for every two points that differ in all
coordinates and all parameters. -/
theorem C52_two_polynomials_counterexample (S : ℕ) (root : F) (hr : IsPrimitiveRoot root (2 ^ S))
    (n : ℕ) (hn : n = 3 ∨ 7 ≤ n) (hS : evalPoints n 2 ≤ 2 ^ S) (x y : List F) (hx : x.length = n)
    (hy : y.length = n) (hxy : ∀ i, i < n → x.getD i 0 ≠ y.getD i 0) :
    ∃ (E : Polynomial F) (q : List F), E ≠ 0 ∧ E.natDegree ≤ n + 1 ∧
      ∀ (chal : G1 → List (List F) → G1 → F) (τ : F) (gu : G1) (hu : G2) (D : ℕ)
        (upp : ProverParam G1) (uvp : VerifierParam G1 G2) (_ : UniParams τ gu hu D upp uvp)
        (_ : evalPoints n 2 ≤ D + 1) (t : List F) (g : G1) (h : G2) (sup : ℕ)
        (pp : MProverParam G1 G2) (vp : MVerifierParam G1 G2) (_ : MlParams t g h sup pp vp)
        (_ : mergedVars n 2 ≤ sup) (comm : G1),
        E.eval (chal comm [x, y] (evalAt q τ • gu)) ≠ 0 →
          mBatchOpen S root chal upp pp [zeroMle F n, lastOne F n] comm [x, y] =
            .error .invalidProver := by
  have hc : Nat.clog 2 2 = 1 := by decide +kernel
  have hS1 : 1 ≤ S := by
    by_contra h0
    have h0 : S = 0 := by omega
    subst h0
    have : 2 ≤ evalPoints n 2 := by
      unfold evalPoints nextPow2
      rw [hc, pow_one, show 2 - 1 = 1 from rfl, mul_one]
      have := Nat.clog_pos (b := 2) (n := Nat.clog 2 (mergedVars n 2) + 2) (by norm_num) (by omega)
      calc 2 = 2 ^ 1 := rfl
        _ ≤ _ := Nat.pow_le_pow_right (by norm_num) this
    simp at hS
    omega
  obtain ⟨w, h1, h2⟩ := C52_degree_counterexample (G1 := G1) (G2 := G2) S root hr
    [zeroMle F n, lastOne F n] n (by simp) (by
      intro p hp
      simp only [List.mem_cons, List.not_mem_nil, or_false] at hp
      have := Nat.one_le_two_pow (n := n)
      rcases hp with rfl | rfl
      · simp [zeroMle, Mle.WF]
      · simp [lastOne, Mle.WF]; omega) [x, y] rfl (by
      intro z hz
      simp only [List.mem_cons, List.not_mem_nil, or_false] at hz
      rcases hz with rfl | rfl <;> assumption) (by unfold mergedVars; omega) hS
  have hcomp := composition_two S hS1 root hr n x y hxy w h1
  obtain ⟨E, q, h3, h4, h5⟩ := h2 (by
    rw [show ([zeroMle F n, lastOne F n] : List (Mle F)).length = 2 from rfl, hcomp]
    exact evalPoints_two n hn)
  refine ⟨E, q, h3, h4.trans (le_of_eq ?_), h5⟩
  unfold maxDegree mergedVars nextPow2
  rw [show ([zeroMle F n, lastOne F n] : List (Mle F)).length = 2 from rfl, hc]
  simp

example : mBatchOpen 2 (10 : F101) (fun _ _ _ => 5) toyU.1
    (paramsOf ([5, 11, 3, 4] : List F101) (2 : F101) (3 : F101)).1 [zeroMle F101 3, lastOne F101 3]
    7 [[1, 1, 1], [2, 3, 4]] = .error .invalidProver := by decide +kernel

/-- **Parameters for more variables than needed.**  With parameters for more variables than the
merged polynomial has, the (honest) batch commitment and the verification key disagree: the honest
proof is accepted exactly when two different evaluations coincide. -/
theorem C52_params_counterexample (e : G1 →ₗ[F] G2 →ₗ[F] GT) (S : ℕ) (root : F)
    (hr : IsPrimitiveRoot root (2 ^ S))
    (polys : List (Mle F)) (n : ℕ) (hne : polys ≠ []) (hwf : ∀ p ∈ polys, p.WF ∧ p.numVars = n)
    (points : List (List F)) (hl : points.length = polys.length)
    (hp : ∀ x ∈ points, x.length = n) (hpos : 0 < mergedVars n polys.length)
    (hS : evalPoints n polys.length ≤ 2 ^ S)
    (hfit : maxDegree n polys.length < evalPoints n polys.length)
    (chal : G1 → List (List F) → G1 → F) (τ : F) (gu : G1) (hu : G2) (D : ℕ)
    (upp : ProverParam G1) (uvp : VerifierParam G1 G2) (HU : UniParams τ gu hu D upp uvp)
    (hD : evalPoints n polys.length ≤ D + 1) (t : List F) (g : G1) (h : G2) (sup : ℕ)
    (hsup : mergedVars n polys.length ≤ sup)
    (pp : MProverParam G1 G2) (vp : MVerifierParam G1 G2) (HM : MlParams t g h sup pp vp)
    (hgh : e g h ≠ 0) :
    ∃ w comm proof vals, mergePolys polys = .ok w ∧ mBatchCommit pp polys = .ok comm ∧
      mBatchOpen S root chal upp pp polys comm points = .ok (proof, vals) ∧
      mBatchVerify S root chal e uvp vp comm points vals proof =
        .ok (decide (mle w.evals (lastVars t (mergedVars n polys.length)) =
          mle w.evals (lastVars t sup))) := by
  obtain ⟨w, Q, q, omega, h1, h2, h3, _, h4, h5, h6, h7, h8, h9⟩ :=
    C52_open_exact (G1 := G1) (G2 := G2) S root hr polys n hne hwf points hl hp hpos hS
  have hc := C52_commit t g h _ pp vp HM polys w h1
  have hq := h8 (lt_of_le_of_lt h4 hfit)
  obtain ⟨proof, opens, ho, hv⟩ := h9 chal τ gu hu D upp uvp HU hD t g h _ pp vp HM hsup
    (mle w.evals (lastVars t sup) • g) _ rfl
  rw [if_pos (hq _).symm] at ho
  refine ⟨_, _, _, _, h1, hc, ho, ?_⟩
  rw [hv (hq _).symm GT e _ rfl]
  congr 2
  rw [smul_eq_zero, or_iff_left hgh, sub_eq_zero]

/-- a refused honest proof: one polynomial in two variables, parameters for three -/
example :
    mBatchCommit toyM.1 [toyP] = .ok 39 ∧
    mBatchOpen 2 (10 : F101) toyChal toyU.1 toyM.1 [toyP] 39 [[2, 6]] =
      .ok (⟨[11, 64], 45, [0, 0]⟩, [73, 73]) ∧
    mBatchVerify 2 (10 : F101) toyChal toyE toyU.2 toyM.2 39 [[2, 6]] [73, 73]
      ⟨[11, 64], 45, [0, 0]⟩ = .ok false := by
  refine ⟨?_, ?_, ?_⟩ <;> decide +kernel

/-- Too few parameters are not noticed by the batch commitment, whereas `commit` refuses. -/
theorem C52_truncation_counterexample :
    mBatchCommit (paramsOf ([5] : List F101) (2 : F101) (3 : F101)).1 [toyP] =
      mBatchCommit (paramsOf ([5] : List F101) (2 : F101) (3 : F101)).1 [(⟨2, [3, 4, 77, 99]⟩ : Mle F101)] ∧
    mCommit (paramsOf ([5] : List F101) (2 : F101) (3 : F101)).1 toyP =
      .error .invalidParameters := by
  refine ⟨?_, ?_⟩ <;> decide +kernel

/-- **What the batch verifier checks.**  For parameters generated honestly, a non-degenerate
pairing and inputs of the right lengths, a batch proof is accepted exactly when the commitment to
`q` opens (in the univariate scheme) to the values at the powers of `omega` and at the challenge,
and the batch commitment opens to the last value at the point of the curve given by the challenge.
The curve `cs` runs through the points, extended by their indices, and its coordinates have degree
less than the number of points rounded up. -/
theorem C52_verify_iff (e : G1 →ₗ[F] G2 →ₗ[F] GT) (S : ℕ) (root : F)
    (hr : IsPrimitiveRoot root (2 ^ S)) (n : ℕ)
    (points : List (List F)) (hne : points ≠ []) (hp : ∀ x ∈ points, x.length = n)
    (hS : nextPow2 points.length ≤ 2 ^ S)
    (chal : G1 → List (List F) → G1 → F) (τ : F) (gu : G1) (hu : G2) (D : ℕ)
    (upp : ProverParam G1) (uvp : VerifierParam G1 G2) (HU : UniParams τ gu hu D upp uvp)
    (t : List F) (g : G1) (h : G2) (sup : ℕ) (hsup : mergedVars n points.length ≤ sup)
    (pp : MProverParam G1 G2) (vp : MVerifierParam G1 G2) (HM : MlParams t g h sup pp vp)
    (hnd : ∀ a : G1, e a h = 0 → a = 0) (hndu : ∀ a : G1, e a hu = 0 → a = 0) :
    ∃ (omega : F) (cs : List (Polynomial F)), IsPrimitiveRoot omega (nextPow2 points.length) ∧
      cs.length = mergedVars n points.length ∧
      (∀ c ∈ cs, c.natDegree ≤ nextPow2 points.length - 1) ∧
      (∀ i, i < points.length → cs.map (Polynomial.eval (omega ^ i)) =
        (points.getD i []).reverse ++
          (List.range (Nat.clog 2 points.length)).map (fun j => if i.testBit j then 1 else 0)) ∧
      ∀ (comm qComm : G1) (proof opens : List G1) (vals : List F) (r : F),
        opens.length = points.length + 1 → vals.length = points.length + 1 →
        proof.length = mergedVars n points.length → r = chal comm points qComm →
        (mBatchVerify S root chal e uvp vp comm points vals ⟨proof, qComm, opens⟩ = .ok true ↔
          (∀ i, i < points.length →
            qComm = vals.getD i 0 • gu + (τ - omega ^ i) • opens.getD i 0) ∧
          qComm = vals.getD points.length 0 • gu + (τ - r) • opens.getD points.length 0 ∧
          comm = vals.getD points.length 0 • g +
            ∑ j ∈ Finset.range (mergedVars n points.length),
              ((lastVars t (mergedVars n points.length)).getD j 0 -
                (cs.map (Polynomial.eval r)).getD j 0) • proof.getD j 0) := by
  have hlen : 0 < points.length := List.length_pos_of_ne_nil hne
  obtain ⟨-, hug, huh, hub⟩ := uniParams_eq HU
  obtain ⟨hst, hlt, -, hvp⟩ := mlParams_eq HM
  have hk : Nat.clog 2 points.length ≤ S := (Nat.pow_le_pow_iff_right (by norm_num)).1 hS
  set d := circDomain S root (Nat.clog 2 points.length) with hd
  have hprim : IsPrimitiveRoot d.gen d.size := circDomain_primitive S root hr _ hk
  have hsz : d.size = nextPow2 points.length := rfl
  have hle : points.length ≤ d.size := le_two_pow_clog _
  have hcs : ∀ x, ((buildL n points d).reverse.map toPoly).map (Polynomial.eval x) =
      lPoint (buildL n points d) x := by
    intro x
    unfold lPoint
    rw [List.map_map]
    refine List.map_congr_left fun p _ => ?_
    rw [Function.comp_apply, toPoly_eval, horner_eq]
  have hlp : ∀ x, (lPoint (buildL n points d) x).length = mergedVars n points.length := by
    intro x
    rw [lPoint_length]
    unfold mergedVars
    omega
  refine ⟨d.gen, (buildL n points d).reverse.map toPoly, hprim, ?_, ?_, ?_, ?_⟩
  · have := hlp 0
    rw [← hcs, List.length_map] at this
    exact this
  · intro c hc
    obtain ⟨p, hp', rfl⟩ := List.mem_map.1 hc
    have h1 := buildL_mem_length n points d p (List.mem_reverse.1 hp')
    have h2 := toPoly_natDegree p
    omega
  · intro i hi
    rw [hcs, lPoint_omega n points d hprim hle hp i hi]
    rfl
  · intro comm qComm proof opens vals r ho hv hpr hr'
    have hn0 : (points.getD 0 []).length = n := by
      rw [List.getD_eq_getElem _ _ hlen]; exact hp _ (List.getElem_mem _)
    have hany : points.any (fun x => decide (x.length ≠ (points.getD 0 []).length)) = false := by
      rw [List.any_eq_false]
      intro x hx
      rw [hn0, hp x hx]
      simp
    have hver : ∀ z v o, verify e uvp qComm z v o = true ↔ qComm = v • gu + (τ - z) • o := by
      intro z v o
      rw [verify_iff, claimEq_trapdoor e uvp τ (by rw [hub, huh]), huh, hug]
      constructor
      · intro h0
        have := hndu _ h0
        rw [sub_eq_zero] at this
        rw [this]
        abel
      · intro h0
        rw [h0]
        have : (τ - z) • o - (v • gu + (τ - z) • o - v • gu) = 0 := by abel
        rw [this]
        simp
    have hml : mVerify e vp comm (lPoint (buildL n points d) r) (vals.getD points.length 0) proof =
        .ok true ↔ comm = vals.getD points.length 0 • g +
            ∑ j ∈ Finset.range (mergedVars n points.length),
              ((lastVars t (mergedVars n points.length)).getD j 0 -
                (lPoint (buildL n points d) r).getD j 0) • proof.getD j 0 := by
      obtain ⟨srs, hs1, hs2⟩ := HM
      have := C51_verify_iff e t (by rintro rfl; cases hs1) g h hnd sup hst srs hs1 pp vp hs2 comm
        (lPoint (buildL n points d) r) (by rw [hlp]; exact hsup) (vals.getD points.length 0) proof
        (by rw [hlp]; exact hpr)
      rw [hlp] at this
      exact this
    unfold mBatchVerify
    simp only
    rw [if_neg (by omega), if_neg (by omega), if_neg (by omega)]
    rw [hany, hn0, newDomain_eq S root _ hk, ← hd, ← hr', hcs]
    simp only [Bool.false_eq_true, if_false]
    have hall : (List.range points.length).all (fun i =>
        verify e uvp qComm (d.gen ^ i) (vals.getD i 0) (opens.getD i 0)) = true ↔
        ∀ i, i < points.length → qComm = vals.getD i 0 • gu + (τ - d.gen ^ i) • opens.getD i 0 := by
      rw [List.all_eq_true]
      simp only [List.mem_range, hver]
    rw [← hall, ← hver, ← hml]
    cases (List.range points.length).all (fun i =>
        verify e uvp qComm (d.gen ^ i) (vals.getD i 0) (opens.getD i 0)) <;>
      cases verify e uvp qComm r (vals.getD points.length 0) (opens.getD points.length 0) <;> simp

example : ∀ a : F101, toyE a 3 = 0 → a = 0 := by decide +kernel

/-- **Soundness of the batched claim**, for provers whose openings are truthful.  Let `q` be any
polynomial with at most `B` coefficients chosen before the challenge, the reported values its values
at the powers of `omega` and at the challenge, and let the last one be the value of the merged
polynomial at the point of the curve.  Then all reported values are the values of the polynomials
(at the reversed points), unless the challenge is a root of a fixed non-zero polynomial of degree at
most `max (B - 1) maxDegree`.

Missing: that an accepted opening is truthful, which needs a computational assumption. -/
theorem C52_soundness_partial (S : ℕ) (root : F) (hr : IsPrimitiveRoot root (2 ^ S))
    (polys : List (Mle F)) (n : ℕ) (hne : polys ≠ []) (hwf : ∀ p ∈ polys, p.WF ∧ p.numVars = n)
    (points : List (List F)) (hl : points.length = polys.length)
    (hp : ∀ x ∈ points, x.length = n) (hS : nextPow2 points.length ≤ 2 ^ S)
    (q : List F) (B : ℕ) (hB : q.length ≤ B) :
    ∃ (w : Mle F) (omega : F) (E : Polynomial F), mergePolys polys = .ok w ∧
      IsPrimitiveRoot omega (nextPow2 points.length) ∧ E ≠ 0 ∧
      E.natDegree ≤ max (B - 1) (maxDegree n polys.length) ∧
      ∀ (r : F) (vals : List F),
        (∀ i, i < polys.length → vals.getD i 0 = evalAt q (omega ^ i)) →
        vals.getD polys.length 0 = evalAt q r →
        vals.getD polys.length 0 =
          mle w.evals (lPoint (buildL n points (circDomain S root (Nat.clog 2 points.length))) r) →
        E.eval r ≠ 0 →
        ∀ i, i < polys.length →
          vals.getD i 0 = mle (polys.getD i ⟨0, []⟩).evals (points.getD i []).reverse := by
  obtain ⟨w, h1, h2, h3, h4⟩ := mergePolys_ok polys n hne hwf
  have hk : Nat.clog 2 points.length ≤ S := (Nat.pow_le_pow_iff_right (by norm_num)).1 hS
  set d := circDomain S root (Nat.clog 2 points.length) with hd
  have hprim : IsPrimitiveRoot d.gen d.size := circDomain_primitive S root hr _ hk
  have hle : points.length ≤ d.size := le_two_pow_clog _
  set Q := circPoly w.evals (buildL n points d) with hQ
  have hQe : ∀ x, Q.eval x = mleSum w.evals (lPoint (buildL n points d) x) :=
    fun x => circPoly_eval _ _ _
  have hmle : ∀ f x : List F, mle f x = mleSum f x := fun _ _ => rfl
  have hdeg : Q.natDegree ≤ maxDegree n polys.length := by
    have := circPoly_natDegree w.evals (buildL n points d) d.size
      (fun p hp => buildL_mem_length n points d p hp)
    rw [buildL_length] at this
    unfold maxDegree mergedVars
    rw [← hl]
    exact this
  by_cases hE : toPoly q - Q = 0
  · refine ⟨w, d.gen, 1, h1, hprim, one_ne_zero, by simp, ?_⟩
    intro r vals hv _ _ _ i hi
    rw [sub_eq_zero] at hE
    rw [hv i hi, ← toPoly_eval, hE, hQe, hmle,
      merged_omega polys n w h4 points d hprim hle hp hl i (by omega)]
  · refine ⟨w, d.gen, toPoly q - Q, h1, hprim, hE, ?_, ?_⟩
    · refine (Polynomial.natDegree_sub_le _ _).trans (max_le_max ?_ hdeg)
      have := toPoly_natDegree q
      omega
    · intro r vals hv hlast hw hne
      exfalso
      apply hne
      rw [Polynomial.eval_sub, toPoly_eval, ← hlast, hw, hQe, hmle, sub_self]

example : nextPow2 1 ≤ 2 ^ 2 ∧ (∀ p ∈ [toyP], p.WF ∧ p.numVars = 2) := by
  refine ⟨by decide +kernel, ?_⟩
  intro p hp
  rw [List.mem_singleton.1 hp]
  exact ⟨by unfold Mle.WF; decide, rfl⟩

/-- Degenerate inputs: without polynomials `merge_polynomials` panics, and one polynomial without
variables makes the computation of the composed polynomial panic. -/
theorem C52_panic_counterexample :
    mBatchCommit toyM.1 ([] : List (Mle F101)) = .error .panic ∧
    mBatchOpen 2 (10 : F101) toyChal toyU.1 toyM.1 [⟨0, [3]⟩] 6 [[]] = .error .panic := by
  refine ⟨?_, ?_⟩ <;> decide +kernel

end Verif.Props.Ml
