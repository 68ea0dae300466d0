import Verif.Pcs.KzgLemmas
import Verif.Util.Toy

/-!
# Univariate KZG: C46, C47, C48, C49, C64

Polynomials are coefficient lists; `evalAt p x = ∑ x^i • p_i`.
The parameters come from `genSrs` followed by `trim`, the trapdoor and generators are arbitrary.
-/

set_option linter.unusedSectionVars false

namespace Verif.Pcs

variable {F G1 G2 GT : Type} [Field F] [DecidableEq F]
  [AddCommGroup G1] [Module F G1] [DecidableEq G1]
  [AddCommGroup G2] [Module F G2] [DecidableEq G2]
  [AddCommGroup GT] [Module F GT] [DecidableEq GT]

/-! ### a toy instance for the examples: all groups are the field with 101 elements, the pairing is the product -/

def toyPairing : F101 →ₗ[F101] F101 →ₗ[F101] F101 := LinearMap.mul F101 F101

/-- the parameters of degree 3 with trapdoor 5, `g = 2`, `h = 3` -/
def toySrs : Srs F101 F101 := genSrs (5 : F101) 2 3 3 2

def toyPP : ProverParam F101 := ⟨powers (5 : F101) 2 4⟩

def toyVP : VerifierParam F101 F101 :=
  { g := 2, h := 3, betaH := (5 : F101) • 3, powersOfH := powers (5 : F101) 3 2
    powersOfG := powers (5 : F101) 2 2 }

example : trim toySrs 3 = .ok (toyPP, toyVP) :=
  trim_genSrs (5 : F101) 2 3 3 2 3 1 (by decide) (by decide) (by decide)

/-! ### C46 -/

/-- Honest openings verify: for a polynomial of length at most `sup + 1` (degree at most `sup`),
commitment and opening succeed, the reported value is the evaluation, and the proof verifies. -/
theorem C46_completeness (e : G1 →ₗ[F] G2 →ₗ[F] GT) (τ : F) (g : G1) (h : G2) (n m sup : ℕ)
    (hsup : sup ≤ max n m) (hm : 1 ≤ m) (p : List F) (hp : p.length ≤ sup + 1) (z : F) :
    ∃ pp vp c w, trim (genSrs τ g h n m) sup = .ok (pp, vp) ∧ commit pp p = .ok c ∧
      openPoly pp p z = .ok (w, evalAt p z) ∧ verify e vp c z (evalAt p z) w = true := by
  obtain ⟨q, hq, hx⟩ := openPoly_honest τ g (sup + 1) p (by omega) z
  refine ⟨_, _, _, _, trim_genSrs τ g h n m sup 1 hsup (le_refl _) hm,
    commit_honest τ g (sup + 1) p hp, hq, ?_⟩
  rw [verify_iff, claimEq_trapdoor e _ τ rfl]
  have : ((τ - z) • evalAt q τ • g - (evalAt p τ • g - evalAt p z • g)) = 0 := by
    rw [hx τ]; module
  rw [this]; simp

/-- ... and with no other value: the honest proof for the honest commitment is rejected for every
wrong value. -/
theorem C46_no_other_value (e : G1 →ₗ[F] G2 →ₗ[F] GT) (τ : F) (g : G1) (h : G2) (n m sup : ℕ)
    (hnd : e g h ≠ 0) (hsup : sup ≤ max n m) (hm : 1 ≤ m)
    (pp : ProverParam G1) (vp : VerifierParam G1 G2)
    (htrim : trim (genSrs τ g h n m) sup = .ok (pp, vp)) (p : List F) (hp : p.length ≤ sup + 1)
    (z v v' : F) (c w : G1) (hc : commit pp p = .ok c) (ho : openPoly pp p z = .ok (w, v')) :
    verify e vp c z v w = true ↔ v = evalAt p z := by
  have ht := trim_genSrs τ g h n m sup 1 hsup (le_refl _) hm
  unfold trim at htrim
  rw [ht] at htrim
  simp only [Except.ok.injEq, Prod.mk.injEq] at htrim
  obtain ⟨rfl, rfl⟩ := htrim
  obtain ⟨q, hq, hx⟩ := openPoly_honest τ g (sup + 1) p (by omega) z
  rw [commit_honest τ g (sup + 1) p hp] at hc
  rw [hq] at ho
  simp only [Except.ok.injEq, Prod.mk.injEq] at hc ho
  obtain ⟨rfl, -⟩ := ho
  subst hc
  rw [verify_iff, claimEq_trapdoor e _ τ rfl]
  have : ((τ - z) • evalAt q τ • g - (evalAt p τ • g - v • g)) = (v - evalAt p z) • g := by
    rw [hx τ]; module
  simp only [this, map_smul, LinearMap.smul_apply, smul_eq_zero, hnd, or_false, sub_eq_zero]

/-- What the verification equation says, for any commitment and proof: `(τ - z) W = C - v g`. -/
theorem C46_verify_iff (e : G1 →ₗ[F] G2 →ₗ[F] GT) (τ : F) (g : G1) (h : G2) (n m sup : ℕ)
    (hnd : ∀ x : G1, e x h = 0 → x = 0) (hsup : sup ≤ max n m) (hm : 1 ≤ m)
    (pp : ProverParam G1) (vp : VerifierParam G1 G2)
    (htrim : trim (genSrs τ g h n m) sup = .ok (pp, vp)) (c w : G1) (z v : F) :
    verify e vp c z v w = true ↔ (τ - z) • w = c - v • g := by
  have ht := trim_genSrs τ g h n m sup 1 hsup (le_refl _) hm
  unfold trim at htrim
  rw [ht] at htrim
  simp only [Except.ok.injEq, Prod.mk.injEq] at htrim
  obtain ⟨rfl, rfl⟩ := htrim
  rw [verify_iff, claimEq_trapdoor e _ τ rfl]
  constructor
  · intro hh; exact sub_eq_zero.1 (hnd _ hh)
  · intro hh; rw [hh]; simp

/-- p = 1 + 2 X² + 7 X³ opened at 4 -/
example : commit toyPP ([1, 0, 2, 7] : List F101) = .ok 34 ∧
    openPoly toyPP ([1, 0, 2, 7] : List F101) 4 = .ok (82, 77) ∧
    verify toyPairing toyVP 34 4 77 82 = true ∧ verify toyPairing toyVP 34 4 78 82 = false := by
  decide +kernel

example : toyPairing 2 3 ≠ 0 ∧ ∀ x : F101, toyPairing x 3 = 0 → x = 0 := by
  constructor
  · decide +kernel
  · decide +kernel

/-! ### C64: evaluation binding -/

/-- Two accepting openings of one commitment at one point with different values yield
`(τ - z)⁻¹ • g`, i.e. solve the strong Diffie-Hellman problem for the parameters; when `τ = z` they
reveal the trapdoor as `z` outright. -/
theorem C64_evaluation_binding (e : G1 →ₗ[F] G2 →ₗ[F] GT) (τ : F) (g : G1) (h : G2) (n m sup : ℕ)
    (hnd : ∀ x : G1, e x h = 0 → x = 0) (hg : g ≠ 0) (hsup : sup ≤ max n m) (hm : 1 ≤ m)
    (pp : ProverParam G1) (vp : VerifierParam G1 G2)
    (htrim : trim (genSrs τ g h n m) sup = .ok (pp, vp)) (c w w' : G1) (z v v' : F)
    (h1 : verify e vp c z v w = true) (h2 : verify e vp c z v' w' = true) (hv : v ≠ v') :
    τ ≠ z ∧ (v' - v)⁻¹ • (w - w') = (τ - z)⁻¹ • g := by
  rw [C46_verify_iff e τ g h n m sup hnd hsup hm pp vp htrim] at h1 h2
  have hd : (τ - z) • (w - w') = (v' - v) • g := by
    rw [smul_sub, h1, h2]; module
  have hv' : v' - v ≠ 0 := sub_ne_zero.2 (Ne.symm hv)
  have hz : τ - z ≠ 0 := by
    intro e0
    rw [e0, zero_smul] at hd
    rcases smul_eq_zero.1 hd.symm with h0 | h0
    · exact hv' h0
    · exact hg h0
  refine ⟨fun e0 => hz (sub_eq_zero.2 e0), ?_⟩
  have : w - w' = (τ - z)⁻¹ • ((v' - v) • g) := by
    rw [← hd, smul_smul, inv_mul_cancel₀ hz, one_smul]
  rw [this, smul_smul, smul_smul]
  congr 1
  field_simp

/-- whoever knows the trapdoor can indeed open to two values -/
example : ∃ w w' : F101, verify toyPairing toyVP 10 4 1 w = true ∧
    verify toyPairing toyVP 10 4 2 w' = true := ⟨8, 6, by decide +kernel, by decide +kernel⟩

/-! ### C47 -/

/-- The degree check compares with the number of powers instead of the supported degree, so a
polynomial of degree `sup + 1` is accepted and its leading coefficient is dropped: it gets the
commitment of a different polynomial. -/
theorem C47_degree_counterexample (τ : F) (g : G1) (h : G2) (n m sup : ℕ)
    (hsup : sup ≤ max n m) (hm : 1 ≤ m) :
    ∃ pp vp, trim (genSrs τ g h n m) sup = .ok (pp, vp) ∧
      ∃ p q : List F, p.length = sup + 2 ∧ p.getLastD 0 ≠ 0 ∧ q = [] ∧
        commit pp p = .ok 0 ∧ commit pp p = commit pp q := by
  refine ⟨_, _, trim_genSrs τ g h n m sup 1 hsup (le_refl _) hm,
    List.replicate (sup + 1) 0 ++ [1], [], by simp, by simp, rfl, ?_⟩
  have hs : ∀ k, skipLeadingZeros (List.replicate k (0 : F) ++ [1]) = (k, [1]) := by
    intro k
    unfold skipLeadingZeros
    induction k with
    | zero => simp
    | succ k ih =>
      simp only [Prod.mk.injEq] at ih
      simp only [List.replicate_succ, List.cons_append, Prod.mk.injEq]
      rw [List.takeWhile_cons_of_pos (by simp), List.dropWhile_cons_of_pos (by simp)]
      exact ⟨by rw [List.length_cons, ih.1], ih.2⟩
  have h1 : commit (⟨powers τ g (sup + 1)⟩ : ProverParam G1)
      (List.replicate (sup + 1) (0 : F) ++ [1]) = .ok 0 := by
    unfold commit msmPoly degree
    rw [if_neg (by simp [powers_length]), hs]
    simp only [powers_length, lt_irrefl, if_false]
    have : (powers τ g (sup + 1)).drop (sup + 1) = [] := by
      apply List.drop_eq_nil_of_le; rw [powers_length]
    rw [this]; rfl
  have h2 : commit (⟨powers τ g (sup + 1)⟩ : ProverParam G1) ([] : List F) = .ok 0 := by
    rw [commit_honest τ g (sup + 1) [] (by simp)]; simp [evalAt_nil]
  exact ⟨h1, h1.trans h2.symm⟩

/-- Outside the boundary degree the check does its work: polynomials of degree `sup + 2` or more are
rejected, and for polynomials of degree at most `sup` the commitment is `p(τ) g`.  Missing from the
full statement: degree exactly `sup + 1` (see the counterexample). -/
theorem C47_degree_partial (τ : F) (g : G1) (h : G2) (n m sup : ℕ)
    (hsup : sup ≤ max n m) (hm : 1 ≤ m) (pp : ProverParam G1) (vp : VerifierParam G1 G2)
    (htrim : trim (genSrs τ g h n m) sup = .ok (pp, vp)) (p : List F) :
    (sup + 2 < p.length → commit pp p = .error .invalidParameters) ∧
    (p.length ≤ sup + 1 → commit pp p = .ok (evalAt p τ • g)) := by
  have ht := trim_genSrs τ g h n m sup 1 hsup (le_refl _) hm
  unfold trim at htrim
  rw [ht] at htrim
  simp only [Except.ok.injEq, Prod.mk.injEq] at htrim
  obtain ⟨rfl, rfl⟩ := htrim
  refine ⟨fun hl => ?_, commit_honest τ g (sup + 1) p⟩
  unfold commit degree
  rw [if_pos (by simp [powers_length]; omega)]

example : commit toyPP ([0, 0, 0, 0, 0, 1] : List F101) = .error .invalidParameters ∧
    commit toyPP ([0, 0, 0, 0, 1] : List F101) = .ok 0 ∧
    commit toyPP ([0, 0, 0, 1] : List F101) = .ok (5 ^ 3 * 2) := by
  decide +kernel

/-- `open` has no degree check at all: on a polynomial whose witness starts behind the parameters it
panics, and one coefficient below that it silently returns the proof of another polynomial. -/
theorem C47_open_unchecked_counterexample :
    openPoly toyPP ([0, 0, 0, 0, 0, 0, 1] : List F101) 0 = .error .panic ∧
    openPoly toyPP ([0, 0, 0, 0, 0, 1] : List F101) 0 = .ok (0, 0) ∧
    openPoly toyPP ([] : List F101) 0 = .ok (0, 0) := by
  decide +kernel

/-! ### C48 -/

/-- the weights of a batch: 1 for the first claim, then the drawn randomizers -/
theorem weight_def (rs : List F) : weight rs 0 = 1 ∧ ∀ i, weight rs (i + 1) = rs.getD i 0 :=
  ⟨rfl, fun _ => rfl⟩

/-- Batch verification checks the randomized sum of the individual equations
`(τ - z_i) W_i - (C_i - v_i g)`. -/
theorem C48_batch_equation (e : G1 →ₗ[F] G2 →ₗ[F] GT) (τ : F) (g : G1) (h : G2) (n m sup : ℕ)
    (hnd : ∀ x : G1, e x h = 0 → x = 0) (hsup : sup ≤ max n m) (hm : 1 ≤ m)
    (pp : ProverParam G1) (vp : VerifierParam G1 G2)
    (htrim : trim (genSrs τ g h n m) sup = .ok (pp, vp))
    (comms : List G1) (points values : List F) (proofs : List G1) (rs : List F) (k : ℕ)
    (hc : comms.length = k) (hp : points.length = k) (hv : values.length = k)
    (hw : proofs.length = k) :
    batchVerify e vp comms points values proofs rs = true ↔
      ∑ i ∈ Finset.range k, weight rs i • ((τ - points.getD i 0) • proofs.getD i 0 -
        (comms.getD i 0 - values.getD i 0 • g)) = 0 := by
  have ht := trim_genSrs τ g h n m sup 1 hsup (le_refl _) hm
  unfold trim at htrim
  rw [ht] at htrim
  simp only [Except.ok.injEq, Prod.mk.injEq] at htrim
  obtain ⟨-, hvp⟩ := htrim
  have hb : ∀ c z v w, claimEq e vp c z v w = e ((τ - z) • w - (c - v • g)) h := by
    subst hvp
    exact fun c z v w => claimEq_trapdoor e _ τ rfl c z v w
  rw [batchVerify_iff e _ comms points values proofs rs k hc hp hv hw]
  simp only [hb]
  have : ∑ i ∈ Finset.range k, weight rs i • (e ((τ - points.getD i 0) • proofs.getD i 0 -
        (comms.getD i 0 - values.getD i 0 • g))) h =
      e (∑ i ∈ Finset.range k, weight rs i • ((τ - points.getD i 0) • proofs.getD i 0 -
        (comms.getD i 0 - values.getD i 0 • g))) h := by
    rw [map_sum, LinearMap.sum_apply]
    simp only [map_smul, LinearMap.smul_apply]
  rw [this]
  constructor
  · exact hnd _
  · intro hh; rw [hh]; simp

theorem mapM_ok {α β ε : Type} (f : α → Except ε β) (f' : α → β) (l : List α)
    (h : ∀ a ∈ l, f a = .ok (f' a)) : l.mapM f = .ok (l.map f') := by
  induction l with
  | nil => rfl
  | cons a l ih =>
    rw [List.mapM_cons, h a (by simp), ih (fun b hb => h b (by simp [hb]))]; rfl

/-- A batch of honest commitments and openings is accepted whatever the randomizers are. -/
theorem C48_honest_accepted (e : G1 →ₗ[F] G2 →ₗ[F] GT) (τ : F) (g : G1) (h : G2) (n m sup : ℕ)
    (hsup : sup ≤ max n m) (hm : 1 ≤ m) (pp : ProverParam G1) (vp : VerifierParam G1 G2)
    (htrim : trim (genSrs τ g h n m) sup = .ok (pp, vp))
    (ps : List (List F)) (zs : List F) (hlen : ps.length = zs.length)
    (hps : ∀ p ∈ ps, p.length ≤ sup + 1) :
    ∃ comms proofs values, batchCommit pp ps = .ok comms ∧
      batchOpen pp ps zs = .ok (proofs, values) ∧
      values = (ps.zip zs).map (fun pz => evalAt pz.1 pz.2) ∧
      ∀ rs : List F, batchVerify e vp comms zs values proofs rs = true := by
  have ht := trim_genSrs τ g h n m sup 1 hsup (le_refl _) hm
  unfold trim at htrim
  rw [ht] at htrim
  simp only [Except.ok.injEq, Prod.mk.injEq] at htrim
  obtain ⟨rfl, rfl⟩ := htrim
  classical
  -- the quotient chosen for each polynomial and point
  let q : List F × F → List F := fun pz =>
    if hl : pz.1.length ≤ sup + 2 then
      Classical.choose (openPoly_honest τ g (sup + 1) pz.1 hl pz.2) else []
  have hq : ∀ pz : List F × F, pz.1.length ≤ sup + 1 →
      openPoly (⟨powers τ g (sup + 1)⟩ : ProverParam G1) pz.1 pz.2 =
        .ok (evalAt (q pz) τ • g, evalAt pz.1 pz.2) ∧
      ∀ x : F, evalAt pz.1 x = evalAt (q pz) x * (x - pz.2) + evalAt pz.1 pz.2 := by
    intro pz hl
    have hl' : pz.1.length ≤ sup + 2 := by omega
    have := Classical.choose_spec (openPoly_honest τ g (sup + 1) pz.1 hl' pz.2)
    simp only [q, dif_pos hl']
    exact this
  have hzip : ∀ pz ∈ ps.zip zs, pz.1.length ≤ sup + 1 := by
    intro pz hpz
    exact hps _ (List.of_mem_zip hpz).1
  refine ⟨ps.map (fun p => evalAt p τ • g), (ps.zip zs).map (fun pz => evalAt (q pz) τ • g), _,
    ?_, ?_, rfl, ?_⟩
  · exact mapM_ok _ _ _ (fun p hp => commit_honest τ g (sup + 1) p (hps p hp))
  · unfold batchOpen
    rw [if_neg (by simpa using hlen),
      mapM_ok _ (fun pz => (evalAt (q pz) τ • g, evalAt pz.1 pz.2)) _
        (fun pz hpz => (hq pz (hzip pz hpz)).1)]
    simp [List.map_map, Function.comp_def]
  · intro rs
    rw [batchVerify_iff e _ _ _ _ _ rs ps.length (by simp) (by simp [hlen]) (by simp [hlen])
      (by simp [hlen])]
    refine Finset.sum_eq_zero (fun i hi => ?_)
    have hi := Finset.mem_range.1 hi
    have hi' : i < zs.length := by omega
    have hpz : (ps[i], zs[i]) ∈ ps.zip zs := by
      rw [List.mem_iff_getElem]
      exact ⟨i, by simp; omega, by simp⟩
    obtain ⟨-, hx⟩ := hq _ (hzip _ hpz)
    have e1 : (ps.map (fun p => evalAt p τ • g)).getD i 0 = evalAt ps[i] τ • g := by
      simp [List.getD_eq_getElem?_getD, hi]
    have e2 : ((ps.zip zs).map (fun pz => evalAt (q pz) τ • g)).getD i 0 =
        evalAt (q (ps[i], zs[i])) τ • g := by
      have : i < ((ps.zip zs).map (fun pz => evalAt (q pz) τ • g)).length := by
        simp; omega
      rw [List.getD_eq_getElem?_getD, List.getElem?_eq_getElem this]
      simp
    have e3 : ((ps.zip zs).map (fun pz => evalAt pz.1 pz.2)).getD i 0 = evalAt ps[i] zs[i] := by
      have : i < ((ps.zip zs).map (fun pz => evalAt pz.1 pz.2)).length := by
        simp; omega
      rw [List.getD_eq_getElem?_getD, List.getElem?_eq_getElem this]
      simp
    have e4 : zs.getD i 0 = zs[i] := by
      rw [List.getD_eq_getElem?_getD, List.getElem?_eq_getElem hi']; rfl
    rw [e1, e2, e3, e4, claimEq_trapdoor e _ τ rfl]
    have : ((τ - zs[i]) • evalAt (q (ps[i], zs[i])) τ • g - (evalAt ps[i] τ • g -
        evalAt ps[i] zs[i] • g)) = 0 := by
      have := hx τ
      simp only at this
      rw [this]; module
    simp only [this, map_zero, LinearMap.zero_apply, smul_zero]

/-- two polynomials, two points, arbitrary randomizer -/
example : batchCommit toyPP ([[1, 0, 2, 7], [3, 1]] : List (List F101)) = .ok [34, 16] ∧
    batchOpen toyPP ([[1, 0, 2, 7], [3, 1]] : List (List F101)) [4, 9] =
      .ok ([82, 2], [77, 12]) ∧
    batchVerify toyPairing toyVP [34, 16] [4, 9] [77, 12] [82, 2] [55] = true ∧
    batchVerify toyPairing toyVP [34, 16] [4, 9] [77, 13] [82, 2] [55] = false := by
  decide +kernel

/-- The lists are zipped without a length check: claims without a proof are never looked at.  Any
commitments, points and values are accepted together with an empty proof list. -/
theorem C48_unchecked_counterexample (e : G1 →ₗ[F] G2 →ₗ[F] GT) (vp : VerifierParam G1 G2)
    (comms : List G1) (points values rs : List F) :
    batchVerify e vp comms points values [] rs = true := by
  unfold batchVerify
  simp [batchLoop]

/-- in particular a wrong claim, rejected individually for every proof, passes -/
example : (∀ w, verify toyPairing toyVP 0 5 1 w = false) ∧
    ∀ rs, batchVerify toyPairing toyVP [0] [5] [1] [] rs = true :=
  ⟨by decide +kernel, fun rs => C48_unchecked_counterexample _ _ _ _ _ rs⟩

/-- For lists of the same length: if claim `i ≥ 1` is invalid then, whatever the other randomizers
are, at most one value of its own randomizer makes the batch pass; if every claim but the first is
valid, the batch passes exactly when the first is valid too.
Missing from the full statement: unequal lengths (see the counterexample). -/
theorem C48_soundness_partial (e : G1 →ₗ[F] G2 →ₗ[F] GT) (vp : VerifierParam G1 G2)
    (comms : List G1) (points values : List F) (proofs : List G1) (k : ℕ)
    (hc : comms.length = k) (hp : points.length = k) (hv : values.length = k)
    (hw : proofs.length = k) :
    (∀ i, i + 1 < k → verify e vp (comms.getD (i + 1) 0) (points.getD (i + 1) 0)
        (values.getD (i + 1) 0) (proofs.getD (i + 1) 0) = false →
      ∀ rs : List F, i < rs.length → ∀ x y : F,
        batchVerify e vp comms points values proofs (rs.set i x) = true →
        batchVerify e vp comms points values proofs (rs.set i y) = true → x = y) ∧
    (0 < k → (∀ i, 0 < i → i < k → verify e vp (comms.getD i 0) (points.getD i 0)
        (values.getD i 0) (proofs.getD i 0) = true) → ∀ rs : List F,
      batchVerify e vp comms points values proofs rs =
        verify e vp (comms.getD 0 0) (points.getD 0 0) (values.getD 0 0) (proofs.getD 0 0)) := by
  constructor
  · intro i hi hinv rs hrs x y hx hy
    rw [batchVerify_iff e vp comms points values proofs _ k hc hp hv hw] at hx hy
    have hsub := sub_eq_zero.2 (hx.trans hy.symm)
    rw [← Finset.sum_sub_distrib] at hsub
    simp only [← sub_smul] at hsub
    rw [Finset.sum_eq_single (i + 1)] at hsub
    · have hne : claimEq e vp (comms.getD (i + 1) 0) (points.getD (i + 1) 0)
          (values.getD (i + 1) 0) (proofs.getD (i + 1) 0) ≠ 0 := by
        intro h0
        rw [← verify_iff, hinv] at h0
        cases h0
      have hw' : ∀ t : F, weight (rs.set i t) (i + 1) = t := by
        intro t
        simp [weight, List.getD_eq_getElem?_getD, hrs]
      rw [hw', hw'] at hsub
      rcases smul_eq_zero.1 hsub with h0 | h0
      · exact sub_eq_zero.1 h0
      · exact absurd h0 hne
    · intro j _ hj
      have hw' : ∀ t : F, weight (rs.set i t) j = weight rs j := by
        intro t
        cases j with
        | zero => rfl
        | succ j =>
          have : i ≠ j := by omega
          simp [weight, List.getD_eq_getElem?_getD, List.getElem?_set_ne this]
      rw [hw', hw', sub_self, zero_smul]
    · intro hnot
      exact absurd (Finset.mem_range.2 hi) hnot
  · intro hk hall rs
    rw [Bool.eq_iff_iff, batchVerify_iff e vp comms points values proofs _ k hc hp hv hw,
      verify_iff, Finset.sum_eq_single 0]
    · simp [weight]
    · intro j hj hj0
      have := (verify_iff e vp _ _ _ _).1 (hall j (by omega) (Finset.mem_range.1 hj))
      rw [this, smul_zero]
    · intro hnot
      exact absurd (Finset.mem_range.2 hk) hnot

/-- A batch of equal-length lists that passes for all randomizers contains only valid claims. -/
theorem C48_all_randomizers_partial (e : G1 →ₗ[F] G2 →ₗ[F] GT) (vp : VerifierParam G1 G2)
    (comms : List G1) (points values : List F) (proofs : List G1) (k : ℕ)
    (hc : comms.length = k) (hp : points.length = k) (hv : values.length = k)
    (hw : proofs.length = k)
    (hall : ∀ rs : List F, rs.length = k → batchVerify e vp comms points values proofs rs = true)
    (i : ℕ) (hi : i < k) :
    verify e vp (comms.getD i 0) (points.getD i 0) (values.getD i 0) (proofs.getD i 0) = true := by
  obtain ⟨h1, h2⟩ := C48_soundness_partial e vp comms points values proofs k hc hp hv hw
  have hpos : ∀ j, 0 < j → j < k → verify e vp (comms.getD j 0) (points.getD j 0)
      (values.getD j 0) (proofs.getD j 0) = true := by
    intro j hj hjk
    by_contra hcon
    obtain ⟨j, rfl⟩ : ∃ j', j = j' + 1 := ⟨j - 1, by omega⟩
    have := h1 j hjk (by simpa using hcon) (List.replicate k 0) (by simp; omega) 0 1
      (hall _ (by simp)) (hall _ (by simp))
    exact zero_ne_one this
  cases i with
  | zero =>
    rw [← h2 hi hpos (List.replicate k 0)]
    exact hall _ (by simp)
  | succ i => exact hpos _ (by omega) hi

/-- hypotheses of the soundness statement: an invalid second claim, one randomizer passes -/
example : verify toyPairing toyVP 0 5 1 0 = false ∧
    batchVerify toyPairing toyVP [0, 0] [5, 5] [1, 1] [0, 0] [-1] = true ∧
    batchVerify toyPairing toyVP [0, 0] [5, 5] [1, 1] [0, 0] [7] = false := by
  refine ⟨by decide +kernel, by decide +kernel, by decide +kernel⟩

/-! ### C49 -/

/-- Multi-point openings at distinct points verify with the true evaluations. -/
theorem C49_completeness (e : G1 →ₗ[F] G2 →ₗ[F] GT) (τ : F) (g : G1) (h : G2) (n m sup ver : ℕ)
    (hsup : sup ≤ max n m) (hver : 1 ≤ ver) (hm : ver ≤ m) (p : List F) (hp : p.length ≤ sup + 1)
    (points : List F) (hne : points ≠ []) (hnd : points.Nodup) (hpts : points.length ≤ ver) :
    ∃ pp vp c w, trimWithVerifierDegree (genSrs τ g h n m) sup ver = .ok (pp, vp) ∧
      commit pp p = .ok c ∧
      multiPointOpen pp p points = .ok (w, points.map (fun z => evalAt p z)) ∧
      multiPointVerify e vp c points (points.map (fun z => evalAt p z)) w = .ok true := by
  obtain ⟨hvl, hve⟩ := vanishPoly_spec points hne
  obtain ⟨r, hr, hq⟩ := divPoly_eval p (vanishPoly points) (by
    intro e0; rw [e0] at hvl; simp at hvl) (by rw [vanishPoly_last]; exact one_ne_zero)
  have hql := divPoly_length p (vanishPoly points)
  refine ⟨_, _, _, evalAt (divPoly p (vanishPoly points)) τ • g,
    trim_genSrs τ g h n m sup ver hsup hver hm, commit_honest τ g (sup + 1) p hp, ?_, ?_⟩
  · unfold multiPointOpen
    rw [if_neg hne]
    simp only
    rw [msmPoly_powers τ g (sup + 1) _ (by omega)]
    simp [horner_eq]
  · unfold multiPointVerify
    have hl0 := List.length_pos_of_ne_nil hne
    rw [if_neg hne, if_neg (by simp), if_neg (by simp [powers_length]; omega)]
    obtain ⟨I, hI, hIl, hIe⟩ := evalsPolyLoop_ok points hnd 0
      (points.map (fun z => evalAt p z)) [] (by simp) (by simp)
    rw [hI]
    simp only
    rw [msmPoly_powers τ g (ver + 1) _ (by omega), msmPoly_powers τ h (ver + 1) _ (by omega)]
    simp only [Except.ok.injEq, decide_eq_true_iff]
    have hIr : evalAt I τ = evalAt r τ := by
      refine evalAt_unique I r points hnd hIl (by omega) ?_ τ
      intro z hz
      obtain ⟨k, hk, rfl⟩ := List.getElem_of_mem hz
      have hgd : points.getD k 0 = points[k] := by
        rw [List.getD_eq_getElem?_getD, List.getElem?_eq_getElem hk]; rfl
      have := hIe k hk
      rw [hgd] at this
      rw [this, if_pos (Nat.zero_le _), Nat.sub_zero, evalAt_nil, zero_add,
        List.getD_eq_getElem?_getD, List.getElem?_map, List.getElem?_eq_getElem hk]
      simp only [Option.map_some, Option.getD_some]
      rw [hq, hve]
      have : (points.map (fun z => points[k] - z)).prod = 0 := by
        apply List.prod_eq_zero
        rw [List.mem_map]
        exact ⟨points[k], hz, sub_self _⟩
      rw [this, mul_zero, zero_add]
    rw [hIr, hq τ, (e (evalAt (divPoly p (vanishPoly points)) τ • g)).map_smul,
      ← LinearMap.smul_apply, ← e.map_smul, ← LinearMap.add_apply, ← e.map_add]
    have : evalAt r τ • g - (evalAt (divPoly p (vanishPoly points)) τ *
        evalAt (vanishPoly points) τ + evalAt r τ) • g + evalAt (vanishPoly points) τ •
        evalAt (divPoly p (vanishPoly points)) τ • g = 0 := by module
    rw [this]; simp

/-- Repeated points make the verifier panic (`lagrange_poly` inverts a zero difference), whatever
the commitment and proof; so distinctness above cannot be dropped. -/
theorem C49_duplicate_points_panic (e : G1 →ₗ[F] G2 →ₗ[F] GT) (vp : VerifierParam G1 G2)
    (c w : G1) (points values : List F) (hlen : points.length = values.length)
    (hsz : points.length < vp.powersOfH.length) (hdup : ¬ points.Nodup) :
    multiPointVerify e vp c points values w = .error .panic := by
  have hne : points ≠ [] := by rintro rfl; exact hdup List.nodup_nil
  unfold multiPointVerify
  rw [if_neg hne, if_neg (by simpa using hlen), if_neg (by omega)]
  have key : ∀ (vs : List F) (i : ℕ) (acc : List F), i + vs.length = points.length →
      (∃ a b, i ≤ a ∧ a < points.length ∧ b < points.length ∧ b ≠ a ∧
        points.getD b 0 = points.getD a 0) →
      evalsPolyLoop points i vs acc = .error .panic := by
    intro vs
    induction vs with
    | nil => rintro i acc hi ⟨a, b, h1, h2, -⟩; simp at hi; omega
    | cons v vs ih =>
      rintro i acc hi ⟨a, b, h1, h2, h3, h4, h5⟩
      unfold evalsPolyLoop
      by_cases hex : ∃ k, k < points.length ∧ 0 + k ≠ i ∧ points.getD k 0 = points.getD i 0
      · unfold lagrangePoly
        rw [lagrangeLoop_panic _ _ _ _ _ hex]
      · have hai : a ≠ i := by
          rintro rfl
          exact hex ⟨b, h3, by omega, h5⟩
        obtain ⟨out, ho, -⟩ := lagrangeLoop_ok (points.getD i 0) i 0 points [v] (by simp) (by
          intro k hk hki hke
          exact hex ⟨k, hk, hki, hke⟩)
        unfold lagrangePoly
        rw [ho]
        exact ih (i + 1) _ (by simp at hi; omega) ⟨a, b, by omega, h2, h3, h4, h5⟩
  have hdup' : ∃ a b, 0 ≤ a ∧ a < points.length ∧ b < points.length ∧ b ≠ a ∧
      points.getD b 0 = points.getD a 0 := by
    by_contra hcon
    apply hdup
    rw [List.nodup_iff_injective_getElem]
    intro a b hab
    by_contra hab'
    refine hcon ⟨a, b, Nat.zero_le _, a.2, b.2, fun h0 => hab' (Fin.ext h0.symm), ?_⟩
    rw [List.getD_eq_getElem?_getD, List.getD_eq_getElem?_getD, List.getElem?_eq_getElem a.2,
      List.getElem?_eq_getElem b.2]
    simpa using hab.symm
  rw [key values 0 [] (by omega) hdup']

def toyVP2 : VerifierParam F101 F101 :=
  { g := 2, h := 3, betaH := (5 : F101) • 3, powersOfH := powers (5 : F101) 3 3
    powersOfG := powers (5 : F101) 2 3 }

example : trimWithVerifierDegree toySrs 3 2 = .ok (toyPP, toyVP2) :=
  trim_genSrs (5 : F101) 2 3 3 2 3 2 (by decide) (by decide) (by decide)

/-- opening at 4 and 9; a wrong value is rejected, a repeated point panics -/
example : multiPointOpen toyPP ([1, 0, 2, 7] : List F101) [4, 9] = .ok (54, [77, 14]) ∧
    multiPointVerify toyPairing toyVP2 34 [4, 9] [77, 14] 54 = .ok true ∧
    multiPointVerify toyPairing toyVP2 34 [4, 9] [77, 15] 54 = .ok false ∧
    multiPointVerify toyPairing toyVP2 34 [4, 4] [77, 77] 54 = .error .panic := by
  decide +kernel

end Verif.Pcs
