import Verif.Pcs.Kzg
import Mathlib.LinearAlgebra.Lagrange

/-! # Lemmas on univariate KZG -/

set_option linter.unusedSectionVars false

namespace Verif.Pcs

variable {F G1 G2 GT : Type} [Field F] [DecidableEq F]
  [AddCommGroup G1] [Module F G1] [DecidableEq G1]
  [AddCommGroup G2] [Module F G2] [DecidableEq G2]
  [AddCommGroup GT] [Module F GT] [DecidableEq GT]

/-- powers of the trapdoor in a group -/
def powers {G : Type} [AddCommGroup G] [Module F G] (τ : F) (g : G) (n : ℕ) : List G :=
  (List.range n).map (fun i => τ ^ i • g)

theorem powers_length {G : Type} [AddCommGroup G] [Module F G] (τ : F) (g : G) (n : ℕ) :
    (powers τ g n).length = n := by simp [powers]

theorem powers_take {G : Type} [AddCommGroup G] [Module F G] (τ : F) (g : G) (n k : ℕ)
    (h : k ≤ n) : (powers τ g n).take k = powers τ g k := by
  unfold powers
  rw [← List.map_take, List.take_range, Nat.min_eq_left h]

theorem msmPoly_powers {G : Type} [AddCommGroup G] [Module F G] [DecidableEq G] (τ : F) (g : G) (n : ℕ)
    (p : List F) (hp : p.length ≤ n) :
    msmPoly (powers τ g n) p = .ok (evalAt p τ • g) := by
  have hlen := skip_length p
  have hev := skip_eval p τ
  unfold msmPoly
  generalize skipLeadingZeros p = kc at *
  obtain ⟨k, coeffs⟩ := kc
  simp only at *
  rw [if_neg (by rw [powers_length]; omega), hev]
  congr 1
  refine msm_powers τ g k _ coeffs ?_ ?_
  · intro i hi
    have : k + i < n := by omega
    simp [powers, List.getD_eq_getElem?_getD, List.getElem?_drop, List.getElem?_range this]
  · simp [powers_length]; omega

theorem trim_genSrs (τ : F) (g : G1) (h : G2) (n m sup ver : ℕ) (hsup : sup ≤ max n m)
    (hver : 1 ≤ ver) (hver2 : ver ≤ m) :
    trimWithVerifierDegree (genSrs τ g h n m) sup ver =
      .ok (⟨powers τ g (sup + 1)⟩,
        { g := g, h := h, betaH := τ • h, powersOfH := powers τ h (ver + 1)
          powersOfG := powers τ g (ver + 1) }) := by
  have h1 : (genSrs τ g h n m).powersOfG = powers τ g (max n m + 1) := rfl
  have h2 : (genSrs τ g h n m).powersOfH = powers τ h (m + 1) := rfl
  unfold trimWithVerifierDegree
  rw [h1, h2, powers_length, powers_length, if_neg (by omega), if_neg (by omega),
    if_neg (by omega), if_neg (by omega), powers_take _ _ _ _ (by omega),
    powers_take _ _ _ _ (by omega), powers_take _ _ _ _ (by omega)]
  congr 3
  simp [powers, List.getD_eq_getElem?_getD]

/-- the pairing equation of one claim -/
def claimEq (e : G1 →ₗ[F] G2 →ₗ[F] GT) (vp : VerifierParam G1 G2) (comm : G1) (z v : F)
    (proof : G1) : GT :=
  e (v • vp.g - z • proof - comm) vp.h + e proof vp.betaH

theorem verify_iff (e : G1 →ₗ[F] G2 →ₗ[F] GT) (vp : VerifierParam G1 G2) (comm : G1) (z v : F)
    (proof : G1) : verify e vp comm z v proof = true ↔ claimEq e vp comm z v proof = 0 := by
  unfold verify claimEq; rw [decide_eq_true_iff]

theorem claimEq_trapdoor (e : G1 →ₗ[F] G2 →ₗ[F] GT) (vp : VerifierParam G1 G2) (τ : F)
    (hb : vp.betaH = τ • vp.h) (comm : G1) (z v : F) (proof : G1) :
    claimEq e vp comm z v proof = e ((τ - z) • proof - (comm - v • vp.g)) vp.h := by
  unfold claimEq
  rw [hb, map_smul, ← LinearMap.smul_apply, ← map_smul, ← LinearMap.add_apply, ← map_add]
  congr 2
  module

theorem commit_honest (τ : F) (g : G1) (n : ℕ) (p : List F) (hp : p.length ≤ n) :
    commit (⟨powers τ g n⟩ : ProverParam G1) p = .ok (evalAt p τ • g) := by
  unfold commit
  rw [powers_length, if_neg (by unfold degree; omega), msmPoly_powers τ g n p hp]

theorem openPoly_honest (τ : F) (g : G1) (n : ℕ) (p : List F) (hp : p.length ≤ n + 1) (z : F) :
    ∃ q : List F, openPoly (⟨powers τ g n⟩ : ProverParam G1) p z =
        .ok (evalAt q τ • g, evalAt p z) ∧
      ∀ x : F, evalAt p x = evalAt q x * (x - z) + evalAt p z := by
  have hd : ([-z, 1] : List F).getLastD 0 ≠ 0 := by simp
  obtain ⟨r, hr, hq⟩ := divPoly_eval p [-z, 1] (by simp) hd
  have hlen := divPoly_length p ([-z, 1] : List F)
  simp only [List.length_cons, List.length_nil] at hlen hr
  obtain ⟨r0, rfl⟩ := List.length_eq_one_iff.1 hr
  have hlin : ∀ x : F, evalAt ([-z, 1] : List F) x = x - z := by
    intro x; simp [evalAt_cons, evalAt_nil]; ring
  have hr0 : ∀ x : F, evalAt ([r0] : List F) x = r0 := by
    intro x; simp [evalAt_cons, evalAt_nil]
  have hz : evalAt p z = r0 := by
    rw [hq z, hlin, hr0]; ring
  refine ⟨divPoly p [-z, 1], ?_, fun x => ?_⟩
  · unfold openPoly
    simp only
    rw [msmPoly_powers τ g n _ (by omega), horner_eq]
  · rw [hz]
    have := hq x
    rw [hlin, hr0] at this
    exact this

/-! ### batch verification -/

/-- the weight of claim `i` in a batch -/
def weight (rs : List F) : ℕ → F
  | 0 => 1
  | i + 1 => rs.getD i 0

theorem batchLoop_eq (e : G1 →ₗ[F] G2 →ₗ[F] GT) (vp : VerifierParam G1 G2)
    (cl : List (Claim F G1)) (rs : List F) (tc tw : G1) (gm r : F) :
    e (-(batchLoop cl rs (tc, tw, gm, r)).2.1) vp.betaH +
      e ((batchLoop cl rs (tc, tw, gm, r)).1 - (batchLoop cl rs (tc, tw, gm, r)).2.2.1 • vp.g) vp.h
    = e (-tw) vp.betaH + e (tc - gm • vp.g) vp.h -
      ∑ i ∈ Finset.range cl.length, (r :: rs).getD i 0 •
        claimEq e vp (cl.getD i (((0, 0), 0), 0)).1.1.1 (cl.getD i (((0, 0), 0), 0)).1.1.2
          (cl.getD i (((0, 0), 0), 0)).1.2 (cl.getD i (((0, 0), 0), 0)).2 := by
  induction cl generalizing rs tc tw gm r with
  | nil => simp [batchLoop]
  | cons c cl ih =>
    obtain ⟨⟨⟨c, z⟩, v⟩, w⟩ := c
    rw [batchLoop, ih, List.length_cons, Finset.sum_range_succ']
    simp only [List.getD_cons_zero, List.getD_cons_succ]
    have hrs : ∀ i, (rs.headD 0 :: rs.tail).getD i 0 = rs.getD i 0 := by
      intro i
      cases rs with
      | nil => cases i <;> simp
      | cons a rs => rfl
    simp only [hrs]
    have : e (-(tw + r • w)) vp.betaH + e (tc + r • (z • w + c) - (gm + r * v) • vp.g) vp.h =
        e (-tw) vp.betaH + e (tc - gm • vp.g) vp.h - r • claimEq e vp c z v w := by
      unfold claimEq
      simp only [map_add, map_sub, map_neg, map_smul, LinearMap.add_apply, LinearMap.sub_apply,
        LinearMap.neg_apply, LinearMap.smul_apply]
      module
    rw [this]
    abel

theorem batchVerify_iff (e : G1 →ₗ[F] G2 →ₗ[F] GT) (vp : VerifierParam G1 G2) (comms : List G1)
    (points values : List F) (proofs : List G1) (rs : List F) (n : ℕ) (hc : comms.length = n)
    (hp : points.length = n) (hv : values.length = n) (hw : proofs.length = n) :
    batchVerify e vp comms points values proofs rs = true ↔
      ∑ i ∈ Finset.range n, weight rs i • claimEq e vp (comms.getD i 0) (points.getD i 0)
        (values.getD i 0) (proofs.getD i 0) = 0 := by
  unfold batchVerify
  have := batchLoop_eq e vp (((comms.zip points).zip values).zip proofs) rs 0 0 0 1
  simp only [neg_zero, map_zero, LinearMap.zero_apply, zero_smul, sub_self, zero_add] at this
  simp only [decide_eq_true_iff]
  rw [this, zero_sub, neg_eq_zero]
  have hl : (((comms.zip points).zip values).zip proofs).length = n := by
    simp [hc, hp, hv, hw]
  rw [hl]
  have : ∀ i ∈ Finset.range n, (1 :: rs).getD i 0 • claimEq e vp
        (((((comms.zip points).zip values).zip proofs).getD i (((0, 0), 0), 0)).1.1.1)
        (((((comms.zip points).zip values).zip proofs).getD i (((0, 0), 0), 0)).1.1.2)
        (((((comms.zip points).zip values).zip proofs).getD i (((0, 0), 0), 0)).1.2)
        (((((comms.zip points).zip values).zip proofs).getD i (((0, 0), 0), 0)).2) =
      weight rs i • claimEq e vp (comms.getD i 0) (points.getD i 0) (values.getD i 0)
        (proofs.getD i 0) := by
    intro i hi
    have hi := Finset.mem_range.1 hi
    have h1 : (((comms.zip points).zip values).zip proofs).getD i (((0, 0), 0), 0) =
        (((comms.getD i 0, points.getD i 0), values.getD i 0), proofs.getD i 0) := by
      simp only [List.getD_eq_getElem?_getD]
      rw [List.getElem?_eq_getElem (by omega), List.getElem?_eq_getElem (by omega),
        List.getElem?_eq_getElem (by omega), List.getElem?_eq_getElem (by omega),
        List.getElem?_eq_getElem (by omega)]
      simp
    rw [h1]
    cases i <;> rfl
  rw [Finset.sum_congr rfl this]

/-! ### interpolation -/

theorem evalAt_unique (a b : List F) (zs : List F) (hz : zs.Nodup) (ha : a.length ≤ zs.length)
    (hb : b.length ≤ zs.length) (h : ∀ z ∈ zs, evalAt a z = evalAt b z) (x : F) :
    evalAt a x = evalAt b x := by
  have key : toPoly a = toPoly b := by
    refine Polynomial.eq_of_degrees_lt_of_eval_finset_eq zs.toFinset ?_ ?_ ?_
    · refine lt_of_lt_of_le (toPoly_degree_lt a) ?_
      rw [List.toFinset_card_of_nodup hz]
      exact_mod_cast ha
    · refine lt_of_lt_of_le (toPoly_degree_lt b) ?_
      rw [List.toFinset_card_of_nodup hz]
      exact_mod_cast hb
    · intro z hzz
      rw [toPoly_eval, toPoly_eval]
      exact h z (by simpa using hzz)
  rw [← toPoly_eval, ← toPoly_eval, key]

theorem vanish_fold (zs : List F) (acc : List F) (hacc : acc ≠ []) :
    (zs.foldl (fun acc z => mulPoly acc [-z, 1]) acc).length = acc.length + zs.length ∧
    (∀ x : F, evalAt (zs.foldl (fun acc z => mulPoly acc [-z, 1]) acc) x =
      evalAt acc x * (zs.map (fun z => x - z)).prod) := by
  induction zs generalizing acc with
  | nil => simp
  | cons z zs ih =>
    have hl := mulPoly_length acc [-z, 1] hacc (by simp)
    simp only [List.length_cons, List.length_nil] at hl
    have hacc0 := List.length_pos_of_ne_nil hacc
    have hne : mulPoly acc [-z, 1] ≠ [] := by
      intro h; rw [h] at hl; simp at hl
    obtain ⟨h1, h2⟩ := ih (mulPoly acc [-z, 1]) hne
    rw [List.foldl_cons]
    refine ⟨by rw [h1, hl, List.length_cons]; omega, fun x => ?_⟩
    rw [h2 x, evalAt_mulPoly, List.map_cons, List.prod_cons]
    have : evalAt ([-z, 1] : List F) x = x - z := by simp [evalAt_cons, evalAt_nil]; ring
    rw [this]; ring

theorem vanishPoly_spec (zs : List F) (hz : zs ≠ []) :
    (vanishPoly zs).length = zs.length + 1 ∧
    ∀ x : F, evalAt (vanishPoly zs) x = (zs.map (fun z => x - z)).prod := by
  obtain ⟨z, zs, rfl⟩ := List.exists_cons_of_ne_nil hz
  obtain ⟨h1, h2⟩ := vanish_fold zs [-z, 1] (by simp)
  unfold vanishPoly
  simp only [List.tail_cons, List.headD_cons]
  refine ⟨by rw [h1]; simp; omega, fun x => ?_⟩
  rw [h2 x]
  have : evalAt ([-z, 1] : List F) x = x - z := by simp [evalAt_cons, evalAt_nil]; ring
  rw [this]; simp

theorem getLastD_addPoly_lt (p q : List F) (h : p.length < q.length) :
    (addPoly p q).getLastD 0 = q.getLastD 0 := by
  induction p generalizing q with
  | nil => simp [addPoly]
  | cons a p ih =>
    cases q with
    | nil => simp at h
    | cons b q =>
      simp only [List.length_cons] at h
      have hq : q ≠ [] := by intro e; subst e; simp at h
      have hs : addPoly p q ≠ [] := by
        intro e
        have := addPoly_length p q
        have := List.length_pos_of_ne_nil hq
        rw [e] at *; simp at *; omega
      have := ih q (by omega)
      rw [addPoly]
      obtain ⟨c, s, hcs⟩ := List.exists_cons_of_ne_nil hs
      obtain ⟨d, t, hdt⟩ := List.exists_cons_of_ne_nil hq
      rw [hcs, hdt] at this ⊢
      simpa using this

theorem mulPoly_last (p : List F) (hp : p ≠ []) (z : F) :
    (mulPoly p [-z, 1]).getLastD 0 = p.getLastD 0 := by
  induction p with
  | nil => exact absurd rfl hp
  | cons a p ih =>
    rw [mulPoly]
    by_cases h : p = []
    · subst h; simp [mulPoly, addPoly]
    · have hl := mulPoly_length p [-z, 1] h (by simp)
      simp only [List.length_cons, List.length_nil] at hl
      have hp0 := List.length_pos_of_ne_nil h
      rw [getLastD_addPoly_lt _ _ (by simp [hl]; omega)]
      obtain ⟨c, s, hcs⟩ := List.exists_cons_of_ne_nil h
      have hm : mulPoly p [-z, 1] ≠ [] := by
        intro e; rw [e] at hl; simp at hl
      obtain ⟨d, t, hdt⟩ := List.exists_cons_of_ne_nil hm
      have := ih h
      rw [hdt, hcs] at this
      rw [hdt, hcs]
      simpa using this

theorem vanishPoly_last (zs : List F) : (vanishPoly zs).getLastD 0 = 1 := by
  unfold vanishPoly
  have key : ∀ (l : List F) (acc : List F), acc ≠ [] → acc.getLastD 0 = 1 →
      (l.foldl (fun acc z => mulPoly acc [-z, 1]) acc).getLastD 0 = 1 := by
    intro l
    induction l with
    | nil => intro acc _ h; simpa using h
    | cons z l ih =>
      intro acc hacc h
      rw [List.foldl_cons]
      refine ih _ ?_ (by rw [mulPoly_last acc hacc, h])
      intro e
      have := mulPoly_length acc [-z, 1] hacc (by simp)
      rw [e] at this
      have hp0 := List.length_pos_of_ne_nil hacc
      simp at this
  exact key _ _ (by simp) (by simp)

theorem lagrangeLoop_ok (zi : F) (i j : ℕ) (zs res : List F) (hres : res ≠ [])
    (h : ∀ k, k < zs.length → j + k ≠ i → zs.getD k 0 ≠ zi) :
    ∃ out, lagrangeLoop zi i j zs res = .ok out ∧ out ≠ [] ∧
      out.length = res.length + zs.length - (if j ≤ i ∧ i < j + zs.length then 1 else 0) ∧
      evalAt out zi = evalAt res zi ∧
      ∀ x : F, (∃ k, k < zs.length ∧ j + k ≠ i ∧ zs.getD k 0 = x) → evalAt out x = 0 := by
  induction zs generalizing j res with
  | nil =>
    refine ⟨res, rfl, hres, ?_, rfl, ?_⟩
    · rw [if_neg (by simp)]; simp
    · rintro x ⟨k, hk, -⟩; simp at hk
  | cons z zs ih =>
    have hrec : ∀ k, k < zs.length → (j + 1) + k ≠ i → zs.getD k 0 ≠ zi := by
      intro k hk hne
      have := h (k + 1) (by simpa using hk) (by omega)
      simpa using this
    unfold lagrangeLoop
    by_cases hj : j = i
    · rw [if_neg (by simpa using hj)]
      obtain ⟨out, h1, h2, h3, h4, h5⟩ := ih (j + 1) res hres hrec
      refine ⟨out, h1, h2, ?_, h4, ?_⟩
      · rw [h3, if_neg (by omega), if_pos (by simp; omega), List.length_cons]; omega
      · rintro x ⟨k, hk, hne, hx⟩
        cases k with
        | zero => omega
        | succ k =>
          exact h5 x ⟨k, by simpa using hk, by omega, by simpa using hx⟩
    · have hz : zi - z ≠ 0 := by
        have := h 0 (by simp) (by simpa using hj)
        simp only [List.getD_cons_zero] at this
        exact sub_ne_zero.2 (Ne.symm this)
      rw [if_pos hj, if_neg hz]
      have hl := mulPoly_length res [-z * (zi - z)⁻¹, (zi - z)⁻¹] hres (by simp)
      simp only [List.length_cons, List.length_nil] at hl
      have hr0 := List.length_pos_of_ne_nil hres
      have hm : mulPoly res [-z * (zi - z)⁻¹, (zi - z)⁻¹] ≠ [] := by
        intro e; rw [e] at hl; simp at hl
      obtain ⟨out, h1, h2, h3, h4, h5⟩ := ih (j + 1) _ hm hrec
      have hfac : ∀ x : F, evalAt ([-z * (zi - z)⁻¹, (zi - z)⁻¹] : List F) x =
          (x - z) * (zi - z)⁻¹ := by
        intro x; simp [evalAt_cons, evalAt_nil]; ring
      refine ⟨out, h1, h2, ?_, ?_, ?_⟩
      · rw [h3, hl, List.length_cons]
        by_cases hc : j + 1 ≤ i ∧ i < j + 1 + zs.length
        · rw [if_pos hc, if_pos (by omega)]; omega
        · rw [if_neg hc, if_neg (by omega)]; omega
      · rw [h4, evalAt_mulPoly, hfac, mul_inv_cancel₀ hz, mul_one]
      · rintro x ⟨k, hk, hne, hx⟩
        cases k with
        | zero =>
          simp only [List.getD_cons_zero] at hx
          subst hx
          -- the factor for `z` vanishes at `z` and later factors keep that
          have key : ∀ (ws : List F) (j' : ℕ) (r : List F) (o : List F),
              lagrangeLoop zi i j' ws r = .ok o → evalAt r z = 0 → evalAt o z = 0 := by
            intro ws
            induction ws with
            | nil => intro j' r o ho hr; simp only [lagrangeLoop, Except.ok.injEq] at ho; rw [← ho]; exact hr
            | cons w ws ihw =>
              intro j' r o ho hr
              unfold lagrangeLoop at ho
              by_cases e1 : j' = i
              · rw [if_neg (by simpa using e1)] at ho
                exact ihw _ _ _ ho hr
              · rw [if_pos e1] at ho
                by_cases e2 : zi - w = 0
                · rw [if_pos e2] at ho; cases ho
                · rw [if_neg e2] at ho
                  refine ihw _ _ _ ho ?_
                  rw [evalAt_mulPoly, hr, zero_mul]
          refine key _ _ _ _ h1 ?_
          rw [evalAt_mulPoly, hfac]; simp
        | succ k =>
          exact h5 x ⟨k, by simpa using hk, by omega, by simpa using hx⟩

theorem lagrangeLoop_panic (zi : F) (i j : ℕ) (zs res : List F)
    (h : ∃ k, k < zs.length ∧ j + k ≠ i ∧ zs.getD k 0 = zi) :
    lagrangeLoop zi i j zs res = .error .panic := by
  induction zs generalizing j res with
  | nil => obtain ⟨k, hk, -⟩ := h; simp at hk
  | cons z zs ih =>
    obtain ⟨k, hk, hne, hx⟩ := h
    unfold lagrangeLoop
    cases k with
    | zero =>
      simp only [List.getD_cons_zero] at hx
      rw [if_pos (by simpa using hne), if_pos (by rw [hx, sub_self])]
    | succ k =>
      have hrec : ∃ k, k < zs.length ∧ (j + 1) + k ≠ i ∧ zs.getD k 0 = zi :=
        ⟨k, by simpa using hk, by omega, by simpa using hx⟩
      by_cases hj : j = i
      · rw [if_neg (by simpa using hj)]; exact ih _ _ hrec
      · rw [if_pos hj]
        by_cases hz : zi - z = 0
        · rw [if_pos hz]
        · rw [if_neg hz]; exact ih _ _ hrec

theorem getD_inj {zs : List F} (hz : zs.Nodup) {a b : ℕ} (ha : a < zs.length) (hb : b < zs.length)
    (h : zs.getD a 0 = zs.getD b 0) : a = b := by
  rw [List.getD_eq_getElem?_getD, List.getD_eq_getElem?_getD, List.getElem?_eq_getElem ha,
    List.getElem?_eq_getElem hb] at h
  exact (List.Nodup.getElem_inj_iff hz).1 (by simpa using h)

theorem lagrangePoly_ok (zs : List F) (hz : zs.Nodup) (i : ℕ) (hi : i < zs.length) (v : F) :
    ∃ l, lagrangePoly zs i v = .ok l ∧ l.length ≤ zs.length ∧
      ∀ m, m < zs.length → evalAt l (zs.getD m 0) = if m = i then v else 0 := by
  obtain ⟨l, h1, -, h3, h4, h5⟩ := lagrangeLoop_ok (zs.getD i 0) i 0 zs [v] (by simp) (by
    intro k hk hne he
    exact hne (by rw [getD_inj hz hk hi he]; omega))
  refine ⟨l, h1, ?_, ?_⟩
  · rw [h3, if_pos (by omega)]; simp
  · intro m hm
    by_cases e : m = i
    · subst e
      rw [if_pos rfl, h4]
      simp [evalAt_cons, evalAt_nil]
    · rw [if_neg e]
      exact h5 _ ⟨m, hm, by omega, rfl⟩

theorem evalsPolyLoop_ok (zs : List F) (hz : zs.Nodup) (i : ℕ) (vs acc : List F)
    (hi : i + vs.length ≤ zs.length) (hacc : acc.length ≤ zs.length) :
    ∃ out, evalsPolyLoop zs i vs acc = .ok out ∧ out.length ≤ zs.length ∧
      ∀ m, m < zs.length → evalAt out (zs.getD m 0) =
        evalAt acc (zs.getD m 0) + if i ≤ m then vs.getD (m - i) 0 else 0 := by
  induction vs generalizing i acc with
  | nil =>
    refine ⟨acc, rfl, hacc, fun m _ => ?_⟩
    simp
  | cons v vs ih =>
    simp only [List.length_cons] at hi
    obtain ⟨l, h1, h2, h3⟩ := lagrangePoly_ok zs hz i (by omega) v
    obtain ⟨out, g1, g2, g3⟩ := ih (i + 1) (norm (addPoly acc l)) (by omega) (by
      refine le_trans (norm_length_le _) ?_
      rw [addPoly_length]; omega)
    refine ⟨out, ?_, g2, fun m hm => ?_⟩
    · unfold evalsPolyLoop; rw [h1]; exact g1
    · rw [g3 m hm, evalAt_norm, evalAt_addPoly, h3 m hm]
      by_cases e : m = i
      · subst e
        rw [if_pos rfl, if_neg (by omega), if_pos (le_refl _)]
        simp
      · rw [if_neg e, add_zero]
        by_cases e2 : i + 1 ≤ m
        · rw [if_pos e2, if_pos (by omega)]
          have : m - i = (m - (i + 1)) + 1 := by omega
          rw [this, List.getD_cons_succ]
        · rw [if_neg e2, if_neg (by omega)]

end Verif.Pcs
