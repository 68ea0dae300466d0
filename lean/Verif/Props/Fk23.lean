import Verif.Pcs.Fk23Lemmas
import Verif.Props.Kzg

/-!
# C50: amortized openings

`root` is a primitive `2^S`-th root of unity, `S` the two-adicity.  "Individual openings" are
`points.mapM (openPoly pp p)`.
-/

set_option linter.unusedSectionVars false

namespace Verif.Pcs

variable {F G1 G2 GT : Type} [Field F] [DecidableEq F]
  [AddCommGroup G1] [Module F G1] [DecidableEq G1]
  [AddCommGroup G2] [Module F G2] [DecidableEq G2]
  [AddCommGroup GT] [Module F GT] [DecidableEq GT]

/-- opening every point on its own: all proofs and all values -/
def openEach (pp : ProverParam G1) (p : List F) (points : List F) : Except Err (List G1 × List F) :=
  match points.mapM (openPoly pp p) with
  | .error e => .error e
  | .ok l => .ok (l.map Prod.fst, l.map Prod.snd)

theorem openEach_eq (τ : F) (g : G1) (n : ℕ) (p : List F) (hp : p.length ≤ n + 1)
    (points : List F) : openEach (⟨powers τ g n⟩ : ProverParam G1) p points =
      .ok (points.map (fun z => evalAt (divPoly p [-z, 1]) τ • g), points.map (fun z => evalAt p z)) := by
  unfold openEach
  rw [mapM_ok _ _ _ (fun z _ => openPoly_eq τ g n p hp z)]
  simp [List.map_map, Function.comp_def]

/-- Toeplitz multiplication by FFT computes the matrix-vector product; the entry in row `i`, column
`j` is `col[i-j]` on and below the diagonal and `row[j-i]` above it. -/
theorem C50_toeplitz_mul (S : ℕ) (root : F) (hr : IsPrimitiveRoot root (2 ^ S)) (k : ℕ)
    (hk : k + 1 ≤ S) (col row : List F) (v : List G1) (hc : col.length = 2 ^ k)
    (hrow : row.length = 2 ^ k) (hv : v.length = 2 ^ k) :
    ∃ res, toeplitzMul S root (col, row) v = .ok res ∧ res.length = 2 ^ k ∧
      ∀ i, i < 2 ^ k → res.getD i 0 = ∑ j ∈ Finset.range (2 ^ k),
        (if j ≤ i then col.getD (i - j) 0 else row.getD (j - i) 0) • v.getD j 0 :=
  toeplitzMul_ok S root hr k hk col row v hc hrow hv

example : IsPrimitiveRoot (10 : F101) (2 ^ 2) ∧
    toeplitzMul 2 (10 : F101) ([3, 5], [3, 7]) ([1, 2] : List F101) = .ok [17, 11] := by
  refine ⟨?_, by decide +kernel⟩
  rw [show (2 : ℕ) ^ 2 = 1 + 3 from rfl]
  exact (IsPrimitiveRoot.iff (by norm_num)).2 ⟨by decide +kernel, by
    intro l h0 hl
    interval_cases l <;> decide +kernel⟩

/-- `multi_open` at arbitrary points gives exactly the individual openings, provided the parameters
hold the padded degree `N` (the next power of two of the degree), the field has `2N`-th roots of
unity and there are fewer than `S²` points.
Missing from the full statement: those side conditions (see the counterexamples). -/
theorem C50_multi_open_partial (S : ℕ) (root : F) (hr : IsPrimitiveRoot root (2 ^ S))
    (τ : F) (g : G1) (h : G2) (n m sup : ℕ) (hsup : sup ≤ max n m) (hm : 1 ≤ m)
    (pp : ProverParam G1) (vp : VerifierParam G1 G2)
    (htrim : trim (genSrs τ g h n m) sup = .ok (pp, vp)) (p : List F) (points : List F)
    (hN : nextPow2 (p.length - 1) ≤ sup + 1) (hS : 2 * nextPow2 (p.length - 1) ≤ 2 ^ S)
    (hpts : points.length < S ^ 2) :
    multiOpen S root pp p points = openEach pp p points := by
  have ht := trim_genSrs τ g h n m sup 1 hsup (le_refl _) hm
  unfold trim at htrim
  rw [ht] at htrim
  simp only [Except.ok.injEq, Prod.mk.injEq] at htrim
  obtain ⟨rfl, rfl⟩ := htrim
  have hle := le_nextPow2 (p.length - 1)
  obtain ⟨hp, h1, -, h3⟩ := hPolyFk23_ok S root hr τ g (sup + 1) p hN hS
  have hb : ∀ {G : Type} [AddCommGroup G] [Module F G] [DecidableEq G] (l : List G),
      batchEvaluate S l points = .ok (points.map (fun z => evalAt l z)) := by
    intro G _ _ _ l
    unfold batchEvaluate
    by_cases he : points = []
    · subst he; simp
    · rw [if_neg he, if_pos hpts]
      congr 1
      exact List.map_congr_left (fun z _ => gEvaluate_eq l z)
  rw [openEach_eq τ g (sup + 1) p (by omega)]
  unfold multiOpen
  rw [h1]
  simp only
  rw [hb, hb]
  simp only [h3, evalAt_norm]

/-- degree 2, three points; the padded degree is 2 -/
example : multiOpen 2 (10 : F101) toyPP [1, 0, 2] [4, 9, 0] = .ok ([36, 56, 20], [33, 62, 1]) ∧
    openEach toyPP [1, 0, 2] ([4, 9, 0] : List F101) = .ok ([36, 56, 20], [33, 62, 1]) := by
  decide +kernel

/-- With `S²` or more points `multi_open` panics (`unimplemented!`). -/
theorem C50_many_points_counterexample (S : ℕ) (root : F) (pp : ProverParam G1) (p points : List F)
    (h : List G1) (hh : hPolyFk23 S root pp p = .ok h) (hne : points ≠ [])
    (hpts : S ^ 2 ≤ points.length) :
    multiOpen S root pp p points = .error .panic := by
  unfold multiOpen batchEvaluate
  rw [hh]
  simp only
  rw [if_neg hne, if_neg (by omega)]

example : multiOpen 2 (10 : F101) toyPP [1, 0, 2] [4, 9, 0, 7] = .error .panic ∧
    openEach toyPP [1, 0, 2] ([4, 9, 0, 7] : List F101) =
      .ok ([36, 56, 20, 48], [33, 62, 1, 99]) := by
  decide +kernel

/-- Parameters trimmed to exactly the degree of the polynomial are rejected unless they happen to
contain the next power of two; every individual opening succeeds. -/
theorem C50_srs_size_counterexample (S : ℕ) (root : F) (pp : ProverParam G1) (p points : List F)
    (hlen : pp.powersOfG.length < nextPow2 (p.length - 1)) :
    multiOpen S root pp p points = .error .invalidParameters := by
  have hle := le_nextPow2 (p.length - 1)
  unfold multiOpen hPolyFk23
  simp only
  generalize hN : nextPow2 (p.length - 1) = N at *
  have hpl : (p ++ List.replicate (N + 1 - p.length) (0 : F)).length = N + 1 := by
    rw [List.length_append, List.length_replicate]; omega
  have hcl : ((p ++ List.replicate (N + 1 - p.length) (0 : F)).getLastD 0 ::
      List.replicate (N - 1) (0 : F)).length = N := by simp; omega
  have hrl : ((p ++ List.replicate (N + 1 - p.length) (0 : F)).drop 1).reverse.length = N := by
    rw [List.length_reverse, List.length_drop, hpl]; omega
  unfold toeplitzNew
  rw [if_neg (by rw [hcl, hrl]; simp), if_neg]
  · simp only
    unfold toeplitzMul
    have hsl : (pp.powersOfG.take N).reverse.length = pp.powersOfG.length := by
      rw [List.length_reverse, List.length_take]; omega
    rw [hsl]
    by_cases hp2 : isPow2 pp.powersOfG.length = false
    · rw [if_pos hp2]
    · rw [if_neg hp2, if_pos (by simp only [hcl]; omega)]
  · rw [not_not, List.getD_cons_zero, getD_reverse _ _ _ (by rw [List.length_drop, hpl]; omega),
      List.length_drop, hpl, List.getLastD_eq_getLast?, List.getLast?_eq_getElem?, hpl,
      List.getD_eq_getElem?_getD, List.getElem?_drop]
    congr 2
    omega

/-- degree 5 with 6 powers -/
example : multiOpen 2 (10 : F101) (⟨powers (5 : F101) 2 6⟩ : ProverParam F101)
      [0, 0, 0, 0, 0, 1] [4] = .error .invalidParameters ∧
    openEach (⟨powers (5 : F101) 2 6⟩ : ProverParam F101) [0, 0, 0, 0, 0, 1] ([4] : List F101) =
      .ok ([61], [14]) := by
  decide +kernel

/-- The FFT size for a degree is the least power of two that exceeds the degree, so that all
coefficients fit; the call fails only when that number does not fit a machine word. -/
theorem C50_fft_size (degree : ℕ) :
    (∀ s, checkedFftSize degree = .ok s →
      (∃ k, s = 2 ^ k) ∧ degree < s ∧ s < 2 ^ 64 ∧ ∀ k, degree < 2 ^ k → s ≤ 2 ^ k) ∧
    (∀ e, checkedFftSize degree = .error e → ∀ k, degree < 2 ^ k → 2 ^ 64 ≤ 2 ^ k) := by
  have key : ∃ s, (checkedFftSize degree = if s < 2 ^ 64 then .ok s else .error .invalidParameters) ∧
      (∃ k, s = 2 ^ k) ∧ degree < s ∧ ∀ k, degree < 2 ^ k → s ≤ 2 ^ k := by
    unfold checkedFftSize
    by_cases hp : isPow2 degree = true
    · simp only [hp, if_true]
      refine ⟨degree * 2, rfl, ?_⟩
      simp only [isPow2, decide_eq_true_eq] at hp
      obtain ⟨h0, he⟩ := hp
      unfold nextPow2 at he
      refine ⟨⟨Nat.clog 2 degree + 1, by rw [pow_succ, he]⟩, by omega, ?_⟩
      intro k hk
      rw [← he] at hk
      have : Nat.clog 2 degree + 1 ≤ k := (Nat.pow_lt_pow_iff_right (by norm_num)).1 hk
      calc degree * 2 = 2 ^ (Nat.clog 2 degree + 1) := by rw [pow_succ, he]
        _ ≤ 2 ^ k := Nat.pow_le_pow_right (by norm_num) this
    · simp only [hp]
      refine ⟨nextPow2 degree, rfl, ⟨_, rfl⟩, ?_, ?_⟩
      · have h1 := le_nextPow2 degree
        by_cases h0 : degree = 0
        · subst h0
          exact Nat.pos_of_ne_zero (by simp [nextPow2])
        · simp only [isPow2, decide_eq_true_eq, not_and] at hp
          have := hp h0
          omega
      · intro k hk
        exact Nat.pow_le_pow_right (by norm_num) (Nat.clog_le_of_le_pow hk.le)
  obtain ⟨s, hs, hk, hlt, hmin⟩ := key
  rw [hs]
  constructor
  · intro s' h'
    split at h'
    · simp only [Except.ok.injEq] at h'
      subst h'
      exact ⟨hk, hlt, by assumption, hmin⟩
    · simp at h'
  · intro e h'
    split at h'
    · simp at h'
    · intro k hk'
      exact le_trans (by omega) (hmin k hk')

example : checkedFftSize 4 = .ok 8 ∧ checkedFftSize 5 = .ok 8 ∧ checkedFftSize 0 = .ok 1 := by
  decide +kernel

/-- The domain for openings at roots of unity holds the polynomial and the points. -/
theorem C50_eval_domain (S : ℕ) (root : F) (degree num : ℕ) (dom : Domain F)
    (h : evalDomain S root degree num = .ok dom) :
    degree + 1 ≤ dom.size ∧ num ≤ dom.size ∧ dom.logSize ≤ S ∧
      dom.gen = root ^ 2 ^ (S - dom.logSize) ∧ dom.offset = 1 := by
  unfold evalDomain at h
  cases hc : checkedFftSize degree with
  | error e => rw [hc] at h; cases h
  | ok padded =>
    rw [hc] at h
    simp only at h
    cases hd : newDomain S root (max (padded + 1) num) with
    | none => rw [hd] at h; cases h
    | some d =>
      rw [hd] at h
      simp only [Except.ok.injEq] at h
      subst h
      obtain ⟨h1, h2, h3, h4⟩ := newDomain_some hd
      have hle := le_nextPow2 (max (padded + 1) num)
      have hdeg : degree ≤ padded := by
        unfold checkedFftSize at hc
        have := le_nextPow2 degree
        split at hc <;> split at hc <;>
          simp only [Except.ok.injEq, reduceCtorEq] at hc <;> omega
      exact ⟨by omega, by omega, h1, h2, h3⟩

/-- Openings at the first `num` roots of unity are the individual openings at `gen^i`, for every
domain without coset offset that is large enough for the polynomial (as produced by
`multi_open_rou_eval_domain`). -/
theorem C50_multi_open_rou (S : ℕ) (root : F)
    (τ : F) (g : G1) (h : G2) (n m sup : ℕ) (hsup : sup ≤ max n m) (hm : 1 ≤ m)
    (pp : ProverParam G1) (vp : VerifierParam G1 G2)
    (htrim : trim (genSrs τ g h n m) sup = .ok (pp, vp)) (p : List F) (hp : p.length ≤ sup + 2)
    (num : ℕ) (dom : Domain F) (hdom : evalDomain S root (p.length - 1) num = .ok dom) :
    multiOpenRou S root pp p num dom =
      openEach pp p ((List.range num).map (fun i => dom.gen ^ i)) := by
  have ht := trim_genSrs τ g h n m sup 1 hsup (le_refl _) hm
  unfold trim at htrim
  rw [ht] at htrim
  simp only [Except.ok.injEq, Prod.mk.injEq] at htrim
  obtain ⟨rfl, rfl⟩ := htrim
  obtain ⟨d1, d2, d3, d4, d5⟩ := C50_eval_domain S root _ num dom hdom
  obtain ⟨hl, h1, h2, h3⟩ := hPolyParallel_ok τ g (sup + 1) p (by omega)
  rw [openEach_eq τ g (sup + 1) p (by omega)]
  unfold multiOpenRou
  rw [rouEvals_eq p num dom (by omega), rouProofs_eq S root _ p num dom d3 d4 hl h1 (by omega)]
  simp only [h3, d5, one_mul, ← List.map_take, List.take_range, Nat.min_eq_left d2, List.map_map,
    Function.comp_def]

/-- The sequential variant (feature `seq-fk-23`) computes the same proofs. -/
theorem C50_seq_same (S : ℕ) (root : F) (hr : IsPrimitiveRoot root (2 ^ S))
    (τ : F) (g : G1) (h : G2) (n m sup : ℕ) (hsup : sup ≤ max n m) (hm : 1 ≤ m)
    (pp : ProverParam G1) (vp : VerifierParam G1 G2)
    (htrim : trim (genSrs τ g h n m) sup = .ok (pp, vp)) (p : List F)
    (hN : nextPow2 (p.length - 1) ≤ sup + 1)
    (num : ℕ) (dom : Domain F) (hdom : evalDomain S root (p.length - 1) num = .ok dom) :
    multiOpenRouProofsSeq S root pp p num dom = multiOpenRouProofs S root pp p num dom := by
  have ht := trim_genSrs τ g h n m sup 1 hsup (le_refl _) hm
  unfold trim at htrim
  rw [ht] at htrim
  simp only [Except.ok.injEq, Prod.mk.injEq] at htrim
  obtain ⟨rfl, rfl⟩ := htrim
  obtain ⟨d1, d2, d3, d4, d5⟩ := C50_eval_domain S root _ num dom hdom
  have hle := le_nextPow2 (p.length - 1)
  obtain ⟨hl, h1, h2, h3⟩ := hPolyParallel_ok τ g (sup + 1) p (by omega)
  -- the domain has at least `2 N` points
  have hdN : 2 * nextPow2 (p.length - 1) ≤ dom.size := by
    unfold evalDomain at hdom
    cases hc : checkedFftSize (p.length - 1) with
    | error e => rw [hc] at hdom; cases hdom
    | ok padded =>
      rw [hc] at hdom
      simp only at hdom
      cases hd : newDomain S root (max (padded + 1) num) with
      | none => rw [hd] at hdom; cases hdom
      | some d =>
        rw [hd] at hdom
        simp only [Except.ok.injEq] at hdom
        subst hdom
        obtain ⟨-, -, -, h4⟩ := newDomain_some hd
        have hpad : nextPow2 (p.length - 1) ≤ padded := by
          unfold checkedFftSize at hc
          split at hc
          · rename_i hpow
            unfold isPow2 at hpow
            rw [decide_eq_true_iff] at hpow
            split at hc
            · simp only [Except.ok.injEq] at hc; omega
            · cases hc
          · split at hc
            · simp only [Except.ok.injEq] at hc; omega
            · cases hc
        have hsz := le_nextPow2 (max (padded + 1) num)
        have hlt : nextPow2 (p.length - 1) < d.size := by omega
        unfold Domain.size nextPow2 at hlt ⊢
        have := (Nat.pow_lt_pow_iff_right (by norm_num : 1 < 2)).1 hlt
        calc 2 * 2 ^ Nat.clog 2 (p.length - 1) = 2 ^ (Nat.clog 2 (p.length - 1) + 1) := by
              rw [pow_succ]; ring
          _ ≤ 2 ^ d.logSize := Nat.pow_le_pow_right (by norm_num) this
  obtain ⟨hs, g1, g2, g3⟩ := hPolyFk23_ok S root hr τ g (sup + 1) p hN (le_trans hdN (by
    unfold Domain.size; exact Nat.pow_le_pow_right (by norm_num) d3))
  rw [rouProofs_eq S root _ p num dom d3 d4 hl h1 (by omega)]
  unfold multiOpenRouProofsSeq batchEvaluateRou
  rw [g1]
  simp only
  rw [if_neg (by omega)]
  simp only [Domain.fft, evalAt_pad, g3, h3, d5, one_mul]

/-- three roots of unity of order 4 -/
example : evalDomain 2 (10 : F101) 1 3 = .ok ⟨2, 10, 1⟩ ∧
    multiOpenRou 2 (10 : F101) toyPP [7, 3] 3 ⟨2, 10, 1⟩ = .ok ([6, 6, 6], [10, 37, 4]) ∧
    openEach toyPP [7, 3] ([1, 10, 100] : List F101) = .ok ([6, 6, 6], [10, 37, 4]) ∧
    multiOpenRouProofsSeq 2 (10 : F101) toyPP [7, 3] 3 ⟨2, 10, 1⟩ = .ok [6, 6, 6] := by
  decide +kernel

/-- Called on its own with a domain smaller than the polynomial, `multi_open_rou_proofs` succeeds
but its second proof is for the point `10` (a root of the internal domain), not for the domain's
generator `100`. -/
theorem C50_small_domain_counterexample :
    multiOpenRouProofs 2 (10 : F101) toyPP [1, 0, 2, 7] 2 ⟨1, 100, 1⟩ = .ok [54, 86] ∧
    openEach toyPP [1, 0, 2, 7] ([1, 100] : List F101) = .ok ([54, 7], [10, 97]) ∧
    openEach toyPP [1, 0, 2, 7] ([1, 10] : List F101) = .ok ([54, 86], [10, 30]) := by
  decide +kernel

/-- For a coset domain the evaluations use the offset and the proofs do not, so the returned pairs
do not belong together. -/
theorem C50_coset_counterexample :
    multiOpenRou 2 (10 : F101) toyPP [1, 0, 2] 1 ⟨2, 10, 2⟩ = .ok ([24], [9]) ∧
    openEach toyPP [1, 0, 2] ([2] : List F101) = .ok ([28], [9]) ∧
    commit toyPP ([1, 0, 2] : List F101) = .ok 1 ∧
    verify toyPairing toyVP 1 2 9 24 = false ∧ verify toyPairing toyVP 1 1 9 24 = false := by
  decide +kernel

end Verif.Pcs
