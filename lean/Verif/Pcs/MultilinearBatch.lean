import Verif.Pcs.MultilinearLemmas
import Mathlib.Algebra.Polynomial.BigOperators
import Mathlib.Algebra.Field.GeomSum

/-! # Lemmas about multilinear batch openings -/

set_option linter.unusedSectionVars false

namespace Verif.Pcs

variable {F G1 G2 GT : Type} [Field F] [DecidableEq F]
  [AddCommGroup G1] [Module F G1] [DecidableEq G1]
  [AddCommGroup G2] [Module F G2] [DecidableEq G2]
  [AddCommGroup GT] [Module F GT] [DecidableEq GT]

/-! ### interpolation on a domain -/

theorem size_pos (d : Domain F) : 0 < d.size := by unfold Domain.size; positivity

theorem ifft_eval (d : Domain F) (hw : IsPrimitiveRoot d.gen d.size) (l : List F)
    (hl : l.length ≤ d.size) (k : ℕ) (hk : k < d.size) :
    evalAt (d.ifft l) (d.gen ^ k) = l.getD k 0 := by
  have hn := size_pos d
  have hpad : ∀ x : F, evalAt l x = ∑ a ∈ Finset.range d.size, x ^ a • l.getD a 0 := by
    intro x
    unfold evalAt
    refine Finset.sum_subset (Finset.range_mono hl) fun a _ ha => ?_
    rw [List.getD_eq_default _ _ (by simpa using ha), smul_zero]
  unfold Domain.ifft
  rw [evalAt]
  simp only [List.length_map, List.length_range]
  generalize hwd : d.gen = w at *
  generalize d.size = n at *
  have step : ∀ j ∈ Finset.range n, (w ^ k) ^ j •
      ((List.range n).map (fun k => (n : F)⁻¹ • evalAt l (w⁻¹ ^ k))).getD j 0 =
      ∑ a ∈ Finset.range n, ((n : F)⁻¹ * ((w⁻¹ ^ a) ^ j * ((w ^ j) ^ k * (w ^ j) ^ 0))) *
        l.getD a 0 := by
    intro j hj
    rw [getD_range_map _ _ _ _ (Finset.mem_range.1 hj), hpad, Finset.smul_sum, Finset.smul_sum]
    refine Finset.sum_congr rfl fun a _ => ?_
    simp only [smul_eq_mul]
    rw [pow_right_comm w⁻¹ j a, pow_right_comm w k j]
    ring
  rw [Finset.sum_congr rfl step, Finset.sum_comm]
  have h2 : ∀ a ∈ Finset.range n, ∑ j ∈ Finset.range n,
      ((n : F)⁻¹ * ((w⁻¹ ^ a) ^ j * ((w ^ j) ^ k * (w ^ j) ^ 0))) * l.getD a 0 =
      if k = a then l.getD a 0 else 0 := by
    intro a ha
    have ha := Finset.mem_range.1 ha
    rw [← Finset.sum_mul, ← Finset.mul_sum, orth w n hn hw k 0 a hk hn ha]
    rw [Nat.sub_zero, Nat.add_mod_right, Nat.mod_eq_of_lt ha]
    split <;> simp
  rw [Finset.sum_congr rfl h2, Finset.sum_ite_eq, if_pos (Finset.mem_range.2 hk)]

theorem interpolate_eval (d : Domain F) (hw : IsPrimitiveRoot d.gen d.size) (l : List F)
    (hl : l.length ≤ d.size) (k : ℕ) (hk : k < d.size) :
    evalAt (interpolate d l) (d.gen ^ k) = l.getD k 0 := by
  unfold interpolate
  rw [evalAt_norm, ifft_eval d hw l hl k hk]

theorem interpolate_length (d : Domain F) (l : List F) : (interpolate d l).length ≤ d.size := by
  unfold interpolate
  refine (norm_length_le _).trans ?_
  simp [Domain.ifft]

/-! ### merged polynomials -/

/-- the bits of `i` as field elements -/
def bitsF (i p : ℕ) : List F := (List.range p).map (fun j => if i.testBit j then 1 else 0)

theorem bitsF_length (i p : ℕ) : (bitsF i p : List F).length = p := by simp [bitsF]

theorem eqW_bits (i p b : ℕ) (hi : i < 2 ^ p) (hb : b < 2 ^ p) :
    eqW (bitsF i p : List F) b = if b = i then 1 else 0 := by
  unfold eqW
  rw [bitsF_length]
  have hterm : ∀ j ∈ Finset.range p, (if b.testBit j then (bitsF i p : List F).getD j 0
      else 1 - (bitsF i p : List F).getD j 0) = if b.testBit j = i.testBit j then 1 else 0 := by
    intro j hj
    unfold bitsF
    rw [getD_range_map _ _ _ _ (Finset.mem_range.1 hj)]
    cases b.testBit j <;> cases i.testBit j <;> simp
  rw [Finset.prod_congr rfl hterm]
  split
  · next h => subst h; simp
  · next h =>
    have : ∃ j, b.testBit j ≠ i.testBit j := by
      by_contra hne
      push Not at hne
      exact h (Nat.eq_of_testBit_eq hne)
    obtain ⟨j, hj⟩ := this
    have hjp : j < p := by
      by_contra hge
      apply hj
      have hle : 2 ^ p ≤ 2 ^ j := Nat.pow_le_pow_right (by norm_num) (by omega)
      rw [Nat.testBit_lt_two_pow (lt_of_lt_of_le hb hle),
        Nat.testBit_lt_two_pow (lt_of_lt_of_le hi hle)]
    exact Finset.prod_eq_zero (Finset.mem_range.2 hjp) (if_neg hj)

theorem mleSum_congr {R : Type} [CommRing R] (f f' t : List R)
    (h : ∀ b, b < 2 ^ t.length → f.getD b 0 = f'.getD b 0) : mleSum f t = mleSum f' t :=
  Finset.sum_congr rfl fun b hb => by rw [h b (Finset.mem_range.1 hb)]

theorem getD_drop' {A : Type} (l : List A) (k i : ℕ) (d : A) :
    (l.drop k).getD i d = l.getD (k + i) d := by
  rw [List.getD_eq_getElem?_getD, List.getD_eq_getElem?_getD, List.getElem?_drop]

theorem mleSum_select (f xs : List F) (i p : ℕ) (hi : i < 2 ^ p) :
    mleSum f (xs ++ bitsF i p) = mleSum (f.drop (i * 2 ^ xs.length)) xs := by
  induction xs generalizing f with
  | nil =>
    rw [List.nil_append, mleSum, mleSum, bitsF_length]
    rw [Finset.sum_congr rfl (fun b hb => by rw [eqW_bits i p b hi (Finset.mem_range.1 hb)])]
    simp only [mul_ite, mul_one, mul_zero]
    rw [Finset.sum_ite_eq', if_pos (Finset.mem_range.2 hi)]
    simp [eqW_nil]
  | cons x xs ih =>
    rw [List.cons_append, mleSum_cons, ih, mleSum_cons, List.length_append, bitsF_length]
    refine mleSum_congr _ _ _ fun b hb => ?_
    have hlt : i * 2 ^ xs.length + b < 2 ^ (xs.length + p) := by
      calc i * 2 ^ xs.length + b < i * 2 ^ xs.length + 2 ^ xs.length := by omega
        _ = (i + 1) * 2 ^ xs.length := by ring
        _ ≤ 2 ^ p * 2 ^ xs.length := Nat.mul_le_mul_right _ hi
        _ = 2 ^ (xs.length + p) := by rw [← pow_add, add_comm]
    rw [getD_drop', foldStep_get _ _ _ _ hlt, foldStep_get _ _ _ _ hb, getD_drop', getD_drop',
      List.length_cons, pow_succ]
    have e1 : 2 * (i * 2 ^ xs.length + b) = i * (2 ^ xs.length * 2) + 2 * b := by ring
    rw [e1]
    rfl

theorem flatMap_get (n : ℕ) (polys : List (Mle F)) (hwf : ∀ p ∈ polys, p.evals.length = n)
    (i j : ℕ) (hi : i < polys.length) (hj : j < n) :
    (polys.flatMap Mle.evals).getD (i * n + j) 0 =
      (polys.getD i ⟨0, []⟩).evals.getD j 0 := by
  induction polys generalizing i with
  | nil => simp at hi
  | cons p polys ih =>
    have hp := hwf p (by simp)
    rw [List.flatMap_cons]
    cases i with
    | zero => rw [getD_append_left' _ _ _ _ (by omega)]; simp
    | succ i =>
      rw [getD_append_right' _ _ _ _ (by rw [hp]; nlinarith), hp]
      rw [show (i + 1) * n + j - n = i * n + j by rw [Nat.succ_mul]; omega]
      rw [ih (fun q hq => hwf q (by simp [hq])) i (by simpa using hi)]
      simp

theorem flatMap_length (n : ℕ) (polys : List (Mle F)) (hwf : ∀ p ∈ polys, p.evals.length = n) :
    (polys.flatMap Mle.evals).length = polys.length * n := by
  induction polys with
  | nil => simp
  | cons p polys ih =>
    rw [List.flatMap_cons, List.length_append, hwf p (by simp),
      ih (fun q hq => hwf q (by simp [hq])), List.length_cons]
    ring

theorem le_two_pow_clog (m : ℕ) : m ≤ 2 ^ Nat.clog 2 m := Nat.le_pow_clog (by norm_num) m

theorem mergePolys_ok (polys : List (Mle F)) (n : ℕ) (hne : polys ≠ [])
    (hwf : ∀ p ∈ polys, p.WF ∧ p.numVars = n) :
    ∃ w : Mle F, mergePolys polys = .ok w ∧ w.WF ∧ w.numVars = n + Nat.clog 2 polys.length ∧
      ∀ i, i < polys.length → ∀ j, j < 2 ^ n →
        w.evals.getD (i * 2 ^ n + j) 0 = (polys.getD i ⟨0, []⟩).evals.getD j 0 := by
  have hlen : ∀ p ∈ polys, p.evals.length = 2 ^ n := fun p hp => by
    have := (hwf p hp).1
    unfold Mle.WF at this
    rw [this, (hwf p hp).2]
  have hfl := flatMap_length (2 ^ n) polys hlen
  have hle : polys.length * 2 ^ n ≤ 2 ^ (n + Nat.clog 2 polys.length) := by
    rw [pow_add, mul_comm]
    exact Nat.mul_le_mul_left _ (le_two_pow_clog _)
  refine ⟨⟨n + Nat.clog 2 polys.length, polys.flatMap Mle.evals ++
    List.replicate (2 ^ (n + Nat.clog 2 polys.length) - (polys.flatMap Mle.evals).length) 0⟩,
    ?_, ?_, rfl, ?_⟩
  · unfold mergePolys
    cases hps : polys with
    | nil => exact absurd hps hne
    | cons p ps =>
      have hpn : p.numVars = n := (hwf p (by rw [hps]; simp)).2
      simp only
      rw [if_neg, if_neg]
      · unfold batchedNv; rw [hpn]
      · unfold batchedNv; rw [hpn, ← hps, hfl]; omega
      · rw [← hps, List.any_eq_true]
        push Not
        intro q hq
        rw [hpn, (hwf q hq).2]
        simp
  · unfold Mle.WF
    simp only [List.length_append, List.length_replicate]
    rw [hfl]
    omega
  · intro i hi j hj
    have hij : i * 2 ^ n + j < polys.length * 2 ^ n := by
      have : (i + 1) * 2 ^ n ≤ polys.length * 2 ^ n := Nat.mul_le_mul_right _ hi
      rw [Nat.succ_mul] at this
      omega
    simp only
    rw [getD_append_left' _ _ _ _ (by rw [hfl]; exact hij), flatMap_get (2 ^ n) polys hlen i j hi hj]

/-! ### the polynomials through the points -/

theorem buildL_length (n : ℕ) (points : List (List F)) (d : Domain F) :
    (buildL n points d).length = n + Nat.clog 2 points.length := by
  simp [buildL]; omega

theorem buildL_mem_length (n : ℕ) (points : List (List F)) (d : Domain F) :
    ∀ p ∈ buildL n points d, p.length ≤ d.size := by
  intro p hp
  unfold buildL at hp
  simp only [List.mem_append, List.mem_map] at hp
  rcases hp with ⟨i, _, rfl⟩ | ⟨i, _, rfl⟩ <;> exact interpolate_length _ _

theorem lPoint_length (n : ℕ) (points : List (List F)) (d : Domain F) (x : F) :
    (lPoint (buildL n points d) x).length = n + Nat.clog 2 points.length := by
  unfold lPoint
  rw [List.length_map, List.length_reverse, buildL_length]

theorem getD_map_getD {A B : Type} (l : List A) (f : A → B) (k : ℕ) (a : A) (b : B)
    (hk : k < l.length) : (l.map f).getD k b = f (l.getD k a) := by
  rw [List.getD_eq_getElem?_getD, List.getD_eq_getElem?_getD, List.getElem?_map,
    List.getElem?_eq_getElem hk]
  rfl

theorem lPoint_omega (n : ℕ) (points : List (List F)) (d : Domain F)
    (hw : IsPrimitiveRoot d.gen d.size) (hd : points.length ≤ d.size)
    (hp : ∀ x ∈ points, x.length = n) (i : ℕ) (hi : i < points.length) :
    lPoint (buildL n points d) (d.gen ^ i) =
      (points.getD i []).reverse ++ bitsF i (Nat.clog 2 points.length) := by
  have hin : (points.getD i []).length = n := by
    rw [List.getD_eq_getElem _ _ hi]; exact hp _ (List.getElem_mem _)
  unfold lPoint buildL
  simp only
  rw [List.reverse_append, List.map_append]
  congr 1
  · rw [← List.map_reverse, List.map_map]
    refine List.ext_getElem (by rw [List.length_reverse, hin]; simp) fun k h1 h2 => ?_
    have hk : k < n := by simpa using h1
    simp only [List.getElem_map, List.getElem_reverse, List.getElem_range, Function.comp_apply,
      List.length_range]
    rw [horner_eq, interpolate_eval d hw _ (by simp; omega) i (by omega),
      getD_append_left' _ _ _ _ (by simpa using hi), getD_map_getD _ _ _ [] _ hi,
      List.getD_eq_getElem _ _ (by omega)]
    congr 1
    omega
  · rw [← List.map_reverse, List.map_map]
    refine List.ext_getElem (by simp [bitsF]) fun k h1 h2 => ?_
    have hk : k < Nat.clog 2 points.length := by simpa using h1
    simp only [List.getElem_map, List.getElem_reverse, List.getElem_range, Function.comp_apply,
      List.length_range, bitsF]
    rw [horner_eq, interpolate_eval d hw _ (by simp; omega) i (by omega)]
    rw [List.map_map, getD_range_map _ _ _ _ hi]
    simp only [Function.comp_apply, bitDecompose]
    rw [show Nat.clog 2 points.length - (Nat.clog 2 points.length - 1 - k) - 1 = k by omega,
      getD_range_map _ _ _ _ hk]

/-- the value at the `i`-th domain point is that of the `i`-th polynomial at its point *read
backwards* -/
theorem merged_omega (polys : List (Mle F)) (n : ℕ) (w : Mle F)
    (hw2 : ∀ i, i < polys.length → ∀ j, j < 2 ^ n →
        w.evals.getD (i * 2 ^ n + j) 0 = (polys.getD i ⟨0, []⟩).evals.getD j 0)
    (points : List (List F)) (d : Domain F)
    (hw : IsPrimitiveRoot d.gen d.size) (hd : points.length ≤ d.size)
    (hp : ∀ x ∈ points, x.length = n) (hl : points.length = polys.length) (i : ℕ)
    (hi : i < points.length) :
    mleSum w.evals (lPoint (buildL n points d) (d.gen ^ i)) =
      mleSum (polys.getD i ⟨0, []⟩).evals (points.getD i []).reverse := by
  have hin : (points.getD i []).length = n := by
    rw [List.getD_eq_getElem _ _ hi]; exact hp _ (List.getElem_mem _)
  rw [lPoint_omega n points d hw hd hp i hi,
    mleSum_select _ _ _ _ (lt_of_lt_of_le hi (le_two_pow_clog _))]
  refine mleSum_congr _ _ _ fun b hb => ?_
  rw [List.length_reverse, hin] at *
  rw [getD_drop', hw2 i (by omega) b hb]

/-! ### degrees -/

theorem norm_of_last (p : List F) (k : ℕ) (hl : p.length = k + 1) (h : p.getD k 0 ≠ 0) :
    norm p = p := by
  obtain ⟨n, hn⟩ := norm_append p
  cases n with
  | zero => simpa using hn.symm
  | succ n =>
    exfalso
    apply h
    have hlen := congrArg List.length hn
    simp only [List.length_append, List.length_replicate] at hlen
    rw [hn, getD_append_right' _ _ _ _ (by omega)]
    exact getD_replicate_zero _ _

/-- the first of the polynomials always has full degree -/
theorem degree_head (n : ℕ) (points : List (List F)) (d : Domain F)
    (hw : IsPrimitiveRoot d.gen d.size) (hd : d.logSize = Nat.clog 2 points.length)
    (l0 : List F) (ls : List (List F))
    (hl : buildL n points d = l0 :: ls) : degree l0 = d.size - 1 := by
  have hsz : d.size = 2 ^ Nat.clog 2 points.length := by unfold Domain.size; rw [hd]
  have hmem : l0.length ≤ d.size := buildL_mem_length n points d l0 (by rw [hl]; simp)
  generalize hm : points.length = m at *
  by_cases hm1 : m ≤ 1
  · have : Nat.clog 2 m = 0 := Nat.clog_of_right_le_one hm1 2
    rw [this] at hsz
    unfold degree
    omega
  · push Not at hm1
    have hp : 0 < Nat.clog 2 m := Nat.clog_pos (by norm_num) hm1
    generalize hpp : Nat.clog 2 m = p at *
    obtain ⟨p, rfl⟩ : ∃ p', p = p' + 1 := ⟨p - 1, by omega⟩
    have hlow : 2 ^ p < m := by
      have := Nat.pow_pred_clog_lt_self (b := 2) (by norm_num) hm1
      rwa [hpp] at this
    have hhigh : m ≤ 2 ^ (p + 1) := by rw [← hpp]; exact le_two_pow_clog m
    have hl0 : l0 = interpolate d ((List.range m).map
        (fun x => if x.testBit p then (1 : F) else 0)) := by
      have h0 : (buildL n points d).getD 0 [] = l0 := by rw [hl]; rfl
      rw [← h0]
      unfold buildL
      simp only
      rw [hm, hpp, getD_append_left' _ _ _ _ (by simp), getD_range_map _ _ _ _ (by omega)]
      congr 1
      rw [List.map_map]
      refine List.map_congr_left fun x _ => ?_
      simp only [Function.comp_apply, bitDecompose]
      rw [getD_range_map _ _ _ _ (by omega)]
      simp
    have hsz1 : 1 < d.size := by rw [hsz]; exact Nat.one_lt_two_pow (by omega)
    have hg0 : d.gen ≠ 0 := hw.ne_zero (by omega)
    have hg1 : d.gen ≠ 1 := hw.ne_one hsz1
    have htop : (d.ifft ((List.range m).map
        (fun x => if x.testBit p then (1 : F) else 0))).getD (d.size - 1) 0 ≠ 0 := by
      unfold Domain.ifft
      rw [getD_range_map _ _ _ _ (by omega)]
      have hinv : d.gen⁻¹ ^ (d.size - 1) = d.gen := by
        have h1 : d.gen ^ (d.size - 1) * d.gen = 1 := by
          rw [← pow_succ, show d.size - 1 + 1 = d.size by omega, hw.pow_eq_one]
        rw [inv_pow]
        exact inv_eq_of_mul_eq_one_right h1
      rw [hinv, smul_eq_mul]
      have hn0 : (d.size : F) ≠ 0 := by
        have : NeZero d.size := ⟨by omega⟩
        exact (hw.neZero').out
      refine mul_ne_zero (inv_ne_zero hn0) ?_
      have hsum : evalAt ((List.range m).map (fun x => if x.testBit p then (1 : F) else 0)) d.gen =
          ∑ j ∈ Finset.Ico (2 ^ p) m, d.gen ^ j := by
        unfold evalAt
        simp only [List.length_map, List.length_range]
        rw [← Finset.sum_range_add_sum_Ico _ hlow.le]
        have hz : ∑ x ∈ Finset.range (2 ^ p), d.gen ^ x •
            ((List.range m).map (fun x => if x.testBit p then (1 : F) else 0)).getD x 0 = 0 := by
          refine Finset.sum_eq_zero fun x hx => ?_
          have hx := Finset.mem_range.1 hx
          rw [getD_range_map _ _ _ _ (by omega), Nat.testBit_lt_two_pow hx]
          simp
        rw [hz, zero_add]
        refine Finset.sum_congr rfl fun x hx => ?_
        have hx := Finset.mem_Ico.1 hx
        have hb : x.testBit p = true := by
          rw [Nat.testBit_eq_decide_div_mod_eq]
          have : x / 2 ^ p = 1 := by
            refine (Nat.div_eq_iff (by positivity)).2 ⟨by omega, ?_⟩
            have := pow_succ 2 p
            omega
          simp [this]
        rw [getD_range_map _ _ _ _ (by omega), hb]
        simp
      rw [hsum, geom_sum_Ico hg1 hlow.le]
      refine div_ne_zero ?_ (sub_ne_zero.2 hg1)
      intro h0
      have h1 : d.gen ^ m = d.gen ^ 2 ^ p := sub_eq_zero.1 h0
      have h2 : d.gen ^ (m - 2 ^ p) = 1 := by
        have := pow_sub₀ d.gen hg0 hlow.le
        rw [this, h1, mul_inv_cancel₀ (pow_ne_zero _ hg0)]
      have h3 := hw.dvd_of_pow_eq_one _ h2
      have h4 := Nat.le_of_dvd (by omega) h3
      have := pow_succ 2 p
      have : 0 < 2 ^ p := by positivity
      omega
    have hnorm := norm_of_last (d.ifft ((List.range m).map
        (fun x => if x.testBit p then (1 : F) else 0))) (d.size - 1)
      (by simp [Domain.ifft]; omega) htop
    rw [hl0]
    unfold degree interpolate
    rw [hnorm]
    simp [Domain.ifft]

open Polynomial in
/-- the composed polynomial -/
noncomputable def circPoly (f : List F) (l : List (List F)) : F[X] :=
  mleSum (f.map Polynomial.C) (l.reverse.map toPoly)

theorem mleSum_map {R R' : Type} [CommRing R] [CommRing R'] (φ : R →+* R') (f t : List R) :
    φ (mleSum f t) = mleSum (f.map φ) (t.map φ) := by
  have hg : ∀ (l : List R) (i : ℕ), φ (l.getD i 0) = (l.map φ).getD i 0 := by
    intro l i
    rw [List.getD_eq_getElem?_getD, List.getD_eq_getElem?_getD, List.getElem?_map]
    cases l[i]? <;> simp
  unfold mleSum
  rw [map_sum, List.length_map]
  refine Finset.sum_congr rfl fun b _ => ?_
  rw [map_mul, hg]
  congr 1
  unfold eqW
  rw [map_prod, List.length_map]
  refine Finset.prod_congr rfl fun j _ => ?_
  split
  · exact hg t j
  · rw [map_sub, map_one, hg]

theorem circPoly_eval (f : List F) (l : List (List F)) (x : F) :
    (circPoly f l).eval x = mleSum f (lPoint l x) := by
  unfold circPoly lPoint
  have := mleSum_map (Polynomial.evalRingHom x) (f.map Polynomial.C) (l.reverse.map toPoly)
  rw [Polynomial.coe_evalRingHom] at this
  rw [this, List.map_map, List.map_map]
  congr 1
  · have : (Polynomial.eval x ∘ (Polynomial.C : F → Polynomial F)) = id := by
      funext c; simp
    rw [this, List.map_id]
  · refine List.map_congr_left fun p _ => ?_
    rw [Function.comp_apply, toPoly_eval, horner_eq]

theorem toPoly_natDegree (p : List F) : (toPoly p).natDegree ≤ p.length - 1 := by
  by_cases h : toPoly p = 0
  · rw [h]; simp
  · have := (Polynomial.natDegree_lt_iff_degree_lt h).2 (toPoly_degree_lt p)
    omega

theorem eqW_natDegree (k : ℕ) (ts : List (Polynomial F)) (h : ∀ p ∈ ts, p.natDegree ≤ k) (b : ℕ) :
    (eqW ts b).natDegree ≤ ts.length * k := by
  unfold eqW
  refine (Polynomial.natDegree_prod_le _ _).trans ?_
  refine (Finset.sum_le_card_nsmul _ _ k ?_).trans (by simp)
  intro j hj
  have hj := Finset.mem_range.1 hj
  have hk := h _ (List.getElem_mem hj)
  rw [List.getD_eq_getElem _ _ hj]
  split
  · exact hk
  · refine (Polynomial.natDegree_sub_le _ _).trans ?_
    simp [hk]

theorem circPoly_natDegree (f : List F) (l : List (List F)) (s : ℕ) (h : ∀ p ∈ l, p.length ≤ s) :
    (circPoly f l).natDegree ≤ l.length * (s - 1) := by
  unfold circPoly mleSum
  refine Polynomial.natDegree_sum_le_of_forall_le _ _ fun b _ => ?_
  have hc : ∃ c : F, (f.map Polynomial.C).getD b 0 = Polynomial.C c := by
    rw [List.getD_eq_getElem?_getD, List.getElem?_map]
    cases f[b]? with
    | none => exact ⟨0, by simp⟩
    | some c => exact ⟨c, rfl⟩
  obtain ⟨c, hc⟩ := hc
  rw [hc]
  refine (Polynomial.natDegree_C_mul_le _ _).trans ?_
  have := eqW_natDegree (s - 1) (l.reverse.map toPoly) (by
    intro p hp
    rw [List.mem_map] at hp
    obtain ⟨q, hq, rfl⟩ := hp
    have := h q (by simpa using hq)
    have h2 := toPoly_natDegree q
    omega) b
  simpa using this

theorem gen_nodup (d : Domain F) (hw : IsPrimitiveRoot d.gen d.size) :
    ((List.range d.size).map (fun k => d.gen ^ k)).Nodup := by
  refine List.Nodup.map_on ?_ List.nodup_range
  intro a ha b hb hab
  exact hw.pow_inj (by simpa using ha) (by simpa using hb) hab

/-- a polynomial of degree below the domain size is recovered from its values -/
theorem interpolate_recovers (d : Domain F) (hw : IsPrimitiveRoot d.gen d.size) (P : Polynomial F)
    (hP : P.natDegree < d.size) (evals : List F)
    (he : evals = (List.range d.size).map (fun k => P.eval (d.gen ^ k))) (x : F) :
    evalAt (interpolate d evals) x = P.eval x := by
  have key : toPoly (interpolate d evals) = P := by
    refine Polynomial.eq_of_degrees_lt_of_eval_finset_eq
      ((List.range d.size).map (fun k => d.gen ^ k)).toFinset ?_ ?_ ?_
    · rw [List.toFinset_card_of_nodup (gen_nodup d hw)]
      refine lt_of_lt_of_le (toPoly_degree_lt _) ?_
      simp only [List.length_map, List.length_range]
      exact_mod_cast interpolate_length d evals
    · rw [List.toFinset_card_of_nodup (gen_nodup d hw)]
      simp only [List.length_map, List.length_range]
      exact lt_of_le_of_lt Polynomial.degree_le_natDegree (by exact_mod_cast hP)
    · intro z hz
      simp only [List.mem_toFinset, List.mem_map, List.mem_range] at hz
      obtain ⟨k, hk, rfl⟩ := hz
      rw [toPoly_eval, interpolate_eval d hw _ (by rw [he]; simp) k hk, he,
        getD_range_map _ _ _ _ hk]
  rw [← toPoly_eval, key]

/-! ### composition -/

/-- `log` of the size of the domain on which the code evaluates the composition -/
def circLog (L size : ℕ) : ℕ := Nat.clog 2 ((Nat.clog 2 L + 2) * (size - 1))

def circDomain (S : ℕ) (root : F) (k : ℕ) : Domain F := ⟨k, root ^ 2 ^ (S - k), 1⟩

theorem circDomain_primitive (S : ℕ) (root : F) (hr : IsPrimitiveRoot root (2 ^ S)) (k : ℕ)
    (hk : k ≤ S) : IsPrimitiveRoot (circDomain S root k).gen (circDomain S root k).size :=
  gen_primitive S root hr k hk

theorem newDomain_eq (S : ℕ) (root : F) (n : ℕ) (h : Nat.clog 2 n ≤ S) :
    newDomain S root n = some (circDomain S root (Nat.clog 2 n)) := by
  unfold newDomain circDomain
  rw [if_neg (by omega)]

/-- the polynomial `q` of the code -/
def qPoly (S : ℕ) (root : F) (w : Mle F) (l : List (List F)) (k : ℕ) : List F :=
  interpolate (circDomain S root k) ((List.range (circDomain S root k).size).map
    (fun j => mleEval w.evals (lPoint l ((circDomain S root k).gen ^ j))))

theorem wCircL_ok (S : ℕ) (root : F) (w : Mle F) (n : ℕ) (points : List (List F)) (d : Domain F)
    (hr : IsPrimitiveRoot d.gen d.size) (hd : d.logSize = Nat.clog 2 points.length)
    (hw : w.numVars = n + Nat.clog 2 points.length)
    (hpos : 0 < n + Nat.clog 2 points.length)
    (hS : circLog (n + Nat.clog 2 points.length) d.size ≤ S) :
    wCircL S root w (buildL n points d) =
      .ok (qPoly S root w (buildL n points d) (circLog (n + Nat.clog 2 points.length) d.size)) := by
  have hlen := buildL_length n points d
  unfold wCircL
  rw [if_neg (by omega)]
  cases hl : buildL n points d with
  | nil => rw [hl] at hlen; simp at hlen; omega
  | cons l0 ls =>
    simp only
    rw [← hl, degree_head n points d hr hd l0 ls hl, hlen, hw, Nat.sub_self, zero_add]
    rw [newDomain_eq S root _ hS]
    rfl

theorem qPoly_length (S : ℕ) (root : F) (w : Mle F) (l : List (List F)) (k : ℕ) :
    (qPoly S root w l k).length ≤ 2 ^ k := interpolate_length _ _

theorem qPoly_domain (S : ℕ) (root : F) (hr : IsPrimitiveRoot root (2 ^ S)) (w : Mle F)
    (l : List (List F)) (k : ℕ) (hk : k ≤ S) (j : ℕ) (hj : j < 2 ^ k) :
    evalAt (qPoly S root w l k) ((root ^ 2 ^ (S - k)) ^ j) =
      mleSum w.evals (lPoint l ((root ^ 2 ^ (S - k)) ^ j)) := by
  have h := interpolate_eval (circDomain S root k) (circDomain_primitive S root hr k hk)
    ((List.range (circDomain S root k).size).map
    (fun j => mleEval w.evals (lPoint l ((circDomain S root k).gen ^ j)))) (by simp) j hj
  unfold qPoly
  rw [show (root ^ 2 ^ (S - k)) = (circDomain S root k).gen from rfl, h,
    getD_range_map (circDomain S root k).size _ _ _ hj, mleEval_eq]

theorem qPoly_small (S : ℕ) (root : F) (hr : IsPrimitiveRoot root (2 ^ S)) (w : Mle F)
    (l : List (List F)) (k m : ℕ) (hk : k ≤ S) (hm : m ≤ k) (i : ℕ) (hi : i < 2 ^ m) :
    evalAt (qPoly S root w l k) ((root ^ 2 ^ (S - m)) ^ i) =
      mleSum w.evals (lPoint l ((root ^ 2 ^ (S - m)) ^ i)) := by
  have he : (root ^ 2 ^ (S - m)) ^ i = (root ^ 2 ^ (S - k)) ^ (2 ^ (k - m) * i) := by
    rw [← pow_mul, ← pow_mul, ← mul_assoc, ← pow_add]
    congr 3
    omega
  rw [he]
  refine qPoly_domain S root hr w l k hk _ ?_
  calc 2 ^ (k - m) * i < 2 ^ (k - m) * 2 ^ m := Nat.mul_lt_mul_of_pos_left hi (by positivity)
    _ = 2 ^ k := by rw [← pow_add]; congr 1; omega

theorem circLog_ge (L p : ℕ) (hL : 0 < p → 2 ≤ L + 1) : p ≤ circLog L (2 ^ p) := by
  unfold circLog
  cases p with
  | zero => omega
  | succ p =>
    have h1 : 2 ^ p < (Nat.clog 2 L + 2) * (2 ^ (p + 1) - 1) := by
      have := pow_succ 2 p
      have h0 : 0 < 2 ^ p := by positivity
      calc 2 ^ p < 2 * (2 ^ (p + 1) - 1) := by omega
        _ ≤ _ := Nat.mul_le_mul_right _ (by omega)
    have := (Nat.lt_clog_iff_pow_lt (by norm_num : 1 < 2)).2 h1
    omega

/-! ### the openings of `q` -/

theorem openPoly_value (τ : F) (g : G1) (m : ℕ) (p : List F) (hp : p.length ≤ m + 1) (z : F) :
    openPoly (⟨powers τ g m⟩ : ProverParam G1) p z =
        .ok (evalAt (divPoly p [-z, 1]) τ • g, evalAt p z) ∧
      evalAt p τ = evalAt (divPoly p [-z, 1]) τ * (τ - z) + evalAt p z := by
  have hd : ([-z, 1] : List F).getLastD 0 ≠ 0 := by simp
  obtain ⟨r, hr, hq⟩ := divPoly_eval p [-z, 1] (by simp) hd
  have hlen := divPoly_length p ([-z, 1] : List F)
  simp only [List.length_cons, List.length_nil] at hlen hr
  obtain ⟨r0, rfl⟩ := List.length_eq_one_iff.1 hr
  have hlin : ∀ x : F, evalAt ([-z, 1] : List F) x = x - z := by
    intro x; simp [evalAt_cons, evalAt_nil]; ring
  have hr0 : ∀ x : F, evalAt ([r0] : List F) x = r0 := by
    intro x; simp [evalAt_cons, evalAt_nil]
  have hz : evalAt p z = r0 := by
    rw [hq z, hlin, hr0]; ring
  constructor
  · unfold openPoly
    simp only
    rw [msmPoly_powers τ g m _ (by omega), horner_eq]
  · have := hq τ
    rw [hlin, hr0] at this
    rw [hz]
    exact this

/-- the honest univariate opening passes -/
theorem verify_value (e : G1 →ₗ[F] G2 →ₗ[F] GT) (uvp : VerifierParam G1 G2) (τ : F)
    (hb : uvp.betaH = τ • uvp.h) (p : List F) (z : F) :
    verify e uvp (evalAt p τ • uvp.g) z (evalAt p z) (evalAt (divPoly p [-z, 1]) τ • uvp.g) =
      true := by
  have h := (openPoly_value τ uvp.g p.length p (by omega) z).2
  rw [verify_iff, claimEq_trapdoor e uvp τ hb, h]
  have : (τ - z) • evalAt (divPoly p [-z, 1]) τ • uvp.g -
      ((evalAt (divPoly p [-z, 1]) τ * (τ - z) + evalAt p z) • uvp.g - evalAt p z • uvp.g) = 0 := by
    module
  rw [this]
  simp

theorem openAtOmegas_ok (τ : F) (g : G1) (m : ℕ) (w : Mle F) (l : List (List F)) (q : List F)
    (hq : q.length ≤ m + 1) (zs : List F)
    (hz : ∀ z ∈ zs, mleSum w.evals (lPoint l z) = evalAt q z) :
    openAtOmegas (⟨powers τ g m⟩ : ProverParam G1) w l q zs =
      .ok (zs.map (fun z => evalAt (divPoly q [-z, 1]) τ • g), zs.map (fun z => evalAt q z)) := by
  induction zs with
  | nil => rfl
  | cons z zs ih =>
    unfold openAtOmegas
    rw [(openPoly_value τ g m q hq z).1]
    simp only
    rw [mleEval_eq, if_neg (by rw [hz z (by simp)]; simp), ih (fun y hy => hz y (by simp [hy]))]
    rfl

/-- exactly what `batch_open` does -/
theorem mBatchOpen_eq (S : ℕ) (root : F) (hr : IsPrimitiveRoot root (2 ^ S))
    (chal : G1 → List (List F) → G1 → F) (τ : F) (gu : G1) (m : ℕ) (t : List F) (g : G1) (h : G2)
    (polys : List (Mle F)) (n : ℕ) (hne : polys ≠ []) (hwf : ∀ p ∈ polys, p.WF ∧ p.numVars = n)
    (points : List (List F)) (hl : points.length = polys.length)
    (hp : ∀ x ∈ points, x.length = n) (hpos : 0 < n + Nat.clog 2 polys.length)
    (hS : circLog (n + Nat.clog 2 polys.length) (2 ^ Nat.clog 2 polys.length) ≤ S)
    (hm : 2 ^ circLog (n + Nat.clog 2 polys.length) (2 ^ Nat.clog 2 polys.length) ≤ m)
    (ht : n + Nat.clog 2 polys.length ≤ t.length) (comm : G1) (w : Mle F)
    (hmerge : mergePolys polys = .ok w) (hwwf : w.WF)
    (hwn : w.numVars = n + Nat.clog 2 polys.length)
    (l : List (List F)) (hldef : l = buildL n points (circDomain S root (Nat.clog 2 polys.length)))
    (q : List F) (hqdef : q = qPoly S root w l
      (circLog (n + Nat.clog 2 polys.length) (2 ^ Nat.clog 2 polys.length)))
    (r : F) (hrdef : r = chal comm points (evalAt q τ • gu))
    (zs : List F) (hzs : zs = (List.range points.length).map
      (fun i => (root ^ 2 ^ (S - Nat.clog 2 polys.length)) ^ i)) :
    mBatchOpen S root chal ⟨powers τ gu m⟩ (paramsOf t g h).1 polys comm points =
      if mleSum w.evals (lPoint l r) = evalAt q r then
        .ok (⟨(quots (lPoint l r) (t.drop (t.length - (n + Nat.clog 2 polys.length))) w.evals).map
            (· • g), evalAt q τ • gu, (zs ++ [r]).map (fun z => evalAt (divPoly q [-z, 1]) τ • gu)⟩,
          (zs ++ [r]).map (fun z => evalAt q z))
      else .error .invalidProver := by
  have hposp : 0 < polys.length := List.length_pos_of_ne_nil hne
  have hnum : (polys.getD 0 ⟨0, []⟩).numVars = n := by
    rw [List.getD_eq_getElem _ _ hposp]; exact (hwf _ (List.getElem_mem _)).2
  have hge : Nat.clog 2 polys.length ≤
      circLog (n + Nat.clog 2 polys.length) (2 ^ Nat.clog 2 polys.length) :=
    circLog_ge _ _ (by omega)
  have hprim := circDomain_primitive S root hr (Nat.clog 2 polys.length) (by omega)
  have hqlen : q.length ≤ m := by
    rw [hqdef]; exact (qPoly_length _ _ _ _ _).trans hm
  unfold mBatchOpen
  rw [if_neg (by omega), if_neg (by omega)]
  simp only
  rw [hnum]
  rw [if_neg (by
    rw [List.any_eq_true]; push Not
    intro p hpm
    rw [(hwf p hpm).2]; simp)]
  rw [if_neg (by
    rw [List.any_eq_true]; push Not
    intro x hx
    rw [hp x hx]; simp)]
  rw [newDomain_eq S root points.length (by rw [hl]; omega), hmerge]
  simp only
  rw [wCircL_ok S root w n points (circDomain S root (Nat.clog 2 points.length))
    (by rw [hl]; exact hprim) rfl (by rw [hl]; exact hwn) (by rw [hl]; exact hpos)
    (by rw [hl]; exact hS)]
  rw [hl, show (circDomain S root (Nat.clog 2 polys.length)).size = 2 ^ Nat.clog 2 polys.length
    from rfl, ← hldef, ← hqdef]
  simp only
  rw [commit_honest τ gu m q hqlen]
  simp only
  rw [← hrdef]
  have hzs' : (List.range polys.length).map
      (fun i => (circDomain S root (Nat.clog 2 polys.length)).gen ^ i) = zs := by
    rw [hzs, hl]; rfl
  rw [hzs', openAtOmegas_ok τ gu m w l q (by omega) zs]
  · simp only
    rw [(openPoly_value τ gu m q (by omega) r).1]
    simp only
    rw [mOpen_honest t g h w hwwf (by omega) (lPoint l r)
      (by rw [hldef, lPoint_length, hl, hwn]), hwn]
    simp only
    by_cases hc : mleSum w.evals (lPoint l r) = evalAt q r
    · rw [if_neg (by simpa using hc), if_pos hc]
      simp
    · rw [if_pos hc, if_neg hc]
  · intro z hz
    rw [hzs] at hz
    simp only [List.mem_map, List.mem_range] at hz
    obtain ⟨i, hi, rfl⟩ := hz
    rw [hqdef]
    exact (qPoly_small S root hr w l _ _ hS hge i
      (lt_of_lt_of_le (by omega) (le_two_pow_clog _))).symm

end Verif.Pcs
