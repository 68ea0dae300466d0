import Verif.Hash.Poseidon2Lemmas
import Verif.Hash.Poseidon2Consts
import Verif.Util.Fields
import Verif.Hash.SpongeLemmas
import Mathlib.LinearAlgebra.Matrix.Determinant.Basic
import Mathlib.Tactic.NormNum.Prime
import Mathlib.Tactic.NormNum.GCD

/-!
# C39, C40: Poseidon2

The states of width `T` are the lists of length `T`. `codeMat T v` is the matrix of the internal
layer: all ones plus a diagonal, which is `(1, 2)` for `T = 2`, `(1, 1, 2)` for `T = 3` and the
parameter `v` for the other widths. `M4` is the 4 by 4 matrix of the documentation.
-/

set_option linter.unusedSectionVars false

namespace Verif.Poseidon2

section general
variable {p : ℕ} [Fact p.Prime]

theorem sane {P : Params (ZMod p)} (h : P.sanityCheck = true) :
    P.T ∈ widths ∧ 0 < P.D ∧ P.externalRc.length = P.extRounds ∧
      P.internalRc.length = P.intRounds ∧ P.extRounds % 2 = 0 := by
  simp only [Params.sanityCheck, Bool.and_eq_true, decide_eq_true_eq] at h
  obtain ⟨⟨⟨⟨h1, h2⟩, h3⟩, h4⟩, h5⟩ := h
  refine ⟨h1, ?_, h3, h4, h5⟩
  simp only [List.mem_cons, List.not_mem_nil, or_false] at h2
  omega

/-- C39: with parameters passing the sanity check the permutation never panics and keeps the width;
it is a bijection of the state space exactly if the S-box exponent is prime to `p - 1` (unless there are
no rounds) and the internal matrix is invertible (unless there are no internal rounds) -/
theorem C39_permutation_iff (hp : 7 < p) (P : Params (ZMod p)) (hty : P.Typed)
    (hs : P.sanityCheck = true) :
    ∃ f : List (ZMod p) → List (ZMod p),
      (∀ s, s.length = P.T → permute P s = some (f s) ∧ (f s).length = P.T) ∧
      (Set.BijOn f {s | s.length = P.T} {s | s.length = P.T} ↔
        (P.extRounds + P.intRounds = 0 ∨ Nat.Coprime P.D (p - 1)) ∧
        (P.intRounds = 0 ∨ (codeMat P.T P.diag).det ≠ 0)) := by
  obtain ⟨hT, hD, hE, hI, hev⟩ := sane hs
  obtain ⟨f1, m1, e1, i1⟩ := externalLoop_map hp hT hD (P.externalRc.take (P.extRounds / 2))
    (fun rc h => hty.ext rc (List.mem_of_mem_take h))
  obtain ⟨f3, m3, e3, i3⟩ := externalLoop_map hp hT hD
    ((P.externalRc.take P.extRounds).drop (P.extRounds / 2))
    (fun rc h => hty.ext rc (List.mem_of_mem_take (List.mem_of_mem_drop h)))
  obtain ⟨m2, i2⟩ := internalLoop_map hT hD hty.diag P.internalRc
  have m0 := ext_mem (p := p) hT
  refine ⟨f3 ∘ (internalLoop P.D P.diag P.internalRc ∘ (f1 ∘ ext)), ?_, ?_⟩
  · intro s hlen
    have h0 := matmulExternal_some hT (show s ∈ St _ P.T from hlen)
    refine ⟨?_, m3 (m2 (m1 h0.2))⟩
    simp only [permute, hs, if_true, h0.1, e1 _ h0.2]
    exact e3 _ (m2 (m1 h0.2))
  · have hm : Set.MapsTo (f3 ∘ (internalLoop P.D P.diag P.internalRc ∘ (f1 ∘ ext)))
        (St (ZMod p) P.T) (St _ P.T) := m3.comp (m2.comp (m1.comp m0))
    have hfin := st_finite (ZMod p) P.T
    have := hfin.injOn_iff_bijOn_of_mapsTo hm
    rw [show {s : List (ZMod p) | s.length = P.T} = St (ZMod p) P.T from rfl, ← this,
      injOn_comp_iff hfin m3 (m2.comp (m1.comp m0)), injOn_comp_iff hfin m2 (m1.comp m0),
      injOn_comp_iff hfin m1 m0, i1, i2, i3]
    have hx := ext_injOn_big hp hT
    have hl1 : P.externalRc.take (P.extRounds / 2) = [] ↔ P.extRounds = 0 := by
      rw [← List.length_eq_zero_iff, List.length_take, hE]
      omega
    have hl3 : (P.externalRc.take P.extRounds).drop (P.extRounds / 2) = [] ↔ P.extRounds = 0 := by
      rw [← List.length_eq_zero_iff, List.length_drop, List.length_take, hE]
      omega
    have hl2 : P.internalRc = [] ↔ P.intRounds = 0 := by
      rw [← List.length_eq_zero_iff, hI]
    rw [hl1, hl2, hl3]
    constructor
    · rintro ⟨a, b, c, _⟩
      refine ⟨?_, ?_⟩
      · rcases a with a | a
        · rcases b with b | b
          · exact Or.inl (by omega)
          · exact Or.inr b.1
        · exact Or.inr a
      · rcases b with b | b
        · exact Or.inl b
        · exact Or.inr b.2
    · rintro ⟨a | a, b⟩
      · exact ⟨Or.inl (by omega), Or.inl (by omega), Or.inl (by omega), hx⟩
      · refine ⟨Or.inr a, ?_, Or.inr a, hx⟩
        rcases b with b | b
        · exact Or.inl b
        · exact Or.inr ⟨a, b⟩

/-- C39: otherwise it panics -/
theorem C39_sanity_panics (P : Params (ZMod p)) (s : List (ZMod p)) (hs : P.sanityCheck = false) :
    permute P s = none := by
  simp [permute, hs]

/-- C39: the determinant of the internal matrix for a diagonal without zeros: the condition is that the
sum of the inverses of the diagonal is not `-1` -/
theorem C39_internal_det (T : ℕ) (v : Fin T → ZMod p) (hv : ∀ i, v i ≠ 0) :
    (internalMat T (List.ofFn v)).det ≠ 0 ↔ 1 + ∑ i, (v i)⁻¹ ≠ 0 := by
  rw [← isUnit_iff_ne_zero, ← Matrix.isUnit_iff_isUnit_det, ← Matrix.mulVec_injective_iff_isUnit]
  have hget : ∀ i : Fin T, (List.ofFn v).getD i 0 = v i := by intro i; simp
  constructor
  · intro h h0
    have h1 : (internalMat T (List.ofFn v)).mulVec (fun i => (v i)⁻¹) =
        (internalMat T (List.ofFn v)).mulVec 0 := by
      rw [internalMat_mulVec, internalMat_mulVec]
      funext i
      rw [hget, inv_mul_cancel₀ (hv i), h0]
      simp
    have h2 := h h1
    have h3 : ∑ i, (v i)⁻¹ = 0 := Finset.sum_eq_zero (fun i _ => congrFun h2 i)
    rw [h3, add_zero] at h0
    exact one_ne_zero h0
  · intro h x y hxy
    rw [internalMat_mulVec, internalMat_mulVec] at hxy
    have h1 : ∀ i, x i - y i = -(v i)⁻¹ * (∑ j, x j - ∑ j, y j) := by
      intro i
      have := congrFun hxy i
      rw [hget] at this
      have hvi := hv i
      field_simp
      linear_combination this
    have h2 : (∑ j, x j - ∑ j, y j) * (1 + ∑ i, (v i)⁻¹) = 0 := by
      have h3 : ∑ j, x j - ∑ j, y j = ∑ j, (-(v j)⁻¹ * (∑ j, x j - ∑ j, y j)) := by
        conv_lhs => rw [← Finset.sum_sub_distrib]
        exact Finset.sum_congr rfl (fun j _ => h1 j)
      rw [← Finset.sum_mul, Finset.sum_neg_distrib] at h3
      linear_combination h3
    have h4 : ∑ j, x j - ∑ j, y j = 0 := by
      rcases mul_eq_zero.1 h2 with h2 | h2
      · exact h2
      · exact absurd h2 h
    funext i
    have := h1 i
    rw [h4, mul_zero] at this
    exact sub_eq_zero.1 this

/-- C39: the external layer multiplies with the block matrix with `2 * M4` on the diagonal and `M4`
elsewhere -/
theorem C39_external_matrix (n : ℕ) (hn : n ∈ [1, 2, 3, 4, 5, 6]) (s : List (ZMod p))
    (hs : s.length = 4 * n) :
    ∃ t, matmulExternal s = some t ∧ t.length = 4 * n ∧ ∀ (i : Fin n) (r : Fin 4),
      t.getD (4 * i + r) 0 = ∑ j : Fin n, ∑ c : Fin 4,
        ((if i = j then 2 else 1) * M4 r c : ℕ) * s.getD (4 * j + c) 0 := by
  obtain ⟨bs, rfl, hb⟩ := exists_flat n s hs
  subst hb
  refine ⟨_, matmulExternal_flat bs hn, by simp [flat_length], ?_⟩
  intro i r
  simp only [getD_flat]
  have hi : (bs.map fun b => m4 b + (bs.map m4).sum).getD i 0 =
      m4 (bs.getD i 0) + (bs.map m4).sum := by
    simp
  have hsum : (bs.map m4).sum = ∑ j : Fin bs.length, m4 (bs.getD j 0) := by
    rw [← List.sum_ofFn]
    congr 1
    apply List.ext_getElem
    · simp
    · intro k h1 h2
      simp
  rw [hi, hsum, Pi.add_apply, Finset.sum_apply]
  have hsplit : ∀ j : Fin bs.length, (∑ c : Fin 4, ((if i = j then 2 else 1) * M4 r c : ℕ) *
      (bs.getD j 0) c : ZMod p) = (if i = j then m4 (bs.getD j 0) r else 0) + m4 (bs.getD j 0) r := by
    intro j
    by_cases h : i = j
    · simp only [h, if_true, m4]
      rw [← Finset.sum_add_distrib]
      refine Finset.sum_congr rfl (fun c _ => ?_)
      push_cast
      ring
    · simp only [h, if_false, m4, zero_add]
      refine Finset.sum_congr rfl (fun c _ => ?_)
      push_cast
      ring
  simp only [hsplit, Finset.sum_add_distrib, Finset.sum_ite_eq, Finset.mem_univ, if_true]

/-- C39: the two small external matrices: ones, and twos on the diagonal -/
theorem C39_external_matrix_small (a b c : ZMod p) :
    matmulExternal [a, b] = some [2 * a + b, a + 2 * b] ∧
    matmulExternal [a, b, c] = some [2 * a + b + c, a + 2 * b + c, a + b + 2 * c] := by
  refine ⟨?_, ?_⟩ <;> simp only [matmulExternal, Option.some.injEq, List.cons.injEq, and_true]
  · exact ⟨by ring, by ring⟩
  · exact ⟨by ring, by ring, by ring⟩

/-- C39: the internal layer multiplies with the all ones matrix plus the given diagonal for widths from
four on; for the widths two and three the diagonal is hard-coded -/
theorem C39_internal_matrix (T : ℕ) (hT : T ∈ widths) (v : List (ZMod p)) (hv : v.length = T)
    (x : Fin T → ZMod p) :
    matmulInternal v (List.ofFn x) = List.ofFn ((codeMat T v).mulVec x) ∧
    (4 ≤ T → codeMat T v = Matrix.of fun i j : Fin T => 1 + if i = j then v.getD i 0 else 0) ∧
    (T = 2 → codeMat T v = internalMat T [1, 2]) ∧ (T = 3 → codeMat T v = internalMat T [1, 1, 2]) := by
  refine ⟨matmulInternal_ofFn hT hv x, ?_, ?_, ?_⟩
  · intro h4
    unfold codeMat
    rw [if_neg (by omega), if_neg (by omega)]
    rfl
  · intro h; unfold codeMat; rw [if_pos h]
  · intro h; unfold codeMat; rw [if_neg (by omega), if_pos h]

/-- C39: so parameters with another diagonal are silently ignored for these widths: the result does
not depend on it -/
theorem C39_diagonal_ignored_counterexample (P : Params (ZMod p)) (v : List (ZMod p))
    (s : List (ZMod p)) (h : s.length = 2 ∨ s.length = 3) (hP : P.T = s.length) (hty : P.Typed) :
    permute { P with diag := v } s = permute P s := by
  have hmi : ∀ (u : List (ZMod p)) (t : List (ZMod p)), (t.length = 2 ∨ t.length = 3) →
      matmulInternal u t = matmulInternal [] t ∧ (matmulInternal u t).length = t.length := by
    intro u t ht
    rcases ht with ht | ht
    · obtain _ | ⟨a, _ | ⟨b, _ | ⟨c, t⟩⟩⟩ := t <;> simp at ht
      exact ⟨rfl, rfl⟩
    · obtain _ | ⟨a, _ | ⟨b, _ | ⟨c, _ | ⟨d, t⟩⟩⟩⟩ := t <;> simp at ht
      exact ⟨rfl, rfl⟩
  have hloop : ∀ (rcs : List (ZMod p)) (t : List (ZMod p)), (t.length = 2 ∨ t.length = 3) →
      internalLoop P.D v rcs t = internalLoop P.D P.diag rcs t := by
    intro rcs
    induction rcs with
    | nil => intro t _; rfl
    | cons rc rcs ih =>
      intro t ht
      cases t with
      | nil => simp at ht
      | cons x t =>
        have hh : (sBox P.D (x + rc) :: t).length = 2 ∨ (sBox P.D (x + rc) :: t).length = 3 := by
          simpa using ht
        have h1 := hmi v _ hh
        have h2 := hmi P.diag _ hh
        simp only [internalLoop, permuteInternal]
        rw [ih _ (by rw [h1.2]; exact hh), h1.1, h2.1]
  by_cases hs : P.sanityCheck = true
  · obtain ⟨hT, -, -, -, -⟩ := sane hs
    have hs' : ({ P with diag := v } : Params (ZMod p)).sanityCheck = true := hs
    have h0 := matmulExternal_some hT (show s ∈ St _ P.T from hP.symm)
    have hlen : ∀ (rcs : List (List (ZMod p))) (t u : List (ZMod p)), (∀ rc ∈ rcs, rc.length = P.T) →
        t ∈ St _ P.T → externalLoop P.D rcs t = some u → u ∈ St _ P.T := by
      intro rcs
      induction rcs with
      | nil => intro t u _ ht he; cases he; exact ht
      | cons rc rcs ih =>
        intro t u hrc ht he
        have hm := sboxLayer_mem P.D (hrc rc (by simp)) ht
        have h1 := matmulExternal_some hT hm
        simp only [externalLoop, permuteExternal, h1.1] at he
        exact ih _ u (fun x hx => hrc x (by simp [hx])) h1.2 he
    simp only [permute, hs, hs', if_true, h0.1]
    cases he : externalLoop P.D (P.externalRc.take (P.extRounds / 2)) (ext s) with
    | none => rfl
    | some u =>
      have hu : u.length = P.T := hlen _ _ u (fun rc h => hty.ext rc (List.mem_of_mem_take h)) h0.2 he
      simp only [hloop P.internalRc u (by rw [hu, hP]; exact h)]
  · have hs' : ¬ ({ P with diag := v } : Params (ZMod p)).sanityCheck = true := hs
    simp [permute, hs, hs']

end general

/-! ## The shipped parameters -/

/-- a parameter set with its modulus -/
structure Instance where
  p : ℕ
  K : NatParams

/-- the three shipped parameter sets: scalar field of BLS12-381 (twice) and of BN254 -/
def shipped : List Instance :=
  [⟨Rescue.p_ed381, bls2⟩, ⟨Rescue.p_ed381, bls3⟩, ⟨Rescue.p_ed254, bn3⟩]

theorem shipped_prime : ∀ I ∈ shipped, I.p.Prime := by
  simp only [shipped, List.mem_cons, List.not_mem_nil, or_false, forall_eq_or_imp, forall_eq]
  exact ⟨Fields.prime_ed381, Fields.prime_ed381, Fields.prime_ed254⟩

def Instance.ok (I : Instance) : Prop :=
  7 < I.p ∧ Nat.gcd I.K.D (I.p - 1) = 1 ∧ (∀ rc ∈ I.K.externalRc, rc.length = I.K.T) ∧
  I.K.diag.length = I.K.T ∧ I.K.T ∈ [2, 3] ∧ I.K.D = 5 ∧ I.K.externalRc.length = I.K.extRounds ∧
  I.K.internalRc.length = I.K.intRounds ∧ I.K.extRounds % 2 = 0 ∧
  (I.K.T = 2 → I.K.diag = [1, 2]) ∧ (I.K.T = 3 → I.K.diag = [1, 1, 2])

instance (I : Instance) : Decidable I.ok := by unfold Instance.ok; infer_instance

theorem shipped_ok : ∀ I ∈ shipped, I.ok := by decide +kernel

theorem shipped_typed (I : Instance) (hI : I ∈ shipped) : (I.K.read (ZMod I.p)).Typed := by
  obtain ⟨-, -, h1, h2, -⟩ := shipped_ok I hI
  refine ⟨?_, ?_⟩
  · intro rc hrc
    simp only [NatParams.read, List.mem_map] at hrc
    obtain ⟨r, hr, rfl⟩ := hrc
    simp [NatParams.read, h1 r hr]
  · simp [NatParams.read, h2]

theorem shipped_sane (I : Instance) (hI : I ∈ shipped) : (I.K.read (ZMod I.p)).sanityCheck = true := by
  obtain ⟨-, -, -, -, hT, hD, h1, h2, h3, -⟩ := shipped_ok I hI
  simp only [List.mem_cons, List.not_mem_nil, or_false] at hT
  simp only [Params.sanityCheck, NatParams.read, List.length_map, h1, h2, h3, hD]
  rcases hT with hT | hT <;> simp [hT]

/-- C39: the permutation of every shipped parameter set never panics and is a bijection of the state
space -/
theorem C39_shipped_bijective (I : Instance) (hI : I ∈ shipped) :
    ∃ f : List (ZMod I.p) → List (ZMod I.p),
      (∀ s, s.length = I.K.T → permute (I.K.read (ZMod I.p)) s = some (f s)) ∧
      Set.BijOn f {s | s.length = I.K.T} {s | s.length = I.K.T} := by
  have := Fact.mk (shipped_prime I hI)
  obtain ⟨hp, hg, -, -, hT, -⟩ := shipped_ok I hI
  obtain ⟨f, h1, h2⟩ := C39_permutation_iff hp _ (shipped_typed I hI) (shipped_sane I hI)
  refine ⟨f, fun s hs => (h1 s hs).1, h2.2 ⟨Or.inr hg, Or.inr ?_⟩⟩
  simp only [List.mem_cons, List.not_mem_nil, or_false] at hT
  show (codeMat I.K.T _).det ≠ 0
  rcases hT with hT | hT
  · rw [hT]
    have : (codeMat 2 (I.K.read (ZMod I.p)).diag).det = ((5 : ℕ) : ZMod I.p) := by
      rw [codeMat, if_pos rfl, Matrix.det_fin_two]
      simp [internalMat]
      norm_num
    rw [this]
    exact cast_ne_zero_of_lt (by norm_num) (by omega)
  · rw [hT]
    have : (codeMat 3 (I.K.read (ZMod I.p)).diag).det = ((7 : ℕ) : ZMod I.p) := by
      rw [codeMat, if_neg (by norm_num), if_pos rfl, Matrix.det_fin_three]
      simp [internalMat]
      norm_num
    rw [this]
    exact cast_ne_zero_of_lt (by norm_num) (by omega)

/-- C39: the hard-coded internal matrices are the ones given by the shipped diagonals -/
theorem C39_shipped_internal_matrix (I : Instance) (hI : I ∈ shipped) :
    have := Fact.mk (shipped_prime I hI)
    codeMat I.K.T (I.K.read (ZMod I.p)).diag = internalMat I.K.T (I.K.read (ZMod I.p)).diag := by
  intro _
  obtain ⟨-, -, -, -, hT, -, -, -, -, h2, h3⟩ := shipped_ok I hI
  simp only [List.mem_cons, List.not_mem_nil, or_false] at hT
  rcases hT with hT | hT
  · unfold codeMat
    rw [if_pos hT]
    congr 1
    simp [NatParams.read, h2 hT]
  · unfold codeMat
    rw [if_neg (by omega), if_pos hT]
    congr 1
    simp [NatParams.read, h3 hT]

/-- the test vectors of `constants/bls12_381.rs:284-310` and `constants/bn254.rs:145-160` hold of the
model -/
theorem knownAnswers :
    permute (bls2.read (ZMod Rescue.p_ed381)) [0, 1] = some
      [0x73c46dd530e248a87b61d19e67fa1b4ed30fc3d09f16531fe189fb945a15ce4e,
       0x1f0e305ee21c9366d5793b80251405032a3fee32b9dd0b5f4578262891b043b4] ∧
    permute (bls3.read (ZMod Rescue.p_ed381)) [0, 1, 2] = some
      [0x1b152349b1950b6a8ca75ee4407b6e26ca5cca5650534e56ef3fd45761fbf5f0,
       0x4c5793c87d51bdc2c08a32108437dc0000bd0275868f09ebc5f36919af5b3891,
       0x1fc8ed171e67902ca49863159fe5ba6325318843d13976143b8125f08b50dc6b] ∧
    permute (bn3.read (ZMod Rescue.p_ed254)) [0, 1, 2] = some
      [0x0bb61d24daca55eebcb1929a82650f328134334da98ea4f847f760054f4a3033,
       0x303b6f7c86d043bfcbcc80214f26a30277a15d3f74ca654992defe7ff8d03570,
       0x1ed25194542b12eef8617361c3ba7c52e660b145994427cc86296242cf766ec8] := by
  decide +kernel

instance fact13 : Fact (Nat.Prime 13) := ⟨by norm_num⟩

/-- parameters over the field with 13 elements with the cube as S-box -/
def cube13 : Params (ZMod 13) := ⟨2, 3, 2, 1, [[1, 2], [3, 4]], [5], [1, 2]⟩

/-- C39: the sanity check does not check that the S-box is a bijection: these parameters pass, and
two states have the same image -/
theorem C39_sanity_check_counterexample :
    cube13.sanityCheck = true ∧ cube13.Typed ∧
    ∃ s t : List (ZMod 13), s.length = 2 ∧ t.length = 2 ∧ s ≠ t ∧ permute cube13 s = permute cube13 t ∧
      permute cube13 s ≠ none := by
  refine ⟨by decide, ⟨by decide, rfl⟩, [9, 8], [6, 3], rfl, rfl, by decide, ?_, ?_⟩ <;> decide +kernel

/-! ## Examples -/

/-- parameters of width eight over the field with 17 elements meeting the condition -/
def wide17 : Params (ZMod 17) :=
  ⟨8, 3, 2, 1, [[1, 2, 3, 4, 5, 6, 7, 8], [3, 4, 5, 6, 7, 8, 9, 10]], [5], [1, 2, 3, 4, 5, 6, 7, 9]⟩

instance fact17 : Fact (Nat.Prime 17) := ⟨by norm_num⟩

example : wide17.sanityCheck = true ∧ wide17.Typed ∧ Nat.Coprime 3 (17 - 1) ∧
    permute wide17 [1, 2, 3, 4, 5, 6, 7, 8] ≠ none := by
  refine ⟨by decide, ⟨by decide, rfl⟩, by decide, by decide +kernel⟩

end Verif.Poseidon2
