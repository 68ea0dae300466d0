import Verif.Pcs.Fk23
import Verif.Pcs.KzgLemmas
import Mathlib.Algebra.Field.GeomSum

/-! # Lemmas on the amortized openings -/

set_option linter.unusedSectionVars false

namespace Verif.Pcs

variable {F G : Type} [Field F] [DecidableEq F] [AddCommGroup G] [Module F G] [DecidableEq G]

/-! ### powers of two and domains -/

theorem nextPow2_pow (k : ℕ) : nextPow2 (2 ^ k) = 2 ^ k := by
  unfold nextPow2; rw [Nat.clog_pow _ _ (by norm_num)]

theorem isPow2_pow (k : ℕ) : isPow2 (2 ^ k) = true := by
  unfold isPow2
  rw [decide_eq_true_iff]
  exact ⟨by positivity, nextPow2_pow k⟩

theorem le_nextPow2 (n : ℕ) : n ≤ nextPow2 n := Nat.le_pow_clog (by norm_num) n

theorem newDomain_pow (S : ℕ) (root : F) (k : ℕ) (hk : k ≤ S) :
    newDomain S root (2 ^ k) = some ⟨k, root ^ 2 ^ (S - k), 1⟩ := by
  unfold newDomain
  rw [Nat.clog_pow _ _ (by norm_num), if_neg (by omega)]

theorem gen_primitive (S : ℕ) (root : F) (h : IsPrimitiveRoot root (2 ^ S)) (k : ℕ) (hk : k ≤ S) :
    IsPrimitiveRoot (root ^ 2 ^ (S - k)) (2 ^ k) := by
  refine h.pow (by positivity) ?_
  rw [← pow_add]
  congr 1
  omega

/-! ### the convolution theorem -/

theorem getD_range_map {A : Type} (n : ℕ) (f : ℕ → A) (i : ℕ) (d : A) (hi : i < n) :
    ((List.range n).map f).getD i d = f i := by
  simp [List.getD_eq_getElem?_getD, List.getElem?_range hi]

theorem orth (w : F) (n : ℕ) (hn : 0 < n) (hw : IsPrimitiveRoot w n) (a b i : ℕ) (ha : a < n)
    (hb : b < n) (hi : i < n) :
    (n : F)⁻¹ * ∑ k ∈ Finset.range n, ((w⁻¹ ^ i) ^ k * ((w ^ k) ^ a * (w ^ k) ^ b)) =
      if a = (i + n - b) % n then 1 else 0 := by
  have hw0 : w ≠ 0 := hw.ne_zero (by omega)
  have hn0 : (n : F) ≠ 0 := by
    have : NeZero n := ⟨by omega⟩
    exact (hw.neZero').out
  have hterm : ∀ k, (w⁻¹ ^ i) ^ k * ((w ^ k) ^ a * (w ^ k) ^ b) = (w⁻¹ ^ i * w ^ (a + b)) ^ k := by
    intro k
    rw [mul_pow, ← pow_mul, ← pow_mul, ← pow_mul, ← pow_mul, ← pow_add]
    congr 2
    ring
  simp only [hterm]
  by_cases h : a = (i + n - b) % n
  · rw [if_pos h]
    have : w⁻¹ ^ i * w ^ (a + b) = 1 := by
      have hmod : (a + b) % n = i := by
        rw [h, Nat.mod_add_mod]
        have : i + n - b + b = i + n := by omega
        rw [this, Nat.add_mod_right, Nat.mod_eq_of_lt hi]
      have : w ^ (a + b) = w ^ i := by
        rw [← Nat.div_add_mod (a + b) n, hmod, pow_add, pow_mul, hw.pow_eq_one, one_pow, one_mul]
      rw [this, inv_pow, inv_mul_cancel₀ (pow_ne_zero _ hw0)]
    rw [this]
    simp [hn0]
  · rw [if_neg h]
    have hne : w⁻¹ ^ i * w ^ (a + b) ≠ 1 := by
      intro e
      apply h
      have e2 : w ^ (a + b) = w ^ i := by
        rw [inv_pow] at e
        field_simp at e
        exact e
      have e3 : w ^ ((a + b) % n) = w ^ i := by
        rw [← e2]
        conv_rhs => rw [← Nat.div_add_mod (a + b) n, pow_add, pow_mul, hw.pow_eq_one, one_pow, one_mul]
      have e4 := hw.pow_inj (Nat.mod_lt _ hn) hi e3
      by_cases hab : a + b < n
      · rw [Nat.mod_eq_of_lt hab] at e4
        have : i + n - b = a + n := by omega
        rw [this, Nat.add_mod_right, Nat.mod_eq_of_lt ha]
      · have : (a + b) % n = a + b - n := by
          rw [Nat.mod_eq_sub_mod (by omega), Nat.mod_eq_of_lt (by omega)]
        rw [this] at e4
        have : i + n - b = a := by omega
        rw [this, Nat.mod_eq_of_lt ha]
    have hpow : (w⁻¹ ^ i * w ^ (a + b)) ^ n = 1 := by
      rw [mul_pow, ← pow_mul, ← pow_mul, mul_comm i n, mul_comm (a + b) n, pow_mul, pow_mul,
        inv_pow, hw.pow_eq_one]
      simp
    have hg := geom_sum_eq hne n
    rw [hg, hpow]
    simp

theorem conv_thm (d : Domain F) (ho : d.offset = 1) (hw : IsPrimitiveRoot d.gen d.size)
    (c : List F) (m : List G) (hc : c.length = d.size) (hm : m.length = d.size) (i : ℕ)
    (hi : i < d.size) :
    (d.ifft (List.zipWith (fun (c : F) (g : G) => c • g) (d.fft c) (d.fft m))).getD i 0 =
      ∑ b ∈ Finset.range d.size, c.getD ((i + d.size - b) % d.size) 0 • m.getD b 0 := by
  have hn : 0 < d.size := by unfold Domain.size; positivity
  unfold Domain.ifft
  rw [getD_range_map _ _ _ _ hi]
  have hz : List.zipWith (fun (c : F) (g : G) => c • g) (d.fft c) (d.fft m) =
      (List.range d.size).map (fun k => evalAt c (d.gen ^ k) • evalAt m (d.gen ^ k)) := by
    unfold Domain.fft
    rw [List.zipWith_map, List.zipWith_self]
    simp [ho]
  rw [hz]
  generalize d.size = n at *
  generalize d.gen = w at *
  unfold evalAt
  simp only [List.length_map, List.length_range, hc, hm]
  have step1 : ∀ k ∈ Finset.range n, (w⁻¹ ^ i) ^ k • (List.map (fun k => (∑ i ∈ Finset.range n,
      (w ^ k) ^ i • c.getD i 0) • ∑ i ∈ Finset.range n, (w ^ k) ^ i • m.getD i 0)
        (List.range n)).getD k 0 =
      ∑ b ∈ Finset.range n, ∑ a ∈ Finset.range n,
        (((w⁻¹ ^ i) ^ k * ((w ^ k) ^ a * (w ^ k) ^ b)) * c.getD a 0) • m.getD b 0 := by
    intro k hk
    rw [getD_range_map _ _ _ _ (Finset.mem_range.1 hk), Finset.smul_sum, Finset.smul_sum]
    refine Finset.sum_congr rfl fun b _ => ?_
    rw [Finset.sum_smul, Finset.smul_sum]
    refine Finset.sum_congr rfl fun a _ => ?_
    simp only [smul_smul, smul_eq_mul]
    congr 1
    ring
  rw [Finset.sum_congr rfl step1, Finset.sum_comm, Finset.smul_sum]
  refine Finset.sum_congr rfl fun b hb => ?_
  rw [Finset.sum_comm, Finset.smul_sum]
  have step2 : ∀ a ∈ Finset.range n, (n : F)⁻¹ • ∑ k ∈ Finset.range n,
      (((w⁻¹ ^ i) ^ k * ((w ^ k) ^ a * (w ^ k) ^ b)) * c.getD a 0) • m.getD b 0 =
      (if a = (i + n - b) % n then c.getD a 0 • m.getD b 0 else 0) := by
    intro a ha
    rw [← Finset.sum_smul, ← Finset.sum_mul, smul_smul, ← mul_assoc,
      orth w n hn hw a b i (Finset.mem_range.1 ha) (Finset.mem_range.1 hb) hi]
    split <;> simp
  rw [Finset.sum_congr rfl step2, Finset.sum_ite_eq']
  rw [if_pos (Finset.mem_range.2 (Nat.mod_lt _ hn))]

theorem circulantMul_ok (S : ℕ) (root : F) (hr : IsPrimitiveRoot root (2 ^ S)) (k : ℕ) (hk : k ≤ S)
    (col : List F) (m : List G) (hc : col.length = 2 ^ k) (hm : m.length = 2 ^ k) :
    ∃ res, circulantMul S root col m = .ok res ∧ res.length = 2 ^ k ∧
      ∀ i, i < 2 ^ k → res.getD i 0 = ∑ b ∈ Finset.range (2 ^ k),
        col.getD ((i + 2 ^ k - b) % 2 ^ k) 0 • m.getD b 0 := by
  unfold circulantMul
  rw [hm, isPow2_pow, newDomain_pow S root k hk]
  simp only [Bool.true_eq_false, if_false, hc, ne_eq, not_true_eq_false]
  refine ⟨_, rfl, by simp [Domain.ifft, Domain.size], fun i hi => ?_⟩
  exact conv_thm ⟨k, root ^ 2 ^ (S - k), 1⟩ rfl (gen_primitive S root hr k hk) col m hc hm i hi

/-! ### Toeplitz -/

theorem getD_append_left' {A : Type} (l l' : List A) (i : ℕ) (d : A) (h : i < l.length) :
    (l ++ l').getD i d = l.getD i d := by
  rw [List.getD_eq_getElem?_getD, List.getElem?_append_left h, ← List.getD_eq_getElem?_getD]

theorem getD_append_right' {A : Type} (l l' : List A) (i : ℕ) (d : A) (h : l.length ≤ i) :
    (l ++ l').getD i d = l'.getD (i - l.length) d := by
  rw [List.getD_eq_getElem?_getD, List.getElem?_append_right h, ← List.getD_eq_getElem?_getD]

theorem getD_replicate_zero (n i : ℕ) : (List.replicate n (0 : G)).getD i 0 = 0 := by
  rw [List.getD_eq_getElem?_getD, List.getElem?_replicate]
  split <;> rfl

theorem getD_reverse {A : Type} (l : List A) (i : ℕ) (d : A) (h : i < l.length) :
    l.reverse.getD i d = l.getD (l.length - 1 - i) d := by
  rw [List.getD_eq_getElem?_getD, List.getElem?_reverse h, ← List.getD_eq_getElem?_getD]

theorem rotateLeft_length (row : List F) : (row.rotateLeft 1).length = row.length := by
  unfold List.rotateLeft
  simp only
  split
  · rfl
  · rw [List.length_append, List.length_drop, List.length_take]
    have := Nat.mod_lt 1 (show row.length > 0 by omega)
    omega

theorem embedding_entry (col row : List F) (n : ℕ) (hn : 0 < n) (hc : col.length = n)
    (hr : row.length = n) (e : ℕ) (he : e < 2 * n) :
    (circulantEmbedding col row).getD e 0 =
      if e < n then col.getD e 0 else if e = n then row.getD 0 0 else row.getD (2 * n - e) 0 := by
  unfold circulantEmbedding
  by_cases h : e < n
  · rw [if_pos h, getD_append_left' _ _ _ _ (by omega)]
  · rw [if_neg h, getD_append_right' _ _ _ _ (by omega), hc]
    have hl : (row.rotateLeft 1).length = n := by rw [rotateLeft_length, hr]
    rw [getD_reverse _ _ _ (by rw [hl]; omega), hl]
    -- entry `k` of the rotated row
    have hrot : ∀ k, k < n → (row.rotateLeft 1).getD k 0 = row.getD ((k + 1) % n) 0 := by
      intro k hk
      unfold List.rotateLeft
      simp only [hr]
      split
      · have : n = 1 := by omega
        subst this
        have : k = 0 := by omega
        subst this; rfl
      · have h1 : 1 % n = 1 := Nat.mod_eq_of_lt (by omega)
        rw [h1]
        by_cases hk2 : k + 1 < n
        · rw [getD_append_left' _ _ _ _ (by simp [hr]; omega), Nat.mod_eq_of_lt hk2]
          simp [List.getD_eq_getElem?_getD]
        · rw [getD_append_right' _ _ _ _ (by simp [hr]; omega)]
          have e1 : k + 1 = n := by omega
          rw [e1, Nat.mod_self]
          have e2 : k - (List.drop 1 row).length = 0 := by simp [hr]; omega
          rw [e2]
          simp [List.getD_eq_getElem?_getD]
    rw [hrot _ (by omega)]
    by_cases h2 : e = n
    · rw [if_pos h2]
      have : n - 1 - (e - n) + 1 = n := by omega
      rw [this, Nat.mod_self]
    · rw [if_neg h2]
      have : n - 1 - (e - n) + 1 = 2 * n - e := by omega
      rw [this, Nat.mod_eq_of_lt (by omega)]

theorem toeplitzMul_ok (S : ℕ) (root : F) (hr : IsPrimitiveRoot root (2 ^ S)) (k : ℕ)
    (hk : k + 1 ≤ S) (col row : List F) (v : List G) (hc : col.length = 2 ^ k)
    (hrow : row.length = 2 ^ k) (hv : v.length = 2 ^ k) :
    ∃ res, toeplitzMul S root (col, row) v = .ok res ∧ res.length = 2 ^ k ∧
      ∀ i, i < 2 ^ k → res.getD i 0 = ∑ j ∈ Finset.range (2 ^ k),
        (if j ≤ i then col.getD (i - j) 0 else row.getD (j - i) 0) • v.getD j 0 := by
  have hpos : 0 < 2 ^ k := by positivity
  have hsucc : (2 : ℕ) ^ (k + 1) = 2 * 2 ^ k := by rw [pow_succ]; ring
  have hemb : (circulantEmbedding col row).length = 2 ^ (k + 1) := by
    unfold circulantEmbedding
    rw [List.length_append, List.length_reverse, hc]
    have : (row.rotateLeft 1).length = row.length := rotateLeft_length row
    rw [this, hrow, hsucc]; ring
  have hpad : (v ++ List.replicate (2 * v.length - v.length) (0 : G)).length = 2 ^ (k + 1) := by
    rw [List.length_append, List.length_replicate, hv, hsucc]; omega
  obtain ⟨res, h1, h2, h3⟩ := circulantMul_ok S root hr (k + 1) hk _ _ hemb hpad
  unfold toeplitzMul
  simp only [hv] at h1 h3 ⊢
  rw [isPow2_pow, h1]
  simp only [Bool.true_eq_false, if_false, hc, ne_eq, not_true_eq_false]
  refine ⟨_, rfl, by rw [List.length_take, h2, hsucc]; omega, fun i hi => ?_⟩
  have ht : (res.take (2 ^ k)).getD i 0 = res.getD i 0 := by
    simp [List.getD_eq_getElem?_getD, hi]
  rw [ht, h3 i (by rw [hsucc]; omega), hsucc]
  generalize hn : (2 : ℕ) ^ k = n at *
  rw [two_mul n, Finset.sum_range_add]
  have hzero : ∑ x ∈ Finset.range n, (circulantEmbedding col row).getD ((i + (n + n) - (n + x)) %
      (n + n)) 0 • (v ++ List.replicate (n + n - n) (0 : G)).getD (n + x) 0 = 0 := by
    refine Finset.sum_eq_zero fun x _ => ?_
    rw [getD_append_right' _ _ _ _ (by omega), getD_replicate_zero, smul_zero]
  rw [hzero, add_zero]
  refine Finset.sum_congr rfl fun j hj => ?_
  have hj := Finset.mem_range.1 hj
  rw [getD_append_left' _ _ _ _ (by omega)]
  congr 1
  by_cases hji : j ≤ i
  · rw [if_pos hji]
    have : (i + (n + n) - j) % (n + n) = i - j := by
      have : i + (n + n) - j = (i - j) + (n + n) := by omega
      rw [this, Nat.add_mod_right, Nat.mod_eq_of_lt (by omega)]
    rw [this, embedding_entry col row n hpos hc hrow _ (by omega), if_pos (by omega)]
  · rw [if_neg hji]
    have : (i + (n + n) - j) % (n + n) = n + n - (j - i) := by
      have : i + (n + n) - j = n + n - (j - i) := by omega
      rw [this, Nat.mod_eq_of_lt (by omega)]
    rw [this, embedding_entry col row n hpos hc hrow _ (by omega), if_neg (by omega),
      if_neg (by omega)]
    congr 1
    omega

/-! ### the polynomial `h` -/

/-- `∑_{i < len} z^i p_{≥ i}(τ)` -/
theorem quot_sum (p : List F) (τ z : F) :
    (τ - z) * ∑ i ∈ Finset.range p.length, z ^ i * evalAt (p.drop i) τ =
      τ * evalAt p τ - z * evalAt p z := by
  induction p with
  | nil => simp [evalAt_nil]
  | cons c p ih =>
    rw [List.length_cons, Finset.sum_range_succ']
    simp only [List.drop_succ_cons, List.drop_zero, pow_zero, one_mul]
    have : ∑ i ∈ Finset.range p.length, z ^ (i + 1) * evalAt (p.drop i) τ =
        z * ∑ i ∈ Finset.range p.length, z ^ i * evalAt (p.drop i) τ := by
      rw [Finset.mul_sum]
      refine Finset.sum_congr rfl fun i _ => ?_
      ring
    rw [this, mul_add, mul_left_comm, ih, evalAt_cons, evalAt_cons]
    simp only [smul_eq_mul]
    ring

theorem divMod_linear (z : F) (c : F) (p : List F) :
    (divMod [-z, 1] (c :: p)).1 = evalAt p z :: (divMod [-z, 1] p).1 := by
  obtain ⟨-, h2, h3⟩ := divMod_spec ([-z, 1] : List F) (by simp) (by simp) p
  simp only [List.length_cons, List.length_nil] at h2
  obtain ⟨r, hr⟩ := List.length_eq_one_iff.1 h2
  have h3 := h3 z
  rw [hr] at h3
  have e : evalAt p z = r := by
    rw [h3]; simp [evalAt_cons, evalAt_nil]
  rw [divMod, hr, e]
  simp

theorem quot_eval (c : F) (p : List F) (τ z : F) :
    evalAt (divMod [-z, 1] (c :: p)).1 τ =
      ∑ i ∈ Finset.range p.length, z ^ i * evalAt (p.drop i) τ := by
  induction p generalizing c with
  | nil =>
    rw [divMod_linear]
    simp [divMod, evalAt_cons, evalAt_nil]
  | cons b p ih =>
    rw [divMod_linear, evalAt_cons, ih b, List.length_cons, Finset.sum_range_succ']
    simp only [List.drop_succ_cons, List.drop_zero, pow_zero, one_mul]
    have : ∑ i ∈ Finset.range p.length, z ^ (i + 1) * evalAt (p.drop i) τ =
        z * ∑ i ∈ Finset.range p.length, z ^ i * evalAt (p.drop i) τ := by
      rw [Finset.mul_sum]
      refine Finset.sum_congr rfl fun i _ => ?_
      ring
    rw [this]
    have hq := quot_sum p τ z
    rw [evalAt_cons, evalAt_cons]
    simp only [smul_eq_mul]
    linear_combination hq

/-- a list of group elements `h_i = f_{>i}(τ) g` evaluates to the commitment of the quotient -/
theorem h_eval (τ : F) (g : G) (f : List F) (h : List G) (hl : f.length - 1 ≤ h.length)
    (hh : ∀ i, i < h.length → h.getD i 0 = evalAt (f.drop (i + 1)) τ • g) (z : F) :
    evalAt h z = evalAt (divPoly f [-z, 1]) τ • g := by
  have e1 : evalAt h z = (∑ i ∈ Finset.range h.length, z ^ i * evalAt (f.drop (i + 1)) τ) • g := by
    rw [evalAt, Finset.sum_smul]
    refine Finset.sum_congr rfl fun i hi => ?_
    rw [hh i (Finset.mem_range.1 hi), smul_smul]
  rw [e1]
  congr 1
  unfold divPoly
  rw [evalAt_norm]
  cases f with
  | nil => simp [divMod, evalAt_nil]
  | cons c p =>
    rw [quot_eval]
    simp only [List.drop_succ_cons, List.length_cons, Nat.add_sub_cancel] at hl ⊢
    symm
    refine Finset.sum_subset (by simpa using hl) ?_
    intro i _ hi
    simp only [Finset.mem_range, not_lt] at hi
    rw [List.drop_eq_nil_of_le hi, evalAt_nil, mul_zero]

theorem sum_reverse_powers (τ : F) (f : ℕ → F) (n i : ℕ) (hi : i < n) :
    ∑ j ∈ Finset.range n, (if j ≤ i then (if i - j = 0 then f n else 0) else f (n - (j - i))) *
      τ ^ (n - 1 - j) = ∑ m ∈ Finset.range (n - i), f (i + 1 + m) * τ ^ m := by
  -- reindex `m = n - 1 - j`; terms `j < i` vanish
  have hsplit : n = i + (n - i) := by omega
  conv_lhs => rw [hsplit, Finset.sum_range_add]
  rw [← hsplit]
  have hz : ∑ x ∈ Finset.range i, (if x ≤ i then (if i - x = 0 then f n else 0)
      else f (n - (x - i))) * τ ^ (n - 1 - x) = 0 := by
    refine Finset.sum_eq_zero fun x hx => ?_
    have hx := Finset.mem_range.1 hx
    rw [if_pos (by omega), if_neg (by omega), zero_mul]
  rw [hz, zero_add, ← Finset.sum_range_reflect]
  refine Finset.sum_congr rfl fun m hm => ?_
  have hm := Finset.mem_range.1 hm
  have e1 : n - 1 - (i + (n - i - 1 - m)) = m := by omega
  rw [e1]
  congr 1
  by_cases h : i + (n - i - 1 - m) ≤ i
  · have : m = n - i - 1 := by omega
    rw [if_pos h, if_pos (by omega)]
    congr 1; omega
  · rw [if_neg h]
    congr 1; omega

theorem hPolyFk23_ok (S : ℕ) (root : F) (hr : IsPrimitiveRoot root (2 ^ S)) (τ : F) (g : G)
    (n : ℕ) (f : List F) (hn : nextPow2 (f.length - 1) ≤ n) (hS : 2 * nextPow2 (f.length - 1) ≤ 2 ^ S) :
    ∃ h, hPolyFk23 S root (⟨powers τ g n⟩ : ProverParam G) f = .ok h ∧
      h.length ≤ nextPow2 (f.length - 1) ∧
      ∀ z, evalAt h z = evalAt (divPoly f [-z, 1]) τ • g := by
  have hle := le_nextPow2 (f.length - 1)
  obtain ⟨k, hk⟩ : ∃ k, nextPow2 (f.length - 1) = 2 ^ k := ⟨_, rfl⟩
  have hpos : 0 < 2 ^ k := by positivity
  have hkS : k + 1 ≤ S := by
    rw [hk] at hS
    have : 2 ^ (k + 1) ≤ 2 ^ S := by rw [pow_succ]; omega
    exact (Nat.pow_le_pow_iff_right (by norm_num)).1 this
  unfold hPolyFk23
  simp only [hk] at *
  set N := 2 ^ k with hN
  set padded := f ++ List.replicate (N + 1 - f.length) (0 : F) with hpadded
  have hplen : padded.length = N + 1 := by
    rw [hpadded, List.length_append, List.length_replicate]; omega
  have hlast : padded.getLastD 0 = padded.getD N 0 := by
    rw [List.getLastD_eq_getLast?, List.getLast?_eq_getElem?, hplen, List.getD_eq_getElem?_getD]
    simp
  have hrowlen : (padded.drop 1).reverse.length = N := by simp [hplen]
  have hcollen : (padded.getLastD 0 :: List.replicate (N - 1) (0 : F)).length = N := by
    simp; omega
  have hrow : ∀ j, j < N → (padded.drop 1).reverse.getD j 0 = padded.getD (N - j) 0 := by
    intro j hj
    rw [getD_reverse _ _ _ (by simp [hplen]; omega)]
    simp only [List.length_drop, hplen, List.getD_eq_getElem?_getD, List.getElem?_drop]
    congr 2; omega
  have h0 : (padded.getLastD 0 :: List.replicate (N - 1) (0 : F)).getD 0 0 =
      (padded.drop 1).reverse.getD 0 0 := by
    rw [hrow 0 hpos, List.getD_cons_zero, hlast]; rfl
  unfold toeplitzNew
  rw [if_neg (by rw [hcollen, hrowlen]; simp), if_neg (by simpa using h0)]
  simp only
  have htake : (powers τ g n).take N = powers τ g N := powers_take τ g n N hn
  rw [htake]
  obtain ⟨res, h1, h2, h3⟩ := toeplitzMul_ok S root hr k hkS _ _ (powers τ g N).reverse hcollen
    hrowlen (by rw [List.length_reverse, powers_length])
  rw [h1]
  refine ⟨norm res, rfl, le_trans (norm_length_le _) (le_of_eq h2), fun z => ?_⟩
  rw [evalAt_norm]
  refine h_eval τ g f res (by omega) ?_ z
  intro i hi
  rw [h2] at hi
  rw [h3 i hi]
  have hterm : ∀ j ∈ Finset.range N,
      (if j ≤ i then (padded.getLastD 0 :: List.replicate (N - 1) (0 : F)).getD (i - j) 0
        else (padded.drop 1).reverse.getD (j - i) 0) • (powers τ g N).reverse.getD j 0 =
      ((if j ≤ i then (if i - j = 0 then padded.getD N 0 else 0) else padded.getD (N - (j - i)) 0) *
        τ ^ (N - 1 - j)) • g := by
    intro j hj
    have hj := Finset.mem_range.1 hj
    rw [getD_reverse (powers τ g N) _ _ (by rw [powers_length]; omega), powers_length]
    have : (powers τ g N).getD (N - 1 - j) 0 = τ ^ (N - 1 - j) • g := by
      unfold powers
      exact getD_range_map _ _ _ _ (by omega)
    rw [this, smul_smul]
    congr 2
    by_cases hji : j ≤ i
    · rw [if_pos hji, if_pos hji]
      by_cases he : i - j = 0
      · rw [if_pos he, he, List.getD_cons_zero, hlast]
      · rw [if_neg he]
        obtain ⟨e, he'⟩ : ∃ e, i - j = e + 1 := ⟨i - j - 1, by omega⟩
        rw [he', List.getD_cons_succ, getD_replicate_zero]
    · rw [if_neg hji, if_neg hji, hrow _ (by omega)]
  rw [Finset.sum_congr rfl hterm, ← Finset.sum_smul]
  congr 1
  rw [sum_reverse_powers τ (fun k => padded.getD k 0) N i hi]
  -- compare with the evaluation of the dropped list
  have hfd : ∀ m, (f.drop (i + 1)).getD m 0 = padded.getD (i + 1 + m) 0 := by
    intro m
    rw [List.getD_eq_getElem?_getD, List.getElem?_drop]
    by_cases hm : i + 1 + m < f.length
    · rw [hpadded, getD_append_left' _ _ _ _ hm, List.getD_eq_getElem?_getD]
    · rw [hpadded, getD_append_right' _ _ _ _ (by omega), getD_replicate_zero,
        List.getElem?_eq_none (by omega)]; rfl
  rw [evalAt]
  simp only [hfd, smul_eq_mul]
  symm
  rw [List.length_drop]
  have hsub : Finset.range (f.length - (i + 1)) ⊆ Finset.range (N - i) := by
    simp; omega
  rw [← Finset.sum_subset hsub]
  · refine Finset.sum_congr rfl fun m _ => ?_
    ring
  · intro m _ hm
    simp only [Finset.mem_range, not_lt] at hm
    rw [← hfd m, List.getD_eq_getElem?_getD, List.getElem?_eq_none (by simp; omega)]
    simp

theorem msm_reverse (b : List G) (s : List F) (h : b.length = s.length) :
    msm b.reverse s.reverse = msm b s := by
  unfold msm
  rw [← List.reverse_zipWith h, List.sum_reverse]

theorem mapM_ok' {α β ε : Type} (f : α → Except ε β) (f' : α → β) (l : List α)
    (h : ∀ a ∈ l, f a = .ok (f' a)) : l.mapM f = .ok (l.map f') := by
  induction l with
  | nil => rfl
  | cons a l ih =>
    rw [List.mapM_cons, h a (by simp), ih (fun b hb => h b (by simp [hb]))]; rfl

theorem hPolyParallel_ok (τ : F) (g : G) (n : ℕ) (f : List F) (hn : f.length - 1 ≤ n) :
    ∃ h, hPolyParallel (⟨powers τ g n⟩ : ProverParam G) f = .ok h ∧ h.length ≤ f.length - 1 ∧
      ∀ z, evalAt h z = evalAt (divPoly f [-z, 1]) τ • g := by
  unfold hPolyParallel
  by_cases hf : f = []
  · subst hf
    refine ⟨[], by simp, by simp, fun z => ?_⟩
    simp [evalAt_nil, divPoly, divMod, norm]
  · rw [if_neg hf]
    simp only
    have hl := List.length_pos_of_ne_nil hf
    set d := f.length - 1 with hd
    rw [powers_take τ g n d hn, List.mapM_map]
    have hrow : ∀ i ∈ List.range d, (hRow (powers τ g d).reverse d ∘
        (fun i => f.reverse.take (d - i))) i = .ok (evalAt (f.drop (i + 1)) τ • g) := by
      intro i hi
      have hi := List.mem_range.1 hi
      have hlen : (f.reverse.take (d - i)).length = d - i := by
        simp; omega
      have hdd : d - (d - i) = i := by omega
      simp only [Function.comp_apply, hRow, hlen, hdd]
      rw [if_neg (by simp [powers_length]; omega), if_neg (by simp [powers_length])]
      congr 1
      rw [List.drop_reverse, List.take_reverse, powers_length, powers_take _ _ _ _ (by omega),
        msm_reverse _ _ (by simp [powers_length]; omega)]
      have : f.length - (d - i) = i + 1 := by omega
      rw [this, msm_powers τ g 0 _ _ ?_ (by simp [powers_length]; omega)]
      · simp
      · intro j hj
        rw [Nat.zero_add]
        exact getD_range_map _ _ _ _ (by simp at hj; omega)
    rw [mapM_ok' _ _ _ hrow]
    refine ⟨_, rfl, le_trans (norm_length_le _) (by simp), fun z => ?_⟩
    rw [evalAt_norm]
    refine h_eval τ g f _ (by simp [hd]) ?_ z
    intro i hi
    exact getD_range_map _ _ _ _ (by simpa using hi)

theorem gEvaluate_eq (p : List G) (x : F) : gEvaluate p x = evalAt p x := by
  unfold gEvaluate
  by_cases h : p.all (fun c => decide (c = 0)) = true
  · rw [if_pos h]
    have : p = List.replicate p.length 0 := by
      rw [List.eq_replicate_iff]
      refine ⟨rfl, fun b hb => ?_⟩
      simpa using List.all_eq_true.1 h b hb
    rw [this, evalAt_replicate_zero]
  · rw [if_neg h]
    by_cases hx : x = 0
    · rw [if_pos hx, hx]
      cases p with
      | nil => simp [evalAt_nil]
      | cons c p => simp [evalAt_cons]
    · rw [if_neg hx, horner_eq]

/-! ### roots of unity -/

theorem flatMap_range {A : Type} (a b : ℕ) (f : ℕ → A) :
    (List.range a).flatMap (fun j => (List.range b).map (fun t => f (j * b + t))) =
      (List.range (a * b)).map f := by
  induction a with
  | zero => simp
  | succ a ih =>
    rw [List.range_succ, List.flatMap_append, ih, Nat.add_mul, one_mul, List.range_add,
      List.map_append]
    simp [List.map_map, Function.comp_def]

theorem newDomain_some {S : ℕ} {root : F} {n : ℕ} {d : Domain F} (h : newDomain S root n = some d) :
    d.logSize ≤ S ∧ d.gen = root ^ 2 ^ (S - d.logSize) ∧ d.offset = 1 ∧ d.size = nextPow2 n := by
  unfold newDomain at h
  split at h
  · cases h
  · simp only [Option.some.injEq] at h
    subst h
    exact ⟨Nat.le_of_not_lt (by assumption), rfl, rfl, rfl⟩

/-- the default proof computation is evaluation on the powers of the generator -/
theorem rouProofs_eq (S : ℕ) (root : F) (pp : ProverParam G) (p : List F) (num : ℕ) (dom : Domain F)
    (hS : dom.logSize ≤ S) (hgen : dom.gen = root ^ 2 ^ (S - dom.logSize)) (h : List G)
    (hh : hPolyParallel pp p = .ok h) (hl : h.length ≤ dom.size) :
    multiOpenRouProofs S root pp p num dom =
      .ok (((List.range dom.size).map (fun i => evalAt h (dom.gen ^ i))).take num) := by
  have hpos : 1 ≤ dom.size := Nat.one_le_two_pow
  have hk : Nat.clog 2 ((h.length - 1) + 1) ≤ dom.logSize := by
    have h1 : (h.length - 1) + 1 ≤ 2 ^ dom.logSize := by
      change _ ≤ dom.size; omega
    exact (Nat.clog_le_iff_le_pow (by norm_num)).2 h1
  unfold multiOpenRouProofs newDomain
  rw [hh]
  simp only
  set k := Nat.clog 2 ((h.length - 1) + 1) with hkdef
  rw [if_neg (by omega)]
  simp only [Domain.size] at *
  have hpf : 2 ^ dom.logSize / 2 ^ k = 2 ^ (dom.logSize - k) :=
    Nat.pow_div hk (by norm_num)
  rw [hpf]
  have hoff : (1 : F) :: (List.range (2 ^ (dom.logSize - k) - 1)).map (fun t => dom.gen ^ (t + 1)) =
      (List.range (2 ^ (dom.logSize - k))).map (fun t => dom.gen ^ t) := by
    have : 2 ^ (dom.logSize - k) = (2 ^ (dom.logSize - k) - 1) + 1 := by
      have : 0 < 2 ^ (dom.logSize - k) := by positivity
      omega
    conv_rhs => rw [this, List.range_succ_eq_map]
    simp [List.map_map, Function.comp_def]
  rw [hoff]
  congr 2
  have hws : root ^ 2 ^ (S - k) = dom.gen ^ 2 ^ (dom.logSize - k) := by
    rw [hgen, ← pow_mul, ← pow_add]
    congr 2
    omega
  have hsz : 2 ^ dom.logSize = 2 ^ k * 2 ^ (dom.logSize - k) := by
    rw [← pow_add]; congr 1; omega
  rw [hsz, ← flatMap_range]
  refine List.flatMap_congr ?_
  intro j hj
  have hj := List.mem_range.1 hj
  rw [List.map_map, List.map_map]
  refine List.map_congr_left ?_
  intro t _
  simp only [Function.comp_apply, Domain.fft, Domain.size]
  rw [getD_range_map _ _ _ _ hj, hws, ← pow_mul, ← pow_add]
  congr 2
  ring

theorem evalAt_pad (p : List G) (n : ℕ) (x : F) :
    evalAt (p ++ List.replicate n 0) x = evalAt p x := by
  rw [evalAt_append, evalAt_replicate_zero, smul_zero, add_zero]

theorem rouEvals_eq (p : List F) (num : ℕ) (dom : Domain F) (hl : p.length ≤ dom.size) :
    multiOpenRouEvals p num dom =
      .ok (((List.range dom.size).map (fun i => evalAt p (dom.offset * dom.gen ^ i))).take num) := by
  have := norm_length_le p
  unfold multiOpenRouEvals batchEvaluateRou
  rw [if_neg (by omega)]
  simp only [Domain.fft, evalAt_pad, evalAt_norm]

theorem openPoly_eq (τ : F) (g : G) (n : ℕ) (p : List F) (hp : p.length ≤ n + 1) (z : F) :
    openPoly (⟨powers τ g n⟩ : ProverParam G) p z =
      .ok (evalAt (divPoly p [-z, 1]) τ • g, evalAt p z) := by
  have hlen := divPoly_length p ([-z, 1] : List F)
  simp only [List.length_cons, List.length_nil] at hlen
  unfold openPoly
  simp only
  rw [msmPoly_powers τ g n _ (by omega), horner_eq]

end Verif.Pcs
