import Verif.Hash.SpongeLemmas
import Mathlib.Data.List.Infix
import Mathlib.Data.ZMod.Basic
import Mathlib.Tactic.NormNum.Prime

/-!
# C40, C41, C70: the Rescue sponge, hash functions, commitment and PRF

Every theorem is for an arbitrary function `eval` on states in the place of the permutation. The
field is an arbitrary field (where only the ring structure is used, a nontrivial ring).
-/

set_option linter.unusedSectionVars false

namespace Verif.Rescue

section
variable {F : Type} [CommRing F] [Nontrivial F]

/-! ## C40: padding -/

/-- C40: the padded message of the variable-length hash determines the message -/
theorem C40_bit_padding_injective (x y : List F) (h : bitPad x = bitPad y) : x = y := by
  unfold bitPad at h
  rw [padWithZeros_eq _ (by decide), padWithZeros_eq _ (by decide)] at h
  simp only [List.append_assoc, List.singleton_append] at h
  exact (one_zeros_inj one_ne_zero h).1

/-- C40: the padded message starts with the message, then the marker, is made of whole blocks and at
most one block longer -/
theorem C40_bit_padding_shape (x : List F) :
    (x ++ [1]) <+: bitPad x ∧ (bitPad x).length % crhfRate = 0 ∧
      (bitPad x).length ≤ x.length + crhfRate := by
  have hl := padWithZeros_length (x ++ [(1 : F)]) (m := crhfRate) (by decide)
  refine ⟨?_, ?_, ?_⟩
  · unfold bitPad
    rw [padWithZeros_eq _ (by decide)]
    exact List.prefix_append _ _
  · unfold bitPad
    rw [hl]
    exact lenToNextMultiple_mod _ _ (by decide)
  · unfold bitPad
    rw [hl]
    have := lenToNextMultiple_lt (x ++ [(1 : F)]).length crhfRate (by decide)
    simp at this ⊢
    omega

/-! ## C40: squeezing -/

/-- C40: the `i`-th output is entry `i mod rate` of the state after `i / rate` applications of the
permutation, and exactly as many outputs are given as asked for -/
theorem C40_squeeze_entry (eval : Vec F → Vec F) (rate : ℕ) (hr : 0 < rate) (hr4 : rate ≤ 4)
    (s : Vec F) (n : ℕ) :
    (squeeze eval rate s n).1.length = n ∧
    ∀ i, i < n → (squeeze eval rate s n).1[i]? = (eval^[i / rate] s).elems[i % rate]? :=
  ⟨(squeezeAux_spec eval hr hr4 (n + 1) s n (by omega)).1,
    (squeezeAux_spec eval hr hr4 (n + 1) s n (by omega)).2.1⟩

/-- C40: asking for more outputs extends the outputs -/
theorem C40_squeeze_prefix (eval : Vec F → Vec F) (rate : ℕ) (hr : 0 < rate) (hr4 : rate ≤ 4)
    (s : Vec F) (n m : ℕ) (h : n ≤ m) :
    (squeeze eval rate s n).1 <+: (squeeze eval rate s m).1 := by
  obtain ⟨l1, e1⟩ := C40_squeeze_entry eval rate hr hr4 s n
  obtain ⟨l2, e2⟩ := C40_squeeze_entry eval rate hr hr4 s m
  rw [List.prefix_iff_eq_take, l1]
  apply List.ext_getElem?
  intro i
  by_cases hi : i < n
  · rw [e1 i hi, List.getElem?_take, if_pos hi, e2 i (by omega)]
  · rw [List.getElem?_eq_none (by omega), List.getElem?_take, if_neg hi]

/-- C40: a second call does not continue the output stream: the state left behind is the one the
last outputs were taken from, so after squeezing a full block the next call returns that block
again -/
theorem C40_second_squeeze_counterexample (eval : Vec F → Vec F) (rate : ℕ) (hr : 0 < rate)
    (hr4 : rate ≤ 4) (s : Vec F) (n : ℕ) (hn : 0 < n) (hn' : n ≤ rate) :
    squeeze eval rate (squeeze eval rate s n).2 n = squeeze eval rate s n := by
  have h := (squeezeAux_spec eval hr hr4 (n + 1) s n (by omega)).2.2
  have h0 : (n - 1) / rate = 0 := Nat.div_eq_of_lt (by omega)
  rw [h0] at h
  unfold squeeze
  rw [h]
  rfl

/-! ## C40: absorbing -/

/-- C40: absorbing whole blocks and then more is absorbing the concatenation -/
theorem C40_absorb_append (eval : Vec F → Vec F) (rate : ℕ) (hr : 0 < rate) (s : Vec F)
    (x y : List F) (hx : x.length % rate = 0) :
    absorb eval rate s (x ++ y) = absorb eval rate (absorb eval rate s x) y := by
  refine absorb_append eval hr (x.length / rate) s x y ?_
  have := Nat.div_add_mod x.length rate
  rw [mul_comm]
  omega

/-- C40: absorbing one block adds it to the state and permutes once -/
theorem C40_absorb_block (eval : Vec F → Vec F) (s : Vec F) (x y z : F) :
    absorb eval crhfRate s [x, y, z] = eval ⟨s.a + x, s.b + y, s.c + z, s.d⟩ := rfl

/-- C40: two different block sequences of equal length that lead an injective permutation from one
state to the same state pass through two states with the same capacity part and different rate
parts: such a collision contains an inner collision -/
theorem C40_state_collision_inner (eval : Vec F → Vec F) (he : Function.Injective eval)
    (n : ℕ) : ∀ (s t : Vec F) (x y : List F), x.length = n * crhfRate → y.length = n * crhfRate →
      (s ≠ t ∨ x ≠ y) → absorb eval crhfRate s x = absorb eval crhfRate t y →
      ∃ m, m ≤ n ∧
        (absorb eval crhfRate s (x.take (m * crhfRate))) ≠
          (absorb eval crhfRate t (y.take (m * crhfRate))) ∧
        (absorb eval crhfRate s (x.take (m * crhfRate))).d =
          (absorb eval crhfRate t (y.take (m * crhfRate))).d := by
  induction n with
  | zero =>
    intro s t x y hx hy hne h
    have hx0 : x = [] := List.length_eq_zero_iff.1 (by simpa using hx)
    have hy0 : y = [] := List.length_eq_zero_iff.1 (by simpa using hy)
    subst hx0; subst hy0
    rcases hne with h1 | h1
    · exact absurd h h1
    · exact absurd rfl h1
  | succ n ih =>
    intro s t x y hx hy hne h
    have hr : crhfRate = 3 := rfl
    have hmul : (n + 1) * 3 = n * 3 + 3 := by ring
    rw [hr, hmul] at hx hy
    obtain ⟨x1, x2, x3, x', rfl⟩ : ∃ a b c l, x = a :: b :: c :: l := by
      match x, hx with
      | a :: b :: c :: l, _ => exact ⟨a, b, c, l, rfl⟩
    obtain ⟨y1, y2, y3, y', rfl⟩ : ∃ a b c l, y = a :: b :: c :: l := by
      match y, hy with
      | a :: b :: c :: l, _ => exact ⟨a, b, c, l, rfl⟩
    have ex : ∀ (s : Vec F) (a b c : F) (l : List F), absorb eval crhfRate s (a :: b :: c :: l) =
        absorb eval crhfRate (eval ⟨s.a + a, s.b + b, s.c + c, s.d⟩) l := by
      intro s a b c l
      exact absorb_block eval (by decide) s [a, b, c] l rfl
    rw [ex, ex] at h
    simp only [List.length_cons] at hx hy
    by_cases hdiff : eval ⟨s.a + x1, s.b + x2, s.c + x3, s.d⟩ ≠
        eval ⟨t.a + y1, t.b + y2, t.c + y3, t.d⟩ ∨ x' ≠ y'
    · obtain ⟨m, hm, h1, h2⟩ := ih _ _ x' y' (by rw [hr]; omega) (by rw [hr]; omega) hdiff h
      refine ⟨m + 1, by omega, ?_, ?_⟩
      · have : (m + 1) * crhfRate = m * crhfRate + 3 := by rw [hr]; ring
        rw [this]
        simp only [List.take_succ_cons, ex]
        exact h1
      · have : (m + 1) * crhfRate = m * crhfRate + 3 := by rw [hr]; ring
        rw [this]
        simp only [List.take_succ_cons, ex]
        exact h2
    · push Not at hdiff
      obtain ⟨h1, h2⟩ := hdiff
      have h3 := he h1
      simp only [Vec.mk.injEq] at h3
      obtain ⟨ha, hb, hc, hd⟩ := h3
      refine ⟨0, by omega, ?_, ?_⟩
      · simp only [Nat.zero_mul, List.take_zero, absorb_nil]
        intro hst
        subst hst
        rcases hne with h4 | h4
        · exact h4 rfl
        · apply h4
          rw [h2, add_left_cancel ha, add_left_cancel hb, add_left_cancel hc]
      · simpa [absorb_nil] using hd

/-! ## C40: the hash functions -/

theorem spongeNoPadding_ok (eval : Vec F → Vec F) (x : List F) (n : ℕ)
    (h : x.length % crhfRate = 0) :
    spongeNoPadding eval x n = .ok (squeeze eval crhfRate (absorb eval crhfRate zeroVec x) n).1 := by
  simp [spongeNoPadding, h]

theorem squeeze_length (eval : Vec F → Vec F) (s : Vec F) (n : ℕ) :
    (squeeze eval crhfRate s n).1.length = n :=
  (C40_squeeze_entry eval crhfRate (by decide) (by decide) s n).1

/-- C40: the variable-length hash returns a value of the declared length for every message -/
theorem C40_variable_total (eval : Vec F → Vec F) (outLen : ℕ) (x : List F) :
    ∃ d, variableEvaluate eval outLen x = .ok d ∧ d.length = outLen ∧
      d = (squeeze eval crhfRate (absorb eval crhfRate zeroVec (bitPad x)) outLen).1 := by
  refine ⟨_, ?_, squeeze_length eval _ outLen, rfl⟩
  simp [variableEvaluate, spongeWithBitPadding, spongeNoPadding_ok eval _ _ (C40_bit_padding_shape x).2.1,
    expect, checkLen, squeeze_length]

/-- C40: two different messages with the same digest are two different block sequences with the
same sponge output -/
theorem C40_variable_collision (eval : Vec F → Vec F) (outLen : ℕ) (x y : List F) (hne : x ≠ y)
    (h : variableEvaluate eval outLen x = variableEvaluate eval outLen y) :
    ∃ X Y : List F, X ≠ Y ∧ X.length % crhfRate = 0 ∧ Y.length % crhfRate = 0 ∧
      (squeeze eval crhfRate (absorb eval crhfRate zeroVec X) outLen).1 =
        (squeeze eval crhfRate (absorb eval crhfRate zeroVec Y) outLen).1 := by
  obtain ⟨d, h1, -, h2⟩ := C40_variable_total eval outLen x
  obtain ⟨d', h1', -, h2'⟩ := C40_variable_total eval outLen y
  rw [h1, h1'] at h
  injection h with h
  exact ⟨bitPad x, bitPad y, fun hc => hne (C40_bit_padding_injective x y hc),
    (C40_bit_padding_shape x).2.1, (C40_bit_padding_shape y).2.1, by rw [← h2, ← h2', h]⟩

/-- C40: the fixed-length hash returns a value of the declared length for every message: the squeezed
state after the zero-padded message -/
theorem C40_fixed_total (eval : Vec F → Vec F) (outLen : ℕ) (x : List F) :
    ∃ d, fixedEvaluate eval outLen x = .ok d ∧ d.length = outLen ∧
      d = (squeeze eval crhfRate (absorb eval crhfRate zeroVec (padWithZeros x crhfRate)) outLen).1 := by
  have hz : (padWithZeros x crhfRate).length % crhfRate = 0 := by
    rw [padWithZeros_length x (by decide)]
    exact lenToNextMultiple_mod _ _ (by decide)
  by_cases h : x.length % crhfRate = 0
  · have hp : padWithZeros x crhfRate = x := by
      rw [padWithZeros_eq x (by decide), lenToNextMultiple, if_pos h]; simp
    rw [hp]
    refine ⟨_, ?_, squeeze_length eval _ outLen, rfl⟩
    simp [fixedEvaluate, h, spongeNoPadding_ok eval x outLen h, checkLen, squeeze_length]
  · refine ⟨_, ?_, squeeze_length eval _ outLen, rfl⟩
    simp [fixedEvaluate, h, spongeWithZeroPadding, spongeNoPadding_ok eval _ outLen hz, expect,
      checkLen, squeeze_length]

/-- C40: for messages of one length zero padding is injective -/
theorem C40_zero_padding_fixed_length (x y : List F) (hl : x.length = y.length)
    (h : padWithZeros x crhfRate = padWithZeros y crhfRate) : x = y := by
  rw [padWithZeros_eq x (by decide), padWithZeros_eq y (by decide)] at h
  exact (List.append_inj h hl).1

/-- C40: across lengths it is not: appending a zero inside the last block does not change the
digest -/
theorem C40_zero_padding_counterexample (eval : Vec F → Vec F) (outLen : ℕ) (x : List F)
    (h : x.length % crhfRate ≠ 0) :
    fixedEvaluate eval outLen (x ++ [0]) = fixedEvaluate eval outLen x := by
  obtain ⟨d, h1, -, h2⟩ := C40_fixed_total eval outLen x
  obtain ⟨d', h1', -, h2'⟩ := C40_fixed_total eval outLen (x ++ [0])
  rw [h1, h1', h2, h2']
  have hp : padWithZeros (x ++ [0]) crhfRate = padWithZeros x crhfRate := by
    rw [padWithZeros_eq x (by decide), padWithZeros_eq (x ++ [0]) (by decide)]
    have hr : crhfRate = 3 := rfl
    rw [hr] at h ⊢
    have e : lenToNextMultiple x.length 3 - x.length =
        (lenToNextMultiple (x ++ [(0 : F)]).length 3 - (x ++ [(0 : F)]).length) + 1 := by
      simp only [List.length_append, List.length_singleton, lenToNextMultiple]
      split_ifs <;> omega
    rw [e, List.replicate_succ]
    simp
  rw [hp]

/-! ## C41: commitments -/

variable [DecidableEq F]

/-- C41: a commitment exists for every message and blinding factor and verifies with it -/
theorem C41_commit_verifies (eval : Vec F → Vec F) (m : List F) (r : F) :
    ∃ c, commit eval (m.length + 1) m (some r) = .ok c ∧
      commitVerify eval (m.length + 1) m (some r) c = .ok true := by
  obtain ⟨d, h1, h2, -⟩ := C40_fixed_total eval 1 (r :: m)
  obtain ⟨c, rfl⟩ := List.length_eq_one_iff.1 h2
  have hc : commit eval (m.length + 1) m (some r) = .ok c := by simp [commit, h1]
  exact ⟨c, hc, by simp [commitVerify, hc]⟩

/-- C41: verification accepts exactly the commitment of the opening -/
theorem C41_verify_iff (eval : Vec F → Vec F) (m : List F) (r c : F) :
    commitVerify eval (m.length + 1) m (some r) c = .ok true ↔
      commit eval (m.length + 1) m (some r) = .ok c := by
  obtain ⟨c', h1, -⟩ := C41_commit_verifies eval m r
  simp [commitVerify, h1]

/-- C41: two different openings of one length for one commitment are a collision of the fixed-length
hash, and of the sponge on two different block sequences -/
theorem C41_binding (eval : Vec F → Vec F) (m m' : List F) (r r' c : F)
    (hl : m.length = m'.length) (hne : (m, r) ≠ (m', r'))
    (h : commitVerify eval (m.length + 1) m (some r) c = .ok true)
    (h' : commitVerify eval (m'.length + 1) m' (some r') c = .ok true) :
    ∃ X Y : List F, X ≠ Y ∧ X.length = m.length + 1 ∧ Y.length = m.length + 1 ∧
      fixedEvaluate eval 1 X = .ok [c] ∧ fixedEvaluate eval 1 Y = .ok [c] := by
  have key : ∀ (m : List F) (r : F), commitVerify eval (m.length + 1) m (some r) c = .ok true →
      fixedEvaluate eval 1 (r :: m) = .ok [c] := by
    intro m r h
    obtain ⟨d, h1, h2, -⟩ := C40_fixed_total eval 1 (r :: m)
    obtain ⟨c', rfl⟩ := List.length_eq_one_iff.1 h2
    have hc : commit eval (m.length + 1) m (some r) = .ok c' := by simp [commit, h1]
    rw [C41_verify_iff, hc] at h
    injection h with h
    rw [h1, h]
  refine ⟨r :: m, r' :: m', ?_, by simp, by simp [hl], key m r h, key m' r' h'⟩
  intro he
  simp only [List.cons.injEq] at he
  exact hne (by rw [he.1, he.2])

/-- C41: without a blinding factor both functions return an error -/
theorem C41_missing_blinding (eval : Vec F → Vec F) (n : ℕ) (m : List F) (c : F) :
    commit eval n m none = .error .parameter ∧ commitVerify eval n m none c = .error .parameter := by
  simp [commit, commitVerify]

/-- C41: the two length parameters of the type have to fit, otherwise the functions panic -/
theorem C41_length_parameters (eval : Vec F → Vec F) (n : ℕ) (m : List F) (r : F)
    (h : n ≠ m.length + 1) : commit eval n m (some r) = .error .panic := by
  simp [commit, h]

/-- C41: between commitment types of different message lengths binding fails: unless the message
with its blinding factor fills whole blocks, appending a zero to it does not change the
commitment -/
theorem C41_cross_length_counterexample (eval : Vec F → Vec F) (m : List F) (r c : F)
    (hm : (m.length + 1) % crhfRate ≠ 0)
    (h : commitVerify eval (m.length + 1) m (some r) c = .ok true) :
    commitVerify eval ((m ++ [0]).length + 1) (m ++ [0]) (some r) c = .ok true := by
  rw [C41_verify_iff] at h ⊢
  have := C40_zero_padding_counterexample eval 1 (r :: m) (by simpa using hm)
  rw [List.cons_append] at this
  rw [← h]
  simp [commit, this]

/-! ## C70: the pseudorandom function -/

/-- C70: the function is defined for every seed and input with the declared output length: the
full state is keyed in its last entry, the zero-padded input is absorbed by fours and the state
squeezed by fours -/
theorem C70_prf_total (eval : Vec F → Vec F) (outLen : ℕ) (seed : F) (x : List F) :
    ∃ d, prfEvaluate eval outLen seed x = .ok d ∧ d.length = outLen ∧
      d = (squeeze eval 4 (absorb eval 4 ⟨0, 0, 0, seed⟩ (padWithZeros x 4)) outLen).1 := by
  have hz : (padWithZeros x 4).length % 4 = 0 := by
    rw [padWithZeros_length x (by decide)]
    exact lenToNextMultiple_mod _ _ (by decide)
  have hl := (C40_squeeze_entry eval 4 (by decide) (by decide)
    (absorb eval 4 ⟨0, 0, 0, seed⟩ (padWithZeros x 4)) outLen).1
  refine ⟨_, ?_, hl, rfl⟩
  have h4 : stateSize = 4 := rfl
  simp [prfEvaluate, fsksZeroPadding, fsksNoPadding, h4, hz, hl]

/-- C70: one block gives the permutation of the block added to the keyed state -/
theorem C70_prf_one_block (eval : Vec F → Vec F) (seed x y z t : F) :
    prfEvaluate eval 1 seed [x, y, z, t] = .ok [(eval ⟨x, y, z, seed + t⟩).a] := by
  obtain ⟨d, h1, -, h2⟩ := C70_prf_total eval 1 seed [x, y, z, t]
  rw [h1, h2]
  have : padWithZeros [x, y, z, t] 4 = [x, y, z, t] := by
    simp [padWithZeros, resize, lenToNextMultiple]
  rw [this, absorb_step eval (by decide) _ (by simp)]
  simp [absorb_nil, addElems, squeeze, squeezeAux, Vec.elems]

/-- C70: the empty input is not permuted at all: the outputs are the keyed initial state, so the
fourth output is the secret seed -/
theorem C70_prf_empty_input_counterexample (eval : Vec F → Vec F) (seed : F) :
    prfEvaluate eval 4 seed [] = .ok [0, 0, 0, seed] := rfl

/-- C70: inputs of different lengths collide for every seed by zero padding -/
theorem C70_prf_length_counterexample (eval : Vec F → Vec F) (outLen : ℕ) (seed : F) (x : List F)
    (h : x.length % 4 ≠ 0) :
    prfEvaluate eval outLen seed (x ++ [0]) = prfEvaluate eval outLen seed x := by
  obtain ⟨d, h1, -, h2⟩ := C70_prf_total eval outLen seed x
  obtain ⟨d', h1', -, h2'⟩ := C70_prf_total eval outLen seed (x ++ [0])
  rw [h1, h1', h2, h2']
  have hp : padWithZeros (x ++ [0]) 4 = padWithZeros x 4 := by
    rw [padWithZeros_eq x (by decide), padWithZeros_eq (x ++ [0]) (by decide)]
    have e : lenToNextMultiple x.length 4 - x.length =
        (lenToNextMultiple (x ++ [(0 : F)]).length 4 - (x ++ [(0 : F)]).length) + 1 := by
      simp only [List.length_append, List.length_singleton, lenToNextMultiple]
      split_ifs <;> omega
    rw [e, List.replicate_succ]
    simp
  rw [hp]

/-- C70: for inputs of one length, at most a block, and a full block of outputs, different inputs never
collide under one seed if the permutation is injective. (Longer inputs collide exactly if two absorbed
states do; that is a matter of the permutation, not of the mode.) -/
theorem C70_prf_same_length_partial (eval : Vec F → Vec F) (he : Function.Injective eval) (seed : F)
    (x y : List F) (hx : 0 < x.length) (hx4 : x.length ≤ 4) (hl : x.length = y.length)
    (h : prfEvaluate eval 4 seed x = prfEvaluate eval 4 seed y) : x = y := by
  have pad : ∀ l : List F, 0 < l.length → l.length ≤ 4 → ∃ a b c d, padWithZeros l 4 = [a, b, c, d] ∧
      prfEvaluate eval 4 seed l = .ok (eval ⟨a, b, c, seed + d⟩).elems := by
    intro l h0 h4
    have hlen : (padWithZeros l 4).length = 4 := by
      rw [padWithZeros_length l (by decide), lenToNextMultiple]
      split <;> omega
    obtain ⟨e, h1, -, h2⟩ := C70_prf_total eval 4 seed l
    rw [h1, h2]
    generalize padWithZeros l 4 = q at hlen
    obtain _ | ⟨a, _ | ⟨b, _ | ⟨c, _ | ⟨d, _ | ⟨z, r⟩⟩⟩⟩⟩ := q <;> simp at hlen
    refine ⟨a, b, c, d, rfl, ?_⟩
    simp [absorb, chunks, chunksAux, addElems, squeeze, squeezeAux, Vec.elems]
  obtain ⟨a, b, c, d, p1, q1⟩ := pad x hx hx4
  obtain ⟨a', b', c', d', p2, q2⟩ := pad y (by omega) (by omega)
  rw [q1, q2] at h
  have h3 : (eval ⟨a, b, c, seed + d⟩) = eval ⟨a', b', c', seed + d'⟩ := by
    simp only [Except.ok.injEq, Vec.elems, List.cons.injEq, and_true] at h
    exact Vec.ext h.1 h.2.1 h.2.2.1 h.2.2.2
  have h4 := he h3
  simp only [Vec.mk.injEq, add_right_inj] at h4
  have h5 : padWithZeros x 4 = padWithZeros y 4 := by
    rw [p1, p2, h4.1, h4.2.1, h4.2.2.1, h4.2.2.2]
  rw [padWithZeros_eq x (by decide), padWithZeros_eq y (by decide)] at h5
  exact (List.append_inj h5 hl).1

/-- C70: shifting the seed is shifting the fourth input element: the seeds `k` and `k + δ` give
related functions -/
theorem C70_prf_related_seeds (eval : Vec F → Vec F) (outLen : ℕ) (seed δ x y z t : F) (l : List F) :
    prfEvaluate eval outLen (seed + δ) (x :: y :: z :: t :: l) =
      prfEvaluate eval outLen seed (x :: y :: z :: (δ + t) :: l) := by
  obtain ⟨d, h1, -, h2⟩ := C70_prf_total eval outLen (seed + δ) (x :: y :: z :: t :: l)
  obtain ⟨d', h1', -, h2'⟩ := C70_prf_total eval outLen seed (x :: y :: z :: (δ + t) :: l)
  rw [h1, h1', h2, h2', padWithZeros_eq _ (by decide), padWithZeros_eq _ (by decide)]
  have e : ∀ (s : Vec F) (a b c e : F) (l : List F), absorb eval 4 s (a :: b :: c :: e :: l) =
      absorb eval 4 (eval ⟨s.a + a, s.b + b, s.c + c, s.d + e⟩) l := by
    intro s a b c e l
    exact absorb_block eval (by decide) s [a, b, c, e] l rfl
  simp only [List.cons_append, List.length_cons, e, add_assoc]

end

/-! ## Examples -/

instance fact5 : Fact (Nat.Prime 5) := ⟨by norm_num⟩

/-- a toy permutation of the states over the field with five elements -/
def toyEval (v : Vec (ZMod 5)) : Vec (ZMod 5) := ⟨v.d + 1, v.a + v.d, v.b, v.c⟩

example : Function.Injective toyEval := by
  intro v w h
  simp only [toyEval, Vec.mk.injEq, add_left_inj] at h
  obtain ⟨h1, h2, h3, h4⟩ := h
  rw [h1, add_left_inj] at h2
  ext1 <;> assumption

example : bitPad ([1, 2, 3] : List (ZMod 5)) = [1, 2, 3, 1, 0, 0] ∧
    bitPad ([1, 2] : List (ZMod 5)) = [1, 2, 1] := by decide

/-- two different messages of one length with one digest, and a double opening -/
example : variableEvaluate toyEval 1 [0, 0, 1] = variableEvaluate toyEval 1 [1, 0, 1] := by decide

example : commitVerify toyEval 3 [0, 1] (some 0) 1 = .ok true ∧
    commitVerify toyEval 3 [1, 2] (some 2) 1 = .ok true ∧
    (([0, 1], 0) : List (ZMod 5) × ZMod 5) ≠ ([1, 2], 2) := by decide

/-- an inner collision as in `C40_state_collision_inner` -/
example : absorb toyEval crhfRate zeroVec [0, 0, 0, 1, 0, 0] = absorb toyEval crhfRate zeroVec [1, 0, 0, 1, 4, 0] ∧
    ([0, 0, 0, 1, 0, 0] : List (ZMod 5)) ≠ [1, 0, 0, 1, 4, 0] := by decide

example : ([1] : List (ZMod 5)).length % crhfRate ≠ 0 ∧ ([0, 1] : List (ZMod 5)).length % 4 ≠ 0 := by
  decide

end Verif.Rescue
