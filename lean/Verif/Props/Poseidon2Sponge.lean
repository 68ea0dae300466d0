import Verif.Hash.Poseidon2
import Verif.Hash.Poseidon2Consts
import Verif.Hash.RescueConsts
import Mathlib.Data.ZMod.Basic
import Mathlib.Data.List.GetD
import Mathlib.Logic.Function.Iterate

/-!
# C40: the Poseidon2 hash functions

The padding and the two `evaluate` functions are from the repository. The duplex sponge between them is
the external crate `spongefish`; `absorb`, `squeeze` and `hash` are a reference model of it (overwrite
mode), and what is said about them rests on that reading. The permutation is any function `perm`.
-/

set_option linter.unusedSectionVars false

namespace Verif.Poseidon2

section
variable {F : Type} [CommRing F]

theorem nextMultipleOf_spec {n m : ℕ} (hm : 0 < m) :
    ∃ k, nextMultipleOf n m = some k ∧ n ≤ k ∧ m ∣ k ∧ k < n + m := by
  unfold nextMultipleOf
  rw [if_neg (by omega)]
  have hlt := Nat.mod_lt n hm
  have hd := Nat.div_add_mod n m
  split
  · rename_i h
    exact ⟨n, rfl, le_refl _, Nat.dvd_of_mod_eq_zero h, by omega⟩
  · refine ⟨n + (m - n % m), rfl, by omega, ⟨n / m + 1, ?_⟩, by omega⟩
    rw [mul_add, mul_one]
    omega

/-- C40: the padded message is the message, the marker one and zeros, is made of whole blocks and at
most one block longer than the message -/
theorem C40_poseidon2_bit_padding_shape (R : ℕ) (hR : 0 < R) (x : List F) :
    ∃ k, bitPadding x R = some (x ++ 1 :: List.replicate k 0) ∧ R ∣ x.length + 1 + k ∧ k < R := by
  obtain ⟨n, h1, h2, h3, h4⟩ := nextMultipleOf_spec (n := (x ++ [(1 : F)]).length) hR
  refine ⟨n - (x ++ [(1 : F)]).length, ?_, ?_, by omega⟩
  · unfold bitPadding zeroPadding
    rw [h1]
    simp
  · rw [show x.length + 1 + (n - (x ++ [(1 : F)]).length) = n by simp at h2 ⊢; omega]
    exact h3

theorem marker_injective [Nontrivial F] {x y : List F} {k l : ℕ}
    (h : x ++ 1 :: List.replicate k 0 = y ++ 1 :: List.replicate l (0 : F)) : x = y := by
  have hrev := congrArg List.reverse h
  simp only [List.reverse_append, List.reverse_cons, List.reverse_replicate, List.append_assoc,
    List.singleton_append] at hrev
  have hk : ∀ (k l : ℕ) (a b : List F), List.replicate k (0 : F) ++ 1 :: a = List.replicate l 0 ++ 1 :: b →
      a = b := by
    intro k
    induction k with
    | zero =>
      intro l a b h
      cases l with
      | zero => simpa using h
      | succ l => simp [List.replicate_succ] at h
    | succ k ih =>
      intro l a b h
      cases l with
      | zero => simp [List.replicate_succ] at h
      | succ l =>
        simp only [List.replicate_succ, List.cons_append, List.cons.injEq, true_and] at h
        exact ih l a b h
  have := hk _ _ _ _ (by simpa using hrev)
  exact List.reverse_injective this

/-- C40: padding is injective: different messages are absorbed as different sequences -/
theorem C40_poseidon2_bit_padding_injective [Nontrivial F] (R : ℕ) (hR : 0 < R) (x y : List F)
    (h : bitPadding x R = bitPadding y R) : x = y := by
  obtain ⟨k, hk, -⟩ := C40_poseidon2_bit_padding_shape R hR x
  obtain ⟨l, hl, -⟩ := C40_poseidon2_bit_padding_shape R hR y
  rw [hk, hl, Option.some.injEq] at h
  exact marker_injective h

/-- C40: with rate zero the hash panics -/
theorem C40_poseidon2_rate_zero (perm : List F → List F) (N OUT : ℕ) (x : List F) :
    variableEvaluate perm N 0 OUT x = .error .panic := by
  simp [variableEvaluate, bitPadding, zeroPadding, nextMultipleOf]

/-! ## Squeezing -/

theorem squeeze_spec (perm : List F → List F) (N R : ℕ) (hR : 0 < R) (hRN : R ≤ N)
    (hperm : ∀ s, s.length = N → (perm s).length = N) :
    ∀ (fuel n : ℕ) (s : List F), n ≤ fuel → s.length = N →
      (squeeze perm R fuel s n).length = n ∧
      ∀ i < n, (squeeze perm R fuel s n).getD i 0 = (perm^[i / R + 1] s).getD (i % R) 0 := by
  intro fuel
  induction fuel with
  | zero =>
    intro n s hn _
    obtain rfl : n = 0 := by omega
    exact ⟨rfl, fun i hi => absurd hi (by omega)⟩
  | succ fuel ih =>
    intro n s hn hs
    have ht := hperm s hs
    by_cases h0 : n = 0
    · subst h0
      exact ⟨by simp [squeeze], fun i hi => absurd hi (by omega)⟩
    obtain ⟨h1, h2⟩ := ih (n - min n R) (perm s) (by omega) ht
    have htl : ((perm s).take (min n R)).length = min n R := by
      rw [List.length_take, ht]; omega
    simp only [squeeze, if_neg h0]
    refine ⟨by rw [List.length_append, htl, h1]; omega, ?_⟩
    intro i hi
    by_cases hiR : i < min n R
    · rw [List.getD_append _ _ _ _ (by rw [htl]; exact hiR), Nat.div_eq_of_lt (by omega),
        Nat.mod_eq_of_lt (show i < R by omega)]
      simp only [List.getD_eq_getElem?_getD, List.getElem?_take, if_pos hiR, Function.iterate_one,
        zero_add]
    · rw [List.getD_append_right _ _ _ _ (by rw [htl]; omega), htl]
      have hmin : min n R = R := by omega
      rw [hmin] at h2 ⊢
      rw [h2 (i - R) (by omega)]
      have hi' : i = (i - R) + R := by omega
      have hq : i / R = (i - R) / R + 1 := by
        conv_lhs => rw [hi']
        exact Nat.add_div_right _ hR
      have hm : i % R = (i - R) % R := by
        conv_lhs => rw [hi']
        exact Nat.add_mod_right _ _
      rw [hq, hm, Function.iterate_succ_apply perm ((i - R) / R + 1)]

theorem absorb_length (perm : List F → List F) (N R : ℕ)
    (hperm : ∀ s, s.length = N → (perm s).length = N) :
    ∀ (x s : List F) (pos : ℕ), s.length = N → (absorb perm R x s pos).1.length = N := by
  intro x
  induction x with
  | nil => intro s pos hs; exact hs
  | cons a x ih =>
    intro s pos hs
    unfold absorb
    split
    · exact ih _ _ (by rw [List.length_set, hperm s hs])
    · exact ih _ _ (by rw [List.length_set, hs])

/-- C40: output `i` is entry `i mod R` of the state after `i / R + 1` further permutations -/
theorem C40_poseidon2_squeeze_entry (perm : List F → List F) (N R : ℕ) (hR : 0 < R) (hRN : R ≤ N)
    (hperm : ∀ s, s.length = N → (perm s).length = N) (n : ℕ) (x : List F) :
    ∃ s, s.length = N ∧ s = (absorb perm R x (List.replicate N 0) 0).1 ∧
      (hash perm N R n x).length = n ∧
      ∀ i < n, (hash perm N R n x).getD i 0 = (perm^[i / R + 1] s).getD (i % R) 0 := by
  have hs : (absorb perm R x (List.replicate N 0) 0).1.length = N :=
    absorb_length perm N R hperm x _ 0 (by simp)
  exact ⟨_, hs, rfl, squeeze_spec perm N R hR hRN hperm n n _ (le_refl _) hs⟩

/-- C40: asking for more outputs extends the outputs -/
theorem C40_poseidon2_squeeze_prefix (perm : List F → List F) (N R : ℕ) (hR : 0 < R) (hRN : R ≤ N)
    (hperm : ∀ s, s.length = N → (perm s).length = N) (n m : ℕ) (hnm : n ≤ m) (x : List F) :
    hash perm N R n x = (hash perm N R m x).take n := by
  obtain ⟨s, -, hs, l1, e1⟩ := C40_poseidon2_squeeze_entry perm N R hR hRN hperm n x
  obtain ⟨t, -, ht, l2, e2⟩ := C40_poseidon2_squeeze_entry perm N R hR hRN hperm m x
  subst hs; subst ht
  apply List.ext_getElem
  · rw [l1, List.length_take, l2]; omega
  · intro i h1 h2
    have a := e1 i (by omega)
    have b := e2 i (by omega)
    rw [List.getElem_take, ← List.getD_eq_getElem _ (0 : F), a, ← b, List.getD_eq_getElem _ _ (by omega)]

/-! ## Absorbing -/

theorem absorb_block (perm : List F → List F) (N R : ℕ) (rest : List F) :
    ∀ (b s pre : List F), pre.length + b.length = R → (pre ++ s).length = N → b.length ≤ s.length →
      absorb perm R (b ++ rest) (pre ++ s) pre.length =
        absorb perm R rest (pre ++ b ++ s.drop b.length) R := by
  intro b
  induction b with
  | nil =>
    intro s pre h _ _
    simp only [List.length_nil, Nat.add_zero] at h
    simp [h]
  | cons a b ih =>
    intro s pre h hl hb
    obtain _ | ⟨c, s⟩ := s
    · simp at hb
    simp only [List.length_cons] at h hb
    have hset : (pre ++ c :: s).set pre.length a = pre ++ [a] ++ s := by
      rw [List.set_append_right _ _ (le_refl _)]
      simp
    rw [List.cons_append, absorb, if_neg (by omega), hset]
    have := ih s (pre ++ [a]) (by simp; omega) (by simp at hl ⊢; omega) (by omega)
    rw [List.length_append, List.length_singleton] at this
    rw [this]
    simp

/-- C40: absorbing a block replaces the first `R` entries, and the permutation is applied before the next
block -/
theorem C40_poseidon2_absorb_block (perm : List F → List F) (N R : ℕ) (hR : 0 < R)
    (b rest s : List F) (hRN : R ≤ N)
    (hb : b.length = R) (hs : s.length = N) (hrest : rest ≠ []) :
    absorb perm R (b ++ rest) s 0 = absorb perm R rest (perm (b ++ s.drop R)) 0 ∧
    absorb perm R b s 0 = (b ++ s.drop R, R) := by
  have h1 := absorb_block perm N R rest b s [] (by simpa using hb) (by simpa using hs) (by omega)
  have h2 := absorb_block perm N R [] b s [] (by simpa using hb) (by simpa using hs) (by omega)
  simp only [List.nil_append, List.length_nil, List.append_nil, hb] at h1 h2
  refine ⟨?_, by rw [h2]; rfl⟩
  rw [h1]
  obtain _ | ⟨a, rest⟩ := rest
  · exact absurd rfl hrest
  · rw [absorb, if_pos rfl, absorb, if_neg (by omega)]

/-! ## The hash functions -/

/-- C40: the variable-length hash returns the declared number of outputs for every message -/
theorem C40_poseidon2_variable_total (perm : List F → List F) (N R OUT : ℕ) (hR : 0 < R) (hRN : R ≤ N)
    (hperm : ∀ s, s.length = N → (perm s).length = N) (x : List F) :
    ∃ d padded, bitPadding x R = some padded ∧ variableEvaluate perm N R OUT x = .ok d ∧
      d.length = OUT ∧ d = hash perm N R OUT padded := by
  obtain ⟨k, hk, -⟩ := C40_poseidon2_bit_padding_shape R hR x
  obtain ⟨s, -, -, h, -⟩ := C40_poseidon2_squeeze_entry perm N R hR hRN hperm OUT
    (x ++ 1 :: List.replicate k 0)
  exact ⟨_, _, hk, by simp [variableEvaluate, hk], h, rfl⟩

/-- C40: a collision of the variable-length hash is a collision of the sponge on two different
sequences of whole blocks -/
theorem C40_poseidon2_variable_collision [Nontrivial F] (perm : List F → List F) (N R OUT : ℕ)
    (hR : 0 < R) (x y : List F) (hne : x ≠ y)
    (h : variableEvaluate perm N R OUT x = variableEvaluate perm N R OUT y) :
    ∃ a b : List F, a ≠ b ∧ R ∣ a.length ∧ R ∣ b.length ∧ hash perm N R OUT a = hash perm N R OUT b := by
  obtain ⟨k, hk, dk, -⟩ := C40_poseidon2_bit_padding_shape R hR x
  obtain ⟨l, hl, dl, -⟩ := C40_poseidon2_bit_padding_shape R hR y
  refine ⟨x ++ 1 :: List.replicate k 0, y ++ 1 :: List.replicate l 0,
    fun hc => hne (marker_injective hc), ?_, ?_, ?_⟩
  · simpa [Nat.add_comm, Nat.add_left_comm, Nat.add_assoc] using dk
  · simpa [Nat.add_comm, Nat.add_left_comm, Nat.add_assoc] using dl
  · simpa [variableEvaluate, hk, hl] using h

/-- C40: the fixed-length hash rejects exactly the longer inputs and hashes a non-empty input filled up
with zeros to `IN` -/
theorem C40_poseidon2_fixed (perm : List F → List F) (N R IN OUT : ℕ) (x : List F) (hx : x ≠ []) :
    fixedEvaluate perm N R IN OUT x = if IN < x.length then .error .param
      else .ok (hash perm N R OUT (x ++ List.replicate (IN - x.length) 0)) := by
  unfold fixedEvaluate
  split
  · rfl
  · rename_i h
    have hpos := List.length_pos_iff.2 hx
    have hn : nextMultipleOf x.length IN = some IN := by
      unfold nextMultipleOf
      rw [if_neg (by omega)]
      rcases Nat.lt_or_eq_of_le (not_lt.1 h) with h' | h'
      · rw [Nat.mod_eq_of_lt h', if_neg (by omega)]
        congr 1
        omega
      · rw [h']; simp
    simp [zeroPadding, hn]

/-- C40: so inputs of one length are absorbed as different sequences -/
theorem C40_poseidon2_zero_padding_same_length (x y : List F) (n : ℕ) (hl : x.length = y.length)
    (h : x ++ List.replicate (n - x.length) (0 : F) = y ++ List.replicate (n - y.length) 0) : x = y :=
  (List.append_inj h hl).1

/-- C40: but appending zeros within `IN` never changes the digest -/
theorem C40_poseidon2_zero_padding_counterexample (perm : List F → List F) (N R IN OUT k : ℕ)
    (x : List F) (hx : x ≠ []) (hk : x.length + k ≤ IN) :
    fixedEvaluate perm N R IN OUT (x ++ List.replicate k 0) = fixedEvaluate perm N R IN OUT x := by
  rw [C40_poseidon2_fixed _ _ _ _ _ _ (by simp [hx]), C40_poseidon2_fixed _ _ _ _ _ _ hx,
    if_neg (by simp; omega), if_neg (by omega)]
  congr 2
  rw [List.append_assoc, ← List.replicate_add]
  congr 2
  simp only [List.length_append, List.length_replicate]
  omega

/-- C40: the empty input is not filled up: its digest is the one of the empty sequence (nothing is
absorbed) -/
theorem C40_poseidon2_empty_input (perm : List F → List F) (N R IN OUT : ℕ) :
    fixedEvaluate perm N R IN OUT [] = if IN = 0 then .error .panic else .ok (hash perm N R OUT []) := by
  unfold fixedEvaluate
  rw [if_neg (by simp)]
  by_cases h : IN = 0
  · simp [zeroPadding, nextMultipleOf, h]
  · simp [zeroPadding, nextMultipleOf, h]

/-- C40: so it is not hashed like the zero message of `IN` entries, as the documentation says ("the actual
input can be shorter, but will internally be zero-padded"): the digests differ -/
theorem C40_poseidon2_empty_input_counterexample :
    ∃ perm : List (ZMod 7) → List (ZMod 7), (∀ s, s.length = 3 → (perm s).length = 3) ∧
      Set.InjOn perm {s | s.length = 3} ∧
      fixedEvaluate perm 3 1 2 1 [] ≠ fixedEvaluate perm 3 1 2 1 [0, 0] := by
  refine ⟨fun s => match s with | [a, b, c] => [b, c + 1, a + 1] | s => s, ?_, ?_, by decide⟩
  · rintro s hs
    obtain _ | ⟨a, _ | ⟨b, _ | ⟨c, _ | ⟨d, t⟩⟩⟩⟩ := s <;> simp at hs ⊢
  · intro s hs t ht h
    obtain _ | ⟨a, _ | ⟨b, _ | ⟨c, _ | ⟨d, s⟩⟩⟩⟩ := s <;> simp at hs
    obtain _ | ⟨a', _ | ⟨b', _ | ⟨c', _ | ⟨d', t⟩⟩⟩⟩ := t <;> simp at ht
    simp at h
    simp [h]

end

/-! ## Examples -/

section examples

/-- a bijection of the states of width three -/
def rot (s : List (ZMod 7)) : List (ZMod 7) := match s with | [a, b, c] => [b, c, a + b * b + 1] | s => s

example : ∀ s, s.length = 3 → (rot s).length = 3 := by
  rintro s hs
  obtain _ | ⟨a, _ | ⟨b, _ | ⟨c, _ | ⟨d, t⟩⟩⟩⟩ := s <;> simp [rot] at hs ⊢

example : bitPadding [3, 0] 2 = some [3, 0, 1, (0 : ZMod 7)] := by decide
example : bitPadding [3] 2 = some [3, (1 : ZMod 7)] := by decide

example : ∃ a b, variableEvaluate rot 3 2 4 [3, 0] = .ok a ∧ variableEvaluate rot 3 2 4 [3] = .ok b ∧
    a ≠ b ∧ a.length = 4 := ⟨_, _, rfl, rfl, by decide, by decide⟩

example : fixedEvaluate rot 3 2 4 2 [3] = fixedEvaluate rot 3 2 4 2 [3, 0, 0] ∧
    fixedEvaluate rot 3 2 4 2 [3, 1] ≠ fixedEvaluate rot 3 2 4 2 [3] ∧
    fixedEvaluate rot 3 2 4 2 [3, 1, 1, 1, 1] = .error .param := by decide

example : (hash rot 3 2 5 [1, 2, 3]).take 3 = hash rot 3 2 3 [1, 2, 3] := by decide

end examples

/-- C40: for the shipped parameter set of width three the digest of the empty input differs from the
one of the zero message -/
theorem C40_poseidon2_empty_shipped :
    fixedEvaluate (fun s => (permute (bls3.read (ZMod Rescue.p_ed381)) s).getD []) 3 1 2 1 [] ≠
    fixedEvaluate (fun s => (permute (bls3.read (ZMod Rescue.p_ed381)) s).getD []) 3 1 2 1 [0, 0] := by
  decide +kernel

end Verif.Poseidon2
