import Verif.Util.ReedSolomon
import Mathlib.Algebra.CharP.Basic
import Mathlib.RingTheory.RootsOfUnity.PrimitiveRoots
import Mathlib.Algebra.Field.ZMod

/-!
# C42, C43: Reed-Solomon encoding and erasure decoding

The specification is `evalList data x = ∑ j < data.length, data[j] * x ^ j`.
-/

set_option linter.unusedSectionVars false

namespace Verif.Props.RS

open Verif.RS

variable {F : Type} [Field F] [DecidableEq F]

theorem distinct_of_nodup (xs : List F) (n : ℕ) (hn : n ≤ xs.length) (h : (xs.take n).Nodup) :
    Distinct xs n := by
  intro i j hi hj hij e
  have hi' : i < (xs.take n).length := by simp; omega
  have hj' : j < (xs.take n).length := by simp; omega
  refine hij ((List.Nodup.getElem_inj_iff h (hi := hi') (hj := hj')).1 ?_)
  simpa [List.getD_eq_getElem?_getD, List.getElem?_eq_getElem, show i < xs.length by omega,
    show j < xs.length by omega] using e

theorem nodup_of_distinct (xs : List F) (n : ℕ) (h : Distinct xs n) : (xs.take n).Nodup := by
  rw [List.nodup_iff_getElem?_ne_getElem?]
  intro i j hij hj e
  have hj2 : j < xs.length := by simp at hj; omega
  have hjn : j < n := by simp at hj; omega
  refine h i j (by omega) hjn (by omega) ?_
  rw [List.getElem?_take_of_lt (by omega), List.getElem?_take_of_lt hjn] at e
  simp [List.getD_eq_getElem?_getD, e]

/-! ## C42 -/

/-- **C42.** The encoder returns `data_size + parity` shares, share `i` (counted from 1) being
the value at `i` of the polynomial with coefficients `data`. -/
theorem C42_encode_evaluates (data : List F) (parity : ℕ) :
    (encode data parity).length = data.length + parity ∧
    ∀ i, i < data.length + parity →
      (encode data parity)[i]? = some (evalList data ((i + 1 : ℕ) : F)) := by
  refine ⟨by simp [encode], fun i hi => ?_⟩
  simp [encode, List.getElem?_range hi, encodeAt_eq]

/-- **C42.** For any list of shares whose first `n` evaluation points are distinct the decoder
returns the only list of `n` coefficients whose polynomial passes through these `n` shares. -/
theorem C42_decode_interpolates (shares : List (F × F)) (n : ℕ) (hn : n ≤ shares.length)
    (hd : ((shares.take n).map Prod.fst).Nodup) :
    ∃ f, decode shares n = .ok f ∧ f.length = n ∧
      (∀ s ∈ shares.take n, evalList f s.1 = s.2) ∧
      ∀ g : List F, g.length = n → (∀ s ∈ shares.take n, evalList g s.1 = s.2) → g = f := by
  have hd' : Distinct (shares.map Prod.fst) n :=
    distinct_of_nodup _ _ (by simpa using hn) (by rwa [← List.map_take])
  obtain ⟨f, h1, h2, h3⟩ := decode_ok shares n hn hd'
  have hmem : ∀ i, i < n → shares.getD i (0, 0) ∈ shares.take n := by
    intro i hi
    rw [List.mem_iff_getElem]
    refine ⟨i, by simp; omega, ?_⟩
    simp [List.getD_eq_getElem?_getD, List.getElem?_eq_getElem (show i < shares.length by omega)]
  refine ⟨f, h1, h2, ?_, ?_⟩
  · intro s hs
    obtain ⟨i, hi, rfl⟩ := List.mem_iff_getElem.1 hs
    simp only [List.length_take] at hi
    have := h3 i (by omega)
    rw [List.getElem_take]
    simpa [List.getD_eq_getElem?_getD, List.getElem?_eq_getElem (show i < shares.length by omega)]
      using this
  · intro g hg hgs
    refine evalList_unique g f n hg h2 (shares.map Prod.fst) hd' fun i hi => ?_
    have e : (shares.map Prod.fst).getD i 0 = (shares.getD i (0, 0)).1 := by
      simp only [List.getD_eq_getElem?_getD, List.getElem?_map]
      cases shares[i]? <;> rfl
    rw [e, h3 i hi]
    exact hgs _ (hmem i hi)

/-- shares at arbitrary points of the polynomial with coefficients `data` are decoded to `data` -/
theorem decode_evals (data : List F) (pts : List F) (hn : data.length ≤ pts.length)
    (hd : (pts.take data.length).Nodup) :
    decode (pts.map (fun x => (x, evalList data x))) data.length = .ok data := by
  obtain ⟨f, h1, -, -, h4⟩ := C42_decode_interpolates
    (pts.map (fun x => (x, evalList data x))) data.length (by simpa using hn)
    (by rw [← List.map_take, List.map_map]; simpa [Function.comp_def] using hd)
  rw [h1]
  congr 1
  refine (h4 data rfl ?_).symm
  intro s hs
  rw [← List.map_take] at hs
  obtain ⟨x, _, rfl⟩ := List.mem_map.1 hs
  rfl

/-- **C42.** Encode any message, pick any shares (positions `sel`, counted from 1, in any order,
possibly more than needed).  If the first `data_size` of them sit at distinct points of the field,
decoding returns the message. -/
theorem C42_decode_encode (data : List F) (parity : ℕ) (sel : List ℕ)
    (hsel : ∀ i ∈ sel, 1 ≤ i ∧ i ≤ data.length + parity) (hn : data.length ≤ sel.length)
    (hd : ((sel.take data.length).map (fun i : ℕ => (i : F))).Nodup) :
    decode (sel.map (fun i : ℕ => ((i : F), (encode data parity).getD (i - 1) 0))) data.length
      = .ok data := by
  have e : sel.map (fun i : ℕ => ((i : F), (encode data parity).getD (i - 1) 0)) =
      (sel.map (fun i : ℕ => (i : F))).map (fun x => (x, evalList data x)) := by
    rw [List.map_map]
    refine List.map_congr_left fun i hi => ?_
    obtain ⟨h1, h2⟩ := hsel i hi
    have := (C42_encode_evaluates data parity).2 (i - 1) (by omega)
    rw [List.getD_eq_getElem?_getD, this, show i - 1 + 1 = i by omega]
    rfl
  rw [e]
  exact decode_evals data _ (by simpa using hn) (by rwa [← List.map_take])

/-- **C42.** Over a field of characteristic `p`, if there are at most `p` shares (or `p = 0`), any
selection of shares at pairwise distinct positions decodes to the message. -/
theorem C42_decode_encode_char (p : ℕ) [CharP F p] (data : List F) (parity : ℕ)
    (hp : p = 0 ∨ data.length + parity ≤ p) (sel : List ℕ)
    (hsel : ∀ i ∈ sel, 1 ≤ i ∧ i ≤ data.length + parity) (hn : data.length ≤ sel.length)
    (hd : sel.Nodup) :
    decode (sel.map (fun i : ℕ => ((i : F), (encode data parity).getD (i - 1) 0))) data.length
      = .ok data := by
  refine C42_decode_encode data parity sel hsel hn ?_
  refine List.Nodup.map_on ?_ (hd.sublist (List.take_sublist _ _))
  intro i hi j hj hij
  obtain ⟨h1, h2⟩ := hsel i (List.mem_of_mem_take hi)
  obtain ⟨h3, h4⟩ := hsel j (List.mem_of_mem_take hj)
  have hm := (CharP.natCast_eq_natCast F p).1 hij
  rcases hp with rfl | hp
  · simpa [Nat.ModEq] using hm
  · have hmi : (i - 1) % p = (j - 1) % p := by
      have : (i - 1) + 1 ≡ (j - 1) + 1 [MOD p] := by
        rw [show i - 1 + 1 = i by omega, show j - 1 + 1 = j by omega]; exact hm
      exact Nat.ModEq.add_right_cancel' 1 this
    rw [Nat.mod_eq_of_lt (by omega), Nat.mod_eq_of_lt (by omega)] at hmi
    omega

/-- **C42.** Decoding over a multiplicative (coset) domain: the evaluations of the message
polynomial at any distinct domain indices decode to the message. -/
theorem C42_decode_rou (data : List F) (offset g : F) (size : ℕ) (ho : offset ≠ 0)
    (hg : IsPrimitiveRoot g size) (sel : List ℕ) (hsel : ∀ i ∈ sel, i < size) (hne : sel ≠ [])
    (hn : data.length ≤ sel.length) (hd : sel.Nodup) :
    decodeRou (sel.map (fun i => (i, evalList data (offset * g ^ i)))) data.length
      (domainElements offset g size) = .ok data := by
  have hmap : (sel.map (fun i => (i, evalList data (offset * g ^ i)))).map Prod.fst = sel := by
    simp [Function.comp_def]
  unfold decodeRou
  rw [hmap]
  cases hm : sel.max? with
  | none => exact absurd (List.max?_eq_none_iff.1 hm) hne
  | some m =>
    have hmem := List.max?_mem hm
    simp only
    rw [if_neg (by simp [domainElements]; exact hsel m hmem), List.map_map]
    have hx : sel.map ((fun s : ℕ × F => ((domainElements offset g size).getD s.1 0, s.2)) ∘
        fun i => (i, evalList data (offset * g ^ i))) =
        (sel.map (fun i => offset * g ^ i)).map (fun x => (x, evalList data x)) := by
      rw [List.map_map]
      refine List.map_congr_left fun i hi => ?_
      simp [domainElements, List.getD_eq_getElem?_getD, List.getElem?_range (hsel i hi)]
    rw [hx]
    refine decode_evals data _ (by simpa using hn) ?_
    rw [← List.map_take]
    refine List.Nodup.map_on ?_ (hd.sublist (List.take_sublist _ _))
    intro i hi j hj hij
    exact hg.pow_inj (hsel i (List.mem_of_mem_take hi)) (hsel j (List.mem_of_mem_take hj))
      (mul_left_cancel₀ ho hij)

instance : Fact (Nat.Prime 3) := ⟨by decide⟩

/-- **C42, necessity of the bound on the number of shares.** With more shares than the
characteristic, distinct positions can be the same point and decoding fails: over the field of 3
elements the shares 1 and 4 of the message `[1, 2]` (2 data, 2 parity). -/
theorem C42_positions_wrap_counterexample :
    ∃ (data : List (ZMod 3)) (parity : ℕ) (sel : List ℕ), sel.Nodup ∧
      (∀ i ∈ sel, 1 ≤ i ∧ i ≤ data.length + parity) ∧ data.length ≤ sel.length ∧
      decode (sel.map (fun i : ℕ => ((i : ZMod 3), (encode data parity).getD (i - 1) 0))) data.length
        = .error .duplicate := by
  refine ⟨[1, 2], 2, [1, 4], by decide, by decide, by decide, ?_⟩
  exact decode_duplicate _ _ (by decide) (fun h => h 0 1 (by decide) (by decide) (by decide) (by decide))

/-! ## C43 -/

/-- **C43.** The decoder returns an error exactly when there are fewer than `n` shares or two of
the first `n` shares have the same evaluation point.  The errors are the documented ones. -/
theorem C43_decode_error_iff (shares : List (F × F)) (n : ℕ) :
    (shares.length < n → decode shares n = .error .insufficient) ∧
    (n ≤ shares.length → ¬ ((shares.take n).map Prod.fst).Nodup →
      decode shares n = .error .duplicate) ∧
    ((∃ e, decode shares n = .error e) ↔
      shares.length < n ∨ ¬ ((shares.take n).map Prod.fst).Nodup) := by
  have key1 : shares.length < n → decode shares n = .error .insufficient :=
    decode_insufficient shares n
  have key2 : n ≤ shares.length → ¬ ((shares.take n).map Prod.fst).Nodup →
      decode shares n = .error .duplicate := by
    intro hn hd
    refine decode_duplicate _ _ hn fun h => hd ?_
    rw [List.map_take]
    exact nodup_of_distinct _ _ h
  refine ⟨key1, key2, ?_, ?_⟩
  · rintro ⟨e, he⟩
    by_contra hc
    push Not at hc
    obtain ⟨f, hf, -⟩ := C42_decode_interpolates shares n hc.1 hc.2
    rw [hf] at he; cases he
  · rintro (h | h)
    · exact ⟨_, key1 h⟩
    · by_cases hn : n ≤ shares.length
      · exact ⟨_, key2 hn h⟩
      · exact ⟨_, key1 (by omega)⟩

/-- **C43.** The decoder over a domain fails on an empty list, on an index outside the domain, on
too few shares, and on a repeated index among the first `n`. -/
theorem C43_decode_rou_errors (shares : List (ℕ × F)) (n : ℕ) (domain : List F) :
    (shares = [] → decodeRou shares n domain = .error .emptyShares) ∧
    ((∃ s ∈ shares, domain.length ≤ s.1) → decodeRou shares n domain = .error .outOfBounds) ∧
    (shares ≠ [] → (∀ s ∈ shares, s.1 < domain.length) → shares.length < n →
      decodeRou shares n domain = .error .insufficient) ∧
    (shares ≠ [] → (∀ s ∈ shares, s.1 < domain.length) → n ≤ shares.length →
      ¬ ((shares.take n).map Prod.fst).Nodup →
      decodeRou shares n domain = .error .duplicate) := by
  have hin : shares ≠ [] → (∀ s ∈ shares, s.1 < domain.length) → decodeRou shares n domain =
      decode (shares.map (fun s => (domain.getD s.1 0, s.2))) n := by
    intro hne hs
    unfold decodeRou
    cases hm : (shares.map Prod.fst).max? with
    | none => exact absurd (by simpa using hm) hne
    | some m =>
      obtain ⟨s, hs', rfl⟩ := List.mem_map.1 (List.max?_mem hm)
      simp only
      rw [if_neg (by have := hs s hs'; omega)]
  refine ⟨?_, ?_, ?_, ?_⟩
  · rintro rfl; rfl
  · rintro ⟨s, hs, hle⟩
    unfold decodeRou
    cases hm : (shares.map Prod.fst).max? with
    | none =>
      have : shares = [] := by simpa using hm
      rw [this] at hs; simp at hs
    | some m =>
      simp only
      have := (List.max?_le_iff hm (x := m)).1 (le_refl m) s.1
        (List.mem_map.2 ⟨s, hs, rfl⟩)
      rw [if_pos (by omega)]
  · intro hne hs hn
    rw [hin hne hs]
    exact (C43_decode_error_iff _ n).1 (by simpa using hn)
  · intro hne hs hn hd
    rw [hin hne hs]
    refine (C43_decode_error_iff _ n).2.1 (by simpa using hn) fun h => hd ?_
    rw [← List.map_take, List.map_map] at h
    have h2 : ((shares.take n).map Prod.fst).map (fun i => domain.getD i 0) =
        (shares.take n).map (Prod.fst ∘ fun s : ℕ × F => (domain.getD s.1 0, s.2)) := by
      simp [Function.comp_def]
    rw [← h2] at h
    exact List.Nodup.of_map _ h

/-! ## Examples -/

instance : Fact (Nat.Prime 13) := ⟨by decide⟩

/-- message `[3, 5, 7]`, two parity shares; shares 5, 2, 4 in this order -/
example : decode ([5, 2, 4].map (fun i : ℕ => ((i : ZMod 13), 
    (encode ([3, 5, 7] : List (ZMod 13)) 2).getD (i - 1) 0))) 3 = .ok [3, 5, 7] :=
  C42_decode_encode_char 13 [3, 5, 7] 2 (Or.inr (by decide)) [5, 2, 4] (by decide) (by decide)
    (by decide)

example : encode ([3, 5, 7] : List (ZMod 13)) 2 = [2, 2, 3, 5, 8] := by decide +kernel

example : decode ([(5, 8), (2, 2), (4, 5)] : List (ZMod 13 × ZMod 13)) 3 = .ok [3, 5, 7] := by
  decide +kernel

example : decode ([(5, 8), (2, 2), (5, 8)] : List (ZMod 13 × ZMod 13)) 3 = .error .duplicate :=
  (C43_decode_error_iff _ _).2.1 (by decide) (by decide)

/-- `5` is a primitive 4th root of unity modulo 13 -/
theorem five_primitive : IsPrimitiveRoot (5 : ZMod 13) 4 := by
  rw [IsPrimitiveRoot.iff (by decide)]
  refine ⟨by decide, ?_⟩
  intro l h0 h4
  interval_cases l <;> decide

example : decodeRou ([3, 1].map (fun i => (i, evalList ([4, 9] : List (ZMod 13)) (2 * 5 ^ i)))) 2
    (domainElements 2 5 4) = .ok [4, 9] :=
  C42_decode_rou [4, 9] 2 5 4 (by decide) five_primitive [3, 1] (by decide) (by decide) (by decide)
    (by decide)

example : decodeRou ([(3, 1), (4, 7)] : List (ℕ × ZMod 13)) 2 (domainElements 2 5 4) =
    .error .outOfBounds :=
  (C43_decode_rou_errors _ _ _).2.1 ⟨(4, 7), by decide, by decide⟩

end Verif.Props.RS
