import Mathlib.LinearAlgebra.Lagrange
import Mathlib.Tactic.Ring
import Mathlib.Tactic.LinearCombination

/-!
# Model of `utilities/src/reed_solomon_code.rs`

Vectors are lists; `v[i]` is `getD i 0` (all indices are in range at the call sites, which
the length lemmas below confirm), `v[i] = y` is `List.set`.
-/

set_option linter.unusedSectionVars false

namespace Verif.RS

variable {F : Type} [Field F] [DecidableEq F]

/-- The error cases of `RSCodeError` (a string in the code). -/
inductive Err where
  | insufficient
  | duplicate
  | emptyShares
  | outOfBounds
deriving DecidableEq

/-- The closure in `reed_solomon_erasure_encode`, `reed_solomon_code.rs:59-66`:
`value += x * coef; x *= index`. -/
def encodeAt (data : List F) (index : F) : F :=
  (data.foldl (fun (s : F × F) coef => (s.1 + s.2 * coef, s.2 * index)) (0, 1)).1

/-- `reed_solomon_erasure_encode`, `reed_solomon_code.rs:47-68` -/
def encode (data : List F) (parity : ℕ) : List F :=
  (List.range (data.length + parity)).map (fun i => encodeAt data ((i + 1 : ℕ) : F))

/-- `for j in (1..=m).rev() { l[j] = l[j - 1] - x * l[j] }`, `reed_solomon_code.rs:111-113` -/
def lInner (x : F) : ℕ → List F → List F
  | 0, l => l
  | j + 1, l => lInner x j (l.set (j + 1) (l.getD j 0 - x * l.getD (j + 1) 0))

/-- one iteration of the outer loop, `reed_solomon_code.rs:109-115` -/
def lStep (xs : List F) (l : List F) (i : ℕ) : List F :=
  let l1 := l.set i 1
  let l2 := lInner (xs.getD (i - 1) 0) (i - 1) l1
  l2.set 0 (-(xs.getD (i - 1) 0) * l2.getD 0 0)

/-- `l(x) = \prod (x - x_i)`, `reed_solomon_code.rs:107-115` -/
def lPoly (xs : List F) (n : ℕ) : List F :=
  (List.range' 1 n).foldl (lStep xs) ((List.replicate (n + 1) 0).set 0 1)

/-- the inner loop of the weights, `reed_solomon_code.rs:119-131` -/
def weightLoop (xs : List F) (i : ℕ) : List ℕ → F → Except Err F
  | [], ret => .ok ret
  | j :: js, ret =>
    if i ≠ j then
      let denom := xs.getD i 0 - xs.getD j 0
      if denom = 0 then .error .duplicate else weightLoop xs i js (ret / denom)
    else weightLoop xs i js ret

/-- barycentric weights, `reed_solomon_code.rs:117-134` -/
def weights (xs : List F) (n : ℕ) : Except Err (List F) :=
  (List.range n).mapM (fun i => weightLoop xs i (List.range n) 1)

/-- `for j in (0..m).rev() { li[j] = l[j + 1] + x * li[j + 1] }`,
`reed_solomon_code.rs:142-144` -/
def liInner (l : List F) (x : F) : ℕ → List F → List F
  | 0, li => li
  | j + 1, li => liInner l x j (li.set j (l.getD (j + 1) 0 + x * li.getD (j + 1) 0))

/-- one iteration of the final loop, `reed_solomon_code.rs:139-149` -/
def fStep (xs l w : List F) (n : ℕ) (f : List F) (ish : ℕ × F × F) : List F :=
  let li := liInner l (xs.getD ish.1 0) (n - 1) ((List.replicate n 0).set (n - 1) 1)
  let weight := w.getD ish.1 0 * ish.2.2
  (List.range n).map (fun j => f.getD j 0 + weight * li.getD j 0)

/-- `(0..).zip(shares)` -/
def enumFrom {α : Type} : ℕ → List α → List (ℕ × α)
  | _, [] => []
  | n, x :: xs => (n, x) :: enumFrom (n + 1) xs

/-- `reed_solomon_erasure_decode`, `reed_solomon_code.rs:75-151` -/
def decode (shares : List (F × F)) (n : ℕ) : Except Err (List F) :=
  let shares := shares.take n
  if shares.length < n then .error .insufficient
  else
    let xs := shares.map Prod.fst
    let l := lPoly xs n
    match weights xs n with
    | .error e => .error e
    | .ok w => .ok ((enumFrom 0 shares).foldl (fStep xs l w n) (List.replicate n 0))

/-- `reed_solomon_erasure_decode_rou`, `reed_solomon_code.rs:158-196`: `domain` is the list
of the domain elements; the maximal index is compared with the domain size. -/
def decodeRou (shares : List (ℕ × F)) (n : ℕ) (domain : List F) : Except Err (List F) :=
  match (shares.map Prod.fst).max? with
  | none => .error .emptyShares
  | some m =>
    if domain.length ≤ m then .error .outOfBounds
    else decode (shares.map (fun s => (domain.getD s.1 0, s.2))) n

/-- elements of an `EvaluationDomain`: `offset * group_gen ^ i` for `i < size` (arkworks) -/
def domainElements (offset g : F) (size : ℕ) : List F :=
  (List.range size).map (fun i => offset * g ^ i)

/-! ## Lemmas -/

open Polynomial Finset

theorem lInner_length (x : F) (m : ℕ) (l : List F) : (lInner x m l).length = l.length := by
  induction m generalizing l with
  | zero => rfl
  | succ m ih => unfold lInner; rw [ih]; simp

theorem getD_set (l : List F) (i j : ℕ) (y : F) :
    (l.set i y).getD j 0 = if i = j ∧ i < l.length then y else l.getD j 0 := by
  simp only [List.getD_eq_getElem?_getD, List.getElem?_set]
  by_cases h : i = j
  · subst h
    by_cases h2 : i < l.length
    · simp [h2]
    · simp [h2]
  · simp [h]

theorem lInner_get (x : F) (m : ℕ) (l : List F) (hm : m < l.length) (j : ℕ) :
    (lInner x m l).getD j 0 =
      if 1 ≤ j ∧ j ≤ m then l.getD (j - 1) 0 - x * l.getD j 0 else l.getD j 0 := by
  induction m generalizing l with
  | zero =>
    unfold lInner
    rw [if_neg (by omega)]
  | succ m ih =>
    unfold lInner
    rw [ih _ (by simp; omega)]
    by_cases h1 : 1 ≤ j ∧ j ≤ m
    · rw [if_pos h1, if_pos (by omega), getD_set, getD_set, if_neg (by omega), if_neg (by omega)]
    · rw [if_neg h1, getD_set]
      by_cases h2 : j = m + 1
      · subst h2
        rw [if_pos ⟨rfl, by omega⟩, if_pos (by omega)]; rfl
      · rw [if_neg (by omega), if_neg (by omega)]

/-- the nodal polynomial of the first `i` points -/
noncomputable def nodalP (xs : List F) (i : ℕ) : F[X] := ∏ k ∈ range i, (X - C (xs.getD k 0))

theorem nodalP_monic (xs : List F) (i : ℕ) : (nodalP xs i).Monic :=
  monic_prod_of_monic _ _ fun _ _ => monic_X_sub_C _

theorem nodalP_natDegree (xs : List F) (i : ℕ) : (nodalP xs i).natDegree = i := by
  unfold nodalP
  rw [natDegree_prod_of_monic _ _ fun _ _ => monic_X_sub_C _]
  simp

theorem nodalP_succ (xs : List F) (i : ℕ) :
    nodalP xs (i + 1) = nodalP xs i * (X - C (xs.getD i 0)) := by
  unfold nodalP; rw [prod_range_succ]

theorem mul_X_sub_C_coeff_zero' (q : F[X]) (x : F) : (q * (X - C x)).coeff 0 = -x * q.coeff 0 := by
  simp [mul_comm]

theorem mul_X_sub_C_coeff_succ (q : F[X]) (x : F) (j : ℕ) :
    (q * (X - C x)).coeff (j + 1) = q.coeff j - x * q.coeff (j + 1) := by
  rw [mul_sub, coeff_sub, coeff_mul_X, coeff_mul_C]; ring

theorem lStep_length (xs l : List F) (i : ℕ) : (lStep xs l i).length = l.length := by
  simp [lStep, lInner_length]

theorem lFold (xs : List F) (n i : ℕ) (hi : i ≤ n) (l0 : List F)
    (h0 : l0.length = n + 1) (h1 : l0.getD 0 0 = 1) (h2 : ∀ j, 0 < j → l0.getD j 0 = 0) :
    ((List.range' 1 i).foldl (lStep xs) l0).length = n + 1 ∧
    ∀ j, ((List.range' 1 i).foldl (lStep xs) l0).getD j 0 = (nodalP xs i).coeff j := by
  induction i with
  | zero =>
    refine ⟨by simpa using h0, fun j => ?_⟩
    rcases Nat.eq_zero_or_pos j with rfl | hj
    · simpa [nodalP] using h1
    · have : (nodalP xs 0).coeff j = 0 := by
        simp [nodalP, coeff_one, hj.ne']
      rw [this]; simpa using h2 j hj
  | succ i ih =>
    obtain ⟨hl, hc⟩ := ih (by omega)
    rw [show List.range' 1 (i + 1) = List.range' 1 i ++ [i + 1] by
      rw [List.range'_concat]; simp [Nat.add_comm], List.foldl_append]
    set l := (List.range' 1 i).foldl (lStep xs) l0
    refine ⟨by simp [lStep_length, hl], fun j => ?_⟩
    simp only [List.foldl_cons, List.foldl_nil, lStep, Nat.add_sub_cancel]
    rw [nodalP_succ, getD_set]
    have hlen : (l.set (i + 1) (1 : F)).length = n + 1 := by simp [hl]
    have hdeg : (nodalP xs i).coeff i = 1 := by
      have := (nodalP_monic xs i).coeff_natDegree
      rwa [nodalP_natDegree] at this
    have hbig : ∀ k, i < k → (nodalP xs i).coeff k = 0 := fun k hk =>
      coeff_eq_zero_of_natDegree_lt (by rw [nodalP_natDegree]; exact hk)
    rcases j with _ | j
    · rw [if_pos ⟨rfl, by rw [lInner_length, hlen]; omega⟩, lInner_get _ _ _ (by omega),
        if_neg (by omega), getD_set, if_neg (by omega), hc, mul_X_sub_C_coeff_zero']
    · rw [if_neg (by omega), lInner_get _ _ _ (by omega), mul_X_sub_C_coeff_succ]
      by_cases hj : j + 1 ≤ i
      · rw [if_pos (by omega), getD_set, getD_set, if_neg (by omega), if_neg (by omega), hc, hc]
        rfl
      · rw [if_neg (by omega), getD_set]
        by_cases hj2 : j = i
        · subst hj2
          rw [if_pos ⟨rfl, by omega⟩, hdeg, hbig (j + 1) (by omega)]; ring
        · rw [if_neg (by omega), hc, hbig j (by omega), hbig (j + 1) (by omega)]; ring

theorem lPoly_coeff (xs : List F) (n j : ℕ) :
    (lPoly xs n).getD j 0 = (nodalP xs n).coeff j := by
  refine (lFold xs n n (le_refl _) _ (by simp) ?_ ?_).2 j
  · rw [getD_set]; simp
  · intro j hj
    rw [getD_set, if_neg (by omega)]
    simp only [List.getD_eq_getElem?_getD, List.getElem?_replicate]
    split <;> rfl

theorem liInner_length (l : List F) (x : F) (m : ℕ) (li : List F) :
    (liInner l x m li).length = li.length := by
  induction m generalizing li with
  | zero => rfl
  | succ m ih => unfold liInner; rw [ih]; simp

/-- synthetic division -/
theorem liInner_get (l : List F) (x : F) (q : F[X]) (m : ℕ) (li : List F) (hm : m < li.length)
    (hl : ∀ j, l.getD (j + 1) 0 = q.coeff j - x * q.coeff (j + 1))
    (h : ∀ j, m ≤ j → li.getD j 0 = q.coeff j) (j : ℕ) :
    (liInner l x m li).getD j 0 = q.coeff j := by
  induction m generalizing li with
  | zero => exact h j (by omega)
  | succ m ih =>
    unfold liInner
    refine ih _ (by simp; omega) ?_
    intro j' hj'
    rw [getD_set]
    by_cases e : m = j'
    · subst e
      rw [if_pos ⟨rfl, by omega⟩, hl, h (m + 1) (by omega)]; ring
    · rw [if_neg (by simp [e])]
      exact h j' (by omega)

/-- `∏_{k ≠ i} (X - x_k)` -/
noncomputable def cofactor (xs : List F) (n i : ℕ) : F[X] :=
  ∏ k ∈ (range n).erase i, (X - C (xs.getD k 0))

theorem nodalP_eq_cofactor (xs : List F) {n i : ℕ} (hi : i < n) :
    nodalP xs n = cofactor xs n i * (X - C (xs.getD i 0)) := by
  unfold nodalP cofactor
  rw [prod_erase_mul _ _ (mem_range.2 hi)]

theorem cofactor_natDegree (xs : List F) {n i : ℕ} (hi : i < n) :
    (cofactor xs n i).natDegree = n - 1 := by
  unfold cofactor
  rw [natDegree_prod_of_monic _ _ fun _ _ => monic_X_sub_C _]
  simp [card_erase_of_mem (mem_range.2 hi)]

theorem cofactor_coeff_top (xs : List F) {n i : ℕ} (hi : i < n) :
    (cofactor xs n i).coeff (n - 1) = 1 := by
  have h : (cofactor xs n i).Monic := monic_prod_of_monic _ _ fun _ _ => monic_X_sub_C _
  have := h.coeff_natDegree
  rwa [cofactor_natDegree xs hi] at this

theorem li_get (xs : List F) {n i : ℕ} (hi : i < n) (j : ℕ) :
    (liInner (lPoly xs n) (xs.getD i 0) (n - 1) ((List.replicate n 0).set (n - 1) 1)).getD j 0
      = (cofactor xs n i).coeff j := by
  refine liInner_get _ _ _ _ _ (by simp; omega) ?_ ?_ j
  · intro j
    rw [lPoly_coeff, nodalP_eq_cofactor xs hi, mul_X_sub_C_coeff_succ]
  · intro j hj
    rw [getD_set]
    by_cases e : n - 1 = j
    · subst e
      rw [if_pos ⟨rfl, by simp; omega⟩, cofactor_coeff_top xs hi]
    · rw [if_neg (by simp [e]), coeff_eq_zero_of_natDegree_lt (by
        rw [cofactor_natDegree xs hi]; omega)]
      simp [List.getD_eq_getElem?_getD, List.getElem?_replicate]
      split <;> rfl

/-! ### weights -/

theorem weightLoop_ok (xs : List F) (i : ℕ) (js : List ℕ) (ret : F)
    (h : ∀ j ∈ js, j ≠ i → xs.getD i 0 ≠ xs.getD j 0) :
    weightLoop xs i js ret = .ok (ret * ((js.filter (· ≠ i)).map
      (fun j => (xs.getD i 0 - xs.getD j 0)⁻¹)).prod) := by
  induction js generalizing ret with
  | nil => simp [weightLoop]
  | cons j js ih =>
    unfold weightLoop
    by_cases e : i = j
    · subst e
      rw [if_neg (by simp), ih _ (fun j' hj' => h j' (by simp [hj']))]
      simp
    · have hne : xs.getD i 0 - xs.getD j 0 ≠ 0 := sub_ne_zero.2 (h j (by simp) (Ne.symm e))
      rw [if_pos e]
      simp only
      rw [if_neg hne, ih _ (fun j' hj' => h j' (by simp [hj']))]
      simp [Ne.symm e, div_eq_mul_inv, mul_assoc]

theorem weightLoop_err (xs : List F) (i : ℕ) (js : List ℕ) (ret : F)
    (h : ∃ j ∈ js, j ≠ i ∧ xs.getD i 0 = xs.getD j 0) :
    weightLoop xs i js ret = .error .duplicate := by
  induction js generalizing ret with
  | nil => obtain ⟨j, hj, _⟩ := h; simp at hj
  | cons j js ih =>
    unfold weightLoop
    by_cases e : i = j
    · subst e
      rw [if_neg (by simp)]
      refine ih _ ?_
      obtain ⟨j', hj', h1, h2⟩ := h
      rcases List.mem_cons.1 hj' with rfl | hj'
      · exact absurd rfl h1
      · exact ⟨j', hj', h1, h2⟩
    · rw [if_pos e]
      simp only
      by_cases hd : xs.getD i 0 - xs.getD j 0 = 0
      · rw [if_pos hd]
      · rw [if_neg hd]
        refine ih _ ?_
        obtain ⟨j', hj', h1, h2⟩ := h
        rcases List.mem_cons.1 hj' with rfl | hj'
        · exact absurd (sub_eq_zero.2 h2) hd
        · exact ⟨j', hj', h1, h2⟩

theorem mapM_ok {α β ε : Type} (f : α → Except ε β) (g : α → β) (l : List α)
    (h : ∀ x ∈ l, f x = .ok (g x)) : l.mapM f = .ok (l.map g) := by
  induction l with
  | nil => rfl
  | cons a l ih =>
    rw [List.mapM_cons, h a (by simp), ih (fun x hx => h x (by simp [hx]))]; rfl

theorem mapM_err {α β ε : Type} (f : α → Except ε β) (l : List α) (e : ε)
    (h : ∀ x ∈ l, (∃ y, f x = .ok y) ∨ f x = .error e) (hx : ∃ x ∈ l, f x = .error e) :
    l.mapM f = .error e := by
  induction l with
  | nil => obtain ⟨x, hx, _⟩ := hx; simp at hx
  | cons a l ih =>
    rw [List.mapM_cons]
    rcases h a (by simp) with ⟨y, hy⟩ | he
    · rw [hy]
      obtain ⟨x, hx, hxe⟩ := hx
      rcases List.mem_cons.1 hx with rfl | hx
      · rw [hy] at hxe; cases hxe
      · have := ih (fun x hx => h x (by simp [hx])) ⟨x, hx, hxe⟩
        show (do let ys ← l.mapM f; pure (y :: ys)) = _
        rw [this]; rfl
    · rw [he]; rfl

/-- pairwise distinct evaluation points -/
def Distinct (xs : List F) (n : ℕ) : Prop :=
  ∀ i j, i < n → j < n → i ≠ j → xs.getD i 0 ≠ xs.getD j 0

theorem weights_ok (xs : List F) (n : ℕ) (h : Distinct xs n) :
    weights xs n = .ok ((List.range n).map (fun i =>
      ∏ j ∈ (range n).erase i, (xs.getD i 0 - xs.getD j 0)⁻¹)) := by
  unfold weights
  refine mapM_ok _ _ _ ?_
  intro i hi
  rw [weightLoop_ok _ _ _ _ (fun j hj hji => h i j (List.mem_range.1 hi) (List.mem_range.1 hj)
    (Ne.symm hji)), one_mul]
  congr 1
  rw [← Finset.filter_ne' (range n) i]
  rw [← List.prod_toFinset]
  · congr 1
    ext j; simp
  · exact List.nodup_range.filter _

theorem weights_err (xs : List F) (n : ℕ) (h : ¬ Distinct xs n) :
    weights xs n = .error .duplicate := by
  unfold weights
  unfold Distinct at h
  push Not at h
  obtain ⟨i, j, hi, hj, hij, hx⟩ := h
  refine mapM_err _ _ _ ?_ ⟨i, List.mem_range.2 hi,
    weightLoop_err _ _ _ _ ⟨j, List.mem_range.2 hj, Ne.symm hij, hx⟩⟩
  intro k _
  by_cases hk : ∃ j ∈ List.range n, j ≠ k ∧ xs.getD k 0 = xs.getD j 0
  · exact Or.inr (weightLoop_err _ _ _ _ hk)
  · push Not at hk
    exact Or.inl ⟨_, weightLoop_ok _ _ _ _ hk⟩

/-! ### the result -/

theorem fFold (xs l w : List F) (n : ℕ) (sh : List (F × F)) (s : ℕ) (f0 : List F)
    (h0 : f0.length = n) :
    ((enumFrom s sh).foldl (fStep xs l w n) f0).length = n ∧
    ∀ j, j < n → ((enumFrom s sh).foldl (fStep xs l w n) f0).getD j 0 = f0.getD j 0 +
      ∑ i ∈ range sh.length, w.getD (s + i) 0 * (sh.getD i (0, 0)).2 *
        (liInner l (xs.getD (s + i) 0) (n - 1) ((List.replicate n 0).set (n - 1) 1)).getD j 0 := by
  induction sh generalizing s f0 with
  | nil => simp [enumFrom, h0]
  | cons a sh ih =>
    unfold enumFrom
    rw [List.foldl_cons]
    obtain ⟨h1, h2⟩ := ih (s + 1) (fStep xs l w n f0 (s, a)) (by simp [fStep])
    refine ⟨h1, fun j hj => ?_⟩
    rw [h2 j hj, List.length_cons, sum_range_succ']
    have : (fStep xs l w n f0 (s, a)).getD j 0 = f0.getD j 0 + w.getD s 0 * a.2 *
        (liInner l (xs.getD s 0) (n - 1) ((List.replicate n 0).set (n - 1) 1)).getD j 0 := by
      simp [fStep, List.getD_eq_getElem?_getD, List.getElem?_range hj]
    rw [this]
    simp only [List.getD_cons_succ, List.getD_cons_zero, Nat.add_zero]
    rw [add_assoc]
    congr 1
    rw [add_comm]
    congr 1
    refine sum_congr rfl fun i _ => ?_
    rw [show s + 1 + i = s + (i + 1) by omega]

/-- the polynomial with the given coefficients, evaluated -/
def evalList (f : List F) (x : F) : F := ∑ j ∈ range f.length, f.getD j 0 * x ^ j

theorem decode_ok (shares : List (F × F)) (n : ℕ) (hn : n ≤ shares.length)
    (hd : Distinct (shares.map Prod.fst) n) :
    ∃ f, decode shares n = .ok f ∧ f.length = n ∧
      ∀ i, i < n → evalList f (shares.getD i (0, 0)).1 = (shares.getD i (0, 0)).2 := by
  have hlen : (shares.take n).length = n := by simp [hn]
  set sh := shares.take n with hsh
  set xs := sh.map Prod.fst with hxs
  have hget : ∀ i, i < n → sh.getD i (0, 0) = shares.getD i (0, 0) := by
    intro i hi
    simp [hsh, List.getD_eq_getElem?_getD, hi]
  have hxget : ∀ i, i < n → xs.getD i 0 = (shares.getD i (0, 0)).1 := by
    intro i hi
    rw [← hget i hi]
    simp only [hxs, List.getD_eq_getElem?_getD, List.getElem?_map]
    cases sh[i]? <;> rfl
  have hxget' : ∀ i, i < n → (shares.map Prod.fst).getD i 0 = (shares.getD i (0, 0)).1 := by
    intro i hi
    simp only [List.getD_eq_getElem?_getD, List.getElem?_map]
    cases shares[i]? <;> rfl
  have hd' : Distinct xs n := by
    intro i j hi hj hij
    rw [hxget i hi, hxget j hj, ← hxget' i hi, ← hxget' j hj]
    exact hd i j hi hj hij
  set w := (List.range n).map (fun i =>
      ∏ j ∈ (range n).erase i, (xs.getD i 0 - xs.getD j 0)⁻¹) with hw
  have hdec : decode shares n = .ok ((enumFrom 0 sh).foldl (fStep xs (lPoly xs n) w n)
      (List.replicate n 0)) := by
    unfold decode
    simp only [← hsh, ← hxs]
    rw [if_neg (by omega), weights_ok xs n hd']
  obtain ⟨h1, h2⟩ := fFold xs (lPoly xs n) w n sh 0 (List.replicate n 0) (by simp)
  set f := (enumFrom 0 sh).foldl (fStep xs (lPoly xs n) w n) (List.replicate n 0)
  have hf : ∀ j, j < n → f.getD j 0 = ∑ i ∈ range n, w.getD i 0 * (shares.getD i (0, 0)).2 *
      (cofactor xs n i).coeff j := by
    intro j hj
    rw [h2 j hj, hlen]
    have : (List.replicate n (0 : F)).getD j 0 = 0 := by
      simp [List.getD_eq_getElem?_getD, hj]
    rw [this, zero_add]
    refine sum_congr rfl fun i hi => ?_
    rw [zero_add, hget i (mem_range.1 hi), li_get xs (mem_range.1 hi)]
  refine ⟨f, hdec, h1, fun k hk => ?_⟩
  unfold evalList
  rw [h1]
  have e1 : ∑ j ∈ range n, f.getD j 0 * (shares.getD k (0, 0)).1 ^ j =
      ∑ i ∈ range n, w.getD i 0 * (shares.getD i (0, 0)).2 *
        (cofactor xs n i).eval (shares.getD k (0, 0)).1 := by
    calc _ = ∑ j ∈ range n, ∑ i ∈ range n, w.getD i 0 * (shares.getD i (0, 0)).2 *
          ((cofactor xs n i).coeff j * (shares.getD k (0, 0)).1 ^ j) := by
          refine sum_congr rfl fun j hj => ?_
          rw [hf j (mem_range.1 hj), sum_mul]
          exact sum_congr rfl fun i _ => by ring
      _ = _ := by
          rw [sum_comm]
          refine sum_congr rfl fun i hi => ?_
          rw [← mul_sum, eval_eq_sum_range' (n := n)]
          rw [cofactor_natDegree xs (mem_range.1 hi)]
          have := mem_range.1 hi; omega
  rw [e1, sum_eq_single_of_mem k (mem_range.2 hk)]
  · have hwk : w.getD k 0 = ∏ j ∈ (range n).erase k, (xs.getD k 0 - xs.getD j 0)⁻¹ := by
      simp [hw, List.getD_eq_getElem?_getD, List.getElem?_range hk]
    rw [hwk, ← hxget k hk]
    unfold cofactor
    rw [eval_prod]
    simp only [eval_sub, eval_X, eval_C]
    rw [mul_right_comm, ← prod_mul_distrib, prod_eq_one, one_mul]
    intro j hj
    rw [mem_erase, mem_range] at hj
    exact inv_mul_cancel₀ (sub_ne_zero.2 (hd' k j hk hj.2 (Ne.symm hj.1)))
  · intro i hi hik
    rw [← hxget k hk]
    have : (cofactor xs n i).eval (xs.getD k 0) = 0 := by
      unfold cofactor
      rw [eval_prod]
      refine prod_eq_zero (i := k) (by rw [mem_erase, mem_range]; exact ⟨Ne.symm hik, hk⟩) ?_
      simp
    rw [this, mul_zero]

theorem decode_insufficient (shares : List (F × F)) (n : ℕ) (hn : shares.length < n) :
    decode shares n = .error .insufficient := by
  unfold decode
  simp only
  rw [if_pos (by simp; omega)]

theorem decode_duplicate (shares : List (F × F)) (n : ℕ) (hn : n ≤ shares.length)
    (hd : ¬ Distinct (shares.map Prod.fst) n) : decode shares n = .error .duplicate := by
  unfold decode
  simp only
  rw [if_neg (by simp; omega), weights_err]
  intro h
  refine hd fun i j hi hj hij => ?_
  have := h i j hi hj hij
  simpa [List.getD_eq_getElem?_getD, List.getElem?_take, hi, hj] using this

/-- uniqueness of interpolation -/
theorem evalList_unique (f g : List F) (n : ℕ) (hf : f.length = n) (hg : g.length = n)
    (xs : List F) (hd : Distinct xs n)
    (h : ∀ i, i < n → evalList f (xs.getD i 0) = evalList g (xs.getD i 0)) : f = g := by
  have key : (∑ j ∈ range n, C (f.getD j 0 - g.getD j 0) * X ^ j : F[X]) = 0 := by
    refine eq_zero_of_degree_lt_of_eval_index_eq_zero (s := range n) (v := fun i => xs.getD i 0)
      ?_ ?_ ?_
    · intro i hi j hj hij
      by_contra hne
      exact hd i j (by simpa using hi) (by simpa using hj) hne hij
    · rw [card_range]
      rw [degree_lt_iff_coeff_zero]
      intro m hm
      rw [finsetSum_coeff]
      refine sum_eq_zero fun j hj => ?_
      have := mem_range.1 hj
      rw [coeff_C_mul_X_pow, if_neg (by omega)]
    · intro i hi
      have := h i (mem_range.1 hi)
      unfold evalList at this
      rw [hf, hg, ← sub_eq_zero, ← sum_sub_distrib] at this
      rw [eval_finsetSum]
      refine Eq.trans (sum_congr rfl fun j _ => ?_) this
      rw [eval_mul, eval_C, eval_pow, eval_X]; ring
  apply List.ext_getElem?
  intro j
  by_cases hj : j < n
  · have := congrArg (fun q => q.coeff j) key
    simp only [finsetSum_coeff, coeff_C_mul_X_pow, coeff_zero] at this
    rw [sum_eq_single_of_mem j (mem_range.2 hj) (by intro b _ hb; rw [if_neg (Ne.symm hb)]),
      if_pos rfl, sub_eq_zero] at this
    rw [List.getElem?_eq_getElem (by omega), List.getElem?_eq_getElem (by omega)]
    simpa [List.getD_eq_getElem?_getD, List.getElem?_eq_getElem, hf, hg, hj] using this
  · rw [List.getElem?_eq_none (by omega), List.getElem?_eq_none (by omega)]

theorem encodeAt_eq (data : List F) (x : F) : encodeAt data x = evalList data x := by
  have key : ∀ (data : List F) (v p : F), (data.foldl (fun (s : F × F) coef =>
      (s.1 + s.2 * coef, s.2 * x)) (v, p)).1 = v + p * evalList data x := by
    intro data
    induction data with
    | nil => intro v p; simp [evalList]
    | cons a data ih =>
      intro v p
      rw [List.foldl_cons, ih]
      have : evalList (a :: data) x = a + x * evalList data x := by
        unfold evalList
        rw [List.length_cons, sum_range_succ', mul_sum]
        simp only [List.getD_cons_succ, List.getD_cons_zero, pow_zero, mul_one]
        rw [add_comm]
        congr 1
        exact sum_congr rfl fun j _ => by ring
      rw [this]; ring
  unfold encodeAt
  rw [key]; ring

end Verif.RS
