import Verif.Hash.Poseidon2
import Verif.Hash.RescueLemmas
import Mathlib.Data.Set.Finite.List
import Mathlib.Data.Set.Finite.Lemmas
import Mathlib.GroupTheory.Perm.Cycle.Type
import Mathlib.LinearAlgebra.Matrix.NonsingularInverse
import Mathlib.Algebra.BigOperators.Pi
import Mathlib.Tactic.LinearCombination
import Mathlib.Tactic.FieldSimp
import Mathlib.FieldTheory.Finite.Basic

/-! # Lemmas on Poseidon2 -/

set_option linter.unusedSectionVars false

namespace Verif.Poseidon2

/-! ## Maps on a finite set -/

section
variable {α : Type} {S : Set α} {f g : α → α}

theorem injOn_comp_iff (hS : S.Finite) (_hf : Set.MapsTo f S S) (hg : Set.MapsTo g S S) :
    Set.InjOn (f ∘ g) S ↔ Set.InjOn f S ∧ Set.InjOn g S := by
  constructor
  · intro h
    have hgi : Set.InjOn g S := by
      intro x hx y hy he
      exact h hx hy (congrArg f he)
    have hgb := (hS.injOn_iff_bijOn_of_mapsTo hg).1 hgi
    refine ⟨?_, hgi⟩
    intro x hx y hy he
    obtain ⟨x', hx', rfl⟩ := hgb.surjOn hx
    obtain ⟨y', hy', rfl⟩ := hgb.surjOn hy
    rw [h hx' hy' he]
  · rintro ⟨h1, h2⟩
    exact h1.comp h2 hg

end

/-- states of width `T` -/
def St (F : Type) (T : ℕ) : Set (List F) := {s | s.length = T}

theorem st_finite (F : Type) [Finite F] (T : ℕ) : (St F T).Finite := List.finite_length_eq F T

section field
variable {F : Type} [Field F]

/-! ## The external matrix -/

/-- the documented 4 by 4 matrix, `external.rs:8-11` -/
def M4 : Fin 4 → Fin 4 → ℕ := ![![2, 3, 1, 1], ![1, 2, 3, 1], ![1, 1, 2, 3], ![3, 1, 1, 2]]

def flat (bs : List (Fin 4 → F)) : List F := bs.flatMap fun b => [b 0, b 1, b 2, b 3]

theorem flat_cons (b : Fin 4 → F) (bs) : flat (b :: bs) = b 0 :: b 1 :: b 2 :: b 3 :: flat bs := rfl

theorem flat_length (bs : List (Fin 4 → F)) : (flat bs).length = 4 * bs.length := by
  induction bs with
  | nil => rfl
  | cons b bs ih => rw [flat_cons]; simp [ih]; ring

theorem flat_injective {bs cs : List (Fin 4 → F)} (h : flat bs = flat cs) : bs = cs := by
  induction bs generalizing cs with
  | nil =>
    cases cs with
    | nil => rfl
    | cons c cs => rw [flat_cons] at h; simp [flat] at h
  | cons b bs ih =>
    cases cs with
    | nil => rw [flat_cons] at h; simp [flat] at h
    | cons c cs =>
      rw [flat_cons, flat_cons] at h
      simp only [List.cons.injEq] at h
      obtain ⟨h0, h1, h2, h3, h4⟩ := h
      rw [ih h4]
      congr 1
      funext i
      fin_cases i <;> assumption

theorem exists_flat (n : ℕ) : ∀ s : List F, s.length = 4 * n → ∃ bs, flat bs = s ∧ bs.length = n := by
  induction n with
  | zero =>
    intro s hs
    exact ⟨[], by rw [List.length_eq_zero_iff.1 (by omega : s.length = 0)]; rfl, rfl⟩
  | succ n ih =>
    intro s hs
    obtain _ | ⟨a, _ | ⟨b, _ | ⟨c, _ | ⟨d, s⟩⟩⟩⟩ := s <;> simp only [List.length_cons, List.length_nil] at hs
    · omega
    · omega
    · omega
    · omega
    obtain ⟨bs, h1, h2⟩ := ih s (by omega)
    exact ⟨![a, b, c, d] :: bs, by rw [flat_cons, h1]; rfl, by simp [h2]⟩

/-- the documented matrix applied to a block -/
def m4 (b : Fin 4 → F) : Fin 4 → F := fun i => ∑ j, (M4 i j : F) * b j

theorem mat4_eq (b : Fin 4 → F) : mat4 (b 0) (b 1) (b 2) (b 3) = [m4 b 0, m4 b 1, m4 b 2, m4 b 3] := by
  simp only [mat4, m4, M4, Fin.sum_univ_four, List.cons.injEq, and_true]
  refine ⟨?_, ?_, ?_, ?_⟩ <;> simp <;> ring

theorem chunks4_flat (bs : List (Fin 4 → F)) : chunks4 (flat bs) = flat (bs.map m4) := by
  induction bs with
  | nil => rfl
  | cons b bs ih =>
    rw [flat_cons, chunks4, ih, mat4_eq, List.map_cons, flat_cons]
    rfl

theorem getD_flat (k : Fin 4) : ∀ (bs : List (Fin 4 → F)) (j : ℕ),
    (flat bs).getD (4 * j + k) 0 = (bs.getD j 0) k := by
  intro bs
  induction bs with
  | nil => intro j; simp [flat]
  | cons b bs ih =>
    intro j
    cases j with
    | zero =>
      rw [flat_cons]
      fin_cases k <;> simp
    | succ j =>
      rw [flat_cons]
      have : 4 * (j + 1) + (k : ℕ) = (4 * j + k) + 1 + 1 + 1 + 1 := by ring
      rw [this]
      simp only [List.getD_cons_succ]
      exact ih j

theorem sum4_flat (k : Fin 4) (bs : List (Fin 4 → F)) : sum4 k (flat bs) = bs.sum k := by
  unfold sum4
  have h : (flat bs).length / 4 = bs.length := by rw [flat_length]; omega
  rw [h, Pi.list_sum_apply]
  congr 1
  simp only [getD_flat]
  apply List.ext_getElem
  · simp
  · intro i h1 h2
    simp at h1 h2
    simp [h1]

theorem mapIdx_flat (S : Fin 4 → F) (bs : List (Fin 4 → F)) :
    ((flat bs).mapIdx fun i x => x + [S 0, S 1, S 2, S 3].getD (i % 4) 0) =
      flat (bs.map (· + S)) := by
  induction bs with
  | nil => rfl
  | cons b bs ih =>
    rw [List.map_cons, flat_cons, flat_cons]
    simp only [List.mapIdx_cons]
    have : ∀ i, (i + 1 + 1 + 1 + 1) % 4 = i % 4 := by intro i; omega
    simp only [this, ih]
    simp

/-- the external matrix on blocks: `M4` on every block, and the sum of the blocks added to each -/
theorem matmulExternal_flat (bs : List (Fin 4 → F)) (hn : bs.length ∈ [1, 2, 3, 4, 5, 6]) :
    matmulExternal (flat bs) = some (flat (bs.map fun b => m4 b + (bs.map m4).sum)) := by
  have hlen := flat_length bs
  have hmem : (flat bs).length ∈ [4, 8, 12, 16, 20, 24] := by
    rw [hlen]
    simp only [List.mem_cons, List.not_mem_nil, or_false] at hn ⊢
    omega
  have hpos : 4 ≤ (flat bs).length := by
    simp only [List.mem_cons, List.not_mem_nil, or_false] at hmem
    omega
  have key : matmulExternal (flat bs) = some ((chunks4 (flat bs)).mapIdx fun i x => x +
      [sum4 0 (chunks4 (flat bs)), sum4 1 (chunks4 (flat bs)), sum4 2 (chunks4 (flat bs)),
        sum4 3 (chunks4 (flat bs))].getD (i % 4) 0) := by
    unfold matmulExternal
    split
    · rename_i h; rw [h] at hpos; simp at hpos
    · rename_i h; rw [h] at hpos; simp at hpos
    · rw [if_pos hmem]
  rw [key, chunks4_flat]
  have h0 := sum4_flat (0 : Fin 4) (bs.map m4)
  have h1 := sum4_flat (1 : Fin 4) (bs.map m4)
  have h2 := sum4_flat (2 : Fin 4) (bs.map m4)
  have h3 := sum4_flat (3 : Fin 4) (bs.map m4)
  simp only [Fin.val_zero, Fin.val_one, Fin.val_two, Fin.isValue] at h0 h1 h2 h3
  have h3' : sum4 3 (flat (bs.map m4)) = (bs.map m4).sum 3 := h3
  rw [h0, h1, h2, h3', mapIdx_flat, List.map_map]
  rfl

theorem m4_injective (h35 : (35 : F) ≠ 0) : Function.Injective (m4 : (Fin 4 → F) → _) := by
  intro b c h
  have e0 := congrFun h 0
  have e1 := congrFun h 1
  have e2 := congrFun h 2
  have e3 := congrFun h 3
  simp [m4, M4, Fin.sum_univ_four] at e0 e1 e2 e3
  have c0 : (35 : F) * b 0 = 35 * c 0 := by linear_combination -4 * e0 + 3 * e1 - 11 * e2 + 17 * e3
  have c1 : (35 : F) * b 1 = 35 * c 1 := by linear_combination 17 * e0 - 4 * e1 + 3 * e2 - 11 * e3
  have c2 : (35 : F) * b 2 = 35 * c 2 := by linear_combination -11 * e0 + 17 * e1 - 4 * e2 + 3 * e3
  have c3 : (35 : F) * b 3 = 35 * c 3 := by linear_combination 3 * e0 - 11 * e1 + 17 * e2 - 4 * e3
  funext i
  fin_cases i
  exacts [mul_left_cancel₀ h35 c0, mul_left_cancel₀ h35 c1, mul_left_cancel₀ h35 c2,
    mul_left_cancel₀ h35 c3]

/-- the widths supported by the code -/
def widths : List ℕ := [2, 3, 4, 8, 12, 16, 20, 24]

theorem width_cases {T : ℕ} (h : T ∈ widths) :
    T = 2 ∨ T = 3 ∨ ∃ n ∈ [1, 2, 3, 4, 5, 6], T = 4 * n := by
  simp only [widths, List.mem_cons, List.not_mem_nil, or_false] at h
  rcases h with h | h | h | h | h | h | h | h
  · exact Or.inl h
  · exact Or.inr (Or.inl h)
  · exact Or.inr (Or.inr ⟨1, by simp, h⟩)
  · exact Or.inr (Or.inr ⟨2, by simp, h⟩)
  · exact Or.inr (Or.inr ⟨3, by simp, h⟩)
  · exact Or.inr (Or.inr ⟨4, by simp, h⟩)
  · exact Or.inr (Or.inr ⟨5, by simp, h⟩)
  · exact Or.inr (Or.inr ⟨6, by simp, h⟩)

/-- the value of the external matrix multiplication -/
def ext (s : List F) : List F := (matmulExternal s).getD []

theorem matmulExternal_some {T : ℕ} (hT : T ∈ widths) {s : List F} (hs : s ∈ St F T) :
    matmulExternal s = some (ext s) ∧ ext s ∈ St F T := by
  have hs' : s.length = T := hs
  rcases width_cases hT with rfl | rfl | ⟨n, hn, rfl⟩
  · obtain _ | ⟨a, _ | ⟨b, _ | ⟨c, s⟩⟩⟩ := s <;> simp at hs'
    exact ⟨rfl, rfl⟩
  · obtain _ | ⟨a, _ | ⟨b, _ | ⟨c, _ | ⟨d, s⟩⟩⟩⟩ := s <;> simp at hs'
    exact ⟨rfl, rfl⟩
  · obtain ⟨bs, rfl, hb⟩ := exists_flat n s hs'
    subst hb
    have h := matmulExternal_flat bs hn
    refine ⟨by rw [ext, h]; rfl, ?_⟩
    show (ext (flat bs)).length = _
    rw [ext, h]
    simp [flat_length]

theorem ext_injOn (h2 : (2 : F) ≠ 0) (h3 : (3 : F) ≠ 0) (h5 : (5 : F) ≠ 0) (h7 : (7 : F) ≠ 0)
    {T : ℕ} (hT : T ∈ widths) : Set.InjOn (ext : List F → List F) (St F T) := by
  intro s hs t ht he
  have hs' : s.length = T := hs
  have ht' : t.length = T := ht
  rcases width_cases hT with rfl | rfl | ⟨n, hn, rfl⟩
  · obtain _ | ⟨a, _ | ⟨b, _ | ⟨c, s⟩⟩⟩ := s <;> simp at hs'
    obtain _ | ⟨a', _ | ⟨b', _ | ⟨c', t⟩⟩⟩ := t <;> simp at ht'
    simp only [ext, matmulExternal, Option.getD_some, List.cons.injEq, and_true] at he
    obtain ⟨e0, e1⟩ := he
    have c0 : (3 : F) * a = 3 * a' := by linear_combination 2 * e0 - e1
    have c1 : (3 : F) * b = 3 * b' := by linear_combination 2 * e1 - e0
    rw [mul_left_cancel₀ h3 c0, mul_left_cancel₀ h3 c1]
  · obtain _ | ⟨a, _ | ⟨b, _ | ⟨c, _ | ⟨d, s⟩⟩⟩⟩ := s <;> simp at hs'
    obtain _ | ⟨a', _ | ⟨b', _ | ⟨c', _ | ⟨d', t⟩⟩⟩⟩ := t <;> simp at ht'
    simp only [ext, matmulExternal, Option.getD_some, List.cons.injEq, and_true] at he
    obtain ⟨e0, e1, e2⟩ := he
    have h4 : (4 : F) ≠ 0 := by
      have : (4 : F) = 2 * 2 := by norm_num
      rw [this]; exact mul_ne_zero h2 h2
    have c0 : (4 : F) * a = 4 * a' := by linear_combination 3 * e0 - e1 - e2
    have c1 : (4 : F) * b = 4 * b' := by linear_combination 3 * e1 - e0 - e2
    have c2 : (4 : F) * c = 4 * c' := by linear_combination 3 * e2 - e0 - e1
    rw [mul_left_cancel₀ h4 c0, mul_left_cancel₀ h4 c1, mul_left_cancel₀ h4 c2]
  · obtain ⟨bs, rfl, hb⟩ := exists_flat n s hs'
    obtain ⟨cs, rfl, hc⟩ := exists_flat n t ht'
    rw [ext, ext, matmulExternal_flat bs (by rw [hb]; exact hn),
      matmulExternal_flat cs (by rw [hc]; exact hn)] at he
    have he := flat_injective he
    have hsum : ∀ (l : List (Fin 4 → F)) (S : Fin 4 → F),
        (l.map fun b => m4 b + S).sum = (l.map m4).sum + (l.length : F) • S := by
      intro l S
      induction l with
      | nil => simp
      | cons b l ih =>
        simp only [List.map_cons, List.sum_cons, ih, List.length_cons, Nat.cast_add, Nat.cast_one,
          add_smul, one_smul]
        abel
    have h1 := congrArg List.sum he
    rw [hsum, hsum, hb, hc] at h1
    have hn0 : ((n : F) + 1) ≠ 0 := by
      simp only [List.mem_cons, List.not_mem_nil, or_false] at hn
      have h4 : (4 : F) ≠ 0 := by
        have : (4 : F) = 2 * 2 := by norm_num
        rw [this]; exact mul_ne_zero h2 h2
      have h6 : (6 : F) ≠ 0 := by
        have : (6 : F) = 2 * 3 := by norm_num
        rw [this]; exact mul_ne_zero h2 h3
      rcases hn with rfl | rfl | rfl | rfl | rfl | rfl <;> norm_num <;> assumption
    have hS : (bs.map m4).sum = (cs.map m4).sum := by
      have h2 : ((n : F) + 1) • (bs.map m4).sum = ((n : F) + 1) • (cs.map m4).sum := by
        rw [add_smul, add_smul, one_smul, one_smul, add_comm, h1, add_comm]
      exact smul_right_injective _ hn0 h2
    rw [hS] at he
    have h35 : (35 : F) ≠ 0 := by
      have : (35 : F) = 5 * 7 := by norm_num
      rw [this]; exact mul_ne_zero h5 h7
    have hinj : Function.Injective fun b : Fin 4 → F => m4 b + (cs.map m4).sum := by
      intro x y hxy
      exact m4_injective h35 (add_right_cancel hxy)
    rw [List.map_injective_iff.2 hinj he]

/-! ## The S-box layer -/

theorem sBox_eq (d : ℕ) (x : F) : sBox d x = x ^ d := by
  unfold sBox
  split
  · rename_i h; subst h; ring
  · rfl

theorem sbox_layer_injOn_iff {T : ℕ} (hT : 0 < T) (d : ℕ) {rc : List F} (hrc : rc.length = T) :
    Set.InjOn (fun s : List F => (addRcs s rc).map (sBox d)) (St F T) ↔
      Function.Injective fun x : F => x ^ d := by
  constructor
  · intro h x y hxy
    obtain ⟨r, rs, rfl⟩ : ∃ r rs, rc = r :: rs := by
      cases rc with
      | nil => simp at hrc; omega
      | cons r rs => exact ⟨r, rs, rfl⟩
    simp only [List.length_cons] at hrc
    have := @h ((x - r) :: List.replicate rs.length 0) (by simp [St]; omega)
      ((y - r) :: List.replicate rs.length 0) (by simp [St]; omega)
      (by simp only [addRcs, List.zipWith_cons_cons, List.map_cons, sub_add_cancel, sBox_eq]; congr 1)
    simpa using this
  · intro h s hs t ht he
    have hs' : s.length = T := hs
    have ht' : t.length = T := ht
    simp only [] at he
    have hinj : Function.Injective (sBox d : F → F) := by
      intro x y hxy; rw [sBox_eq, sBox_eq] at hxy; exact h hxy
    have he := List.map_injective_iff.2 hinj he
    unfold addRcs at he
    apply List.ext_getElem (by omega)
    intro i h1 h2
    have := congrArg (fun l => l[i]?) he
    simp only [List.getElem?_zipWith] at this
    have hi : i < rc.length := by omega
    simpa [List.getElem?_eq_getElem, h1, h2, hi] using this

/-! ## The internal layer -/

/-- the internal matrix: all ones plus a diagonal -/
def internalMat (T : ℕ) (v : List F) : Matrix (Fin T) (Fin T) F :=
  fun i j => 1 + if i = j then v.getD i 0 else 0

/-- the matrix used by the code: hard-coded for two widths -/
def codeMat (T : ℕ) (v : List F) : Matrix (Fin T) (Fin T) F :=
  if T = 2 then internalMat T [1, 2] else if T = 3 then internalMat T [1, 1, 2] else internalMat T v

theorem sum_ofFn' {T : ℕ} (x : Fin T → F) : (List.ofFn x).sum = ∑ i, x i := List.sum_ofFn

theorem zipWith_ofFn {T : ℕ} (x : Fin T → F) (v : List F) (hv : v.length = T) (c : F) :
    List.zipWith (fun x v => x * v + c) (List.ofFn x) v =
      List.ofFn fun i : Fin T => x i * v.getD i 0 + c := by
  apply List.ext_getElem
  · simp [hv]
  · intro i h1 h2
    simp at h1 h2
    simp [h1]

theorem internalMat_mulVec {T : ℕ} (v : List F) (x : Fin T → F) :
    (internalMat T v).mulVec x = fun i : Fin T => x i * v.getD i 0 + ∑ j, x j := by
  funext i
  simp only [Matrix.mulVec, dotProduct, internalMat, add_mul, one_mul, Finset.sum_add_distrib, ite_mul,
    zero_mul, Finset.sum_ite_eq, Finset.mem_univ, if_true]
  ring

theorem matmulInternal_ofFn {T : ℕ} (hT : T ∈ widths) {v : List F} (hv : v.length = T)
    (x : Fin T → F) :
    matmulInternal v (List.ofFn x) = List.ofFn ((codeMat T v).mulVec x) := by
  unfold codeMat
  rcases width_cases hT with rfl | rfl | ⟨n, hn, rfl⟩
  · rw [if_pos rfl, internalMat_mulVec]
    simp only [List.ofFn_succ, List.ofFn_zero, matmulInternal, Fin.sum_univ_two]
    simp
    ring
  · rw [if_neg (by norm_num), if_pos rfl, internalMat_mulVec]
    simp only [List.ofFn_succ, List.ofFn_zero, matmulInternal, Fin.sum_univ_three]
    simp
    ring
  · have h4 : 4 ≤ 4 * n := by
      simp only [List.mem_cons, List.not_mem_nil, or_false] at hn; omega
    rw [if_neg (by omega), if_neg (by omega), internalMat_mulVec, ← zipWith_ofFn x v hv,
      ← sum_ofFn']
    unfold matmulInternal
    split
    · rename_i h
      have := congrArg List.length h
      simp at this; omega
    · rename_i h
      have := congrArg List.length h
      simp at this; omega
    · rfl

theorem exists_ofFn {T : ℕ} {s : List F} (hs : s ∈ St F T) : ∃ x : Fin T → F, List.ofFn x = s := by
  have hs' : s.length = T := hs
  subst hs'
  exact ⟨fun i => s[i], List.ofFn_getElem⟩

theorem matmulInternal_mem {T : ℕ} (hT : T ∈ widths) {v : List F} (hv : v.length = T) :
    Set.MapsTo (matmulInternal v) (St F T) (St F T) := by
  intro s hs
  obtain ⟨x, rfl⟩ := exists_ofFn hs
  rw [matmulInternal_ofFn hT hv]
  simp [St]

theorem matmulInternal_injOn_iff {T : ℕ} (hT : T ∈ widths) {v : List F} (hv : v.length = T) :
    Set.InjOn (matmulInternal v) (St F T) ↔ (codeMat T v).det ≠ 0 := by
  rw [← isUnit_iff_ne_zero, ← Matrix.isUnit_iff_isUnit_det, ← Matrix.mulVec_injective_iff_isUnit]
  constructor
  · intro h x y hxy
    have := @h (List.ofFn x) (by simp [St]) (List.ofFn y) (by simp [St])
      (by rw [matmulInternal_ofFn hT hv, matmulInternal_ofFn hT hv]; rw [hxy])
    exact List.ofFn_injective this
  · intro h s hs t ht he
    obtain ⟨x, rfl⟩ := exists_ofFn hs
    obtain ⟨y, rfl⟩ := exists_ofFn ht
    rw [matmulInternal_ofFn hT hv, matmulInternal_ofFn hT hv] at he
    rw [h (List.ofFn_injective he)]

/-- the part of an internal round before the matrix -/
def headStep (d : ℕ) (rc : F) : List F → List F
  | [] => []
  | x :: s => sBox d (x + rc) :: s

theorem permuteInternal_eq {T : ℕ} (hT : T ∈ widths) (d : ℕ) (v : List F) (rc : F) {s : List F}
    (hs : s ∈ St F T) : permuteInternal d v s rc = (matmulInternal v ∘ headStep d rc) s := by
  cases s with
  | nil =>
    have : (0 : ℕ) = T := hs
    subst this
    simp [widths] at hT
  | cons x s => rfl

theorem headStep_mem {T : ℕ} (d : ℕ) (rc : F) : Set.MapsTo (headStep d rc) (St F T) (St F T) := by
  intro s hs
  cases s <;> exact hs

theorem headStep_injOn_iff {T : ℕ} (hT : 0 < T) (d : ℕ) (rc : F) :
    Set.InjOn (headStep d rc) (St F T) ↔ Function.Injective fun x : F => x ^ d := by
  constructor
  · intro h x y hxy
    have := @h ((x - rc) :: List.replicate (T - 1) 0) (by simp [St]; omega)
      ((y - rc) :: List.replicate (T - 1) 0) (by simp [St]; omega)
      (by simp only [headStep, sub_add_cancel, sBox_eq]; congr 1)
    simpa using this
  · intro h s hs t ht he
    have hs' : s.length = T := hs
    have ht' : t.length = T := ht
    cases s with
    | nil => simp at hs'; omega
    | cons x s =>
      cases t with
      | nil => simp at ht'; omega
      | cons y t =>
        simp only [headStep, sBox_eq, List.cons.injEq] at he
        rw [add_right_cancel (h he.1), he.2]

end field

/-! ## Rounds -/

section rounds
variable {p : ℕ} [Fact p.Prime]

theorem pow_injective_iff {d : ℕ} (hd : 0 < d) :
    (Function.Injective fun x : ZMod p => x ^ d) ↔ Nat.Coprime d (p - 1) := by
  constructor
  · intro h
    by_contra hc
    obtain ⟨q, hq, h1, h2⟩ := Nat.Prime.not_coprime_iff_dvd.1 hc
    have hcard : Fintype.card (ZMod p)ˣ = p - 1 := ZMod.card_units p
    have := Fact.mk hq
    obtain ⟨u, hu⟩ := exists_prime_orderOf_dvd_card q (by rw [hcard]; exact h2)
    have h3 : u ^ d = 1 := orderOf_dvd_iff_pow_eq_one.1 (by rw [hu]; exact h1)
    have h4 : (u : ZMod p) = 1 := by
      apply h
      simp only [one_pow]
      rw [← Units.val_pow_eq_pow_val, h3]; rfl
    have h5 : u = 1 := Units.ext h4
    rw [h5, orderOf_one] at hu
    exact hq.one_lt.ne hu
  · intro hc x y hxy
    simp only [] at hxy
    by_cases hx : x = 0
    · subst hx
      rw [zero_pow hd.ne'] at hxy
      exact (pow_eq_zero_iff hd.ne').1 hxy.symm |>.symm
    · have hy : y ≠ 0 := by
        rintro rfl
        rw [zero_pow hd.ne'] at hxy
        exact hx ((pow_eq_zero_iff hd.ne').1 hxy)
      have hcard : Nat.card (ZMod p)ˣ = p - 1 := by rw [Nat.card_eq_fintype_card, ZMod.card_units p]
      have hcop : (Nat.card (ZMod p)ˣ).Coprime d := by rw [hcard]; exact hc.symm
      have := (powCoprime hcop).injective (a₁ := Units.mk0 x hx) (a₂ := Units.mk0 y hy)
        (by ext; simpa using hxy)
      simpa using congrArg Units.val this

theorem cast_ne_zero_of_lt {n : ℕ} (h0 : 0 < n) (hn : n < p) : ((n : ℕ) : ZMod p) ≠ 0 := by
  rw [Ne, ZMod.natCast_eq_zero_iff]
  exact Nat.not_dvd_of_pos_of_lt h0 hn

theorem ext_injOn_big (hp : 7 < p) {T : ℕ} (hT : T ∈ widths) :
    Set.InjOn (ext : List (ZMod p) → _) (St (ZMod p) T) := by
  refine ext_injOn ?_ ?_ ?_ ?_ hT
  · exact_mod_cast cast_ne_zero_of_lt (p := p) (n := 2) (by norm_num) (by omega)
  · exact_mod_cast cast_ne_zero_of_lt (p := p) (n := 3) (by norm_num) (by omega)
  · exact_mod_cast cast_ne_zero_of_lt (p := p) (n := 5) (by norm_num) (by omega)
  · exact_mod_cast cast_ne_zero_of_lt (p := p) (n := 7) (by norm_num) (by omega)

variable {T : ℕ}

theorem width_pos (hT : T ∈ widths) : 0 < T := by
  simp only [widths, List.mem_cons, List.not_mem_nil, or_false] at hT; omega

theorem ext_mem (hT : T ∈ widths) : Set.MapsTo (ext : List (ZMod p) → _) (St (ZMod p) T) (St (ZMod p) T) :=
  fun _ hs => (matmulExternal_some hT hs).2

theorem sboxLayer_mem (d : ℕ) {rc : List (ZMod p)} (hrc : rc.length = T) :
    Set.MapsTo (fun s : List (ZMod p) => (addRcs s rc).map (sBox d)) (St (ZMod p) T) (St (ZMod p) T) := by
  intro s hs
  have hs' : s.length = T := hs
  simp [St, addRcs, hs', hrc]

/-- external rounds as one map -/
theorem externalLoop_map (hp : 7 < p) (hT : T ∈ widths) {d : ℕ} (hd : 0 < d) :
    ∀ rcs : List (List (ZMod p)), (∀ rc ∈ rcs, rc.length = T) →
    ∃ f : List (ZMod p) → List (ZMod p), Set.MapsTo f (St _ T) (St _ T) ∧
      (∀ s ∈ St _ T, externalLoop d rcs s = some (f s)) ∧
      (Set.InjOn f (St _ T) ↔ (rcs = [] ∨ Nat.Coprime d (p - 1))) := by
  intro rcs
  induction rcs with
  | nil =>
    intro _
    exact ⟨id, fun s hs => hs, fun s _ => rfl, by simp [Set.injOn_id]⟩
  | cons rc rcs ih =>
    intro h
    have hrc := h rc (by simp)
    obtain ⟨f, h1, h2, h3⟩ := ih (fun x hx => h x (by simp [hx]))
    refine ⟨f ∘ (ext ∘ fun s => (addRcs s rc).map (sBox d)), ?_, ?_, ?_⟩
    · exact h1.comp ((ext_mem hT).comp (sboxLayer_mem d hrc))
    · intro s hs
      have := (matmulExternal_some hT (sboxLayer_mem d hrc hs)).1
      simp only [externalLoop, permuteExternal, this]
      exact h2 _ ((ext_mem hT) (sboxLayer_mem d hrc hs))
    · rw [injOn_comp_iff (st_finite _ T) h1 ((ext_mem hT).comp (sboxLayer_mem d hrc)),
        injOn_comp_iff (st_finite _ T) (ext_mem hT) (sboxLayer_mem d hrc), h3,
        sbox_layer_injOn_iff (width_pos hT) d hrc, pow_injective_iff hd]
      constructor
      · rintro ⟨_, _, h⟩; exact Or.inr h
      · rintro (h | h)
        · simp at h
        · exact ⟨Or.inr h, ext_injOn_big hp hT, h⟩

/-- internal rounds as one map -/
theorem internalLoop_map (hT : T ∈ widths) {d : ℕ} (hd : 0 < d) {v : List (ZMod p)}
    (hv : v.length = T) : ∀ rcs : List (ZMod p),
    Set.MapsTo (internalLoop d v rcs) (St _ T) (St _ T) ∧
      (Set.InjOn (internalLoop d v rcs) (St _ T) ↔
        (rcs = [] ∨ (Nat.Coprime d (p - 1) ∧ (codeMat T v).det ≠ 0))) := by
  intro rcs
  induction rcs with
  | nil => exact ⟨fun s hs => hs, by simp [internalLoop, Set.InjOn]⟩
  | cons rc rcs ih =>
    obtain ⟨h1, h3⟩ := ih
    have hg : Set.MapsTo (matmulInternal v ∘ headStep d rc) (St (ZMod p) T) (St _ T) :=
      (matmulInternal_mem hT hv).comp (headStep_mem d rc)
    have heq : Set.EqOn (internalLoop d v (rc :: rcs))
        (internalLoop d v rcs ∘ (matmulInternal v ∘ headStep d rc)) (St _ T) := by
      intro s hs
      show internalLoop d v rcs (permuteInternal d v s rc) = _
      rw [permuteInternal_eq hT d v rc hs]
      rfl
    refine ⟨(h1.comp hg).congr heq.symm, ?_⟩
    rw [heq.injOn_iff, injOn_comp_iff (st_finite _ T) h1 hg,
      injOn_comp_iff (st_finite _ T) (matmulInternal_mem hT hv) (headStep_mem d rc), h3,
      matmulInternal_injOn_iff hT hv, headStep_injOn_iff (width_pos hT), pow_injective_iff hd]
    constructor
    · rintro ⟨_, h, h'⟩; exact Or.inr ⟨h', h⟩
    · rintro (h | ⟨h, h'⟩)
      · simp at h
      · exact ⟨Or.inr ⟨h, h'⟩, h', h⟩

end rounds

end Verif.Poseidon2
