import Verif.Plonk.Merge
import Verif.Plonk.PermLemmas
import Mathlib.Data.List.GetD

/-!
# Mergeable and merged circuits: what the fields are
-/

set_option linter.unusedSectionVars false

namespace Verif.Plonk

open Verif.Circuit Verif.Pcs

variable {p : ℕ} [Fact p.Prime]

/-! ### tables written row by row -/

/-- a table with `W` rows of `m` entries -/
def grid {α : Type} (W m : ℕ) (g : ℕ → ℕ → α) : List α :=
  (List.range W).flatMap (fun i => (List.range m).map (g i))

theorem flat_get {α : Type} (m : ℕ) (g : ℕ → ℕ → α) (j : ℕ) (hj : j < m) : ∀ (l : List ℕ) (i : ℕ),
    (l.flatMap (fun i => (List.range m).map (g i)))[i * m + j]? = l[i]?.map (fun i => g i j) := by
  intro l
  induction l with
  | nil => intro i; simp
  | cons x l ih =>
    intro i
    rw [List.flatMap_cons]
    cases i with
    | zero =>
      rw [Nat.zero_mul, Nat.zero_add, List.getElem?_append_left (by simpa using hj)]
      simp [hj]
    | succ i =>
      rw [List.getElem?_append_right (by simp; rw [Nat.succ_mul]; omega)]
      have : (i + 1) * m + j - ((List.range m).map (g x)).length = i * m + j := by
        simp [Nat.succ_mul]
        omega
      rw [this, ih]
      simp

theorem grid_get {α : Type} {W m : ℕ} (g : ℕ → ℕ → α) {i j : ℕ} (hi : i < W) (hj : j < m) :
    (grid W m g)[i * m + j]? = some (g i j) := by
  unfold grid
  rw [flat_get m g j hj]
  simp [hi]

theorem grid_length {α : Type} (W m : ℕ) (g : ℕ → ℕ → α) : (grid W m g).length = W * m := by
  unfold grid
  simp [List.length_flatMap]

theorem grid_getD {α : Type} {W m : ℕ} (g : ℕ → ℕ → α) {i j : ℕ} (hi : i < W) (hj : j < m) (d : α) :
    (grid W m g).getD (i * m + j) d = g i j := by
  rw [List.getD_eq_getElem?_getD, grid_get g hi hj]
  rfl

theorem grid_map {α β : Type} (W m : ℕ) (g : ℕ → ℕ → α) (h : α → β) :
    (grid W m g).map h = grid W m (fun i j => h (g i j)) := by
  unfold grid
  rw [List.map_flatMap]
  simp [Function.comp_def]

/-- a list of the right length is the table of its entries -/
theorem grid_eta {α : Type} {W m : ℕ} (l : List α) (h : l.length = W * m) (d : α) :
    grid W m (fun i j => l.getD (i * m + j) d) = l := by
  refine List.ext_getElem? ?_
  intro k
  by_cases hk : k < W * m
  · have hm : 0 < m := Nat.pos_of_ne_zero (by rintro rfl; simp at hk)
    have e : k = k / m * m + k % m := by rw [Nat.mul_comm]; exact (Nat.div_add_mod k m).symm
    have h1 : k / m < W := (Nat.div_lt_iff_lt_mul hm).2 hk
    have h2 : k % m < m := Nat.mod_lt _ hm
    rw [e, grid_get _ h1 h2, ← e, List.getD_eq_getElem?_getD, List.getElem?_eq_getElem (by omega)]
    rfl
  · rw [List.getElem?_eq_none (by rw [grid_length]; omega), List.getElem?_eq_none (by omega)]

theorem grid_congr {α : Type} {W m : ℕ} {g h : ℕ → ℕ → α}
    (e : ∀ i < W, ∀ j < m, g i j = h i j) : grid W m g = grid W m h := by
  unfold grid
  rw [List.flatMap_def, List.flatMap_def]
  congr 1
  refine List.map_congr_left ?_
  intro i hi
  refine List.map_congr_left ?_
  intro j hj
  exact e i (List.mem_range.1 hi) j (List.mem_range.1 hj)

theorem zipWith_grid {α β γ : Type} (f : α → β → γ) {W m : ℕ} (g : ℕ → ℕ → α) (h : ℕ → ℕ → β) :
    List.zipWith f (grid W m g) (grid W m h) = grid W m (fun i j => f (g i j) (h i j)) := by
  refine List.ext_getElem? ?_
  intro k
  by_cases hk : k < W * m
  · have hm : 0 < m := Nat.pos_of_ne_zero (by rintro rfl; simp at hk)
    have e : k = k / m * m + k % m := by rw [Nat.mul_comm]; exact (Nat.div_add_mod k m).symm
    have h1 : k / m < W := (Nat.div_lt_iff_lt_mul hm).2 hk
    have h2 : k % m < m := Nat.mod_lt _ hm
    rw [e, grid_get _ h1 h2, List.getElem?_zipWith, grid_get _ h1 h2, grid_get _ h1 h2]
  · rw [List.getElem?_eq_none (by simp [grid_length]; omega),
      List.getElem?_eq_none (by rw [grid_length]; omega)]

/-! ### mergeable circuits -/

theorem newDomain_double {S : ℕ} {root : ZMod p} {m : ℕ} {d d2 : Domain (ZMod p)}
    (h : newDomain S root m = some d) (h2 : newDomain S root (2 * d.size) = some d2) :
    d2.size = 2 * d.size := by
  have e : ∃ k, d.size = 2 ^ k := by
    unfold newDomain at h
    split at h
    · cases h
    · injection h with h
      subst h
      exact ⟨_, rfl⟩
  obtain ⟨k, hk⟩ := e
  unfold newDomain at h2
  split at h2
  · cases h2
  · injection h2 with h2
    subst h2
    show 2 ^ Nat.clog 2 (2 * d.size) = _
    rw [hk, ← Nat.pow_succ', Nat.clog_pow 2 _ (by omega)]

/-- the wire permutation of a mergeable circuit -/
def mergeablePerm (ty : MergeType) (n : ℕ) (perm : List (ℕ × ℕ)) : List (ℕ × ℕ) :=
  match ty with
  | .a => typeAPerm 5 n perm
  | .b => typeBPerm 5 n perm

theorem finalizeMergeable_ok {ty : MergeType} {S : ℕ} {root : ZMod p} {rnd : List (ZMod p)} {c : Circ p}
    {m : FCirc p} (h : finalizeMergeable ty S root rnd c = .ok m) :
    c.ultra = none ∧ ∃ f, finalize S root rnd c = .ok f ∧
      newDomain S root (2 * f.dom.size) = some m.dom ∧ m.dom.size = 2 * f.dom.size ∧
      m.circ = mergeableCirc ty f.dom.size m.dom.size f.circ ∧
      m.perm = mergeablePerm ty f.dom.size f.perm ∧
      ∃ ks, cosetReps rnd 5 m.dom.size = .ok ks ∧ m.ids = extIdPermutation ks m.dom := by
  unfold finalizeMergeable at h
  split at h
  · cases h
  · rename_i hu
    have hW : numWireTypes c = 5 := by unfold numWireTypes; rw [hu]
    refine ⟨hu, ?_⟩
    split at h
    · cases h
    · rename_i f hf
      split at h
      · cases h
      · rename_i dom hd
        rw [hW] at h
        split at h
        · cases h
        · rename_i ks hks
          injection h with h
          subst h
          refine ⟨f, hf, hd, newDomain_double (finalize_ok hf).1 hd, rfl, ?_, ks, hks, rfl⟩
          cases ty <;> rfl

theorem mergeable_exists (ty : MergeType) {S : ℕ} {root : ZMod p} {rnd : List (ZMod p)} {c : Circ p}
    {f : FCirc p} (hu : c.ultra = none) (hf : finalize S root rnd c = .ok f) {dom : Domain (ZMod p)}
    (hd : newDomain S root (2 * f.dom.size) = some dom) {ks : List (ZMod p)}
    (hk : cosetReps rnd 5 dom.size = .ok ks) :
    ∃ m, finalizeMergeable ty S root rnd c = .ok m ∧ m.dom = dom := by
  have hW : numWireTypes c = 5 := by unfold numWireTypes; rw [hu]
  unfold finalizeMergeable
  rw [hu]
  simp only
  rw [hf]
  simp only
  rw [hd]
  simp only
  rw [hW, hk]
  exact ⟨_, rfl, rfl⟩

/-! ### the merged circuit -/

/-- the merged circuit, from the two finalized circuits -/
structure Merged (f1 f2 m : FCirc p) (n : ℕ) : Prop where
  n1 : f1.dom.size = n
  n2 : f2.dom.size = n
  size : m.dom.size = 2 * n
  numVars : m.circ.numVars = f1.circ.numVars + f2.circ.numVars
  witness : m.circ.witness = f1.circ.witness ++ f2.circ.witness
  rows : m.circ.rows = f1.circ.rows ++ (f2.circ.rows.reverse).map (shiftRow f1.circ.numVars)
  pubIds : m.circ.pubIds = f1.circ.pubIds ++ f2.circ.pubIds.map (fun g => 2 * n - 1 - g)
  ultra : m.circ.ultra = none
  domSize : m.circ.domSize = 2 * n
  perm : m.perm = grid 5 (2 * n) (fun i j =>
    if j < n then f1.perm.getD (i * n + j) (0, 0)
    else ((f2.perm.getD (i * n + (2 * n - 1 - j)) (0, 0)).1,
      2 * n - 1 - (f2.perm.getD (i * n + (2 * n - 1 - j)) (0, 0)).2))

theorem typeAPerm_eq (n : ℕ) (perm : List (ℕ × ℕ)) : typeAPerm 5 n perm = grid 5 (2 * n) (fun i j =>
    if j < n then perm.getD (i * n + j) (0, 0) else (5, 0)) := rfl

theorem typeBPerm_eq (n : ℕ) (perm : List (ℕ × ℕ)) : typeBPerm 5 n perm = grid 5 (2 * n) (fun i j =>
    if n ≤ j then ((perm.getD (i * n + (2 * n - 1 - j)) (0, 0)).1,
      2 * n - 1 - (perm.getD (i * n + (2 * n - 1 - j)) (0, 0)).2) else (5, 0)) := rfl

theorem mergePerm_eq (n : ℕ) (pa pb : List (ℕ × ℕ)) :
    mergePerm 5 n (typeAPerm 5 n pa) (typeBPerm 5 n pb) = grid 5 (2 * n) (fun i j =>
    if j < n then pa.getD (i * n + j) (0, 0)
    else ((pb.getD (i * n + (2 * n - 1 - j)) (0, 0)).1,
      2 * n - 1 - (pb.getD (i * n + (2 * n - 1 - j)) (0, 0)).2)) := by
  show grid 5 (2 * n) (fun i j => if j < n then (typeAPerm 5 n pa).getD (i * (2 * n) + j) (0, 0)
    else (typeBPerm 5 n pb).getD (i * (2 * n) + j) (0, 0)) = _
  refine grid_congr ?_
  intro i hi j hj
  rw [typeAPerm_eq, typeBPerm_eq]
  by_cases h : j < n
  · rw [if_pos h, if_pos h, grid_getD _ hi hj, if_pos h]
  · rw [if_neg h, if_neg h, grid_getD _ hi hj, if_pos (by omega)]

theorem merge_ok {a b f1 f2 : FCirc p}
    (hu1 : f1.circ.ultra = none) (hu2 : f2.circ.ultra = none)
    (hl1 : f1.circ.rows.length = f1.dom.size) (hl2 : f2.circ.rows.length = f2.dom.size)
    (hn : f1.dom.size = f2.dom.size)
    (ha1 : a.dom.size = 2 * f1.dom.size)
    (ha2 : a.circ = mergeableCirc .a f1.dom.size a.dom.size f1.circ)
    (ha3 : a.perm = mergeablePerm .a f1.dom.size f1.perm)
    (hb1 : b.dom.size = 2 * f2.dom.size)
    (hb2 : b.circ = mergeableCirc .b f2.dom.size b.dom.size f2.circ)
    (hb3 : b.perm = mergeablePerm .b f2.dom.size f2.perm)
    {m : ℕ} (hp1 : f1.circ.pubIds = List.range (m + 1)) (hp2 : f2.circ.pubIds = List.range (m + 1)) :
    ∃ f, merge a b = .ok f ∧ Merged f1 f2 f f1.dom.size ∧ f.dom = a.dom ∧ f.ids = a.ids := by
  have hua : a.circ.ultra = none := by rw [ha2]; exact hu1
  have hub : b.circ.ultra = none := by rw [hb2]; exact hu2
  have hda : a.circ.domSize = a.dom.size := by rw [ha2]; rfl
  have hdb : b.circ.domSize = b.dom.size := by rw [hb2]; rfl
  have hpa : a.circ.pubIds = List.range (m + 1) := by rw [ha2]; exact hp1
  have hpb : b.circ.pubIds = (List.range (m + 1)).map (fun g => 2 * f2.dom.size - 1 - g) := by
    rw [hb2, ← hp2]
    rfl
  have hW : numWireTypes a.circ = 5 := by unfold numWireTypes; rw [hua]
  have hhalf : a.dom.size / 2 = f1.dom.size := by omega
  have hpa0 : a.circ.pubIds[0]? = some 0 := by rw [hpa]; simp
  have hpb0 : b.circ.pubIds[0]? = some (b.dom.size - 1) := by rw [hpb, hb1]; simp
  unfold merge
  rw [if_neg (by omega), if_neg (by omega), if_neg (by rw [hua, hub]; simp),
    if_neg (by rw [hpa, hpb]; simp), hpa0, hpb0]
  simp only
  rw [if_neg (by simp), if_neg (by simp)]
  refine ⟨_, rfl, ?_, rfl, rfl⟩
  rw [hW, hhalf]
  refine ⟨rfl, hn.symm, ha1, ?_, ?_, ?_, ?_, rfl, ?_, ?_⟩
  · show a.circ.numVars + b.circ.numVars = _
    rw [ha2, hb2]
    rfl
  · show a.circ.witness ++ b.circ.witness = _
    rw [ha2, hb2]
    rfl
  · show a.circ.rows.take f1.dom.size ++ (b.circ.rows.drop f1.dom.size).map (shiftRow a.circ.numVars) = _
    have e1 : a.circ.rows = f1.circ.rows ++ List.replicate f1.dom.size paddingRow := by rw [ha2]; rfl
    have e2 : b.circ.rows = (f2.circ.rows ++ List.replicate f2.dom.size paddingRow).reverse := by
      rw [hb2]; rfl
    have e3 : a.circ.numVars = f1.circ.numVars := by rw [ha2]; rfl
    rw [e1, e2, e3, ← hl1, List.take_left, List.reverse_append, hl1, hn]
    congr 2
    rw [List.drop_append_of_le_length (by simp), List.drop_of_length_le (by simp)]
    simp
  · show a.circ.pubIds ++ b.circ.pubIds = _
    rw [hpa, hpb, hp1, hp2, hn]
  · show a.circ.domSize = _
    rw [hda, ha1]
  · show mergePerm 5 f1.dom.size a.perm b.perm = _
    rw [ha3, hb3]
    show mergePerm 5 f1.dom.size (typeAPerm 5 f1.dom.size f1.perm) (typeBPerm 5 f2.dom.size f2.perm) = _
    rw [← hn]
    exact mergePerm_eq _ _ _

theorem Merged.rowA {f1 f2 m : FCirc p} {n : ℕ} (h : Merged f1 f2 m n)
    (hl1 : f1.circ.rows.length = n) {j : ℕ} (hj : j < n) :
    m.circ.rows[j]? = f1.circ.rows[j]? := by
  rw [h.rows, List.getElem?_append_left (by omega)]

theorem Merged.rowB {f1 f2 m : FCirc p} {n : ℕ} (h : Merged f1 f2 m n)
    (hl1 : f1.circ.rows.length = n) (hl2 : f2.circ.rows.length = n) {j : ℕ} (hj : j < n) :
    m.circ.rows[2 * n - 1 - j]? = f2.circ.rows[j]?.map (shiftRow f1.circ.numVars) := by
  rw [h.rows, List.getElem?_append_right (by omega), List.getElem?_map,
    List.getElem?_reverse (by omega)]
  congr 2
  omega

theorem Merged.length {f1 f2 m : FCirc p} {n : ℕ} (h : Merged f1 f2 m n)
    (hl1 : f1.circ.rows.length = n) (hl2 : f2.circ.rows.length = n) : m.circ.rows.length = 2 * n := by
  rw [h.rows]
  simp
  omega

end Verif.Plonk
