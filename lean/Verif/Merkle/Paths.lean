import Verif.Merkle.Model
import Mathlib.Data.Nat.Digits.Defs
import Mathlib.Data.List.InsertIdx
import Mathlib.Tactic.Ring
import Mathlib.Tactic.Linarith

/-! # Traversal paths, sibling lists, and the fold step -/

namespace Verif.Merkle

variable {a : ℕ} {E I T : Type}

@[simp] theorem toPath_length [NeZero a] (n h : ℕ) : (toPath a n h).length = h := by
  induction h generalizing n with
  | zero => rfl
  | succ h ih => simp [toPath, ih]

theorem toPath_getElem? [NeZero a] (n h k : ℕ) (hk : k < h) :
    (toPath a n h)[k]? = some (Fin.ofNat a (n / a ^ k)) := by
  induction h generalizing n k with
  | zero => omega
  | succ h ih =>
    cases k with
    | zero => simp [toPath]
    | succ k =>
      simp only [toPath, List.getElem?_cons_succ]
      rw [ih (n / a) k (by omega), Nat.div_div_eq_div_mul, pow_succ']

theorem toPath_inj [NeZero a] (n n' h : ℕ) (hn : n < a ^ h) (hn' : n' < a ^ h)
    (he : toPath a n h = toPath a n' h) : n = n' := by
  induction h generalizing n n' with
  | zero => simp at hn hn'; omega
  | succ h ih =>
    simp only [toPath, List.cons.injEq] at he
    have ha : 0 < a := Nat.pos_of_ne_zero (NeZero.ne a)
    have h1 := ih (n / a) (n' / a)
      (by rw [Nat.div_lt_iff_lt_mul ha, ← pow_succ]; exact hn)
      (by rw [Nat.div_lt_iff_lt_mul ha, ← pow_succ]; exact hn') he.2
    have h2 : n % a = n' % a := by
      have := congrArg Fin.val he.1
      simpa [Fin.ofNat] using this
    rw [← Nat.div_add_mod n a, ← Nat.div_add_mod n' a, h1, h2]

theorem toPath_mod [NeZero a] (n h : ℕ) : toPath a n h = toPath a (n % a ^ h) h := by
  induction h generalizing n with
  | zero => rfl
  | succ h ih =>
    simp only [toPath, List.cons.injEq]
    constructor
    · apply Fin.ext
      simp only [Fin.ofNat]
      rw [Nat.mod_mod_of_dvd _ (dvd_pow_self a (Nat.succ_ne_zero h))]
    · rw [ih (n / a), ih (n % a ^ (h + 1) / a)]
      congr 1
      rw [pow_succ', Nat.mod_mul_right_div_self, Nat.mod_mod]

theorem toPath_add_capacity [NeZero a] (n h : ℕ) : toPath a (n + a ^ h) h = toPath a n h := by
  rw [toPath_mod, Nat.add_mod_right, ← toPath_mod]

/-- Dropping the `k` low digits of a path. -/
theorem toPath_drop [NeZero a] (n h k : ℕ) :
    (toPath a n (k + h)).drop k = toPath a (n / a ^ k) h := by
  induction k generalizing n with
  | zero => simp
  | succ k ih =>
    rw [show k + 1 + h = (k + h) + 1 by ring]
    simp only [toPath, List.drop_succ_cons]
    rw [ih, Nat.div_div_eq_div_mul, pow_succ']

/-- `siblings` is the full value list with one entry erased. -/
theorem siblings_eq_eraseIdx (H : Hasher E I T) (c : Fin a → Node a E I T) (b : Fin a) :
    siblings H c b = (List.ofFn fun i => (c i).value H).eraseIdx b := by
  unfold siblings
  have h1 : (List.finRange a).filter (· ≠ b) = (List.finRange a).eraseIdx b := by
    have hnd := List.nodup_finRange a
    have := hnd.erase_eq_filter b
    have h2 : (List.finRange a).erase b = (List.finRange a).eraseIdx b := by
      rw [List.erase_eq_eraseIdx]
      have : (List.finRange a).idxOf? b = some b.val := by
        rw [List.idxOf?_eq_some_iff]
        refine ⟨by simp, by simp, ?_⟩
        intro j hj
        simp [Fin.ext_iff]
        omega
      rw [this]
    rw [← h2, this]
    congr 1
    funext x
    simp [bne, decide_not, beq_eq_decide]
  rw [h1, List.ofFn_eq_map, List.eraseIdx_map]

theorem siblings_length (H : Hasher E I T) (c : Fin a → Node a E I T) (b : Fin a) :
    (siblings H c b).length = a - 1 := by
  rw [siblings_eq_eraseIdx, List.length_eraseIdx]
  simp

theorem take_cons_drop_eq_insertIdx {α : Type} (l : List α) (b : ℕ) (v : α) (hb : b ≤ l.length) :
    l.take b ++ v :: l.drop b = l.insertIdx b v := by
  induction l generalizing b with
  | nil => simp at hb; subst hb; simp
  | cons x l ih =>
    cases b with
    | zero => simp
    | succ b => simp [List.insertIdx_succ_cons, ih b (by simpa using hb)]

/-- The fold step on honest siblings computes the digest of the branch. -/
theorem foldStep_siblings (H : Hasher E I T) (c : Fin a → Node a E I T) (b : Fin a)
    (ha : 2 ≤ a) : foldStep H ((c b).value H) (b, siblings H c b) = digestBranch H c := by
  have hl := siblings_length H c b
  unfold foldStep digestBranch
  have hne : siblings H c b ≠ [] := by
    intro h; rw [h] at hl; simp at hl; omega
  simp only [hne, if_false]
  congr 1
  rw [take_cons_drop_eq_insertIdx _ _ _ (by rw [hl]; have := b.isLt; omega),
    siblings_eq_eraseIdx]
  have := List.insertIdx_eraseIdx_getElem (l := List.ofFn fun i => (c i).value H) (n := b.val) (by simp)
  rw [List.getElem_ofFn] at this
  exact this

end Verif.Merkle
