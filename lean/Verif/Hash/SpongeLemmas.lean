import Verif.Hash.Rescue
import Mathlib.Algebra.Ring.Basic
import Mathlib.Logic.Function.Iterate
import Mathlib.Tactic.Ring

/-! # Lemmas about padding, absorbing and squeezing -/

set_option linter.unusedSectionVars false

namespace Verif.Rescue

/-! ## Padding -/

theorem ones_pad_inj {α : Type} {o z : α} (h : o ≠ z) : ∀ (a b : ℕ) (x y : List α),
    List.replicate a z ++ o :: x = List.replicate b z ++ o :: y → a = b ∧ x = y := by
  intro a
  induction a with
  | zero =>
    intro b x y he
    cases b with
    | zero => simpa using he
    | succ b =>
      simp only [List.replicate_zero, List.nil_append, List.replicate_succ, List.cons_append,
        List.cons.injEq] at he
      exact absurd he.1 h
  | succ a ih =>
    intro b x y he
    cases b with
    | zero =>
      simp only [List.replicate_zero, List.nil_append, List.replicate_succ, List.cons_append,
        List.cons.injEq] at he
      exact absurd he.1.symm h
    | succ b =>
      simp only [List.replicate_succ, List.cons_append, List.cons.injEq, true_and] at he
      obtain ⟨h1, h2⟩ := ih b x y he
      exact ⟨by omega, h2⟩

/-- "one then zeros" padding determines the message -/
theorem one_zeros_inj {α : Type} {o z : α} (h : o ≠ z) {a b : ℕ} {x y : List α}
    (he : x ++ o :: List.replicate a z = y ++ o :: List.replicate b z) : x = y ∧ a = b := by
  have := congrArg List.reverse he
  simp only [List.reverse_append, List.reverse_cons, List.reverse_replicate, List.append_assoc,
    List.singleton_append] at this
  obtain ⟨h1, h2⟩ := ones_pad_inj h _ _ _ _ this
  exact ⟨List.reverse_injective h2, h1⟩

variable {F : Type} [CommRing F]

theorem le_lenToNextMultiple (n m : ℕ) (hm : 0 < m) : n ≤ lenToNextMultiple n m := by
  unfold lenToNextMultiple
  have := Nat.mod_lt n hm
  split <;> omega

theorem lenToNextMultiple_mod (n m : ℕ) (hm : 0 < m) : lenToNextMultiple n m % m = 0 := by
  unfold lenToNextMultiple
  split
  · assumption
  · have h1 := Nat.mod_lt n hm
    have h2 : n + m - n % m = m * (n / m + 1) := by
      have := Nat.div_add_mod n m
      rw [mul_add, mul_one]
      omega
    rw [h2, Nat.mul_mod_right]

theorem lenToNextMultiple_lt (n m : ℕ) (hm : 0 < m) : lenToNextMultiple n m < n + m := by
  unfold lenToNextMultiple
  split <;> omega

theorem padWithZeros_eq (l : List F) {m : ℕ} (hm : 0 < m) :
    padWithZeros l m = l ++ List.replicate (lenToNextMultiple l.length m - l.length) 0 := by
  unfold padWithZeros resize
  rw [List.take_of_length_le (le_lenToNextMultiple _ _ hm)]

theorem padWithZeros_length (l : List F) {m : ℕ} (hm : 0 < m) :
    (padWithZeros l m).length = lenToNextMultiple l.length m := by
  rw [padWithZeros_eq l hm]
  have := le_lenToNextMultiple l.length m hm
  simp
  omega

/-! ## Absorbing -/

theorem chunks_nil {α : Type} (n : ℕ) : chunks n ([] : List α) = [] := rfl

theorem chunksAux_fuel {α : Type} (n : ℕ) (hn : 0 < n) : ∀ (f g : ℕ) (l : List α), l.length ≤ f →
    l.length ≤ g → chunksAux n f l = chunksAux n g l := by
  intro f
  induction f with
  | zero =>
    intro g l h _
    have : l = [] := List.length_eq_zero_iff.1 (by omega)
    subst this
    cases g <;> rfl
  | succ f ih =>
    intro g l h1 h2
    by_cases hl : l = []
    · subst hl; cases g <;> rfl
    · cases g with
      | zero =>
        have : l = [] := List.length_eq_zero_iff.1 (by omega)
        exact absurd this hl
      | succ g =>
        simp only [chunksAux, if_neg hl]
        rw [ih g (l.drop n) (by simp; omega) (by simp; omega)]

theorem chunks_cons {α : Type} {n : ℕ} (hn : 0 < n) {l : List α} (hl : l ≠ []) :
    chunks n l = l.take n :: chunks n (l.drop n) := by
  have hpos : 0 < l.length := List.length_pos_iff.2 hl
  unfold chunks
  obtain ⟨k, hk⟩ := Nat.exists_eq_add_of_lt hpos
  rw [hk, chunksAux, if_neg hl]
  congr 1
  exact chunksAux_fuel n hn _ _ _ (by simp; omega) le_rfl

theorem absorb_nil (eval : Vec F → Vec F) (rate : ℕ) (s : Vec F) : absorb eval rate s [] = s := rfl

theorem absorb_step (eval : Vec F → Vec F) {rate : ℕ} (hr : 0 < rate) (s : Vec F) {l : List F}
    (hl : l ≠ []) :
    absorb eval rate s l = absorb eval rate (eval (addElems s (l.take rate))) (l.drop rate) := by
  unfold absorb
  rw [chunks_cons hr hl, List.foldl_cons]

theorem absorb_block (eval : Vec F → Vec F) {rate : ℕ} (hr : 0 < rate) (s : Vec F) (b l : List F)
    (hb : b.length = rate) :
    absorb eval rate s (b ++ l) = absorb eval rate (eval (addElems s b)) l := by
  have hne : b ++ l ≠ [] := by
    intro h
    have := congrArg List.length h
    rw [List.length_append, List.length_nil] at this
    omega
  rw [absorb_step eval hr s hne]
  simp [← hb]

theorem absorb_append (eval : Vec F → Vec F) {rate : ℕ} (hr : 0 < rate) (n : ℕ) :
    ∀ (s : Vec F) (x y : List F), x.length = n * rate →
      absorb eval rate s (x ++ y) = absorb eval rate (absorb eval rate s x) y := by
  induction n with
  | zero =>
    intro s x y hx
    have : x = [] := List.length_eq_zero_iff.1 (by simpa using hx)
    subst this; rfl
  | succ n ih =>
    intro s x y hx
    rw [add_mul, one_mul] at hx
    have hb : (x.take rate).length = rate := by simp; omega
    have hx' : x = x.take rate ++ x.drop rate := (List.take_append_drop _ _).symm
    rw [hx', List.append_assoc, absorb_block eval hr s _ _ hb, absorb_block eval hr s _ _ hb]
    exact ih _ _ _ (by simp; omega)

/-! ## Squeezing -/

theorem elems_length {α : Type} (v : Vec α) : v.elems.length = 4 := rfl

theorem squeezeAux_spec (eval : Vec F → Vec F) {rate : ℕ} (hr : 0 < rate) (hr4 : rate ≤ 4) :
    ∀ (fuel : ℕ) (s : Vec F) (n : ℕ), n < fuel →
      (squeezeAux eval rate fuel s n).1.length = n ∧
      (∀ i, i < n → (squeezeAux eval rate fuel s n).1[i]? =
        ((eval^[i / rate]) s).elems[i % rate]?) ∧
      (squeezeAux eval rate fuel s n).2 = (eval^[(n - 1) / rate]) s := by
  intro fuel
  induction fuel with
  | zero => intro s n h; omega
  | succ fuel ih =>
    intro s n hn
    simp only [squeezeAux]
    by_cases hle : n ≤ rate
    · have he : min n rate = n := Nat.min_eq_left hle
      simp only [he, Nat.sub_self, if_true]
      refine ⟨by simp [elems_length]; omega, ?_, ?_⟩
      · intro i hi
        have : i / rate = 0 := Nat.div_eq_of_lt (by omega)
        rw [this, Nat.mod_eq_of_lt (by omega)]
        simp [hi]
      · have : (n - 1) / rate = 0 := Nat.div_eq_of_lt (by omega)
        rw [this]; rfl
    · have he : min n rate = rate := Nat.min_eq_right (by omega)
      have hne : ¬ n - rate = 0 := by omega
      simp only [he, if_neg hne]
      obtain ⟨h1, h2, h3⟩ := ih (eval s) (n - rate) (by omega)
      have htl : (s.elems.take rate).length = rate := by simp [elems_length]; omega
      refine ⟨?_, ?_, ?_⟩
      · simp only [List.length_append, h1, htl]; omega
      · intro i hi
        by_cases hir : i < rate
        · have : i / rate = 0 := Nat.div_eq_of_lt hir
          rw [this, Nat.mod_eq_of_lt hir, List.getElem?_append_left (by omega)]
          simp [hir]
        · rw [List.getElem?_append_right (by omega), htl, h2 (i - rate) (by omega)]
          have e1 : i / rate = (i - rate) / rate + 1 := by
            conv_lhs => rw [show i = (i - rate) + rate by omega]
            rw [Nat.add_div_right _ hr]
          have e2 : i % rate = (i - rate) % rate := by
            rw [Nat.mod_eq_sub_mod (by omega)]
          rw [e1, e2, Function.iterate_succ_apply]
      · rw [h3]
        have e1 : (n - 1) / rate = (n - rate - 1) / rate + 1 := by
          have : n - 1 = (n - rate - 1) + rate := by omega
          rw [this, Nat.add_div_right _ hr]
        rw [e1, Function.iterate_succ_apply]

end Verif.Rescue
