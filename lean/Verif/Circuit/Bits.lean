import Verif.Circuit.Gadgets
import Mathlib.Algebra.BigOperators.Group.Finset.Basic
import Mathlib.Algebra.BigOperators.Ring.Finset
import Mathlib.Tactic.Ring
import Mathlib.Tactic.LinearCombination
import Mathlib.Data.Nat.Bitwise

/-! # Little-endian numbers (lemmas for range and comparison gadgets) -/

namespace Verif.Circuit

variable {p : ℕ}

/-- the number with the given little-endian bits -/
def ofBits : List Bool → ℕ
  | [] => 0
  | b :: bs => b.toNat + 2 * ofBits bs

/-- little-endian digits in base `r` -/
def horner {R : Type} [Semiring R] (r : R) : List R → R
  | [] => 0
  | x :: xs => x + r * horner r xs

theorem ofBits_lt (bs : List Bool) : ofBits bs < 2 ^ bs.length := by
  induction bs with
  | nil => simp [ofBits]
  | cons b bs ih =>
    simp only [ofBits, List.length_cons, pow_succ]
    have := Bool.toNat_lt b
    omega

theorem testBit_ofBits (bs : List Bool) (i : ℕ) : (ofBits bs).testBit i = bs.getD i false := by
  induction bs generalizing i with
  | nil => simp [ofBits]
  | cons b bs ih =>
    cases i with
    | zero =>
      cases b <;> simp [ofBits, Nat.testBit_zero]
    | succ i =>
      rw [Nat.testBit_succ]
      have : ofBits (b :: bs) / 2 = ofBits bs := by
        simp only [ofBits]; have := Bool.toNat_lt b; omega
      rw [this, ih]
      simp

theorem bitsLE_length (len n : ℕ) : (bitsLE len n).length = len := by simp [bitsLE]

theorem ofBits_bitsLE (len n : ℕ) : ofBits (bitsLE len n) = n % 2 ^ len := by
  apply Nat.eq_of_testBit_eq
  intro i
  rw [testBit_ofBits, Nat.testBit_mod_two_pow]
  by_cases h : i < len
  · simp [bitsLE, h]
  · simp [bitsLE, h]

theorem ofBits_inj {l1 l2 : List Bool} (hl : l1.length = l2.length) (h : ofBits l1 = ofBits l2) :
    l1 = l2 := by
  apply List.ext_getElem hl
  intro i h1 h2
  have := congrArg (fun n => n.testBit i) h
  simpa [testBit_ofBits, h1, h2] using this

theorem bitsLE_ofBits (bs : List Bool) : bitsLE bs.length (ofBits bs) = bs := by
  apply ofBits_inj (bitsLE_length _ _)
  rw [ofBits_bitsLE, Nat.mod_eq_of_lt (ofBits_lt bs)]

theorem take_bitsLE {n m : ℕ} (h : n ≤ m) (x : ℕ) : (bitsLE m x).take n = bitsLE n x := by
  unfold bitsLE
  rw [← List.map_take, List.take_range, min_eq_left h]

theorem ofBits_append (l1 l2 : List Bool) :
    ofBits (l1 ++ l2) = ofBits l1 + 2 ^ l1.length * ofBits l2 := by
  induction l1 with
  | nil => simp [ofBits]
  | cons b l ih => simp only [List.cons_append, ofBits, ih, List.length_cons, pow_succ]; ring

theorem ofBits_replicate_false (n : ℕ) : ofBits (List.replicate n false) = 0 := by
  induction n with
  | zero => rfl
  | succ n ih => simp [List.replicate_succ, ofBits, ih]

theorem horner_boolF (bs : List Bool) :
    horner (2 : ZMod p) (bs.map boolF) = (ofBits bs : ZMod p) := by
  induction bs with
  | nil => simp [horner, ofBits]
  | cons b bs ih =>
    simp only [List.map_cons, horner, ih, ofBits]
    cases b <;> simp [boolF]

theorem horner_eq_sum {R : Type} [CommSemiring R] (r : R) (l : List R) (n : ℕ) (h : l.length ≤ n) :
    horner r l = ∑ t ∈ Finset.range n, r ^ t * l.getD t 0 := by
  induction l generalizing n with
  | nil => simp [horner]
  | cons a l ih =>
    obtain ⟨m, rfl⟩ : ∃ m, n = m + 1 := ⟨n - 1, by simp at h; omega⟩
    rw [Finset.sum_range_succ', horner, ih m (by simp at h; omega), Finset.mul_sum]
    simp only [List.getD_cons_succ, pow_succ, List.getD_cons_zero, pow_zero, one_mul]
    rw [add_comm]
    congr 1
    apply Finset.sum_congr rfl
    intro t _
    ring

/-- boolean-valued wires carry a list of bits -/
theorem exists_bits {vs : List ℕ} {w : ℕ → ZMod p} (h : ∀ v ∈ vs, w v = 0 ∨ w v = 1) :
    ∃ bs : List Bool, vs.map w = bs.map boolF := by
  induction vs with
  | nil => exact ⟨[], rfl⟩
  | cons v vs ih =>
    obtain ⟨bs, hb⟩ := ih (fun x hx => h x (by simp [hx]))
    rcases h v (by simp) with h0 | h1
    · exact ⟨false :: bs, by simp [hb, h0, boolF]⟩
    · exact ⟨true :: bs, by simp [hb, h1, boolF]⟩

theorem map_boolF_length {vs : List ℕ} {w : ℕ → ZMod p} {bs : List Bool}
    (h : vs.map w = bs.map boolF) : vs.length = bs.length := by
  have := congrArg List.length h
  simpa using this

theorem boolF_and (a b : Bool) : (boolF a * boolF b : ZMod p) = boolF (a && b) := by
  cases a <;> cases b <;> simp [boolF]

theorem boolF_or (a b : Bool) :
    (boolF a + boolF b - boolF a * boolF b : ZMod p) = boolF (a || b) := by
  cases a <;> cases b <;> simp [boolF]

theorem boolF_not [Fact p.Prime] (a : Bool) :
    (if (boolF a : ZMod p) = 0 then 1 else 0) = (boolF (!a) : ZMod p) := by
  cases a <;> simp [boolF]

theorem boolF_eq_one [Fact p.Prime] {a : Bool} (h : (boolF a : ZMod p) = 1) : a = true := by
  cases a
  · simp [boolF] at h
  · rfl

theorem boolF_inj [Fact p.Prime] {a b : Bool} (h : (boolF a : ZMod p) = boolF b) : a = b := by
  cases a <;> cases b <;> simp [boolF] at h ⊢

/-! ## comparison folds -/

/-- the fold of the canonical check -/
def ltFold : List (Bool × Bool) → Bool → Bool
  | [], t => t
  | (b, q) :: rest, t => ltFold rest (if q then t || !b else t && !b)

theorem ltFold_iff (l : List (Bool × Bool)) (t : Bool) :
    ltFold l t = true ↔ ofBits (l.map Prod.fst) < ofBits (l.map Prod.snd) ∨
      (ofBits (l.map Prod.fst) = ofBits (l.map Prod.snd) ∧ t = true) := by
  induction l generalizing t with
  | nil => simp [ltFold, ofBits]
  | cons x l ih =>
    obtain ⟨b, q⟩ := x
    simp only [ltFold, ih, List.map_cons, ofBits]
    cases b <;> cases q <;> cases t <;> simp <;> omega

/-- the fold of the comparison with a constant: `(constant bit, bit)` -/
def gtFold : List (Bool × Bool) → Bool → Bool
  | [], t => t
  | (k, b) :: rest, t => gtFold rest (if k then b && t else b || t)

theorem gtFold_iff (l : List (Bool × Bool)) (t : Bool) :
    gtFold l t = true ↔ ofBits (l.map Prod.fst) < ofBits (l.map Prod.snd) ∨
      (ofBits (l.map Prod.fst) = ofBits (l.map Prod.snd) ∧ t = true) := by
  induction l generalizing t with
  | nil => simp [gtFold, ofBits]
  | cons x l ih =>
    obtain ⟨k, b⟩ := x
    simp only [gtFold, ih, List.map_cons, ofBits]
    cases b <;> cases k <;> cases t <;> simp <;> omega

theorem gtFold_dropWhile (l : List (Bool × Bool)) :
    gtFold l false = match l.dropWhile (fun x => x.1) with
      | [] => false
      | (_, b) :: rest => gtFold rest b := by
  induction l with
  | nil => rfl
  | cons x l ih =>
    obtain ⟨k, b⟩ := x
    cases k
    · simp [gtFold]
    · simp only [gtFold, if_true, Bool.and_false, ih, List.dropWhile_cons_of_pos]

theorem modulusBits_le_bigint (p : ℕ) : modulusBits p ≤ bigintBits p := by
  unfold modulusBits bigintBits; omega

theorem lt_two_pow_bigint (p : ℕ) : p < 2 ^ bigintBits p :=
  lt_of_lt_of_le (Nat.lt_size_self p) (Nat.pow_le_pow_right (by norm_num) (modulusBits_le_bigint p))

theorem two_pow_le_of_lt_modulusBits {n : ℕ} (h : n < modulusBits p) : 2 ^ n ≤ p :=
  Nat.lt_size.1 h

theorem val_natCast_of_lt' {n : ℕ} (h : n < p) : ((n : ℕ) : ZMod p).val = n :=
  ZMod.val_natCast_of_lt h

end Verif.Circuit
