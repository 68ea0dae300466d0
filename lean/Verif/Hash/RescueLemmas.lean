import Verif.Hash.RescueConsts
import Verif.Util.Primality
import Mathlib.LinearAlgebra.Matrix.Determinant.Basic
import Mathlib.LinearAlgebra.Matrix.NonsingularInverse
import Mathlib.FieldTheory.Finite.Basic
import Mathlib.Data.Fintype.Card
import Mathlib.LinearAlgebra.Matrix.Notation

/-! # Lemmas about the Rescue model -/

namespace Verif.Rescue

variable {F : Type} [CommRing F]

/-- a state as a function on the four positions -/
def Vec.get {α : Type} (v : Vec α) : Fin 4 → α := ![v.a, v.b, v.c, v.d]

theorem Vec.get_injective {α : Type} : Function.Injective (Vec.get (α := α)) := by
  intro v w h
  have h0 := congrFun h 0
  have h1 := congrFun h 1
  have h2 := congrFun h 2
  have h3 := congrFun h 3
  ext
  · exact h0
  · exact h1
  · exact h2
  · exact h3

/-- a matrix given by rows as a Mathlib matrix -/
def toMatrix {α : Type} (m : Vec (Vec α)) : Matrix (Fin 4) (Fin 4) α := fun i j => (m.get i).get j

theorem get_map {α β : Type} (f : α → β) (v : Vec α) (i : Fin 4) :
    (v.map f).get i = f (v.get i) := by
  fin_cases i <;> rfl

theorem dotProduct_eq (v w : Vec F) : dotProduct v w = ∑ i, v.get i * w.get i := by
  simp [dotProduct, Vec.get, Fin.sum_univ_four]

theorem mulVec_get (m : Mat F) (v : Vec F) : (mulVec m v).get = (toMatrix m).mulVec v.get := by
  funext i
  rw [mulVec, get_map, dotProduct_eq]
  rfl

theorem mulVec_injective (m : Mat F) (h : IsUnit (toMatrix m).det) :
    Function.Injective (mulVec m) := by
  intro v w hvw
  apply Vec.get_injective
  have h1 : (toMatrix m).mulVec v.get = (toMatrix m).mulVec w.get := by
    rw [← mulVec_get, ← mulVec_get, hvw]
  have h2 := congrArg ((toMatrix m)⁻¹.mulVec) h1
  simpa [Matrix.mulVec_mulVec, Matrix.nonsing_inv_mul _ h] using h2

theorem addVec_left_injective (k : Vec F) : Function.Injective fun v => addVec v k := by
  intro v w h
  simp only [addVec, Vec.zipWith, Vec.mk.injEq, add_left_inj] at h
  ext
  · exact h.1
  · exact h.2.1
  · exact h.2.2.1
  · exact h.2.2.2

theorem map_injective {α β : Type} {f : α → β} (hf : Function.Injective f) :
    Function.Injective (Vec.map f) := by
  intro v w h
  simp only [Vec.map, Vec.mk.injEq] at h
  ext
  · exact hf h.1
  · exact hf h.2.1
  · exact hf h.2.2.1
  · exact hf h.2.2.2

theorem limbsVal_single (a : ℕ) : limbsVal [a] = a := by simp [limbsVal]

/-! ## The S-boxes -/

/-- exponents that multiply to one modulo the group order undo each other -/
theorem pow_mul_eq {p : ℕ} [Fact p.Prime] {a b : ℕ} (h : a * b % (p - 1) = 1 % (p - 1))
    (hpos : 0 < a * b) (x : ZMod p) : (x ^ a) ^ b = x := by
  rw [← pow_mul]
  by_cases hx : x = 0
  · rw [hx, zero_pow (by omega)]
  · have h1 : x ^ (p - 1) = 1 := ZMod.pow_card_sub_one_eq_one hx
    have h2 : x ^ (a * b) = x ^ (a * b % (p - 1)) := by
      conv_lhs => rw [← Nat.mod_add_div (a * b) (p - 1)]
      rw [pow_add, pow_mul, h1, one_pow, mul_one]
    rw [h2, h]
    have h3 : x ^ 1 = x ^ (1 % (p - 1)) := by
      conv_lhs => rw [← Nat.mod_add_div 1 (p - 1)]
      rw [pow_add, pow_mul, h1, one_pow, mul_one]
    rw [← h3, pow_one]

/-- the two exponents are inverse to each other in the field with `p` elements, and the matrix is
invertible there -/
structure Good (p : ℕ) (K : Consts) : Prop where
  exps : K.A * limbsVal K.aInv % (p - 1) = 1 % (p - 1)
  pos : 0 < K.A * limbsVal K.aInv
  det : IsUnit (toMatrix (K.mds.map ofBytes : Mat (ZMod p))).det

variable {p : ℕ} [Fact p.Prime]

theorem pow_injective {K : Consts} (h : Good p K) (i : ℕ) :
    Function.Injective fun x : ZMod p => x ^ limbsVal (expOf K i) := by
  unfold expOf
  split
  · intro x y hxy
    have hxy' : x ^ limbsVal K.aInv = y ^ limbsVal K.aInv := hxy
    have := congrArg (· ^ K.A) hxy'
    have e : limbsVal K.aInv * K.A % (p - 1) = 1 % (p - 1) := by rw [mul_comm]; exact h.exps
    have hp : 0 < limbsVal K.aInv * K.A := by rw [mul_comm]; exact h.pos
    simpa only [pow_mul_eq e hp] using this
  · intro x y hxy
    have hxy' : x ^ limbsVal [K.A] = y ^ limbsVal [K.A] := hxy
    rw [limbsVal_single] at hxy'
    have := congrArg (· ^ limbsVal K.aInv) hxy'
    simpa only [pow_mul_eq h.exps h.pos] using this

theorem round_injective {K : Consts} (h : Good p K) (i : ℕ) (k : Vec (ZMod p)) :
    Function.Injective fun s => linear (powVec s (expOf K i)) (PRP.default K).mds k := by
  intro v w hvw
  have h1 := addVec_left_injective k hvw
  have h2 := mulVec_injective _ h.det h1
  exact map_injective (pow_injective h i) h2

theorem roundLoop_injective {K : Consts} (h : Good p K) (ks : List (Vec (ZMod p))) :
    ∀ i, Function.Injective (roundLoop K (PRP.default K).mds i ks) := by
  induction ks with
  | nil => intro i v w hvw; exact hvw
  | cons k ks ih => intro i v w hvw; exact round_injective h i k (ih (i + 1) hvw)

/-- the states form a finite type -/
def vecEquiv (α : Type) : Vec α ≃ (Fin 4 → α) where
  toFun := Vec.get
  invFun f := ⟨f 0, f 1, f 2, f 3⟩
  left_inv v := rfl
  right_inv f := by funext i; fin_cases i <;> rfl

instance {α : Type} [Finite α] : Finite (Vec α) := Finite.of_equiv _ (vecEquiv α).symm

/-! ## Evaluation in the kernel -/

/-- a round of the key schedule on canonical numbers -/
def linearNat (p : ℕ) (m : Vec (Vec ℕ)) (k v : Vec ℕ) : Vec ℕ :=
  Vec.zipWith (fun row c => (row.a * v.a + row.b * v.b + row.c * v.c + row.d * v.d + c) % p) m k

/-- the key schedule on canonical numbers -/
def scheduleNat (p : ℕ) (K : Consts) : ℕ → List (Vec ℕ) → Vec ℕ → List (Vec ℕ)
  | _, [], _ => []
  | i, k :: ks, aux =>
    let aux := linearNat p K.mds k (aux.map fun x => Primality.powMod p x (limbsVal (expOf K i)))
    aux :: scheduleNat p K (i + 1) ks aux

theorem scheduleNat_cast {q : ℕ} (K : Consts) (hA : K.A < 2 ^ 512) (hI : limbsVal K.aInv < 2 ^ 512)
    (ks : List (Vec ℕ)) : ∀ (i : ℕ) (aux : Vec ℕ),
    (scheduleNat q K i ks aux).map ofBytes =
      scheduleLoop K (K.mds.map ofBytes : Mat (ZMod q)) i (ks.map ofBytes) (ofBytes aux) := by
  induction ks with
  | nil => intro i aux; rfl
  | cons k ks ih =>
    intro i aux
    have he : limbsVal (expOf K i) < 2 ^ 512 := by
      unfold expOf
      split
      · exact hI
      · rw [limbsVal_single]; exact hA
    have : (ofBytes (linearNat q K.mds k (aux.map fun x =>
        Primality.powMod q x (limbsVal (expOf K i)))) : Vec (ZMod q)) =
        linear (powVec (ofBytes aux) (expOf K i)) (K.mds.map ofBytes) (ofBytes k) := by
      simp only [ofBytes, linearNat, Vec.zipWith, Vec.map, linear, addVec, mulVec, dotProduct, powVec,
        ZMod.natCast_mod, Nat.cast_add, Nat.cast_mul, Primality.powMod_cast he, zero_add]
    simp only [scheduleNat, List.map_cons, scheduleLoop, ih, this]

end Verif.Rescue
