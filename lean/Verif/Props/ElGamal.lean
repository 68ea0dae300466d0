import Verif.Sig.ElGamal
import Mathlib.Tactic.Ring
import Mathlib.Tactic.Abel
import Mathlib.Tactic.NormNum.Prime
import Mathlib.Algebra.Field.ZMod

set_option linter.unusedSectionVars false

/-! # C56: ElGamal hybrid encryption -/

namespace Verif.Props.ElGamal

open Verif.ElGamal

variable {F A : Type} [CommRing F] [AddCommGroup A] {r : ℕ}

/-- What the code relies on about the permutation: it returns a whole state. -/
def StateOut (P : Params F A) : Prop := ∀ k s, (P.prp k s).length = 4

/-! ## The key stream -/

/-- The `i`-th element of the key stream: block `i / 4` of the keyed permutation applied to the
counter, element `i % 4` of that block. -/
def keystream (P : Params F A) (key : List F) (nonce : F) (i : ℕ) : F :=
  (P.prp key [nonce + ((i / 4 : ℕ) : F), 0, 0, 0]).getD (i % 4) 0

/-- one element of the output -/
def shift (d : Direction) (x s : F) : F :=
  match d with
  | .encrypt => x + s
  | .decrypt => x - s

theorem getD_lt (l : List F) (i : ℕ) (h : i < l.length) : l.getD i 0 = l[i] := by
  rw [List.getD_eq_getElem?_getD, List.getElem?_eq_getElem h]; rfl

theorem streamLoop_getElem (P : Params F A) (hP : StateOut P) (key : List F) (nonce : F)
    (d : Direction) (n idx : ℕ) (out : List F) (hl : out.length = 4 * n) (i : ℕ) (hi : i < 4 * n) :
    (streamLoop P key nonce d n idx out)[i]? =
      some (shift d (out.getD i 0) (keystream P key nonce (4 * idx + i))) := by
  induction n generalizing idx out i with
  | zero => omega
  | succ n ih =>
    simp only [streamLoop, stateSize]
    have hlen : (roundFn P key nonce d idx (out.take 4)).length = 4 := by
      simp only [roundFn, List.length_append, List.length_zipWith, List.length_take, hl,
        List.length_drop]
      omega
    by_cases h4 : i < 4
    · rw [List.getElem?_append_left (by omega)]
      simp only [roundFn]
      rw [List.getElem?_append_left (by
        have := hP key [nonce + (idx : F), 0, 0, 0]
        simp only [List.length_zipWith, List.length_take, hl]; omega)]
      have hks : keystream P key nonce (4 * idx + i) =
          (P.prp key [nonce + (idx : F), 0, 0, 0]).getD i 0 := by
        unfold keystream
        rw [show (4 * idx + i) / 4 = idx by omega, show (4 * idx + i) % 4 = i by omega]
      have hi1 : i < out.length := by omega
      have hi2 : i < (P.prp key [nonce + (idx : F), 0, 0, 0]).length := by rw [hP]; exact h4
      rw [hks, List.getElem?_zipWith, List.getElem?_take_of_lt h4, List.getElem?_eq_getElem hi1,
        List.getElem?_eq_getElem hi2, getD_lt _ _ hi1, getD_lt _ _ hi2]
      cases d <;> rfl
    · rw [List.getElem?_append_right (by omega), hlen]
      rw [ih (idx + 1) (out.drop 4) (by simp [hl]; omega) (i - 4) (by omega)]
      congr 2
      · simp only [List.getD_eq_getElem?_getD, List.getElem?_drop]
        rw [show 4 + (i - 4) = i by omega]
      · rw [show 4 * (idx + 1) + (i - 4) = 4 * idx + i by omega]

theorem streamLoop_length (P : Params F A) (key : List F) (nonce : F)
    (d : Direction) (n idx : ℕ) (out : List F) (hl : out.length = 4 * n) :
    (streamLoop P key nonce d n idx out).length = 4 * n := by
  induction n generalizing idx out with
  | zero => simpa [streamLoop] using hl
  | succ n ih =>
    simp only [streamLoop, stateSize, List.length_append]
    rw [ih (idx + 1) (out.drop 4) (by simp [hl]; omega)]
    simp only [roundFn, List.length_append, List.length_zipWith, List.length_take, hl,
      List.length_drop]
    omega

theorem lenToNextMultiple_spec (n : ℕ) : n ≤ lenToNextMultiple n 4 ∧
    lenToNextMultiple n 4 = 4 * (lenToNextMultiple n 4 / 4) := by
  unfold lenToNextMultiple
  split <;> omega

/-- The stream cipher, element by element: for a message of any length the output has the same
length and its `i`-th element is the message element plus (minus) the `i`-th element of the key
stream. In particular different positions use different blocks or different elements of a block. -/
theorem C56_stream (P : Params F A) (hP : StateOut P) (key data : List F) (nonce : F)
    (d : Direction) : (applyStream P key data nonce d).length = data.length ∧
    ∀ i, i < data.length → (applyStream P key data nonce d)[i]? =
      some (shift d (data.getD i 0) (keystream P key nonce i)) := by
  obtain ⟨h1, h2⟩ := lenToNextMultiple_spec data.length
  have hpad : padWithZeros data 4 = data ++
      List.replicate (lenToNextMultiple data.length 4 - data.length) 0 := by
    simp only [padWithZeros]
    rw [List.take_of_length_le h1]
  have hlen : (padWithZeros data 4).length = 4 * ((padWithZeros data 4).length / 4) := by
    have : (padWithZeros data 4).length = lenToNextMultiple data.length 4 := by
      rw [hpad]; simp; omega
    rw [this]; exact h2
  have hge : data.length ≤ (padWithZeros data 4).length := by rw [hpad]; simp
  unfold applyStream
  simp only [stateSize]
  constructor
  · rw [List.length_take, streamLoop_length P _ _ _ _ _ _ hlen]
    omega
  · intro i hi
    rw [List.getElem?_take_of_lt hi,
      streamLoop_getElem P hP _ _ _ _ _ _ hlen i (by omega), mul_zero, zero_add]
    congr 2
    rw [hpad]
    simp only [List.getD_eq_getElem?_getD]
    rw [List.getElem?_append_left hi]

theorem stream_inverse (P : Params F A) (hP : StateOut P) (key data : List F) (nonce : F)
    (d d' : Direction) (hd : d ≠ d') :
    applyStream P key (applyStream P key data nonce d) nonce d' = data := by
  obtain ⟨l1, e1⟩ := C56_stream P hP key data nonce d
  obtain ⟨l2, e2⟩ := C56_stream P hP key (applyStream P key data nonce d) nonce d'
  apply List.ext_getElem?
  intro i
  by_cases hi : i < data.length
  · rw [e2 i (by omega)]
    have : (applyStream P key data nonce d).getD i 0 =
        shift d (data.getD i 0) (keystream P key nonce i) := by
      rw [List.getD_eq_getElem?_getD, e1 i hi]; rfl
    rw [this, List.getElem?_eq_getElem hi, getD_lt _ _ hi]
    congr 1
    cases d <;> cases d' <;> simp [shift] at hd ⊢
  · rw [List.getElem?_eq_none (by omega), List.getElem?_eq_none (by omega)]

theorem mul_comm_gen (X : A) (a b : ZMod r) : mul (mul X a) b = mul (mul X b) a := by
  unfold mul
  rw [← mul_nsmul, ← mul_nsmul, mul_comm]

/-- Decryption with the matching key returns the message, for messages of any length. Nothing is
assumed about the group, the permutation or the key derivation (except the size of a state). -/
theorem C56_decrypt_encrypt (P : Params F A) (hP : StateOut P) (dec rand : ZMod r)
    (msg : List F) :
    decrypt P (keyPairOf P dec) (encrypt P (keyPairOf P dec).enc rand msg) = msg := by
  simp only [decrypt, encrypt, computeCiphertext, keyPairOf, mul_comm_gen P.gen rand dec]
  exact stream_inverse P hP _ _ _ _ _ (by decide)

/-- Every ciphertext with the same ephemeral key is the encryption of its decryption: for a fixed
key pair and randomness, encryption is a bijection between messages and ciphertext bodies. -/
theorem C56_encrypt_decrypt (P : Params F A) (hP : StateOut P) (dec rand : ZMod r)
    (c : Ciphertext F A) (hc : c.ephemeral = (keyPairOf P rand).enc) :
    encrypt P (keyPairOf P dec).enc rand (decrypt P (keyPairOf P dec) c) = c := by
  obtain ⟨e, d⟩ := c
  simp only at hc
  subst hc
  simp only [decrypt, encrypt, computeCiphertext, keyPairOf, mul_comm_gen P.gen rand dec]
  rw [stream_inverse P hP _ _ _ _ _ (by decide)]

/-! ## Flattening -/

/-- Flattening a ciphertext and parsing it gives the ciphertext, if `Affine::new` accepts the
coordinates of the ephemeral key. -/
theorem C56_scalars_roundtrip (P : Params F A) (c : Ciphertext F A)
    (h : P.ofCoords (P.coords c.ephemeral).1 (P.coords c.ephemeral).2 = some c.ephemeral) :
    fromScalars P (toScalars P c) = .ok c := by
  simp [fromScalars, toScalars, h]

/-- The other direction: whatever is parsed flattens to the input. -/
theorem C56_scalars_parse_roundtrip (P : Params F A) (l : List F) (c : Ciphertext F A)
    (h : ∀ x y k, P.ofCoords x y = some k → P.coords k = (x, y))
    (hl : fromScalars P l = .ok c) : toScalars P c = l := by
  match l, hl with
  | x :: y :: data, hl =>
    simp only [fromScalars] at hl
    cases hk : P.ofCoords x y with
    | none => simp [hk] at hl
    | some k =>
      simp only [hk, Except.ok.injEq] at hl
      subst hl
      simp [toScalars, h x y k hk]
  | [], hl => simp [fromScalars] at hl
  | [_], hl => simp [fromScalars] at hl

/-- Although `from_scalars` returns a `Result`, a list whose first two scalars are not a valid
point makes it panic, whatever the rest is; only short lists give an error. -/
theorem C56_from_scalars_panic_counterexample (P : Params F A) (x y : F) (data : List F)
    (h : P.ofCoords x y = none) :
    fromScalars P (x :: y :: data) = .error .panic ∧
    fromScalars P [] = .error .parameter ∧ fromScalars P [x] = .error .parameter := by
  simp [fromScalars, h]

/-! ### A toy instance -/

instance : Fact (Nat.Prime 13) := ⟨by norm_num⟩

/-- group `ZMod 11`, field `ZMod 13`, "permutation" that mixes key and counter -/
def toy : Params (ZMod 13) (ZMod 11) where
  gen := 3
  coords := fun a => ((a.val : ZMod 13), (a.val ^ 2 : ℕ))
  ofCoords := fun x y => if x.val < 11 ∧ y = x ^ 2 then some (x.val : ZMod 11) else none
  eval := fun s => s.map (· + 1)
  prp := fun k s => [k.sum + s.sum, 2 * s.sum + 1, k.sum * s.sum, 7]

theorem toy_state : StateOut toy := fun _ _ => rfl

example : (encrypt toy (keyPairOf toy (4 : ZMod 11)).enc (5 : ZMod 11) [1, 2, 3, 4, 5, 6]).data ≠
      [1, 2, 3, 4, 5, 6] ∧
    decrypt toy (keyPairOf toy (4 : ZMod 11))
      (encrypt toy (keyPairOf toy (4 : ZMod 11)).enc (5 : ZMod 11) [1, 2, 3, 4, 5, 6]) =
        [1, 2, 3, 4, 5, 6] := by decide +kernel

example : (∀ e : ZMod 11, toy.ofCoords (toy.coords e).1 (toy.coords e).2 = some e) ∧
    (∀ x y k, toy.ofCoords x y = some k → toy.coords k = (x, y)) ∧ toy.ofCoords 1 2 = none := by
  decide +kernel

end Verif.Props.ElGamal
