import Verif.Sig.Schnorr
import Mathlib.Tactic.LinearCombination
import Mathlib.Tactic.Abel
import Mathlib.Tactic.NormNum.Prime
import Mathlib.Tactic.Ring
import Mathlib.Algebra.Field.ZMod
import Mathlib.Algebra.Group.Prod

set_option linter.unusedSectionVars false

/-! # C53, C65: Schnorr signatures -/

namespace Verif.Props.Schnorr

open Verif.Schnorr Verif.Conv

variable {q r : ℕ} {A : Type} [AddCommGroup A] [DecidableEq A]

/-! ## The group generated by the base point -/

/-- What the code relies on about the curve: the base point has the (prime) order of the scalar
field, and the cofactor is not a multiple of it. -/
structure GoodCurve (P : Params q r A) : Prop where
  prime : Nat.Prime r
  order : addOrderOf P.gen = r
  cofactor : ¬ r ∣ P.cofactor

theorem gen_nsmul_mod {P : Params q r A} (h : GoodCurve P) (n : ℕ) : (n % r) • P.gen = n • P.gen := by
  have := mod_addOrderOf_nsmul P.gen n
  rwa [h.order] at this

theorem mul_gen_cast {P : Params q r A} (h : GoodCurve P) (n : ℕ) :
    mul P.gen (n : ZMod r) = n • P.gen := by
  have := Fact.mk h.prime
  unfold mul
  rw [ZMod.val_natCast, gen_nsmul_mod h]

theorem mul_gen_add {P : Params q r A} (h : GoodCurve P) (a b : ZMod r) :
    mul P.gen (a + b) = mul P.gen a + mul P.gen b := by
  have := Fact.mk h.prime
  unfold mul
  rw [ZMod.val_add, gen_nsmul_mod h, add_nsmul]

theorem mul_mul_gen {P : Params q r A} (h : GoodCurve P) (a b : ZMod r) :
    mul (mul P.gen a) b = mul P.gen (b * a) := by
  have := Fact.mk h.prime
  unfold mul
  rw [ZMod.val_mul, gen_nsmul_mod h, mul_nsmul']

theorem mul_gen_eq_zero {P : Params q r A} (h : GoodCurve P) (a : ZMod r) :
    mul P.gen a = 0 ↔ a = 0 := by
  have := Fact.mk h.prime
  unfold mul
  rw [← addOrderOf_dvd_iff_nsmul_eq_zero, h.order]
  constructor
  · intro hd
    have := Nat.eq_zero_of_dvd_of_lt hd (ZMod.val_lt a)
    exact (ZMod.val_eq_zero a).1 this
  · rintro rfl
    simp

theorem mul_gen_inj {P : Params q r A} (h : GoodCurve P) (a b : ZMod r)
    (he : mul P.gen a = mul P.gen b) : a = b := by
  have h1 : mul P.gen ((a - b) + b) = mul P.gen (a - b) + mul P.gen b := mul_gen_add h _ _
  rw [sub_add_cancel, he] at h1
  have h2 : mul P.gen (a - b) = 0 := by simpa using h1
  exact sub_eq_zero.1 ((mul_gen_eq_zero h _).1 h2)

/-! ## C53: honest signatures verify -/

/-- The challenge never panics for the fields in use: the masked conversion only needs the scalar
field to be smaller than the base field. -/
theorem challenge_ok (P : Params q r A) [NeZero q] (hb : bits r < bits q) (vk R : A)
    (msg : List (ZMod q)) (csid : List Byte) : ∃ c, challenge P vk R msg csid = .ok c := by
  unfold challenge fqToFrWithMask
  simp only [hb, if_true]
  rw [if_neg]
  · exact ⟨_, rfl⟩
  · rw [toBytesLE_length]
    unfold limbs
    omega

/-- Every key, message and context string: signing succeeds, and the signature is accepted under
the verification key that belongs to the signing key, provided the signing key is not zero. -/
theorem C53_honest_accepted (P : Params q r A) [NeZero q] (h : GoodCurve P) (hb : bits r < bits q)
    (sk : ZMod r) (hsk : sk ≠ 0) (msg : List (ZMod q)) (csid : List Byte) :
    ∃ sig, sign P (generateWithSignKey P sk) msg csid = .ok sig ∧
      verify P (verKeyOf P sk) msg sig csid = .ok () := by
  have := Fact.mk h.prime
  obtain ⟨c, hc⟩ := challenge_ok P hb (verKeyOf P sk) (mul P.gen (nonce P sk msg csid)) msg csid
  refine ⟨⟨c * sk + nonce P sk msg csid, mul P.gen (nonce P sk msg csid)⟩, ?_, ?_⟩
  · simp only [sign, generateWithSignKey, hc]
  · have hco : (P.cofactor : ZMod r) ≠ 0 := by
      rw [Ne, ZMod.natCast_eq_zero_iff]
      exact h.cofactor
    have h0 : mul (verKeyOf P sk) (P.cofactor : ZMod r) ≠ 0 := by
      rw [verKeyOf, mul_mul_gen h, Ne, mul_gen_eq_zero h]
      exact mul_ne_zero hco hsk
    simp only [verify, h0, if_false, hc]
    rw [if_pos]
    rw [verKeyOf, mul_mul_gen h, ← mul_gen_add h, add_comm]

/-- After any number of randomizations of the key pair, signatures of the randomized key pair are
accepted under the verification key that was randomized with public information only, unless the
randomized signing key is zero. -/
theorem C53_randomized_accepted (P : Params q r A) [NeZero q] (h : GoodCurve P)
    (hb : bits r < bits q) (sk : ZMod r) (xs : List (ZMod r)) (hsk : sk + xs.sum ≠ 0)
    (msg : List (ZMod q)) (csid : List Byte) :
    let kp := xs.foldl (KeyPair.randomize P) (generateWithSignKey P sk)
    let vk := xs.foldl (verKeyRandomize P) (verKeyOf P sk)
    kp.vk = vk ∧ ∃ sig, sign P kp msg csid = .ok sig ∧ verify P vk msg sig csid = .ok () := by
  have := Fact.mk h.prime
  have key : ∀ (xs : List (ZMod r)) (s : ZMod r),
      xs.foldl (KeyPair.randomize P) (generateWithSignKey P s) = generateWithSignKey P (s + xs.sum) ∧
      xs.foldl (verKeyRandomize P) (verKeyOf P s) = verKeyOf P (s + xs.sum) := by
    intro xs
    induction xs with
    | nil => intro s; simp
    | cons x xs ih =>
      intro s
      have h1 : verKeyRandomize P (verKeyOf P s) x = verKeyOf P (s + x) := by
        rw [verKeyRandomize, verKeyOf, verKeyOf, ← mul_gen_add h, add_comm]
      have h2 : KeyPair.randomize P (generateWithSignKey P s) x = generateWithSignKey P (s + x) := by
        simp only [KeyPair.randomize, generateWithSignKey, signKeyRandomize, h1]
      simp only [List.foldl_cons, List.sum_cons, h1, h2, ih, ← add_assoc, and_self]
  obtain ⟨k1, k2⟩ := key xs sk
  simp only [k1, k2]
  exact ⟨rfl, C53_honest_accepted P h hb _ hsk msg csid⟩

/-- Without the hypothesis the claim is false: the zero signing key never makes an accepted
signature (nothing at all verifies under its verification key). -/
theorem C53_zero_key_counterexample (P : Params q r A) (msg : List (ZMod q))
    (csid : List Byte) (sig : Signature r A) :
    verify P (verKeyOf P (0 : ZMod r)) msg sig csid = .error .smallOrder := by
  have : mul (verKeyOf P (0 : ZMod r)) (P.cofactor : ZMod r) = 0 := by
    simp [verKeyOf, mul]
  simp [verify, this]

/-! ## C53: what acceptance means -/

/-- For given key, message, context and nonce point at most one response is accepted. -/
theorem C53_unique_response (P : Params q r A) (h : GoodCurve P) (vk R : A) (msg : List (ZMod q))
    (csid : List Byte) (s s' : ZMod r) (h1 : verify P vk msg ⟨s, R⟩ csid = .ok ())
    (h2 : verify P vk msg ⟨s', R⟩ csid = .ok ()) : s = s' := by
  unfold verify at h1 h2
  by_cases h0 : mul vk (P.cofactor : ZMod r) = 0
  · simp [h0] at h1
  · simp only [h0, if_false] at h1 h2
    cases hc : challenge P vk R msg csid with
    | error e => simp [hc] at h1
    | ok c =>
      simp only [hc] at h1 h2
      split at h1
      · split at h2
        · rename_i e1 e2
          exact mul_gen_inj h _ _ (e1.symm.trans e2)
        · simp at h2
      · simp at h1

/-- Two accepted signatures for one key with the same nonce point satisfy a linear equation for the
signing key, which determines it when the challenges differ: this is the special soundness the
scheme's security rests on. -/
theorem C53_special_soundness (P : Params q r A) (h : GoodCurve P) (sk : ZMod r) (R : A)
    (m m' : List (ZMod q)) (csid csid' : List Byte) (s s' c c' : ZMod r)
    (h1 : verify P (verKeyOf P sk) m ⟨s, R⟩ csid = .ok ())
    (h2 : verify P (verKeyOf P sk) m' ⟨s', R⟩ csid' = .ok ())
    (hc : challenge P (verKeyOf P sk) R m csid = .ok c)
    (hc' : challenge P (verKeyOf P sk) R m' csid' = .ok c') :
    (c - c') * sk = s - s' := by
  have := Fact.mk h.prime
  unfold verify at h1 h2
  by_cases h0 : mul (verKeyOf P sk) (P.cofactor : ZMod r) = 0
  · simp [h0] at h1
  · simp only [h0, if_false, hc, hc'] at h1 h2
    split at h1
    swap
    · simp at h1
    split at h2
    swap
    · simp at h2
    rename_i e1 e2
    rw [verKeyOf, mul_mul_gen h] at e1 e2
    have e3 : mul P.gen (s + c' * sk) = mul P.gen (s' + c * sk) := by
      rw [mul_gen_add h, mul_gen_add h, ← e1, ← e2]
      abel
    have e4 := mul_gen_inj h _ _ e3
    linear_combination -e4

/-- Writing a signing key to bytes and reading it back gives the same key pair. -/
theorem C53_key_bytes_roundtrip (P : Params q r A) [NeZero r] (sk : ZMod r) :
    fromBytes P (toBytes sk) = generateWithSignKey P sk := by
  simp [fromBytes, toBytes, fromLeBytesModOrder, leNat_toBytesLE]

/-! ## C65: the context string -/

theorem leNat_append (l m : List Byte) : leNat (l ++ m) = leNat l + 256 ^ l.length * leNat m := by
  induction l with
  | nil => simp [leNat]
  | cons a l ih =>
    simp only [List.cons_append, leNat, ih, List.length_cons, pow_succ]
    ring

/-- The context string is not bound: a leading zero byte changes neither signing nor verification,
so a signature made for one context is accepted for another one. -/
theorem C65_schnorr_leading_zero_counterexample (P : Params q r A) (csid : List Byte) :
    (0 :: csid ≠ csid) ∧
    (∀ (kp : KeyPair r A) msg, sign P kp msg (0 :: csid) = sign P kp msg csid) ∧
    (∀ vk msg sig, verify P vk msg sig (0 :: csid) = verify P vk msg sig csid) := by
  have h : fromBeBytesModOrder q (0 :: csid) = fromBeBytesModOrder q csid := by
    simp [fromBeBytesModOrder, fromLeBytesModOrder, leNat_append, leNat]
  have hc : ∀ vk R msg, challenge P vk R msg (0 :: csid) = challenge P vk R msg csid := by
    intro vk R msg
    simp [challenge, h]
  refine ⟨?_, ?_, ?_⟩
  · intro he
    have := congrArg List.length he
    simp at this
  · intro kp msg
    simp only [sign, nonce, h, hc]
  · intro vk msg sig
    simp only [verify, hc]

theorem leNat_inj (l m : List Byte) (hl : l.length = m.length) (h : leNat l = leNat m) : l = m := by
  have h1 := toLE_leNat l.length l le_rfl
  have h2 := toLE_leNat l.length m hl.ge
  rw [h, h2] at h1
  simpa [hl] using h1.symm

/-- What is true: among context strings of one length that fit into the base field, a signature
accepted for two different message/context pairs exhibits two different hash inputs with the same
challenge. -/
theorem C65_schnorr_context_partial (P : Params q r A) [NeZero q] (h : GoodCurve P) (sk : ZMod r)
    (sig : Signature r A) (m m' : List (ZMod q)) (csid csid' : List Byte)
    (hlen : csid.length = csid'.length) (hfit : 256 ^ csid.length ≤ q)
    (h1 : verify P (verKeyOf P sk) m sig csid = .ok ())
    (h2 : verify P (verKeyOf P sk) m' sig csid' = .ok ()) :
    (m = m' ∧ csid = csid') ∨
      ∃ x y : List (ZMod q), x ≠ y ∧ fqToFrWithMask r (P.crhf x) = fqToFrWithMask r (P.crhf y) := by
  have := Fact.mk h.prime
  unfold verify at h1 h2
  by_cases h0 : mul (verKeyOf P sk) (P.cofactor : ZMod r) = 0
  · simp [h0] at h1
  simp only [h0, if_false] at h1 h2
  have hsk : sk ≠ 0 := by
    rintro rfl
    exact h0 (by simp [verKeyOf, mul])
  cases hc : challenge P (verKeyOf P sk) sig.R m csid with
  | error e => simp [hc] at h1
  | ok c =>
  cases hc' : challenge P (verKeyOf P sk) sig.R m' csid' with
  | error e => simp [hc'] at h2
  | ok c' =>
  simp only [hc, hc'] at h1 h2
  split at h1
  swap
  · simp at h1
  split at h2
  swap
  · simp at h2
  rename_i e1 e2
  have e3 := add_left_cancel (e1.trans e2.symm)
  rw [verKeyOf, mul_mul_gen h, mul_mul_gen h] at e3
  have e4 := mul_right_cancel₀ hsk (mul_gen_inj h _ _ e3)
  subst e4
  by_cases hin : m = m' ∧ csid = csid'
  · exact .inl hin
  · right
    refine ⟨_, _, ?_, hc.trans hc'.symm⟩
    intro he
    simp only [List.cons_append, List.nil_append, List.cons.injEq, true_and] at he
    obtain ⟨hi, hm⟩ := he
    refine hin ⟨hm, ?_⟩
    unfold fromBeBytesModOrder fromLeBytesModOrder at hi
    have b1 := leNat_lt csid.reverse
    have b2 := leNat_lt csid'.reverse
    rw [List.length_reverse] at b1 b2
    rw [← hlen] at b2
    have hv := congrArg ZMod.val hi
    rw [ZMod.val_natCast, ZMod.val_natCast, Nat.mod_eq_of_lt (b1.trans_le hfit),
      Nat.mod_eq_of_lt (b2.trans_le hfit)] at hv
    exact List.reverse_injective (leNat_inj _ _ (by simpa using hlen) hv)

/-! ### A toy instance: the group `ZMod 514`, base point `2` of order 257, cofactor 2, base field
`ZMod 521`, and the hash that sums its input -/

instance : Fact (Nat.Prime 257) := ⟨by norm_num⟩

def toy : Params 521 257 (ZMod 514) where
  gen := 2
  cofactor := 2
  coords := fun a => ((a.val : ZMod 521), ((a.val * a.val : ℕ) : ZMod 521))
  crhf := fun l => l.sum

theorem order_two : addOrderOf (2 : ZMod 514) = 257 :=
  addOrderOf_eq_prime (by decide +kernel) (by decide +kernel)

theorem toy_good : GoodCurve toy := ⟨by norm_num, order_two, by decide⟩

-- the hypotheses of the completeness theorems
example : GoodCurve toy ∧ bits 257 < bits 521 ∧ (3 : ZMod 257) ≠ 0 ∧
    (3 : ZMod 257) + ([4, 1] : List (ZMod 257)).sum ≠ 0 :=
  ⟨toy_good, by decide +kernel, by decide +kernel, by decide +kernel⟩

-- a signature made with a non-zero challenge, and a second one with the same nonce point and another
-- challenge (hypotheses of uniqueness and special soundness)
example : challenge toy (verKeyOf toy 3) 38 [7, 8] [1, 2] = .ok 234 ∧
    verify toy (verKeyOf toy 3) [7, 8] ⟨207, 38⟩ [1, 2] = .ok () ∧
    challenge toy (verKeyOf toy 3) 38 [9, 8] [1, 2] = .ok 236 ∧
    verify toy (verKeyOf toy 3) [9, 8] ⟨213, 38⟩ [1, 2] = .ok () := by decide +kernel

-- hypotheses of `C65_schnorr_context_partial`, with a toy hash that has collisions
example : 256 ^ [(2 : Byte)].length ≤ 521 ∧
    verify toy (verKeyOf toy 3) [255, 8, 8] ⟨207, 38⟩ [2] = .ok () ∧
    verify toy (verKeyOf toy 3) [256, 8, 8] ⟨207, 38⟩ [1] = .ok () := by decide +kernel

/-! ## C66: the check on the verification key -/

/-- An accepted key is not of small order: no multiple of it by a divisor of the cofactor
vanishes. -/
theorem C66_not_small_order_partial (P : Params q r A) (hco : P.cofactor < r) (vk : A)
    (msg : List (ZMod q)) (sig : Signature r A) (csid : List Byte)
    (h : verify P vk msg sig csid = .ok ()) : ¬ addOrderOf vk ∣ P.cofactor := by
  have : NeZero r := ⟨by omega⟩
  unfold verify at h
  by_cases h0 : mul vk (P.cofactor : ZMod r) = 0
  · simp [h0] at h
  · intro hd
    apply h0
    unfold mul
    rw [ZMod.val_natCast, Nat.mod_eq_of_lt hco]
    exact addOrderOf_dvd_iff_nsmul_eq_zero.1 hd

example : toy.cofactor < 257 ∧
    verify toy (verKeyOf toy 3) [7, 8] ⟨207, 38⟩ [1, 2] = .ok () := by decide +kernel

/-- The error text "not in the correct subgroup" overstates the check: a key outside of the
subgroup generated by the base point can be accepted. -/
theorem C66_outside_subgroup_counterexample :
    GoodCurve toy ∧ (¬ ∃ n : ℕ, (263 : ZMod 514) = n • toy.gen) ∧
      verify toy 263 [7] ⟨148, 20⟩ [1] = .ok () := by
  refine ⟨toy_good, ?_, by decide +kernel⟩
  rintro ⟨n, hn⟩
  have h257 : 257 • (263 : ZMod 514) = 0 := by
    rw [hn, ← mul_nsmul', mul_comm, mul_nsmul']
    have : 257 • toy.gen = 0 := by decide +kernel
    rw [this, nsmul_zero]
  revert h257
  decide +kernel

end Verif.Props.Schnorr
