import Verif.Util.Conversion
import Mathlib.NumberTheory.LucasLehmer

/-!
# C44, C45: byte strings, field elements and conversions between prime fields
-/

namespace Verif.Props.Conv

open Verif.Conv

theorem bits_eq {p n : ℕ} (h1 : 2 ^ n ≤ p) (h2 : p < 2 ^ (n + 1)) : bits p = n + 1 := by
  unfold bits
  refine le_antisymm (Nat.size_le.2 h2) ?_
  exact Nat.lt_size.2 h1

theorem lt_pow_bits (p : ℕ) : p < 2 ^ bits p := Nat.lt_size_self p

theorem pow_le_of_lt_bits {p n : ℕ} (h : n < bits p) : 2 ^ n ≤ p := Nat.lt_size.1 h

/-! ## C44 -/

/-- **C44 (partial).**  Full statement: for *every* prime field of more than 64 bits the round trip
is the identity.  Proved for the fields in which a prime field element takes
`(MODULUS_BIT_SIZE - 1) / 8 + 1` bytes in its multi-word representation (`GoodField`); it is false
for all others, see `C44_roundtrip_counterexample`.  For every non-negative number of extra
elements after the encoding the result is still the byte string (the code documents that callers
may pad). -/
theorem C44_roundtrip_partial (p k : ℕ) (hp : GoodField p) (hk : 0 < k) (bytes : List Byte)
    (hlen : (bits p - 1) / 8 * k + bytes.length < 2 ^ 64) :
    ∃ elems, bytesToFieldElements p k bytes = .ok elems ∧
      bytesFromFieldElements p k elems = .ok bytes ∧
      ∀ extra : List (List (ZMod p)), bytes ≠ [] → (∀ e ∈ extra, e.length = k) →
        (bits p - 1) / 8 * k * (elems.length + extra.length) < 2 ^ 64 →
        bytesFromFieldElements p k (elems ++ extra) = .ok bytes := by
  have hp64 := hp.1
  have hct : compileTimeChecks p k = .ok ((bits p - 1) / 8, (bits p - 1) / 8 * k) := by
    unfold compileTimeChecks
    rw [if_pos hp64]
    simp only
    rw [if_pos (by omega)]
  by_cases hne : bytes = []
  · subst hne
    refine ⟨[], ?_, ?_, fun _ h => absurd rfl h⟩
    · unfold bytesToFieldElements; rw [hct]; rfl
    · unfold bytesFromFieldElements; rw [hct]
  · obtain ⟨elems, h1, h2, h3, m, h4⟩ := toElems_ok hp64 hk bytes hne hlen
    set fbl := (bits p - 1) / 8 * k with hfbl
    have hfpos : 0 < fbl := Nat.mul_pos (by omega) hk
    have hpbig : 2 ^ 64 ≤ p := pow_le_of_lt_bits hp64
    have hval : ((bytes.length : ZMod p)).val = bytes.length :=
      ZMod.val_natCast_of_lt (by omega)
    have hcap : bytes.length ≤ fbl * elems.length ∧ fbl * elems.length < fbl + bytes.length := by
      rw [h2]
      have hd := Nat.div_add_mod (bytes.length + fbl - 1) fbl
      have hm := Nat.mod_lt (bytes.length + fbl - 1) hfpos
      have := List.length_pos_of_ne_nil hne
      omega
    have key : ∀ extra : List (List (ZMod p)), (∀ e ∈ extra, e.length = k) →
        fbl * (elems.length + extra.length) < 2 ^ 64 →
        bytesFromFieldElements p k ((ofU64 p k bytes.length :: elems) ++ extra) = .ok bytes := by
      intro extra he hov
      rw [List.cons_append]
      unfold ofU64
      rw [fromElems_ok hp (by omega) _ _ _ _ (by rw [List.length_append]; exact hov)]
      · rw [hval, Nat.mod_eq_of_lt (by omega), List.flatMap_append, h4, List.length_append,
          Nat.min_eq_left (by rw [← hfbl, Nat.mul_add]; have := hcap.1; omega)]
        simp
      · intro e hee
        rcases List.mem_append.1 hee with h | h
        · exact h3 e h
        · exact he e h
    refine ⟨_, h1, ?_, ?_⟩
    · have := key [] (by simp) (by simp; omega)
      simpa using this
    · intro extra _ he hov
      refine key extra he (lt_of_le_of_lt (Nat.mul_le_mul_left _ ?_) hov)
      simp

/-- **C44.** The conversion to field elements is injective, for every field of more than 64 bits
and every extension degree (no condition on the representation). -/
theorem C44_to_elements_injective (p k : ℕ) (hp : 64 < bits p) (hk : 0 < k) (b₁ b₂ : List Byte)
    (h₁ : (bits p - 1) / 8 * k + b₁.length < 2 ^ 64)
    (h₂ : (bits p - 1) / 8 * k + b₂.length < 2 ^ 64)
    (h : bytesToFieldElements p k b₁ = bytesToFieldElements p k b₂) : b₁ = b₂ := by
  have hnil : ∀ b : List Byte, b ≠ [] → (bits p - 1) / 8 * k + b.length < 2 ^ 64 →
      bytesToFieldElements p k [] ≠ bytesToFieldElements p k b := by
    intro b hb hl e
    obtain ⟨elems, g1, -⟩ := toElems_ok hp hk b hb hl
    rw [g1] at e
    unfold bytesToFieldElements compileTimeChecks at e
    rw [if_pos hp] at e
    simp only at e
    rw [if_pos (by omega)] at e
    simp at e
  have hpbig : 2 ^ 64 ≤ p := pow_le_of_lt_bits hp
  by_cases e1 : b₁ = []
  · by_cases e2 : b₂ = []
    · rw [e1, e2]
    · subst e1; exact absurd h (hnil b₂ e2 h₂)
  · by_cases e2 : b₂ = []
    · subst e2; exact absurd h.symm (hnil b₁ e1 h₁)
    · obtain ⟨l1, g1, -, -, m1, f1⟩ := toElems_ok hp hk b₁ e1 h₁
      obtain ⟨l2, g2, -, -, m2, f2⟩ := toElems_ok hp hk b₂ e2 h₂
      rw [g1, g2] at h
      simp only [Except.ok.injEq, List.cons.injEq, ofU64, and_true] at h
      obtain ⟨hl, rfl⟩ := h
      have hlen : b₁.length = b₂.length := by
        have := congrArg ZMod.val hl
        rwa [ZMod.val_natCast_of_lt (by omega), ZMod.val_natCast_of_lt (by omega)] at this
      rw [f1] at f2
      have := congrArg (List.take b₁.length) f2
      rw [List.take_left] at this
      rw [hlen, List.take_left] at this
      exact this

/-- **C44 (partial).**  The inverse conversion never panics and returns at most the capacity of
the elements, for every list of field elements whose capacity fits in a machine word.  (Partial
for the same reason.) -/
theorem C44_from_elements_total_partial (p k : ℕ) (hp : GoodField p) (hk : 0 < k)
    (hk64 : (bits p - 1) / 8 * k < 2 ^ 64) (elems : List (List (ZMod p)))
    (he : ∀ e ∈ elems, e.length = k) (hov : (bits p - 1) / 8 * k * elems.length < 2 ^ 64) :
    ∃ bytes, bytesFromFieldElements p k elems = .ok bytes ∧
      bytes.length ≤ (bits p - 1) / 8 * k * (elems.length - 1) := by
  match elems, he, hov with
  | [], _, _ =>
    refine ⟨[], ?_, by simp⟩
    unfold bytesFromFieldElements compileTimeChecks
    rw [if_pos hp.1]
    simp only
    rw [if_pos hk64]
  | [] :: es, he, _ =>
    have := he [] (by simp)
    simp at this; omega
  | (c0 :: rest) :: es, he, hov =>
    refine ⟨_, fromElems_ok hp hk64 c0 rest es (fun e h => he e (by simp [h])) ?_, ?_⟩
    · refine lt_of_le_of_lt (Nat.mul_le_mul_left _ ?_) hov
      simp
    · simp only [List.length_take, List.length_cons, Nat.add_sub_cancel]
      omega

theorem prime_89 : Nat.Prime (2 ^ 89 - 1) := lucas_lehmer_sufficiency 89 (by norm_num) (by norm_num)

theorem prime_127 : Nat.Prime (2 ^ 127 - 1) :=
  lucas_lehmer_sufficiency 127 (by norm_num) (by norm_num)

/-- **C44, negation.** The prime field of order `2^89 - 1` passes the compile time checks, but its
elements occupy two words (16 bytes), so `bytes_from_field_elements` panics on the encoding of the
one byte string `[7]`. -/
theorem C44_roundtrip_counterexample :
    ∃ p, Nat.Prime p ∧ compileTimeChecks p 1 = .ok (11, 11) ∧
      ∃ elems, bytesToFieldElements p 1 [7] = .ok elems ∧
        bytesFromFieldElements p 1 elems = .error .primeBytesLen := by
  have hb : bits (2 ^ 89 - 1) = 89 := bits_eq (n := 88) (by norm_num) (by norm_num)
  have hl : limbs (2 ^ 89 - 1) = 2 := by unfold limbs; rw [hb]
  have hct : compileTimeChecks (2 ^ 89 - 1) 1 = .ok (11, 11) := by
    unfold compileTimeChecks; rw [hb]; rfl
  refine ⟨2 ^ 89 - 1, prime_89, hct, [[1], [7]], ?_, ?_⟩
  · unfold bytesToFieldElements
    rw [hct]
    rfl
  · unfold bytesFromFieldElements
    rw [hct]
    simp only
    rw [if_neg (by rw [toBytesLE_length, hl]; norm_num), if_neg (by norm_num)]
    have : elemBytesM 11 [(7 : ZMod (2 ^ 89 - 1))] = .error .primeBytesLen := by
      unfold elemBytesM
      rw [List.mapM_cons]
      have : primeBytes 11 (7 : ZMod (2 ^ 89 - 1)) = .error .primeBytesLen := by
        unfold primeBytes
        rw [if_neg]
        rw [List.length_dropLast, toBytesLE_length, hl]; norm_num
      rw [this]; rfl
    rw [List.mapM_cons, this]; rfl

/-! ## C45 -/

theorem fromLe_toBytes {p : ℕ} [NeZero p] (q : ℕ) (x : ZMod p) :
    fromLeBytesModOrder q (toBytesLE x) = (x.val : ZMod q) := by
  unfold fromLeBytesModOrder; rw [leNat_toBytesLE]

/-- **C45.** If the scalar field is not larger than the base field, embedding a scalar preserves
its integer value and going back is the identity. -/
theorem C45_embedding_preserves (r q : ℕ) [NeZero r] [NeZero q] (h : r ≤ q) (x : ZMod r) :
    (frToFq q x).val = x.val ∧ fqToFr r (frToFq q x) = x := by
  have hx := ZMod.val_lt x
  have h1 : (frToFq q x).val = x.val := by
    unfold frToFq
    rw [fromLe_toBytes, ZMod.val_natCast_of_lt (by omega)]
  refine ⟨h1, ?_⟩
  unfold fqToFr
  rw [fromLe_toBytes, h1, ZMod.natCast_zmod_val]

/-- **C45.** Converting a base field element to the scalar field is reduction of its integer value
modulo the order of the scalar field. -/
theorem C45_reduction (r q : ℕ) [NeZero r] [NeZero q] (x : ZMod q) :
    (fqToFr r x).val = x.val % r := by
  unfold fqToFr
  rw [fromLe_toBytes, ZMod.val_natCast]

/-- **C45 (partial).**  Documented behaviour: the result has the integer value of the low
`MODULUS_BIT_SIZE` bits of the argument.  The code keeps only whole bytes.  Proved: if the bit size
of the target is not a multiple of 8 the result is the value of the low `8 * (bits / 8)` bits, with
no reduction. -/
theorem C45_mask_partial (p t : ℕ) [NeZero p] [NeZero t] (hb : bits t < bits p) (h8 : bits t % 8 ≠ 0)
    (x : ZMod p) :
    ∃ y, fqToFrWithMask t x = .ok y ∧ y.val = x.val % 2 ^ (8 * (bits t / 8)) := by
  have hlen : bits t / 8 ≤ 8 * limbs p := by unfold limbs; omega
  refine ⟨_, by unfold fqToFrWithMask; rw [if_pos hb]; simp only; rw [if_neg (by
    rw [toBytesLE_length]; omega)], ?_⟩
  unfold toBytesLE fromLeBytesModOrder
  rw [toLE_take _ _ _ hlen, leNat_toLE, pow_mul, show (2 : ℕ) ^ 8 = 256 by norm_num,
    ZMod.val_natCast_of_lt]
  have h1 : x.val % 256 ^ (bits t / 8) < 256 ^ (bits t / 8) := Nat.mod_lt _ (by positivity)
  refine lt_of_lt_of_le h1 ?_
  have h2 : 2 ^ (bits t - 1) ≤ t := pow_le_of_lt_bits (by omega)
  refine le_trans ?_ h2
  rw [show (256 : ℕ) = 2 ^ 8 by norm_num, ← pow_mul]
  exact Nat.pow_le_pow_right (by norm_num) (by omega)

/-- **C45.** In every case the masked conversion is the low whole bytes, reduced modulo the target. -/
theorem C45_mask_value (p t : ℕ) [NeZero p] [NeZero t] (hb : bits t < bits p) (x : ZMod p) :
    ∃ y, fqToFrWithMask t x = .ok y ∧ y.val = x.val % 2 ^ (8 * (bits t / 8)) % t := by
  have hlen : bits t / 8 ≤ 8 * limbs p := by unfold limbs; omega
  refine ⟨_, by unfold fqToFrWithMask; rw [if_pos hb]; simp only; rw [if_neg (by
    rw [toBytesLE_length]; omega)], ?_⟩
  unfold toBytesLE fromLeBytesModOrder
  rw [toLE_take _ _ _ hlen, leNat_toLE, pow_mul, show (2 : ℕ) ^ 8 = 256 by norm_num,
    ZMod.val_natCast]

/-- **C45, negation.** The masked conversion does not return the documented low bits: from the
field of order `2^127 - 1` to the field of order `2^89 - 1` the element `2^88` becomes 0, and to the
field of order 251 (8 bits) the element 252 is reduced to 1. -/
theorem C45_mask_counterexample :
    (∃ x : ZMod (2 ^ 127 - 1), x.val = 2 ^ 88 ∧ fqToFrWithMask (2 ^ 89 - 1) x = .ok 0) ∧
    (∃ x : ZMod (2 ^ 127 - 1), x.val = 252 ∧ fqToFrWithMask 251 x = .ok 1) := by
  have hb : bits (2 ^ 89 - 1) = 89 := bits_eq (n := 88) (by norm_num) (by norm_num)
  have hb2 : bits (2 ^ 127 - 1) = 127 := bits_eq (n := 126) (by norm_num) (by norm_num)
  have hb3 : bits 251 = 8 := bits_eq (n := 7) (by norm_num) (by norm_num)
  have : NeZero (2 ^ 127 - 1) := ⟨by norm_num⟩
  have : NeZero (2 ^ 89 - 1) := ⟨by norm_num⟩
  have : NeZero 251 := ⟨by norm_num⟩
  refine ⟨⟨((2 ^ 88 : ℕ) : ZMod (2 ^ 127 - 1)), ?_, ?_⟩, ⟨((252 : ℕ) : ZMod (2 ^ 127 - 1)), ?_, ?_⟩⟩
  · exact ZMod.val_natCast_of_lt (by norm_num)
  · obtain ⟨y, h1, h2⟩ := C45_mask_value (2 ^ 127 - 1) (2 ^ 89 - 1) (by omega)
      ((2 ^ 88 : ℕ) : ZMod (2 ^ 127 - 1))
    rw [h1, ZMod.val_natCast_of_lt (by norm_num), hb] at *
    congr 1
    rw [← ZMod.val_eq_zero, h2]; norm_num
  · exact ZMod.val_natCast_of_lt (by norm_num)
  · obtain ⟨y, h1, h2⟩ := C45_mask_value (2 ^ 127 - 1) 251 (by omega)
      ((252 : ℕ) : ZMod (2 ^ 127 - 1))
    rw [h1, ZMod.val_natCast_of_lt (by norm_num), hb3] at *
    congr 1
    apply ZMod.val_injective
    rw [h2]; rfl

theorem switch_eq (p t : ℕ) [NeZero p] [NeZero t] (x : ZMod p) :
    fieldSwitching t x = if x.val % t % 256 ^ min (8 * limbs p) (8 * limbs t) =
      x.val % 256 ^ min (8 * limbs p) (8 * limbs t) then .ok (x.val : ZMod t)
      else .error .reduced := by
  unfold fieldSwitching
  simp only
  rw [fromLe_toBytes, toBytesLE_length, toBytesLE_length]
  unfold toBytesLE
  rw [toLE_take _ _ _ (by omega), toLE_take _ _ _ (by omega), ZMod.val_natCast]
  by_cases h : x.val % t % 256 ^ min (8 * limbs p) (8 * limbs t) =
      x.val % 256 ^ min (8 * limbs p) (8 * limbs t)
  · rw [if_pos h, if_pos (toLE_congr _ _ _ h)]
  · rw [if_neg h, if_neg fun e => h (toLE_inj_of_eq _ _ _ e)]

/-- **C45 (partial).**  Full statement: switching fields fails whenever the value does not fit.
Proved when the target has an odd order `t` and the source order is at most `t * 2^(64 * limbs t)`
(this includes every source with no more words than the target): the conversion succeeds exactly on
the values below `t`, and then preserves them.  It is false beyond this bound, see the
counterexample. -/
theorem C45_switch_partial (p t : ℕ) [NeZero p] [NeZero t] (hodd : Odd t)
    (hpt : p ≤ t * 2 ^ (64 * limbs t)) (x : ZMod p) :
    (x.val < t → ∃ y, fieldSwitching t x = .ok y ∧ y.val = x.val) ∧
    (t ≤ x.val → fieldSwitching t x = .error .reduced) := by
  have hx := ZMod.val_lt x
  have hxb := val_lt_bytes x
  rw [switch_eq]
  constructor
  · intro h
    rw [Nat.mod_eq_of_lt h, if_pos rfl]
    exact ⟨_, rfl, ZMod.val_natCast_of_lt h⟩
  · intro h
    rw [if_neg]
    intro e
    have htb : t < 256 ^ (8 * limbs t) := by
      have h2 : t < 2 ^ bits t := lt_pow_bits t
      have h3 : 2 ^ bits t ≤ 256 ^ (8 * limbs t) := by
        rw [show (256 : ℕ) = 2 ^ 8 by norm_num, ← pow_mul]
        refine Nat.pow_le_pow_right (by norm_num) ?_
        unfold limbs; omega
      omega
    have hmt : x.val % t < t := Nat.mod_lt _ (Nat.pos_of_ne_zero (NeZero.ne t))
    rcases le_total (8 * limbs p) (8 * limbs t) with hle | hle
    · rw [Nat.min_eq_left hle, Nat.mod_eq_of_lt hxb] at e
      have : x.val % t % 256 ^ (8 * limbs p) ≤ x.val % t := Nat.mod_le _ _
      omega
    · rw [Nat.min_eq_right hle, Nat.mod_eq_of_lt (lt_trans hmt htb)] at e
      have hpw : (256 : ℕ) ^ (8 * limbs t) = 2 ^ (64 * limbs t) := by
        rw [show (256 : ℕ) = 2 ^ 8 by norm_num, ← pow_mul]; congr 1; ring
      rw [hpw] at e
      have hd := Nat.div_add_mod x.val t
      have hdvd : 2 ^ (64 * limbs t) ∣ t * (x.val / t) := by
        have hd' := Nat.div_add_mod x.val (2 ^ (64 * limbs t))
        refine ⟨x.val / 2 ^ (64 * limbs t), ?_⟩
        rw [← e] at hd'
        omega
      have hcop : Nat.Coprime (2 ^ (64 * limbs t)) t :=
        Nat.Coprime.pow_left _ (Nat.coprime_two_left.2 hodd)
      have hq := hcop.dvd_of_dvd_mul_left hdvd
      have hqpos : 0 < x.val / t := Nat.div_pos h (Nat.pos_of_ne_zero (NeZero.ne t))
      have := Nat.le_of_dvd hqpos hq
      have : t * 2 ^ (64 * limbs t) ≤ t * (x.val / t) := Nat.mul_le_mul_left _ this
      omega

/-- **C45, negation.** Whenever the source order exceeds `t * 2^(64 * limbs t)` there is an element
at least `t` which is silently reduced to 0; a concrete instance is the field of order `2^127 - 1`
switched to the field of order 3, element `3 * 2^64`. -/
theorem C45_switch_counterexample :
    (∀ p t : ℕ, ∀ _ : NeZero p, ∀ _ : NeZero t, t * 2 ^ (64 * limbs t) < p →
      ∃ x : ZMod p, t ≤ x.val ∧ fieldSwitching t x = .ok 0) ∧
    Nat.Prime (2 ^ 127 - 1) ∧ Nat.Prime 3 ∧ 3 * 2 ^ (64 * limbs 3) < 2 ^ 127 - 1 := by
  refine ⟨?_, prime_127, Nat.prime_three, ?_⟩
  · intro p t _ _ h
    refine ⟨((t * 2 ^ (64 * limbs t) : ℕ) : ZMod p), ?_, ?_⟩
    · rw [ZMod.val_natCast_of_lt h]
      exact Nat.le_mul_of_pos_right _ (by positivity)
    · rw [switch_eq, ZMod.val_natCast_of_lt h]
      have hpw : (256 : ℕ) ^ (8 * limbs t) = 2 ^ (64 * limbs t) := by
        rw [show (256 : ℕ) = 2 ^ 8 by norm_num, ← pow_mul]; congr 1; ring
      have hz : t * 2 ^ (64 * limbs t) % 256 ^ min (8 * limbs p) (8 * limbs t) = 0 := by
        refine Nat.mod_eq_zero_of_dvd (Dvd.dvd.mul_left ?_ _)
        rw [← hpw]
        exact pow_dvd_pow _ (by omega)
      rw [Nat.mul_mod_right, Nat.zero_mod, hz, if_pos rfl]
      congr 1
      push_cast
      simp
  · have hb : bits 3 = 2 := bits_eq (n := 1) (by norm_num) (by norm_num)
    unfold limbs; rw [hb]; norm_num

/-- **C45.** Hashing to a field with a 64 byte hash: it fails exactly for fields of more than 384
bits, and otherwise returns the integer of the first `⌈bits/8⌉ + 16` bytes modulo the order. -/
theorem C45_hash_to_field (p : ℕ) [NeZero p] (sha : List Byte → List Byte)
    (hs : ∀ b, (sha b).length = 64) (b : List Byte) :
    (bits p ≤ 384 → ∃ y, hashToField p sha b = .ok y ∧
      y.val = leNat ((sha b).take ((bits p + 7) / 8 + 16)) % p) ∧
    (384 < bits p → hashToField p sha b = .error .slice) := by
  unfold hashToField
  simp only
  rw [hs]
  refine ⟨fun h => ?_, fun h => ?_⟩
  · rw [if_neg (by omega)]
    exact ⟨_, rfl, by unfold fromLeBytesModOrder; rw [ZMod.val_natCast]⟩
  · rw [if_pos (by omega)]

/-! ## Examples -/

theorem good_127 : GoodField (2 ^ 127 - 1) := by
  have hb2 : bits (2 ^ 127 - 1) = 127 := bits_eq (n := 126) (by norm_num) (by norm_num)
  unfold GoodField limbs
  rw [hb2]
  exact ⟨by norm_num, by norm_num⟩

/-- the scalar fields of BLS12-381, BN254 and BLS12-377 satisfy the condition -/
example : GoodField 52435875175126190479447740508185965837690552500527637822603658699938581184513 ∧
    GoodField 21888242871839275222246405745257275088548364400416034343698204186575808495617 ∧
    GoodField 8444461749428370424248824938781546531375899335154063827935233455917409239041 := by
  refine ⟨?_, ?_, ?_⟩ <;> unfold GoodField limbs
  · rw [bits_eq (n := 254) (by norm_num) (by norm_num)]; decide
  · rw [bits_eq (n := 253) (by norm_num) (by norm_num)]; decide
  · rw [bits_eq (n := 252) (by norm_num) (by norm_num)]; decide

/-- the base field of BLS12-381, with 12 coordinates (`Fq12`) -/
example : GoodField 4002409555221667393417789825735904156556882819939007885332058136124031650490837864442687629129015664037894272559787 := by
  unfold GoodField limbs
  rw [bits_eq (n := 380) (by decide +kernel) (by decide +kernel)]; decide

/-- forty bytes in a quadratic extension of the field of order `2^127 - 1` -/
example : ∃ elems, bytesToFieldElements (2 ^ 127 - 1) 2 (List.replicate 40 200) = .ok elems ∧
    bytesFromFieldElements (2 ^ 127 - 1) 2 elems = .ok (List.replicate 40 200) := by
  have hb2 : bits (2 ^ 127 - 1) = 127 := bits_eq (n := 126) (by norm_num) (by norm_num)
  obtain ⟨e, h1, h2, -⟩ := C44_roundtrip_partial (2 ^ 127 - 1) 2 good_127 (by norm_num)
    (List.replicate 40 200) (by rw [hb2]; norm_num)
  exact ⟨e, h1, h2⟩

example : fieldSwitching 31 (5 : ZMod 61) = .ok 5 ∧ fieldSwitching 31 (35 : ZMod 61) = .error .reduced := by
  have hb : bits 31 = 5 := bits_eq (n := 4) (by norm_num) (by norm_num)
  have hl : limbs 31 = 1 := by unfold limbs; rw [hb]
  have h := fun x => C45_switch_partial 61 31 (by decide) (by rw [hl]; norm_num) x
  refine ⟨?_, (h 35).2 (by decide)⟩
  obtain ⟨y, h1, h2⟩ := (h 5).1 (by decide)
  rw [h1]; congr 1
  apply ZMod.val_injective
  rw [h2]; decide

example : fqToFr 31 (frToFq 61 (17 : ZMod 31)) = 17 := (C45_embedding_preserves 31 61 (by norm_num) 17).2

end Verif.Props.Conv
