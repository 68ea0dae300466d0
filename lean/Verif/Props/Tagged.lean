import Verif.Sig.Tagged

/-!
# C96: keys as tagged text
-/

namespace Verif.Props.Tagged

open Verif.Conv Verif.Sig.Tagged

/-! ## Base 64 -/

theorem decChar_encChar {n : ℕ} (h : n < 64) : decChar (encChar n) = some n := by
  have : ∀ m : Fin 64, decChar (encChar m.val) = some m.val := by decide +kernel
  exact this ⟨n, h⟩

theorem decChar_some {c : Char} {n : ℕ} (h : decChar c = some n) : n < 64 ∧ encChar n = c := by
  unfold decChar at h
  exact ⟨List.mem_range.1 (List.mem_of_find?_eq_some h), by simpa using List.find?_some h⟩

theorem byte_eq (a : Byte) {n : ℕ} (h : n = a.val) : byte n = a := by
  subst h
  exact Fin.ext (Nat.mod_eq_of_lt a.isLt)

theorem byte_val {n : ℕ} (h : n < 256) : (byte n).val = n := Nat.mod_eq_of_lt h

/-- **C96** (base 64).  Bytes are read back, and text that is read is the text of the result. -/
theorem C96_base64 : (∀ l, decode (encode l) = some l) ∧ ∀ s l, decode s = some l → encode l = s := by
  constructor
  · intro l
    induction l using encode.induct with
    | case1 => rfl
    | case2 a =>
      have := a.isLt
      simp only [encode, decode]
      rw [decChar_encChar (by omega), decChar_encChar (by omega)]
      simp only
      rw [if_neg (by omega), byte_eq a (by omega)]
    | case3 a b =>
      have := a.isLt; have := b.isLt
      simp only [encode, decode]
      rw [decChar_encChar (by omega), decChar_encChar (by omega), decChar_encChar (by omega)]
      simp only
      rw [if_neg (by omega), byte_eq a (by omega), byte_eq b (by omega)]
    | case4 a b c l ih =>
      have := a.isLt; have := b.isLt; have := c.isLt
      simp only [encode, decode]
      rw [decChar_encChar (by omega), decChar_encChar (by omega), decChar_encChar (by omega),
        decChar_encChar (by omega), ih]
      simp only
      rw [byte_eq a (by omega), byte_eq b (by omega), byte_eq c (by omega)]
  · intro s
    induction s using decode.induct with
    | case1 => intro l h; simp only [decode, Option.some.injEq] at h; subst h; rfl
    | case2 => intro l h; simp [decode] at h
    | case3 x y x' y' hy hx h0 => intro l h; simp [decode, hx, hy, h0] at h
    | case4 x y x' y' hy hx h0 =>
      intro l h
      obtain ⟨hx1, hx2⟩ := decChar_some hx
      obtain ⟨hy1, hy2⟩ := decChar_some hy
      simp only [decode, hx, hy, if_neg h0, Option.some.injEq] at h
      subst h hx2 hy2
      simp only [encode]
      rw [byte_val (by omega)]
      congr 2
      · omega
      · congr 2
        omega
    | case5 x y hn =>
      intro l h
      simp [decode] at h
    | case6 x y z x' y' z' hz hy hx h0 => intro l h; simp [decode, hx, hy, hz, h0] at h
    | case7 x y z x' y' z' hz hy hx h0 =>
      intro l h
      obtain ⟨hx1, hx2⟩ := decChar_some hx
      obtain ⟨hy1, hy2⟩ := decChar_some hy
      obtain ⟨hz1, hz2⟩ := decChar_some hz
      simp only [decode, hx, hy, hz, if_neg h0, Option.some.injEq] at h
      subst h hx2 hy2 hz2
      simp only [encode]
      rw [byte_val (by omega), byte_val (by omega)]
      have e1 : (x' * 4 + y' / 16) / 4 = x' := by omega
      have e2 : (x' * 4 + y' / 16) % 4 * 16 + (y' % 16 * 16 + z' / 4) / 16 = y' := by omega
      have e3 : (y' % 16 * 16 + z' / 4) % 16 * 4 = z' := by omega
      rw [e1, e2, e3]
    | case8 x y z hn =>
      intro l h
      simp [decode] at h
    | case9 x y z w l x' y' z' w' l' hl hw hz hy hx ih =>
      intro m h
      obtain ⟨hx1, hx2⟩ := decChar_some hx
      obtain ⟨hy1, hy2⟩ := decChar_some hy
      obtain ⟨hz1, hz2⟩ := decChar_some hz
      obtain ⟨hw1, hw2⟩ := decChar_some hw
      simp only [decode, hx, hy, hz, hw, hl, Option.some.injEq] at h
      subst h hx2 hy2 hz2 hw2
      simp only [encode]
      rw [byte_val (by omega), byte_val (by omega), byte_val (by omega), ih _ hl]
      have e1 : (x' * 4 + y' / 16) / 4 = x' := by omega
      have e2 : (x' * 4 + y' / 16) % 4 * 16 + (y' % 16 * 16 + z' / 4) / 16 = y' := by omega
      have e3 : (y' % 16 * 16 + z' / 4) % 16 * 4 + (z' % 4 * 64 + w') / 64 = z' := by omega
      have e4 : (z' % 4 * 64 + w') % 64 = w' := by omega
      rw [e1, e2, e3, e4]
    | case10 x y z w l hn ih =>
      intro m h
      simp [decode] at h

/-! ## Tagged text -/

theorem safe_no_delim {tag : List Char} (h : safeTag tag = true) : ∀ c ∈ tag, decide (c ≠ '~') = true := by
  intro c hc
  have h1 := List.all_eq_true.1 h c hc
  have h2 : c ∈ alphabet := by simpa using h1
  have h3 : ∀ d ∈ alphabet, decide (d ≠ '~') = true := by decide +kernel
  exact h3 c h2

theorem takeWhile_tag {tag l : List Char} (h : ∀ c ∈ tag, decide (c ≠ '~') = true) :
    (tag ++ '~' :: l).takeWhile (· ≠ '~') = tag ∧ (tag ++ '~' :: l).dropWhile (· ≠ '~') = '~' :: l := by
  induction tag with
  | nil => simp
  | cons a t ih =>
    have h1 := ih fun c hc => h c (List.mem_cons_of_mem _ hc)
    have h2 := h a List.mem_cons_self
    simp only [List.cons_append, List.takeWhile_cons, List.dropWhile_cons, h2, if_true]
    exact ⟨by rw [h1.1], h1.2⟩

theorem dropWhile_head {s : List Char} {c : Char} {l : List Char} (h : s.dropWhile (· ≠ '~') = c :: l) : c = '~' := by
  induction s with
  | nil => simp at h
  | cons a t ih =>
    rw [List.dropWhile_cons] at h
    split at h
    · exact ih h
    · rename_i hc
      obtain ⟨rfl, -⟩ := List.cons.inj h
      simpa using hc

/-- **C96** (text).  The text of a tagged value is read back, whatever the checksum, and a text that is read is the text of
the result: no two texts mean the same tagged value. -/
theorem C96_text (crc : List Char → List Byte → Byte) :
    (∀ tag value t, new tag value = .ok t → t = ⟨tag, value⟩ ∧ parse crc (display crc t) = .ok t) ∧
      ∀ s t, parse crc s = .ok t → display crc t = s ∧ new t.tag t.value = .ok t := by
  constructor
  · intro tag value t h
    unfold new at h
    split at h
    · rename_i hs
      simp only [Except.ok.injEq] at h
      subst h
      obtain ⟨h1, h2⟩ := takeWhile_tag (l := encode (value ++ [crc tag value])) (safe_no_delim hs)
      refine ⟨rfl, ?_⟩
      unfold parse
      rw [show display crc ⟨tag, value⟩ = tag ++ '~' :: encode (value ++ [crc tag value]) from rfl, h2]
      simp only [h1, hs, if_true, C96_base64.1]
      simp
    · simp at h
  · intro s t h
    unfold parse at h
    split at h
    · simp at h
    · rename_i c b64 hd
      have hc := dropWhile_head hd
      subst hc
      simp only at h
      split at h
      · rename_i hs
        split at h
        · simp at h
        · rename_i bytes hb
          split at h
          · simp at h
          · rename_i d hl
            split at h
            · rename_i hcrc
              simp only [Except.ok.injEq] at h
              subst h
              refine ⟨?_, by simp only [new]; rw [if_pos hs]⟩
              simp only [display]
              rw [← hcrc]
              have h1 : bytes.dropLast ++ [d] = bytes := List.dropLast_append_getLast? d hl
              rw [h1, C96_base64.2 _ _ hb, ← hd, List.takeWhile_append_dropWhile]
            · simp at h
      · simp at h

/-! ## Keys -/

/-- **C96** (round trip).  Every signing key and every key pair can be written as text, and the text is read back as the same
key: a pair whose verification key belongs to its signing key is the same pair. -/
theorem C96_key {r : ℕ} [NeZero r] (crc : List Char → List Byte → Byte) (k : Kind) (sk : ZMod r) {V : Type}
    (gen : ZMod r → V) :
    ∃ t, toTagged k sk = .ok t ∧ parse crc (display crc t) = .ok t ∧ tryFrom k r t = .ok sk ∧
      pairToTagged k (sk, gen sk) = .ok t ∧ pairTryFrom k r gen t = .ok (sk, gen sk) := by
  have hs : safeTag (writeTag k) = true := by cases k <;> decide +kernel
  have ht : toTagged k sk = .ok ⟨writeTag k, toBytesLE sk⟩ := by
    simp only [toTagged, new]; rw [if_pos hs]
  have hr : tryFrom k r ⟨writeTag k, toBytesLE sk⟩ = .ok sk := by
    have h1 : writeTag k = readTag k := by cases k <;> rfl
    simp only [tryFrom]
    rw [if_neg (by simp [h1])]
    rw [fromLeBytesModOrder, leNat_toBytesLE, ZMod.natCast_zmod_val]
  refine ⟨_, ht, ((C96_text crc).1 _ _ _ ht).2, hr, ht, ?_⟩
  rw [pairTryFrom, hr]
  rfl

/-- **C96** (kinds).  The text of one kind of key is refused as any other kind, and a text that is read as a kind has its
tag. -/
theorem C96_kinds (k k' : Kind) {r : ℕ} (r' : ℕ) (sk : ZMod r) (t : TB64) (ht : toTagged k sk = .ok t) :
    (k' ≠ k → tryFrom k' r' t = .error .invalidTag) ∧
      ∀ (k₁ k₂ : Kind) (u : TB64) (x y : ZMod r'), tryFrom k₁ r' u = .ok x → tryFrom k₂ r' u = .ok y → k₁ = k₂ := by
  constructor
  · intro hk
    have h1 : t.tag = writeTag k := by
      simp only [toTagged, new] at ht
      split at ht
      · simp only [Except.ok.injEq] at ht; rw [← ht]
      · simp at ht
    have h2 : writeTag k ≠ readTag k' := by revert hk; cases k <;> cases k' <;> decide +kernel
    simp only [tryFrom]
    rw [h1, if_pos h2]
  · intro k₁ k₂ u x y h1 h2
    simp only [tryFrom] at h1 h2
    split at h1
    · simp at h1
    split at h2
    · simp at h2
    rename_i a b
    have : readTag k₁ = readTag k₂ := by rw [← not_not.1 a, ← not_not.1 b]
    revert this
    cases k₁ <;> cases k₂ <;> decide +kernel

/-- **C96** (BLS12-381).  A signing key over BLS12-381 is read back, and only one text is read as it. -/
theorem C96_bls12381 (r : ℕ) (hr : r ≤ 256 ^ 32) (crc : List Char → List Byte → Byte) (sk : ℕ) (h0 : sk ≠ 0)
    (hsk : sk < r) :
    ∃ t, blstToTagged sk = .ok t ∧ parse crc (display crc t) = .ok t ∧ blstTryFrom r t = .ok sk ∧
      ∀ u, blstTryFrom r u = .ok sk → u = t := by
  have ht : blstToTagged sk = .ok ⟨blsSigningKey, blstBytes sk⟩ := by
    simp only [blstToTagged, new]; rw [if_pos (by decide +kernel)]
  refine ⟨_, ht, ((C96_text crc).1 _ _ _ ht).2, ?_, ?_⟩
  · simp only [blstTryFrom]
    rw [if_neg (by simp), if_neg (by simp [blstBytes, toLE_length])]
    simp only [blstBytes, List.reverse_reverse, leNat_toLE]
    rw [Nat.mod_eq_of_lt (lt_of_lt_of_le hsk hr), if_neg (by omega)]
  · intro u hu
    simp only [blstTryFrom] at hu
    split at hu
    · simp at hu
    split at hu
    · simp at hu
    split at hu
    · simp at hu
    rename_i a b c
    simp only [Except.ok.injEq] at hu
    obtain ⟨tag, value⟩ := u
    simp only [not_not] at a b hu
    subst a
    congr 1
    have h1 := toLE_leNat 32 value.reverse (by simp [b])
    rw [hu] at h1
    simp only [blstBytes, h1, List.length_reverse, b]
    simp

/-! ## What is refuted -/

/-- **C96** (counterexample: one text per key).  The signing keys and pairs that reduce the bytes modulo the order: for
every key there is another text that is read as it, and the text without any bytes is read as the key zero. -/
theorem C96_two_texts_counterexample {r : ℕ} [NeZero r] (crc : List Char → List Byte → Byte) (k : Kind) (sk : ZMod r) :
    (∃ s s', s ≠ s' ∧ (∃ t, parse crc s = .ok t ∧ tryFrom k r t = .ok sk) ∧
        ∃ t, parse crc s' = .ok t ∧ tryFrom k r t = .ok sk) ∧
      tryFrom k r ⟨readTag k, []⟩ = .ok 0 := by
  have hs : safeTag (readTag k) = true := by cases k <;> decide +kernel
  have hw : ∀ v, new (readTag k) v = .ok ⟨readTag k, v⟩ := fun v => by simp only [new]; rw [if_pos hs]
  have h1 : tryFrom k r ⟨readTag k, toBytesLE sk⟩ = .ok sk := by
    simp only [tryFrom]
    rw [if_neg (by simp), fromLeBytesModOrder, leNat_toBytesLE, ZMod.natCast_zmod_val]
  have hz : leNat (toLE (8 * limbs r + 1) sk.val) = sk.val := by
    rw [leNat_toLE, Nat.mod_eq_of_lt]
    exact lt_of_lt_of_le (val_lt_bytes sk) (Nat.pow_le_pow_right (by norm_num) (by omega))
  have h2 : tryFrom k r ⟨readTag k, toLE (8 * limbs r + 1) sk.val⟩ = .ok sk := by
    simp only [tryFrom]
    rw [if_neg (by simp), fromLeBytesModOrder, hz, ZMod.natCast_zmod_val]
  have p1 := ((C96_text crc).1 _ _ _ (hw (toBytesLE sk))).2
  have p2 := ((C96_text crc).1 _ _ _ (hw (toLE (8 * limbs r + 1) sk.val))).2
  refine ⟨⟨_, _, ?_, ⟨_, p1, h1⟩, ⟨_, p2, h2⟩⟩, by simp [tryFrom, fromLeBytesModOrder, leNat]⟩
  intro he
  rw [he, p2] at p1
  simp only [Except.ok.injEq, TB64.mk.injEq, true_and] at p1
  have := congrArg List.length p1
  rw [toLE_length, toBytesLE_length] at this
  omega

/-- the order of the groups of BN254 -/
def rBn : ℕ := 21888242871839275222246405745257275088548364400416034343698204186575808495617
/-- the order of the groups of BLS12-381 -/
def rBls : ℕ := 52435875175126190479447740508185965837690552500527637822603658699938581184513

/-- **C96** (counterexample: the tag tells the scheme).  Both BLS schemes use the tag `BLS_SIGNING_KEY`.  The text of every
signing key over BLS12-381 is read as a signing key over BN254, without error; it is the key with the bytes in the other
order, so the key 1 becomes `256 ^ 31`.  In the other
direction the key `256 ^ 31` over BN254 is read as the key 1 over BLS12-381. -/
theorem C96_scheme_counterexample :
    (∀ sk t, blstToTagged sk = .ok t → ∃ x, tryFrom .bnSign rBn t = .ok x) ∧
      (∃ t, blstToTagged 1 = .ok t ∧ tryFrom .bnSign rBn t = .ok ((256 ^ 31 : ℕ) : ZMod rBn) ∧
        ((256 ^ 31 : ℕ) : ZMod rBn) ≠ ((1 : ℕ) : ZMod rBn)) ∧
      ∃ t, toTagged .bnSign ((256 ^ 31 : ℕ) : ZMod rBn) = .ok t ∧ blstTryFrom rBls t = .ok 1 := by
  refine ⟨?_, ⟨⟨blsSigningKey, blstBytes 1⟩, ?_, ?_, ?_⟩, ⟨⟨blsSigningKey, blstBytes 1⟩, ?_, ?_⟩⟩
  · intro sk t ht
    have h1 : t.tag = blsSigningKey := by
      simp only [blstToTagged, new] at ht
      split at ht
      · simp only [Except.ok.injEq] at ht; rw [← ht]
      · simp at ht
    refine ⟨fromLeBytesModOrder rBn t.value, ?_⟩
    simp only [tryFrom]
    rw [if_neg (by rw [h1]; simp [readTag])]
  · simp only [blstToTagged, new]; rw [if_pos (by decide +kernel)]
  · simp only [tryFrom]
    rw [if_neg (by simp [readTag]), fromLeBytesModOrder]
    have : leNat (blstBytes 1) = 256 ^ 31 := by decide +kernel
    rw [this]
  · rw [Ne, ZMod.natCast_eq_natCast_iff']
    decide +kernel
  · have hv : (((256 ^ 31 : ℕ) : ZMod rBn)).val = 256 ^ 31 := by
      rw [ZMod.val_natCast]
      exact Nat.mod_eq_of_lt (by decide +kernel)
    simp only [toTagged, new]
    rw [if_pos (by decide +kernel), toBytesLE, hv]
    have : toLE (8 * limbs rBn) (256 ^ 31) = blstBytes 1 := by decide +kernel
    rw [this]
    rfl
  · decide +kernel

/-! ## Examples -/

/-- RFC 4648, section 10 -/
example : encode [⟨102, by decide⟩, ⟨111, by decide⟩, ⟨111, by decide⟩, ⟨98, by decide⟩] = "Zm9vYg".toList := by
  decide +kernel

/-- a checksum that depends on the bytes -/
def toyCrc (_ : List Char) (l : List Byte) : Byte := byte (leNat l + 7)

/-- a wrong checksum, trailing bits and a missing delimiter are refused -/
example : parse toyCrc "BLS_SIGNING_KEY~AQg".toList = .ok ⟨blsSigningKey, [1]⟩ ∧
    parse toyCrc "BLS_SIGNING_KEY~AQk".toList = .error .badChecksum ∧
    parse toyCrc "BLS_SIGNING_KEY~AQh".toList = .error .invalidData ∧
    parse toyCrc "BLS_SIGNING_KEY".toList = .error .missingDelimiter ∧
    parse toyCrc "BLS_SIGNING_KEY~".toList = .error .missingChecksum ∧
    parse toyCrc "BLS+KEY~AQg".toList = .error .invalidTag := by
  decide +kernel

/-- the key 5 of a group of order 101 -/
example : (toTagged .schnorrSign (5 : ZMod 101)).map (display toyCrc) =
    .ok "SCHNORR_SIGNING_KEY~BQAAAAAAAAAM".toList := by
  decide +kernel

/-- keys over BLS12-381: 1 is read back, zero and the order are refused -/
example : blstTryFrom rBls ⟨blsSigningKey, blstBytes 1⟩ = .ok 1 ∧
    blstTryFrom rBls ⟨blsSigningKey, blstBytes 0⟩ = .error .invalidData ∧
    blstTryFrom rBls ⟨blsSigningKey, blstBytes rBls⟩ = .error .invalidData ∧ rBls ≤ 256 ^ 32 := by
  decide +kernel

end Verif.Props.Tagged
