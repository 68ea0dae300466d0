import Verif.Sig.Aead

/-!
# C90: authenticated encryption to a public key (`aead`)

`Verif.Sig.Aead` models `aead/src/lib.rs`.
-/

namespace Verif.Props.Aead

open Verif.Aead Verif.Conv

variable {Sh Key : Type}

/-! ## Specification -/

/-- Diffie-Hellman: both sides arrive at the same value -/
def Agrees (kx : Kx Sh Key) : Prop := ∀ a b, kx.dh a (kx.pub b) = kx.dh b (kx.pub a)

/-- the cipher opens exactly the ciphertexts it makes (tags are a function of key, nonce, data and message) -/
def Opens (ci : Cipher Key) : Prop := ∀ k n c a m, ci.dec k n c a = some m ↔ ci.enc k n m a = some c

/-- two different pairs of message and data with the same ciphertext under one key and nonce -/
def TagCollision (ci : Cipher Key) : Prop :=
  ∃ k n c, ∃ x y : List Byte × List Byte, x ≠ y ∧ ci.enc k n x.1 x.2 = some c ∧ ci.enc k n y.1 y.2 = some c

/-- one ciphertext made under keys derived from two different inputs -/
def KeyCollision (kx : Kx Sh Key) (ci : Cipher Key) : Prop :=
  ∃ i j n c, ∃ x y : List Byte × List Byte, i ≠ j ∧ ci.enc (kx.kdf i).2 n x.1 x.2 = some c ∧ ci.enc (kx.kdf j).2 n y.1 y.2 = some c

/-! ## Examples: a group of numbers modulo 101, a cipher that adds the key and appends a sum -/

/-- secret and public keys are single bytes -/
def toyKx : Kx ℕ ℕ where
  pub k := [Fin.ofNat 256 (2 ^ (leNat k) % 101)]
  dh k p := leNat p ^ leNat k % 101
  kdf x := (x.1 + 3 * leNat x.2.1 + 7 * leNat x.2.2, x.1 + 5 * leNat x.2.1 + 11 * leNat x.2.2)

def toyTag (k : ℕ) (n m a : List Byte) : Byte := Fin.ofNat 256 (k + leNat n + 3 * leNat m + 5 * leNat a)

def toyCipher : Cipher ℕ where
  enc k n m a := some (toyTag k n m a :: m)
  dec k n c a := match c with
    | [] => none
    | t :: m => if t = toyTag k n m a then some m else none

theorem toy_agrees : Agrees toyKx := by
  intro a b
  have h : ∀ k : ℕ, leNat [Fin.ofNat 256 (2 ^ k % 101)] = 2 ^ k % 101 := by
    intro k
    simp only [leNat, Fin.val_ofNat, Nat.mul_zero, Nat.add_zero]
    have h1 : 2 ^ k % 101 < 101 := Nat.mod_lt _ (by norm_num)
    exact Nat.mod_eq_of_lt (by omega)
  simp only [toyKx, h]
  rw [← Nat.pow_mod, ← Nat.pow_mod, ← pow_mul, ← pow_mul, mul_comm]

theorem toy_opens : Opens toyCipher := by
  intro k n c a m
  cases c with
  | nil => simp [toyCipher]
  | cons t l =>
    simp only [toyCipher]
    split_ifs with h
    · constructor
      · intro e; cases e; rw [h]
      · intro e; cases e; rfl
    · constructor
      · intro e; cases e
      · intro e; cases e; exact absurd rfl h

/-! ## Encryption -/

/-- Decryption with a generated pair undoes encryption to its public key, for every message, associated data, ephemeral
key and nonce; encryption fails only where the cipher does. -/
theorem C90_round_trip (kx : Kx Sh Key) (ci : Cipher Key) (hk : Agrees kx) (hc : Opens ci) (sk esk nonce msg aad : List Byte) :
    let kp := KeyPair.generate kx sk
    (∀ c, encrypt kx ci kp.enc esk nonce msg aad = .ok c → decrypt kx ci kp c aad = .ok msg) ∧
    (encrypt kx ci kp.enc esk nonce msg aad = .error .aead ↔
      ci.enc (kx.kdf (kx.dh esk (kx.pub sk), kx.pub esk, kx.pub sk)).2 nonce msg aad = none) := by
  intro kp
  simp only [encrypt, decrypt, sessionKeysTo, sessionKeysFrom, kp, KeyPair.generate]
  constructor
  · intro c h
    cases he : ci.enc (kx.kdf (kx.dh esk (kx.pub sk), kx.pub esk, kx.pub sk)).2 nonce msg aad with
    | none => rw [he] at h; cases h
    | some ct =>
      rw [he] at h
      cases h
      simp only
      rw [hk sk esk, (hc _ _ _ _ _).2 he]
  · cases ci.enc (kx.kdf (kx.dh esk (kx.pub sk), kx.pub esk, kx.pub sk)).2 nonce msg aad <;> simp

example : encrypt toyKx toyCipher (KeyPair.generate toyKx [5]).enc [9] [1, 2] [10, 20] [30] =
      .ok ⟨[1, 2], [97, 10, 20], [7]⟩ ∧
    decrypt toyKx toyCipher (KeyPair.generate toyKx [5]) ⟨[1, 2], [97, 10, 20], [7]⟩ [30] = .ok [10, 20] ∧
    decrypt toyKx toyCipher (KeyPair.generate toyKx [5]) ⟨[1, 2], [97, 10, 20], [7]⟩ [31] = .error .aead ∧
    decrypt toyKx toyCipher (KeyPair.generate toyKx [6]) ⟨[1, 2], [97, 10, 20], [7]⟩ [30] = .error .aead := by
  decide +kernel

/-- A generated pair opens exactly what `encrypt` makes: a ciphertext with the public key of `esk` decrypts to a message
only if it is the encryption of this message and data under that ephemeral key. -/
theorem C90_opens_iff (kx : Kx Sh Key) (ci : Cipher Key) (hk : Agrees kx) (hc : Opens ci) (sk esk nonce ct msg aad : List Byte) :
    decrypt kx ci (KeyPair.generate kx sk) ⟨nonce, ct, kx.pub esk⟩ aad = .ok msg ↔
      encrypt kx ci (encKeyOf kx sk) esk nonce msg aad = .ok ⟨nonce, ct, kx.pub esk⟩ := by
  simp only [encrypt, decrypt, sessionKeysTo, sessionKeysFrom, KeyPair.generate, encKeyOf]
  rw [hk sk esk]
  have h := hc (kx.kdf (kx.dh esk (kx.pub sk), kx.pub esk, kx.pub sk)).2 nonce ct aad msg
  cases he : ci.enc (kx.kdf (kx.dh esk (kx.pub sk), kx.pub esk, kx.pub sk)).2 nonce msg aad with
  | none =>
    rw [he] at h
    cases hd : ci.dec (kx.kdf (kx.dh esk (kx.pub sk), kx.pub esk, kx.pub sk)).2 nonce ct aad with
    | none => simp
    | some m => rw [hd] at h; simp at h ⊢; exact h
  | some c =>
    rw [he] at h
    cases hd : ci.dec (kx.kdf (kx.dh esk (kx.pub sk), kx.pub esk, kx.pub sk)).2 nonce ct aad with
    | none => rw [hd] at h; simp at h ⊢; exact h
    | some m => rw [hd] at h; simpa using h

example : Agrees toyKx ∧ Opens toyCipher := ⟨toy_agrees, toy_opens⟩

/-- With other associated data, or to another message, an honest ciphertext opens only through a collision of tags. -/
theorem C90_data_bound (kx : Kx Sh Key) (ci : Cipher Key) (hk : Agrees kx) (hc : Opens ci)
    (sk esk nonce msg aad : List Byte) (c : Ciphertext)
    (h : encrypt kx ci (KeyPair.generate kx sk).enc esk nonce msg aad = .ok c) (msg' aad' : List Byte)
    (h' : decrypt kx ci (KeyPair.generate kx sk) c aad' = .ok msg') :
    (msg' = msg ∧ aad' = aad) ∨ TagCollision ci := by
  by_cases hn : (msg, aad) = (msg', aad')
  · cases hn; exact .inl ⟨rfl, rfl⟩
  right
  simp only [encrypt, sessionKeysTo, KeyPair.generate] at h
  cases he : ci.enc (kx.kdf (kx.dh esk (kx.pub sk), kx.pub esk, kx.pub sk)).2 nonce msg aad with
  | none => rw [he] at h; cases h
  | some ct =>
    rw [he] at h
    cases h
    simp only [decrypt, sessionKeysFrom, KeyPair.generate, hk sk esk] at h'
    cases hd : ci.dec (kx.kdf (kx.dh esk (kx.pub sk), kx.pub esk, kx.pub sk)).2 nonce ct aad' with
    | none => rw [hd] at h'; cases h'
    | some m =>
      rw [hd] at h'
      cases h'
      exact ⟨_, nonce, ct, (msg, aad), (msg', aad'), hn, he, (hc _ _ _ _ _).1 hd⟩

/-- Another pair, generated or not, opens an honest ciphertext only if the public key of its secret key is the one
encrypted to, or through a ciphertext made under two differently derived keys. -/
theorem C90_other_key (kx : Kx Sh Key) (ci : Cipher Key) (hc : Opens ci) (pk esk nonce msg aad : List Byte) (c : Ciphertext)
    (h : encrypt kx ci pk esk nonce msg aad = .ok c) (kp : KeyPair) (msg' aad' : List Byte)
    (h' : decrypt kx ci kp c aad' = .ok msg') : pk = kx.pub kp.dec ∨ KeyCollision kx ci := by
  by_cases hp : pk = kx.pub kp.dec
  · exact .inl hp
  right
  simp only [encrypt, sessionKeysTo] at h
  cases he : ci.enc (kx.kdf (kx.dh esk pk, kx.pub esk, pk)).2 nonce msg aad with
  | none => rw [he] at h; cases h
  | some ct =>
    rw [he] at h
    cases h
    simp only [decrypt, sessionKeysFrom] at h'
    cases hd : ci.dec (kx.kdf (kx.dh kp.dec (kx.pub esk), kx.pub esk, kx.pub kp.dec)).2 nonce ct aad' with
    | none => rw [hd] at h'; cases h'
    | some m =>
      refine ⟨_, _, nonce, ct, (msg, aad), (m, aad'), fun hh => hp ?_, he, (hc _ _ _ _ _).1 hd⟩
      exact congrArg (fun x => x.2.2) hh

/-- the key exchange of `crypto_kx` over X25519, for any derivation of keys -/
def x25519Kx (kdf : List Byte × List Byte × List Byte → Key × Key) : Kx (List Byte) Key := ⟨x25519Pub, x25519, kdf⟩

/-- first vector of RFC 7748, section 5.2 -/
example : x25519 (toLE 32 0xc49a44ba44226a50185afcc10a4c1462dd5e46824b15163b9d7c52f06be346a5)
    (toLE 32 0x4c1cabd0a603a9103b35b326ec2466727c5fb124a4c19435db3030586768dbe6) =
    toLE 32 0x5285a2775507b454f7711c4903cfec324f088df24dea948e90c6e99d3755dac3 := by decide +kernel

/-- **The default pair does not fit.** `KeyPair::default()` has the secret key zero and the public key zero, which is not
the public key of that secret key: nothing encrypted to its public key opens with it, unless a ciphertext was made under
two differently derived keys. -/
theorem C90_default_counterexample (kdf : List Byte × List Byte × List Byte → Key × Key) (ci : Cipher Key) (hc : Opens ci) :
    KeyPair.default ≠ KeyPair.generate (x25519Kx kdf) KeyPair.default.dec ∧
    ∀ (esk nonce msg aad : List Byte) (c : Ciphertext),
      encrypt (x25519Kx kdf) ci KeyPair.default.enc esk nonce msg aad = .ok c →
      ∀ m aad', decrypt (x25519Kx kdf) ci KeyPair.default c aad' = .ok m → KeyCollision (x25519Kx kdf) ci := by
  have hne : KeyPair.default.enc ≠ x25519Pub KeyPair.default.dec := by decide +kernel
  refine ⟨fun h => hne (congrArg KeyPair.enc h), ?_⟩
  intro esk nonce msg aad c h m aad' h'
  exact (C90_other_key (x25519Kx kdf) ci hc _ esk nonce msg aad c h KeyPair.default m aad' h').resolve_left hne

/-- **Equality of pairs ignores the secret key**, and deserialization does not compare the two keys: from every pair
and every 32 bytes one can make a pair that counts as equal and has those bytes as the secret key. -/
theorem C90_equal_counterexample (kp : KeyPair) (hk : kp.enc.length = 32) (d : List Byte) (hd : d.length = 32) :
    KeyPair.deser (kp.enc ++ d) = some (⟨kp.enc, d⟩, []) ∧ KeyPair.eq kp ⟨kp.enc, d⟩ = true := by
  refine ⟨?_, by simp [KeyPair.eq]⟩
  have h1 : readExact 32 (kp.enc ++ d) = some (kp.enc, d) := by simp [readExact, ← hk]
  have h2 : readExact 32 d = some (d, []) := by simp [readExact, ← hd]
  simp only [KeyPair.deser, h1, h2]

/-- two equal pairs, of which only one opens a ciphertext -/
example : KeyPair.eq (KeyPair.generate toyKx [5]) ⟨toyKx.pub [5], [6]⟩ = true ∧
    decrypt toyKx toyCipher (KeyPair.generate toyKx [5]) ⟨[1, 2], [97, 10, 20], [7]⟩ [30] = .ok [10, 20] ∧
    decrypt toyKx toyCipher ⟨toyKx.pub [5], [6]⟩ ⟨[1, 2], [97, 10, 20], [7]⟩ [30] = .error .aead := by
  decide +kernel

/-! ## Canonical serialization -/

/-- the lengths the types of the code guarantee -/
def KeyPair.Sized (k : KeyPair) : Prop := k.enc.length = 32 ∧ k.dec.length = 32

def Ciphertext.Sized (c : Ciphertext) : Prop := c.nonce.length = 24 ∧ c.epk.length = 32 ∧ c.ct.length < 2 ^ 64

theorem readExact_iff (n : ℕ) (bs x rest : List Byte) :
    readExact n bs = some (x, rest) ↔ bs = x ++ rest ∧ x.length = n := by
  unfold readExact
  split_ifs with h
  · constructor
    · intro e; cases e
    · rintro ⟨rfl, h2⟩; simp at h; omega
  · constructor
    · intro e
      cases e
      refine ⟨(List.take_append_drop n bs).symm, ?_⟩
      simp; omega
    · rintro ⟨rfl, h2⟩
      simp [← h2]

theorem readExact_none (n : ℕ) (bs : List Byte) : readExact n bs = none ↔ bs.length < n := by
  unfold readExact; split_ifs with h <;> simp [h]

/-- Reading returns exactly what writing produces, with the rest of the input: every accepted input starts with the
serialization of the pair returned. In particular no two pairs have the same serialization, and sizes are as reported. -/
theorem C90_pair_bytes (bs rest : List Byte) (k : KeyPair) :
    (KeyPair.deser bs = some (k, rest) ↔ KeyPair.Sized k ∧ bs = k.ser ++ rest) ∧
    (KeyPair.Sized k → k.ser.length = KeyPair.size) ∧ (KeyPair.deser bs = none ↔ bs.length < KeyPair.size) := by
  refine ⟨?_, fun h => by simp [KeyPair.ser, KeyPair.size, h.1, h.2], ?_⟩
  · unfold KeyPair.deser
    constructor
    · intro h
      cases h1 : readExact 32 bs with
      | none => rw [h1] at h; cases h
      | some x =>
        obtain ⟨e, b1⟩ := x
        rw [h1] at h
        simp only at h
        cases h2 : readExact 32 b1 with
        | none => rw [h2] at h; cases h
        | some y =>
          obtain ⟨d, b2⟩ := y
          rw [h2] at h
          cases h
          obtain ⟨rfl, l1⟩ := (readExact_iff _ _ _ _).1 h1
          obtain ⟨rfl, l2⟩ := (readExact_iff _ _ _ _).1 h2
          exact ⟨⟨l1, l2⟩, by simp [KeyPair.ser]⟩
    · rintro ⟨⟨l1, l2⟩, rfl⟩
      rw [KeyPair.ser, List.append_assoc, (readExact_iff _ _ _ _).2 ⟨rfl, l1⟩]
      simp only
      rw [(readExact_iff _ _ _ _).2 ⟨rfl, l2⟩]
  · unfold KeyPair.deser
    cases h1 : readExact 32 bs with
    | none => have := (readExact_none _ _).1 h1; simp [KeyPair.size]; omega
    | some x =>
      obtain ⟨e, b1⟩ := x
      obtain ⟨rfl, l1⟩ := (readExact_iff _ _ _ _).1 h1
      simp only
      cases h2 : readExact 32 b1 with
      | none => have := (readExact_none _ _).1 h2; simp [KeyPair.size]; omega
      | some y =>
        obtain ⟨d, b2⟩ := y
        obtain ⟨rfl, l2⟩ := (readExact_iff _ _ _ _).1 h2
        simp [KeyPair.size]; omega

/-- The same for ciphertexts. -/
theorem C90_ciphertext_bytes (bs rest : List Byte) (c : Ciphertext) :
    (Ciphertext.deser bs = some (c, rest) ↔ Ciphertext.Sized c ∧ bs = c.ser ++ rest) ∧
    (Ciphertext.Sized c → c.ser.length = c.size) := by
  refine ⟨?_, fun h => by simp [Ciphertext.ser, Ciphertext.size, h.1, h.2.1, toLE_length]; omega⟩
  unfold Ciphertext.deser
  constructor
  · intro h
    cases h1 : readExact 24 bs with
    | none => rw [h1] at h; cases h
    | some x =>
      obtain ⟨n, b1⟩ := x
      rw [h1] at h
      simp only at h
      cases h2 : readExact 8 b1 with
      | none => rw [h2] at h; cases h
      | some y =>
        obtain ⟨len, b2⟩ := y
        rw [h2] at h
        simp only at h
        cases h3 : readExact (leNat len) b2 with
        | none => rw [h3] at h; cases h
        | some z =>
          obtain ⟨ct, b3⟩ := z
          rw [h3] at h
          simp only at h
          cases h4 : readExact 32 b3 with
          | none => rw [h4] at h; cases h
          | some u =>
            obtain ⟨epk, b4⟩ := u
            rw [h4] at h
            cases h
            obtain ⟨rfl, l1⟩ := (readExact_iff _ _ _ _).1 h1
            obtain ⟨rfl, l2⟩ := (readExact_iff _ _ _ _).1 h2
            obtain ⟨rfl, l3⟩ := (readExact_iff _ _ _ _).1 h3
            obtain ⟨rfl, l4⟩ := (readExact_iff _ _ _ _).1 h4
            have hlt := leNat_lt len
            rw [l2] at hlt
            refine ⟨⟨l1, l4, ?_⟩, ?_⟩
            · rw [l3]; exact lt_of_lt_of_eq hlt (by norm_num)
            · simp only [Ciphertext.ser, l3, toLE_leNat 8 len (by omega), l2]
              simp
  · rintro ⟨⟨l1, l2, l3⟩, rfl⟩
    have hl : leNat (toLE 8 c.ct.length) = c.ct.length := by
      rw [leNat_toLE, Nat.mod_eq_of_lt (lt_of_lt_of_eq l3 (by norm_num))]
    have e : c.ser ++ rest = c.nonce ++ (toLE 8 c.ct.length ++ (c.ct ++ (c.epk ++ rest))) := by
      simp [Ciphertext.ser]
    rw [e, (readExact_iff _ _ _ _).2 ⟨rfl, l1⟩]
    simp only
    rw [(readExact_iff _ _ _ _).2 ⟨rfl, toLE_length _ _⟩]
    simp only
    rw [hl, (readExact_iff _ _ _ _).2 ⟨rfl, rfl⟩]
    simp only
    rw [(readExact_iff _ _ _ _).2 ⟨rfl, l2⟩]

example : Ciphertext.deser ((⟨List.replicate 24 1, [9, 8, 7], List.replicate 32 2⟩ : Ciphertext).ser ++ [5]) =
    some (⟨List.replicate 24 1, [9, 8, 7], List.replicate 32 2⟩, [5]) := by decide +kernel

/-! ## serde -/

/-- Nonces written with `bincode` are read back. -/
theorem C90_nonce_bincode (n rest : List Byte) (h : n.length = 24) : binNonce (binBytes n ++ rest) = .ok (n, rest) := by
  have hl : leNat (toLE 8 n.length) = n.length := by rw [leNat_toLE, h]; norm_num
  unfold binNonce binBytes
  rw [List.append_assoc, (readExact_iff _ _ _ _).2 ⟨rfl, toLE_length _ _⟩]
  simp only
  rw [hl, (readExact_iff _ _ _ _).2 ⟨rfl, rfl⟩]
  simp [visitNonce, fromSlice, h]

example : binNonce (binBytes (List.replicate 24 3) ++ [1]) = .ok (List.replicate 24 3, [1]) := by decide +kernel

/-- **Malformed input panics**: a byte string of any other length than 24, complete in the input, is not refused. -/
theorem C90_panic_counterexample (l rest : List Byte) (h : l.length ≠ 24) (hs : l.length < 2 ^ 64) :
    binNonce (binBytes l ++ rest) = .error .panic := by
  have hl : leNat (toLE 8 l.length) = l.length := by
    rw [leNat_toLE, Nat.mod_eq_of_lt (lt_of_lt_of_eq hs (by norm_num))]
  unfold binNonce binBytes
  rw [List.append_assoc, (readExact_iff _ _ _ _).2 ⟨rfl, toLE_length _ _⟩]
  simp only
  rw [hl, (readExact_iff _ _ _ _).2 ⟨rfl, rfl⟩]
  simp [visitNonce, fromSlice, h]

/-- eight zero bytes are enough -/
example : binNonce (List.replicate 8 0) = .error .panic := by decide +kernel

/-- **JSON cannot be read back**: what is written for a nonce is an array of numbers, and no array of numbers is
accepted. -/
theorem C90_json_counterexample (l : List Byte) : visitNonce (jsonVisit (jsonBytes l)) = .error .error := by
  cases l <;> simp [jsonBytes, jsonVisit, visitNonce, Val.vecU8]

end Verif.Props.Aead
