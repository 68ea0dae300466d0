import Verif.Props.Schnorr

/-!
# C98: nonces of Schnorr signatures
-/

set_option linter.unusedSectionVars false

namespace Verif.Props.SchnorrNonce

open Verif.Schnorr Verif.Conv Verif.Props.Schnorr

variable {q r : ℕ} {A : Type} [AddCommGroup A] [DecidableEq A]

/-- what is hashed for the nonce: the context string as a big endian number, the secret key and the message -/
def nonceInput (q : ℕ) (sk : ZMod r) (msg : List (ZMod q)) (csid : List Byte) : List (ZMod q) :=
  ((leNat csid.reverse : ℕ) : ZMod q) :: ((sk.val : ℕ) : ZMod q) :: msg

/-- the hash as a scalar: the integer in `[0, q)` reduced modulo `r` -/
def scalarHash (P : Params q r A) (l : List (ZMod q)) : ZMod r := (((P.crhf l).val : ℕ) : ZMod r)

theorem nonce_eq (P : Params q r A) [NeZero q] [NeZero r] (sk : ZMod r) (msg : List (ZMod q)) (csid : List Byte) :
    nonce P sk msg csid = scalarHash P (nonceInput q sk msg csid) := by
  unfold nonce scalarHash nonceInput fqToFr frToFq fromBeBytesModOrder fromLeBytesModOrder
  rw [leNat_toBytesLE, leNat_toBytesLE]
  rfl

theorem sign_ok {P : Params q r A} {kp : KeyPair r A} {msg : List (ZMod q)} {csid : List Byte} {σ : Signature r A}
    (h : sign P kp msg csid = .ok σ) : σ.R = mul P.gen (nonce P kp.sk msg csid) ∧
      ∃ c, challenge P kp.vk σ.R msg csid = .ok c ∧ σ.s = c * kp.sk + nonce P kp.sk msg csid := by
  unfold sign at h
  simp only at h
  split at h
  · cases h
  · rename_i c hc
    obtain rfl := Except.ok.inj h
    exact ⟨rfl, c, hc, rfl⟩

/-- **C98** (nonces).  Two signatures share their nonce point only if they are made with the same secret key, for the same
message and for context strings that are the same number, or if the hash, reduced to a scalar, collides on the two inputs. -/
theorem C98_nonce (P : Params q r A) [NeZero q] (h : GoodCurve P) (hrq : r ≤ q) {kp kp' : KeyPair r A}
    {m m' : List (ZMod q)} {csid csid' : List Byte} {σ σ' : Signature r A} (h1 : sign P kp m csid = .ok σ)
    (h2 : sign P kp' m' csid' = .ok σ') (hR : σ.R = σ'.R) :
    (kp.sk = kp'.sk ∧ m = m' ∧ fromBeBytesModOrder q csid = fromBeBytesModOrder q csid') ∨
      (nonceInput q kp.sk m csid ≠ nonceInput q kp'.sk m' csid' ∧
        scalarHash P (nonceInput q kp.sk m csid) = scalarHash P (nonceInput q kp'.sk m' csid')) := by
  have := Fact.mk h.prime
  have hn := mul_gen_inj h _ _ ((sign_ok h1).1.symm.trans (hR.trans (sign_ok h2).1))
  rw [nonce_eq, nonce_eq] at hn
  by_cases he : nonceInput q kp.sk m csid = nonceInput q kp'.sk m' csid'
  · left
    unfold nonceInput at he
    simp only [List.cons.injEq] at he
    refine ⟨?_, he.2.2, he.1⟩
    have hv := congrArg ZMod.val he.2.1
    rw [ZMod.val_natCast, ZMod.val_natCast, Nat.mod_eq_of_lt ((ZMod.val_lt _).trans_le hrq),
      Nat.mod_eq_of_lt ((ZMod.val_lt _).trans_le hrq)] at hv
    exact ZMod.val_injective r hv
  · exact .inr ⟨he, hn⟩

/-- **C98** (one signature).  Signatures made with one key pair that share their nonce point are the same signature, if the
hash does not collide: no two of them can be subtracted to find the key. -/
theorem C98_same_signature (P : Params q r A) [NeZero q] (h : GoodCurve P) (hrq : r ≤ q) {kp : KeyPair r A}
    {m m' : List (ZMod q)} {csid csid' : List Byte} {σ σ' : Signature r A} (h1 : sign P kp m csid = .ok σ)
    (h2 : sign P kp m' csid' = .ok σ') (hR : σ.R = σ'.R)
    (hcol : nonceInput q kp.sk m csid ≠ nonceInput q kp.sk m' csid' →
      scalarHash P (nonceInput q kp.sk m csid) ≠ scalarHash P (nonceInput q kp.sk m' csid')) : σ = σ' := by
  rcases C98_nonce P h hrq h1 h2 hR with ⟨-, rfl, hc⟩ | ⟨hne, heq⟩
  · have he : sign P kp m csid = sign P kp m csid' := by
      unfold sign nonce challenge
      rw [hc]
    exact Except.ok.inj (h1.symm.trans (he.trans h2))
  · exact absurd heq (hcol hne)

/-- **C98** (collisions).  If the hash does collide, for two requests with different challenges, anyone finds the secret key from
the two signatures. -/
theorem C98_collision_reveals (P : Params q r A) [NeZero q] (h : GoodCurve P) {kp : KeyPair r A}
    {m m' : List (ZMod q)} {csid csid' : List Byte} {σ σ' : Signature r A} (h1 : sign P kp m csid = .ok σ)
    (h2 : sign P kp m' csid' = .ok σ')
    (hcol : scalarHash P (nonceInput q kp.sk m csid) = scalarHash P (nonceInput q kp.sk m' csid')) {c c' : ZMod r}
    (hc : challenge P kp.vk σ.R m csid = .ok c) (hc' : challenge P kp.vk σ'.R m' csid' = .ok c') (hcc : c ≠ c') :
    σ.R = σ'.R ∧ ∀ x : ZMod r, (c - c') * x = σ.s - σ'.s ↔ x = kp.sk := by
  have := Fact.mk h.prime
  obtain ⟨r1, d, hd, s1⟩ := sign_ok h1
  obtain ⟨r2, d', hd', s2⟩ := sign_ok h2
  obtain rfl := Except.ok.inj (hd.symm.trans hc)
  obtain rfl := Except.ok.inj (hd'.symm.trans hc')
  rw [nonce_eq] at r1 r2 s1 s2
  refine ⟨by rw [r1, r2, hcol], fun x => ?_⟩
  have e : σ.s - σ'.s = (d - d') * kp.sk := by rw [s1, s2, hcol]; ring
  rw [e]
  exact ⟨fun hx => mul_left_cancel₀ (sub_ne_zero.2 hcc) hx, fun hx => by rw [hx]⟩

/-- the toy scheme: two messages, two nonces, and the hypotheses of `C98_nonce` with one message twice -/
example : ∃ σ τ, sign toy ⟨3, verKeyOf toy 3⟩ [7, 8] [1] = .ok σ ∧ sign toy ⟨3, verKeyOf toy 3⟩ [9, 8] [1] = .ok τ ∧
    σ.R ≠ τ.R ∧ scalarHash toy (nonceInput 521 (3 : ZMod 257) [7, 8] [1]) ≠
      scalarHash toy (nonceInput 521 (3 : ZMod 257) [9, 8] [1]) :=
  ⟨⟨_, 38⟩, ⟨_, 42⟩, rfl, rfl, by decide +kernel, by decide +kernel⟩

/-- context strings that are the same number give the same signature -/
example : ∃ σ σ', sign toy ⟨3, verKeyOf toy 3⟩ [7, 8] [1] = .ok σ ∧ sign toy ⟨3, verKeyOf toy 3⟩ [7, 8] [0, 1] = .ok σ' ∧
    σ.R = σ'.R ∧ σ = σ' :=
  ⟨_, _, rfl, rfl, by decide +kernel, C98_same_signature toy toy_good (by norm_num) (kp := ⟨3, verKeyOf toy 3⟩) rfl rfl
    (by decide +kernel) fun h => absurd (by decide +kernel) h⟩

/-- the toy hash collides on two messages, and the key `3` is found -/
example : ∃ σ σ', sign toy ⟨3, verKeyOf toy 3⟩ [7, 8] [1] = .ok σ ∧ sign toy ⟨3, verKeyOf toy 3⟩ [7, 265] [1] = .ok σ' ∧
    σ.R = σ'.R ∧ ∀ x : ZMod 257, (242 - 234) * x = σ.s - σ'.s ↔ x = 3 :=
  ⟨_, _, rfl, rfl, C98_collision_reveals toy toy_good (kp := ⟨3, verKeyOf toy 3⟩) (m := [7, 8]) (m' := [7, 265]) (csid := [1])
    (csid' := [1]) rfl rfl (by decide +kernel) (by decide +kernel) (by decide +kernel) (by decide +kernel)⟩

end Verif.Props.SchnorrNonce
