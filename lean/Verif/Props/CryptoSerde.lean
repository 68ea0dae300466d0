import Verif.Pcs.Serde
import Verif.Sig.Serde
import Verif.Pcs.MultilinearBatch
import Verif.Props.PlonkSerde
import Verif.Props.Schnorr
import Verif.Props.ElGamal
import Verif.Util.Toy

/-!
# C95: serialized reference strings, openings, signatures, keys and ciphertexts
-/

namespace Verif.Props.CryptoSerde

open Verif.Conv Verif.Pcs Verif.Pcs.Serde Verif.Sig.Serde Verif.Plonk.Serde Verif.Props.MerkleSerde
open Verif.Props.PlonkSerde (Sound C94_field C94_prefix sound_struct sound_pair sound_vec sound_uint vec_all Sound.congr)
open Verif.Merkle.Serde (Codec vecCodec)

set_option linter.unusedSectionVars false

/-! ## Specification -/

variable {F G G2 A : Type}

/-- univariate reference strings that fit into memory, with points in `VG` and `VG2` -/
structure SrsFit (VG : G → Prop) (VG2 : G2 → Prop) (s : Srs G G2) : Prop where
  powersOfG : VecOf VG s.powersOfG
  h : VG2 s.h
  betaH : VG2 s.betaH
  powersOfH : VecOf VG2 s.powersOfH

/-- the same for parameters of the prover of multilinear openings -/
structure MProverFit (VG : G → Prop) (VG2 : G2 → Prop) (k : MProverParam G G2) : Prop where
  numVars : k.numVars < 2 ^ 64
  powersOfG : VecOf (VecOf VG) k.powersOfG
  g : VG k.g
  h : VG2 k.h

/-- the same for parameters of the verifier of multilinear openings -/
structure MVerifierFit (VG : G → Prop) (VG2 : G2 → Prop) (k : MVerifierParam G G2) : Prop where
  numVars : k.numVars < 2 ^ 64
  g : VG k.g
  h : VG2 k.h
  hMask : VecOf VG2 k.hMask

/-- the same for multilinear reference strings -/
def MSrsFit (VG : G → Prop) (VG2 : G2 → Prop) (s : MSrs G G2) : Prop :=
  MProverFit VG VG2 s.proverParam ∧ VecOf VG2 s.hMask

/-- the same for proofs of several multilinear openings -/
structure MBatchFit (VG : G → Prop) (b : MBatchProof G) : Prop where
  proof : VecOf VG b.proof
  qComm : VG b.qComm
  qOpens : VecOf VG b.qOpens

/-- the same for ciphertexts -/
def CipherFit (VA : A → Prop) (c : ElGamal.Ciphertext F A) : Prop := VA c.ephemeral ∧ c.data.length < 2 ^ 64

/-- a point is in the group that the generator generates -/
def InGroup [AddCommGroup A] (gen x : A) : Prop := ∃ n : ℕ, x = n • gen

/-! ## Round trips -/

section
variable {VG : G → Prop} {VG2 : G2 → Prop} {VA : A → Prop} {cF : Codec F} {cG : Codec G} {cG2 : Codec G2}
  {cA : Codec A}

/-- **C95** (univariate reference strings).  A reference string is read back from its bytes, whatever follows them, and
bytes that are read as a reference string are the bytes of it, followed by what was not read. -/
theorem C95_srs (hG : Sound VG cG) (hG2 : Sound VG2 cG2) : Sound (SrsFit VG VG2) (srsCodec cG cG2) :=
  (sound_struct (sound_pair (sound_vec hG) (sound_pair hG2 (sound_pair hG2 (sound_vec hG2)))) _ _ (fun _ => rfl)
    (fun _ => rfl)).congr fun _ => ⟨fun ⟨a, b, c, d⟩ => ⟨a, b, c, d⟩, fun ⟨a, b, c, d⟩ => ⟨a, b, c, d⟩⟩

/-- **C95** (multilinear parameters).  The same for the parameters of prover and verifier. -/
theorem C95_multilinear_params (hG : Sound VG cG) (hG2 : Sound VG2 cG2) :
    Sound (MProverFit VG VG2) (mProverCodec cG cG2) ∧ Sound (MVerifierFit VG VG2) (mVerifierCodec cG cG2) :=
  ⟨(sound_struct (sound_pair sound_uint (sound_pair (sound_vec (sound_vec hG)) (sound_pair hG hG2))) _ _ (fun _ => rfl)
    (fun _ => rfl)).congr fun _ => ⟨fun ⟨a, b, c, d⟩ => ⟨a, b, c, d⟩, fun ⟨a, b, c, d⟩ => ⟨a, b, c, d⟩⟩,
   (sound_struct (sound_pair sound_uint (sound_pair hG (sound_pair hG2 (sound_vec hG2)))) _ _ (fun _ => rfl)
    (fun _ => rfl)).congr fun _ => ⟨fun ⟨a, b, c, d⟩ => ⟨a, b, c, d⟩, fun ⟨a, b, c, d⟩ => ⟨a, b, c, d⟩⟩⟩

/-- **C95** (multilinear reference strings).  The same for multilinear reference strings. -/
theorem C95_multilinear_srs (hG : Sound VG cG) (hG2 : Sound VG2 cG2) : Sound (MSrsFit VG VG2) (mSrsCodec cG cG2) :=
  (sound_struct (sound_pair (C95_multilinear_params hG hG2).1 (sound_vec hG2)) _ _ (fun _ => rfl)
    (fun _ => rfl)).congr fun _ => Iff.rfl

/-- **C95** (multilinear batch openings).  The same for proofs of several openings. -/
theorem C95_multilinear_proof (hG : Sound VG cG) : Sound (MBatchFit VG) (mBatchProofCodec cG) :=
  (sound_struct (sound_pair (sound_vec hG) (sound_pair hG (sound_vec hG))) _ _ (fun _ => rfl)
    (fun _ => rfl)).congr fun _ => ⟨fun ⟨a, b, c⟩ => ⟨a, b, c⟩, fun ⟨a, b, c⟩ => ⟨a, b, c⟩⟩

/-- **C95** (Schnorr signatures).  The same for signatures. -/
theorem C95_signature (r : ℕ) [Fact r.Prime] (hA : Sound VA cA) :
    Sound (fun x : Schnorr.Signature r A => VA x.R) (signatureCodec r cA) :=
  (sound_struct (sound_pair (C94_field r) hA) _ _ (fun _ => rfl) (fun _ => rfl)).congr fun _ => by simp

/-- **C95** (ElGamal).  The same for key pairs and ciphertexts. -/
theorem C95_elgamal (r : ℕ) [Fact r.Prime] (hF : Sound (fun _ => True) cF) (hA : Sound VA cA) :
    Sound (fun k : ElGamal.KeyPair r A => VA k.enc) (keyPairCodec r cA) ∧
    Sound (CipherFit VA) (ciphertextCodec cF cA) :=
  ⟨(sound_struct (sound_pair hA (C94_field r)) _ _ (fun _ => rfl) (fun _ => rfl)).congr fun _ => by simp,
   (sound_struct (sound_pair hA (sound_vec hF)) _ _ (fun _ => rfl) (fun _ => rfl)).congr
    fun _ => by simp [CipherFit, vec_all]⟩

end

/-! ## Signatures and keys read from bytes -/

section
variable {q r : ℕ} [AddCommGroup A] [DecidableEq A]

/-- **C95** (no second encoding of a signature).  Two byte strings that are read as signatures with the same `R` and are
both accepted for a message under a key are the same. -/
theorem C95_signature_unique (P : Schnorr.Params q r A) (h : Schnorr.GoodCurve P) {VA : A → Prop} {cA : Codec A}
    (hA : Sound VA cA) (vk : A) (msg : List (ZMod q)) (csid : List Byte) (b b' : List Byte)
    (x x' : Schnorr.Signature r A) (hb : (signatureCodec r cA).de b = some (x, []))
    (hb' : (signatureCodec r cA).de b' = some (x', [])) (hR : x.R = x'.R)
    (hv : Schnorr.verify P vk msg x csid = .ok ()) (hv' : Schnorr.verify P vk msg x' csid = .ok ()) : b = b' := by
  haveI := Fact.mk h.prime
  have hs := C95_signature r hA
  obtain ⟨-, rfl⟩ := hs.2 _ _ _ hb
  obtain ⟨-, rfl⟩ := hs.2 _ _ _ hb'
  obtain ⟨s, R⟩ := x
  obtain ⟨s', R'⟩ := x'
  simp only at hR
  subst hR
  have key : s = s' := by
    unfold Schnorr.verify at hv hv'
    split at hv
    · cases hv
    · rename_i h0
      simp only [h0, if_false] at hv'
      cases hc : Schnorr.challenge P vk R msg csid with
      | error e => simp [hc] at hv
      | ok c =>
        simp only [hc] at hv hv'
        split at hv
        · split at hv'
          · rename_i h1 h2
            exact Schnorr.mul_gen_inj h _ _ (h1.symm.trans h2)
          · cases hv'
        · cases hv
  rw [key]

/-- **C95** (keys read from bytes).  If only points of the group of the generator are read, a key read from bytes under
which any signature is accepted is the key of a signing key that is not zero. -/
theorem C95_verification_key (P : Schnorr.Params q r A) (h : Schnorr.GoodCurve P) {cA : Codec A}
    (hA : Sound (InGroup P.gen) cA) (b rest : List Byte) (vk : A) (hb : cA.de b = some (vk, rest))
    (msg : List (ZMod q)) (sig : Schnorr.Signature r A) (csid : List Byte)
    (hv : Schnorr.verify P vk msg sig csid = .ok ()) : ∃ sk : ZMod r, sk ≠ 0 ∧ vk = Schnorr.verKeyOf P sk := by
  haveI := Fact.mk h.prime
  obtain ⟨⟨n, rfl⟩, -⟩ := hA.2 _ _ _ hb
  refine ⟨(n : ZMod r), ?_, (Schnorr.mul_gen_cast h n).symm⟩
  intro h0
  have h1 : n • P.gen = 0 := by
    rw [← Schnorr.mul_gen_cast h n, h0]; simp [Schnorr.mul]
  simp [Schnorr.verify, h1, Schnorr.mul] at hv

end

section
variable {r : ℕ} [CommRing F] [AddCommGroup A]

/-- **C95** (refuted: encryption keys that are read are private).  The neutral element is read as an encryption key, and
what is encrypted to it is decrypted with the key pair of zero, which everybody has. -/
theorem C95_neutral_key_counterexample (P : ElGamal.Params F A) (hP : ElGamal.StateOut P) {VA : A → Prop}
    {cA : Codec A} (hA : Sound VA cA) (h0 : VA 0) :
    ∃ bytes key, cA.de bytes = some (key, []) ∧ ∀ (rand : ZMod r) (msg : List F),
      ElGamal.decrypt P (ElGamal.keyPairOf P (0 : ZMod r)) (ElGamal.encrypt P key rand msg) = msg := by
  refine ⟨cA.ser 0, 0, by simpa using hA.1 0 h0 [], fun rand msg => ?_⟩
  have h := ElGamal.C56_decrypt_encrypt P hP (0 : ZMod r) rand msg
  have hz : (ElGamal.keyPairOf P (0 : ZMod r)).enc = 0 := by simp [ElGamal.keyPairOf, ElGamal.mul]
  rwa [hz] at h

/-- **C95** (encryption over the wire).  If an encryption key, a ciphertext made with it and the key pair are all written
and read, the pair decrypts the ciphertext. -/
theorem C95_transport (P : ElGamal.Params F A) (hP : ElGamal.StateOut P) [Fact r.Prime] {VA : A → Prop} {cF : Codec F}
    {cA : Codec A} (hF : Sound (fun _ => True) cF) (hA : Sound VA cA) (hV : ∀ n : ℕ, VA (n • P.gen)) (dec rand : ZMod r)
    (msg : List F) (hm : msg.length < 2 ^ 64) (s t u : List Byte) :
    ∃ key c k, cA.de (cA.ser (ElGamal.keyPairOf P dec).enc ++ s) = some (key, s) ∧
      (ciphertextCodec cF cA).de ((ciphertextCodec cF cA).ser (ElGamal.encrypt P key rand msg) ++ t) = some (c, t) ∧
      (keyPairCodec r cA).de ((keyPairCodec r cA).ser (ElGamal.keyPairOf P dec) ++ u) = some (k, u) ∧
      ElGamal.decrypt P k c = msg := by
  obtain ⟨h1, h2⟩ := C95_elgamal (VA := VA) r hF hA
  refine ⟨_, _, _, hA.1 _ (hV _) s, h2.1 _ ⟨hV _, ?_⟩ t, h1.1 _ (hV _) u, ElGamal.C56_decrypt_encrypt P hP dec rand msg⟩
  simp only [ElGamal.encrypt, ElGamal.computeCiphertext, (ElGamal.C56_stream P hP _ _ _ _).1]
  exact hm

end

/-- **C95** (refuted: key pairs that are read decrypt).  Nothing checks that the halves belong together: the bytes 3, 4
are read as a key pair that does not decrypt what is encrypted to it. -/
theorem C95_key_pair_counterexample : ∃ k : ElGamal.KeyPair 11 (ZMod 11),
    (keyPairCodec 11 (fieldCodec 11)).de [3, 4] = some (k, []) ∧
    ElGamal.decrypt ElGamal.toy k (ElGamal.encrypt ElGamal.toy k.enc (5 : ZMod 11) [1, 2]) ≠ [1, 2] :=
  ⟨⟨3, 4⟩, rfl, by decide +kernel⟩

/-! ## Reference strings read from bytes -/

section
variable {GT : Type} [Field F] [DecidableEq F] [AddCommGroup G] [Module F G] [DecidableEq G]
  [AddCommGroup G2] [Module F G2] [DecidableEq G2] [AddCommGroup GT] [Module F GT] [DecidableEq GT]
  {VG : G → Prop} {VG2 : G2 → Prop} {cG : Codec G} {cG2 : Codec G2}

/-- **C95** (trimming).  Trimming a reference string with two powers in the first group and one in the second does not
panic; trimming a multilinear one with as many entries as it has variables does not either. -/
theorem C95_trim (s : Srs G G2) (h1 : 2 ≤ s.powersOfG.length) (h2 : s.powersOfH ≠ []) (m : MSrs G G2)
    (h3 : m.proverParam.numVars ≤ m.proverParam.powersOfG.length) (h4 : m.proverParam.numVars ≤ m.hMask.length) (n : ℕ) :
    trim s n ≠ .error .panic ∧ mTrim m n ≠ .error .panic := by
  have h2 : s.powersOfH.length ≠ 0 := by simpa using h2
  constructor
  · unfold trim trimWithVerifierDegree
    split_ifs <;> first | omega | simp
  · by_cases a : m.proverParam.numVars < n
    · simp [mTrim, a, MErr.invalidParameters, MErr.panic]
    · simp only [mTrim]
      rw [if_neg a, if_neg (by omega)]
      simp

/-- **C95** (refuted: reference strings that are read can be used).  A reference string without powers is read, and
trimming it always panics. -/
theorem C95_srs_panic_counterexample (hG : Sound VG cG) (hG2 : Sound VG2 cG2) (x : G2) (hx : VG2 x) :
    ∃ bytes s, (srsCodec cG cG2).de bytes = some (s, []) ∧ ∀ n, trim s n = .error .panic :=
  ⟨_, ⟨[], x, x, []⟩, by
    simpa using (C95_srs hG hG2).1 ⟨[], x, x, []⟩ ⟨by simp [VecOf], hx, hx, by simp [VecOf]⟩ [], fun n => by
    simp [trim, trimWithVerifierDegree]⟩

/-- **C95** (refuted: openings made with a reference string that was read are accepted).  Nothing checks that the
points are powers of one secret: these bytes are read as a reference string that can be trimmed, with which the
commitment and opening of the polynomial `X` at 2 succeed, and the verifier refuses the opening. -/
theorem C95_srs_unchecked_counterexample : ∃ s : Srs F101 F101,
    (srsCodec (fieldCodec 101) (fieldCodec 101)).de
      [2, 0, 0, 0, 0, 0, 0, 0, 1, 5, 1, 6, 2, 0, 0, 0, 0, 0, 0, 0, 1, 6] = some (s, []) ∧
    ∃ pp vp, trim s 1 = .ok (pp, vp) ∧ ∃ c w, commit pp ([0, 1] : List F101) = .ok c ∧
      openPoly pp ([0, 1] : List F101) 2 = .ok (w, 2) ∧
      verify (LinearMap.mul F101 F101) vp c 2 2 w = false :=
  ⟨⟨[1, 5], 1, 6, [1, 6]⟩, rfl, ⟨[1, 5]⟩, ⟨1, 1, 6, [1, 6], [1, 5]⟩, rfl, 5, 1, by decide +kernel, by decide +kernel,
    by decide +kernel⟩

/-- **C95** (refuted: the same for multilinear reference strings).  A reference string for `k` variables without powers
is read, and trimming it to fewer variables panics. -/
theorem C95_multilinear_srs_panic_counterexample (hG : Sound VG cG) (hG2 : Sound VG2 cG2) (g : G) (hg : VG g) (x : G2)
    (hx : VG2 x) (k : ℕ) (hk : k < 2 ^ 64) :
    ∃ bytes s, (mSrsCodec cG cG2).de bytes = some (s, []) ∧ ∀ n, n < k → mTrim s n = .error .panic :=
  ⟨_, ⟨⟨k, [], g, x⟩, []⟩, by
    simpa using (C95_multilinear_srs hG hG2).1 ⟨⟨k, [], g, x⟩, []⟩
      ⟨⟨hk, by simp [VecOf], hg, hx⟩, by simp [VecOf]⟩ [], fun n hn => by
    simp only [mTrim]
    rw [if_neg (by omega), if_pos (by simp; omega)]⟩

/-! ## Openings read from bytes -/

theorem mVerify_fits (e : G →ₗ[F] G2 →ₗ[F] GT) (vp : MVerifierParam G G2) (hvp : vp.numVars ≤ vp.hMask.length) (comm : G)
    (z : List F) (v : F) (proof : List G) (hp : proof.length = z.length) :
    mVerify e vp comm z v proof ≠ .error .panic := by
  by_cases h : vp.numVars < z.length
  · simp [mVerify, h, MErr.invalidParameters, MErr.panic]
  · simp only [mVerify]
    rw [if_neg h, if_neg (by omega)]
    simp [multiPairing, hp]

theorem mVerify_other (e : G →ₗ[F] G2 →ₗ[F] GT) (vp : MVerifierParam G G2) (hvp : vp.numVars ≤ vp.hMask.length) (comm : G)
    (z : List F) (v : F) (proof : List G) (hz : z.length ≤ vp.numVars) (hp : proof.length ≠ z.length) :
    mVerify e vp comm z v proof = .error .panic := by
  simp only [mVerify]
  rw [if_neg (by omega), if_neg (by omega)]
  simp [multiPairing, hp]

/-- **C95** (openings).  The verifier of several multilinear openings panics only on a proof with the wrong number of
points. -/
theorem C95_multilinear_answer (S : ℕ) (root : F) (chal : G → List (List F) → G → F) (e : G →ₗ[F] G2 →ₗ[F] GT)
    (uvp : VerifierParam G G2) (vp : MVerifierParam G G2) (hvp : vp.numVars ≤ vp.hMask.length) (comm : G)
    (points : List (List F)) (values : List F) (b : MBatchProof G)
    (hb : b.proof.length = (points.headD []).length + Nat.clog 2 points.length) :
    mBatchVerify S root chal e uvp vp comm points values b ≠ .error .panic := by
  have hd : points.getD 0 [] = points.headD [] := by cases points <;> rfl
  unfold mBatchVerify
  simp only [hd]
  split
  · simp [MErr.invalidParameters, MErr.panic]
  split
  · simp [MErr.invalidParameters, MErr.panic]
  split
  · simp [MErr.invalidParameters, MErr.panic]
  split
  · simp [MErr.invalidParameters, MErr.panic]
  cases newDomain S root points.length with
  | none => simp [MErr.invalidParameters, MErr.panic]
  | some d =>
    simp only
    split
    · simp
    split
    · simp
    exact mVerify_fits e vp hvp _ _ _ _ (by rw [lPoint_length, hb])

/-- **C95** (refuted: malformed openings are refused).  For all parameters and points, a proof is read from bytes on which
the verifier of several openings panics: one without points in its multilinear part. -/
theorem C95_multilinear_panic_counterexample (hG : Sound VG cG) (h0 : VG 0) (S : ℕ) (root : F)
    (chal : G → List (List F) → G → F) (e : G →ₗ[F] G2 →ₗ[F] GT) (uvp : VerifierParam G G2) (vp : MVerifierParam G G2)
    (hvp : vp.numVars ≤ vp.hMask.length) (comm : G) (n : ℕ) (points : List (List F)) (hne : points ≠ [])
    (hlt : points.length + 1 < 2 ^ 64) (hn : ∀ x ∈ points, x.length = n) (hpos : 0 < n)
    (hfit : n + Nat.clog 2 points.length ≤ vp.numVars) (d : Domain F) (hd : newDomain S root points.length = some d) :
    ∃ bytes b, (mBatchProofCodec cG).de bytes = some (b, []) ∧ ∃ values,
      mBatchVerify S root chal e uvp vp comm points values b = .error .panic := by
  have hz : VecOf VG (List.replicate (points.length + 1) (0 : G)) := by
    refine ⟨by simpa using hlt, fun x hx => ?_⟩
    rw [List.eq_of_mem_replicate hx]; exact h0
  refine ⟨_, ⟨[], 0, List.replicate (points.length + 1) 0⟩, by
    simpa using (C95_multilinear_proof hG).1 ⟨[], 0, List.replicate (points.length + 1) 0⟩
      ⟨by simp [VecOf], h0, hz⟩ [], List.replicate (points.length + 1) 0, ?_⟩
  have hv : ∀ z : F, verify e uvp (0 : G) z 0 0 = true := by intro z; simp [verify]
  obtain ⟨p, ps, rfl⟩ := List.exists_cons_of_ne_nil hne
  have hp : p.length = n := hn p (by simp)
  have hany : ((p :: ps).any fun x => decide (x.length ≠ p.length)) = false := by
    rw [List.any_eq_false]
    intro x hx
    simp [hn x hx, hp]
  have hr : ∀ i, (List.replicate ((p :: ps).length + 1) (0 : F)).getD i 0 = 0 := by
    intro i; simp only [List.getD_eq_getElem?_getD, List.getElem?_replicate]; split <;> rfl
  have hr' : ∀ i, (List.replicate ((p :: ps).length + 1) (0 : G)).getD i 0 = 0 := by
    intro i; simp only [List.getD_eq_getElem?_getD, List.getElem?_replicate]; split <;> rfl
  unfold mBatchVerify
  rw [if_neg (by simp), if_neg (by simp), if_neg (by simp)]
  simp only [List.getD_cons_zero, hany, Bool.false_eq_true, if_false, hd, hr, hr', hv, List.all_eq_true.2 fun _ _ => rfl]
  exact mVerify_other e vp hvp _ _ _ _ (by rw [lPoint_length, hp]; exact hfit) (by
    rw [lPoint_length, hp]; simp; omega)

end

/-! ## Examples -/

local instance : Fact (Nat.Prime 257) := ⟨by decide +kernel⟩
local instance : Fact (Nat.Prime 11) := ⟨by decide +kernel⟩
local instance : Fact (Nat.Prime 101) := ⟨by decide +kernel⟩

/-- points as integers modulo 101 -/
def codec101 : Codec F101 := fieldCodec 101

theorem codec101_sound : Sound (fun _ => True) codec101 := C94_field 101

theorem clog_two : Nat.clog 2 2 = 1 := by decide +kernel

/-- the bytes of a signature with scalars modulo 257 and points modulo 11 -/
example : (signatureCodec 257 (fieldCodec 11)).ser ⟨256, 7⟩ = [0, 1, 7] ∧
    (signatureCodec 257 (fieldCodec 11)).de [1, 1, 7] = none := ⟨by decide +kernel, rfl⟩

/-- points of the toy curve of the Schnorr file as integers modulo 257: the codec reads only points of the group -/
def toyPoint : Codec (ZMod 514) where
  ser x := (fieldCodec 257).ser ((x.val / 2 : ℕ) : ZMod 257)
  de b := ((fieldCodec 257).de b).map fun z => (((2 * z.1.val : ℕ) : ZMod 514), z.2)

theorem toyPoint_val (z : ZMod 257) : ((2 * z.val : ℕ) : ZMod 514).val = 2 * z.val := by
  rw [ZMod.val_natCast, Nat.mod_eq_of_lt]
  have := ZMod.val_lt z
  omega

theorem toyPoint_sound : Sound (InGroup Schnorr.toy.gen) toyPoint := by
  have hf := C94_field 257
  constructor
  · rintro x ⟨n, rfl⟩ r
    have h := hf.1 (((n • Schnorr.toy.gen).val / 2 : ℕ) : ZMod 257) trivial r
    simp only [toyPoint, h, Option.map_some, Option.some.injEq, Prod.mk.injEq, and_true]
    have hx : n • Schnorr.toy.gen = ((2 * (n % 257) : ℕ) : ZMod 514) := by
      have h1 := mod_addOrderOf_nsmul Schnorr.toy.gen n
      rw [Schnorr.toy_good.order] at h1
      rw [← h1]
      show (n % 257) • (2 : ZMod 514) = _
      rw [nsmul_eq_mul]; push_cast; ring
    have hlt : n % 257 < 257 := Nat.mod_lt _ (by norm_num)
    have hv : ((2 * (n % 257) : ℕ) : ZMod 514).val = 2 * (n % 257) := by
      rw [ZMod.val_natCast, Nat.mod_eq_of_lt (by omega)]
    rw [hx, hv, Nat.mul_div_cancel_left _ (by norm_num), ZMod.val_natCast, Nat.mod_eq_of_lt hlt]
  · intro b x r hd
    simp only [toyPoint, Option.map_eq_some_iff, Prod.mk.injEq, Prod.exists] at hd
    obtain ⟨z, r', hd, rfl, rfl⟩ := hd
    obtain ⟨-, rfl⟩ := hf.2 _ _ _ hd
    refine ⟨⟨z.val, ?_⟩, ?_⟩
    · show _ = z.val • (2 : ZMod 514)
      rw [nsmul_eq_mul]; push_cast; ring
    · simp only [toyPoint, toyPoint_val, Nat.mul_div_cancel_left _ (show 0 < 2 by norm_num), ZMod.natCast_val,
        ZMod.cast_id', id_eq]

/-- the key for 4 is read from two bytes; it comes from a signing key, as some signature is accepted under it -/
example (msg : List (ZMod 521)) (sig : Schnorr.Signature 257 (ZMod 514)) (csid : List Byte)
    (hv : Schnorr.verify Schnorr.toy 4 msg sig csid = .ok ()) :
    ∃ sk : ZMod 257, sk ≠ 0 ∧ (4 : ZMod 514) = Schnorr.verKeyOf Schnorr.toy sk :=
  C95_verification_key Schnorr.toy Schnorr.toy_good toyPoint_sound [2, 0] [] 4 rfl msg sig csid hv

/-- a signature under the key of 5 is accepted, and no other bytes with the same `R` are -/
example : Schnorr.verify Schnorr.toy 10 [7] ⟨228, 26⟩ [1] = .ok () ∧ ∀ b (x : Schnorr.Signature 257 (ZMod 514)),
    (signatureCodec 257 toyPoint).de b = some (x, []) → x.R = 26 → Schnorr.verify Schnorr.toy 10 [7] x [1] = .ok () →
      b = [228, 0, 13, 0] :=
  ⟨by decide +kernel, fun b x hb hR hv => C95_signature_unique Schnorr.toy Schnorr.toy_good toyPoint_sound 10 [7] [1]
    b [228, 0, 13, 0] x ⟨228, 26⟩ hb rfl hR hv (by decide +kernel)⟩

/-- encryption over the wire for the toy curve of the ElGamal file -/
example : ∃ key c k, (fieldCodec 11).de ((fieldCodec 11).ser (ElGamal.keyPairOf ElGamal.toy (4 : ZMod 11)).enc ++ []) =
      some (key, []) ∧
    (ciphertextCodec (fieldCodec 13) (fieldCodec 11)).de ((ciphertextCodec (fieldCodec 13) (fieldCodec 11)).ser
      (ElGamal.encrypt ElGamal.toy key (5 : ZMod 11) [1, 2, 3]) ++ [9]) = some (c, [9]) ∧
    (keyPairCodec 11 (fieldCodec 11)).de ((keyPairCodec 11 (fieldCodec 11)).ser
      (ElGamal.keyPairOf ElGamal.toy (4 : ZMod 11)) ++ []) = some (k, []) ∧
    ElGamal.decrypt ElGamal.toy k c = [1, 2, 3] :=
  C95_transport ElGamal.toy ElGamal.toy_state (C94_field 13) (C94_field 11) (fun _ => trivial) 4 5 [1, 2, 3] (by decide)
    [] [9] []

/-- trimming reference strings with enough points -/
example : trim (⟨[1, 5], 1, 5, [1, 5]⟩ : Srs F101 F101) 7 ≠ .error .panic ∧
    mTrim (⟨⟨1, [[1, 2], [3]], 1, 1⟩, [4]⟩ : MSrs F101 F101) 0 ≠ .error .panic :=
  ⟨(C95_trim ⟨[1, 5], 1, 5, [1, 5]⟩ (by decide) (by decide) ⟨⟨1, [[1, 2], [3]], 1, 1⟩, [4]⟩ (by decide) (by decide) 7).1,
   (C95_trim ⟨[1, 5], 1, 5, [1, 5]⟩ (by decide) (by decide) ⟨⟨1, [[1, 2], [3]], 1, 1⟩, [4]⟩ (by decide) (by decide) 0).2⟩

/-- two points in two variables: a proof read from bytes on which the verifier panics, and proofs on which it does not -/
example (chal : F101 → List (List F101) → F101 → F101) (w : F101) (qs values : List F101) :
    (∃ bytes b, (mBatchProofCodec codec101).de bytes = some (b, []) ∧ ∃ values,
      mBatchVerify 2 (10 : F101) chal (LinearMap.mul F101 F101) ⟨1, 1, 5, [1], [1]⟩ ⟨3, 1, 1, [2, 3, 4]⟩ 7
        [[1, 2], [3, 4]] values b = .error .panic) ∧
    mBatchVerify 2 (10 : F101) chal (LinearMap.mul F101 F101) ⟨1, 1, 5, [1], [1]⟩ ⟨3, 1, 1, [2, 3, 4]⟩ 7
        [[1, 2], [3, 4]] values ⟨[w, 6, 7], 8, qs⟩ ≠ .error .panic :=
  ⟨C95_multilinear_panic_counterexample codec101_sound trivial 2 10 chal _ _ _ (by decide) 7 2 [[1, 2], [3, 4]]
      (by simp) (by decide) (by simp) (by decide) (by decide +kernel) ⟨1, 10 ^ 2, 1⟩ (by rfl),
    C95_multilinear_answer 2 10 chal _ _ ⟨3, 1, 1, [2, 3, 4]⟩ (by decide) 7 _ values _
      (show 3 = 2 + Nat.clog 2 2 by rw [clog_two])⟩

end Verif.Props.CryptoSerde
