import Verif.Sig.Bls
import Verif.Util.Toy
import Mathlib.Algebra.Module.LinearMap.End
import Mathlib.Algebra.BigOperators.Group.List.Lemmas
import Mathlib.Algebra.Algebra.Bilinear
import Mathlib.Tactic.Abel

set_option linter.unusedSectionVars false

/-! # C55, C65, C67, C68: BLS signatures, the BLS VRF and their serialization -/

namespace Verif.Props.Bls

open Verif.Bls Verif.Conv

variable {F G1 G2 GT : Type} [Field F] [AddCommGroup G1] [AddCommGroup G2]
    [AddCommGroup GT] [Module F G1] [Module F G2] [Module F GT] [DecidableEq GT]

/-- What the code relies on about the curve: pairing with the generator of the second group loses
nothing, and group elements computed by the code pass the validity checks. -/
structure GoodPairing (P : Params F G1 G2 GT) : Prop where
  nondeg : ∀ a b : G1, P.e a P.g2 = P.e b P.g2 → a = b
  onCurve : ∀ a, P.sigOnCurve a = true
  checks : ∀ sk : F, P.vkCheck (sk • P.g2) = true

/-! ## Exact meaning of the three verifiers -/

/-- One signer: with the verification key of `sk`, exactly the signature `sk * H(msg)` is
accepted. -/
theorem C55_verify_exact (P : Params F G1 G2 GT) (h : GoodPairing P) (sk : F)
    (msg csid : List Byte) (sig : G1) :
    verify P (verKeyOf P sk) msg sig csid = .ok () ↔ sig = sk • P.hash (msg ++ csid) := by
  have hc : P.e (P.hash (msg ++ csid)) (sk • P.g2) = P.e (sk • P.hash (msg ++ csid)) P.g2 := by
    simp
  simp only [verify, h.onCurve, verifyInternal, verKeyOf, hc]
  constructor
  · intro hv
    by_cases he : P.e sig P.g2 = P.e (sk • P.hash (msg ++ csid)) P.g2
    · exact h.nondeg _ _ he
    · simp only [if_neg he, Bool.true_eq_false, if_false, reduceCtorEq] at hv
  · rintro rfl
    simp

/-- Honest signatures are accepted, also by the variant without checks. -/
theorem C55_honest_accepted (P : Params F G1 G2 GT) (h : GoodPairing P) (sk : F)
    (msg csid : List Byte) :
    verify P (verKeyOf P sk) msg (sign P sk msg csid) csid = .ok () ∧
    verifyUnchecked P (verKeyOf P sk) msg (sign P sk msg csid) csid = .ok () ∧
    schemeVerify P (verKeyOf P sk) msg (schemeSign P sk msg) = .ok () := by
  have h1 : ∀ c, verify P (verKeyOf P sk) msg (sign P sk msg c) c = .ok () := fun c =>
    (C55_verify_exact P h sk msg c _).2 rfl
  refine ⟨h1 _, ?_, h1 _⟩
  have := h1 csid
  simpa only [verify, h.onCurve, Bool.true_eq_false, if_false, verifyUnchecked] using this

theorem foldl_add (l : List G1) (s : G1) : l.foldl (· + ·) s = s + l.sum := by
  induction l generalizing s with
  | nil => simp
  | cons a l ih => simp [ih, add_assoc]

/-- Aggregation is the sum of the signatures; it fails only for the empty list, and the order of
the signatures does not matter. -/
theorem C55_aggregate_order (sigs sigs' : List G1) (hp : sigs.Perm sigs') :
    aggregate sigs = aggregate sigs' ∧ (sigs ≠ [] → aggregate sigs = .ok sigs.sum) := by
  have key : ∀ l : List G1, l ≠ [] → aggregate l = .ok l.sum := by
    intro l hl
    match l, hl with
    | s :: rest, _ => simp [aggregate, foldl_add]
  refine ⟨?_, key sigs⟩
  by_cases hs : sigs = []
  · subst hs
    rw [List.nil_perm.1 hp]
  · have hs' : sigs' ≠ [] := by
      rintro rfl
      exact hs (List.perm_nil.1 hp)
    rw [key _ hs, key _ hs', hp.sum_eq]

theorem multiPairing_eq (P : Params F G1 G2 GT) (ks : List F) (hs : List G1) (sig : G1)
    (hl : ks.length = hs.length) :
    multiPairing P (hs ++ [-sig]) (ks.map (fun k => k • P.g2) ++ [P.g2]) =
      P.e ((List.zipWith (fun (k : F) (m : G1) => k • m) ks hs).sum - sig) P.g2 := by
  induction ks generalizing hs with
  | nil =>
    match hs, hl with
    | [], _ => simp [multiPairing]
  | cons k ks ih =>
    match hs, hl with
    | m :: hs, hl =>
      have := ih hs (by simpa using hl)
      simp only [multiPairing] at this
      simp only [multiPairing, List.map_cons, List.cons_append, List.zip_cons_cons, List.sum_cons,
        this, List.zipWith_cons_cons]
      simp only [map_sub, map_add, LinearMap.sub_apply, LinearMap.add_apply, map_smul,
        LinearMap.smul_apply]
      abel

/-- Any number of signers with their own messages: aggregate verification accepts exactly the sum
of the individual signatures. -/
theorem C55_aggregate_verify_exact (P : Params F G1 G2 GT) (h : GoodPairing P) (sks : List F)
    (msgs : List (List Byte)) (hne : sks ≠ []) (hl : sks.length = msgs.length) (sig : G1) :
    aggregateVerify P (sks.map (verKeyOf P)) msgs sig = .ok () ↔
      sig = (List.zipWith (fun sk m => sk • P.hash (m ++ P.csId)) sks msgs).sum := by
  have hall : (sks.map (verKeyOf P)).all P.vkCheck = true := by
    simp [verKeyOf, h.checks]
  have hmp := multiPairing_eq P sks (msgs.map fun m => P.hash (m ++ P.csId)) sig (by simpa using hl)
  simp only [aggregateVerify, List.map_eq_nil_iff, hne, List.length_map, hl, hall, h.onCurve,
    aggregateVerifyInternal]
  rw [show (fun k : F => k • P.g2) = verKeyOf P from rfl] at hmp
  rw [hmp, List.zipWith_map_right]
  generalize (List.zipWith (fun sk m => sk • P.hash (m ++ P.csId)) sks msgs).sum = S
  constructor
  · intro hv
    by_cases he : P.e (S - sig) P.g2 = 0
    · have := h.nondeg (S - sig) 0 (by simpa using he)
      exact (sub_eq_zero.1 this).symm
    · simp only [if_neg he, Bool.true_eq_false, if_false, reduceCtorEq, ne_eq, not_true_eq_false]
        at hv
  · rintro rfl
    simp

/-- Aggregating honest signatures in any order gives an accepted aggregate signature. The signers
are given as triples of signing key and message, the aggregator sees the signatures permuted. -/
theorem C55_aggregate_honest (P : Params F G1 G2 GT) (h : GoodPairing P)
    (signers : List (F × List Byte)) (hne : signers ≠ []) (sigs : List G1)
    (hp : sigs.Perm (signers.map fun s => schemeSign P s.1 s.2)) :
    ∃ σ, aggregate sigs = .ok σ ∧
      aggregateVerify P (signers.map fun s => verKeyOf P s.1) (signers.map Prod.snd) σ = .ok () := by
  have hs : sigs ≠ [] := by
    rintro rfl
    exact hne (List.map_eq_nil_iff.1 (List.nil_perm.1 hp))
  refine ⟨_, (C55_aggregate_order sigs _ hp).2 hs, ?_⟩
  have := (C55_aggregate_verify_exact P h (signers.map Prod.fst) (signers.map Prod.snd)
    (by simpa using hne) (by simp) sigs.sum).2
  rw [List.map_map] at this
  apply this
  rw [hp.sum_eq]
  congr 1
  rw [List.zipWith_map, List.zipWith_self]
  rfl

/-- Multi-signatures: exactly the sum of the individual signatures on the message is accepted. -/
theorem C55_multi_sig_exact (P : Params F G1 G2 GT) (h : GoodPairing P) (sks : List F)
    (hne : sks ≠ []) (msg : List Byte) (sig : G1) :
    multiSigVerify P (sks.map (verKeyOf P)) msg sig = .ok () ↔
      sig = (sks.map fun sk => schemeSign P sk msg).sum := by
  have hall : (sks.map (verKeyOf P)).all P.vkCheck = true := by
    simp [verKeyOf, h.checks]
  have hsum : (sks.map (verKeyOf P)).sum = verKeyOf P sks.sum := by
    clear hne hall
    induction sks with
    | nil => simp [verKeyOf]
    | cons a l ih => simp [ih, verKeyOf, add_smul]
  have hsum' : (sks.map fun sk => schemeSign P sk msg).sum = schemeSign P sks.sum msg := by
    clear hne hall hsum
    induction sks with
    | nil => simp [schemeSign, sign]
    | cons a l ih => rw [List.map_cons, List.sum_cons, ih]; simp [schemeSign, sign, add_smul]
  have := C55_verify_exact P h sks.sum msg P.csId sig
  simp only [verify, h.onCurve, Bool.true_eq_false, if_false] at this
  simp only [multiSigVerify, List.map_eq_nil_iff, hne, if_false, hall, h.onCurve,
    Bool.true_eq_false, multiSigVerifyInternal, hsum, hsum', this]
  rfl

/-- The aggregate of honest signatures on one message, in any order, is accepted as a
multi-signature. -/
theorem C55_multi_sig_honest (P : Params F G1 G2 GT) (h : GoodPairing P) (sks : List F)
    (hne : sks ≠ []) (msg : List Byte) (sigs : List G1)
    (hp : sigs.Perm (sks.map fun sk => schemeSign P sk msg)) :
    ∃ σ, aggregate sigs = .ok σ ∧ multiSigVerify P (sks.map (verKeyOf P)) msg σ = .ok () := by
  have hs : sigs ≠ [] := by
    rintro rfl
    exact hne (List.map_eq_nil_iff.1 (List.nil_perm.1 hp))
  exact ⟨_, (C55_aggregate_order sigs _ hp).2 hs,
    (C55_multi_sig_exact P h sks hne msg _).2 hp.sum_eq⟩

/-- Missing keys and mismatched numbers of keys and messages are rejected by all variants,
whatever the signature is. -/
theorem C55_mismatch_rejected (P : Params F G1 G2 GT) (vks : List G2) (msgs : List (List Byte))
    (msg : List Byte) (sig : G1) (hm : vks = [] ∨ vks.length ≠ msgs.length) :
    aggregateVerify P vks msgs sig = .error .parameter ∧
    aggregateVerifyUnchecked P vks msgs sig = .error .parameter ∧
    multiSigVerify P [] msg sig = .error .parameter ∧
    multiSigVerifyUnchecked P [] msg sig = .error .parameter ∧
    aggregate ([] : List G1) = .error .parameter := by
  have : ∀ (x : Except SigErr Unit), (if vks = [] then Except.error SigErr.parameter
      else if vks.length ≠ msgs.length then .error .parameter else x) = .error .parameter := by
    intro x
    split
    · rfl
    · rename_i hv
      rw [if_pos (hm.resolve_left hv)]
  exact ⟨this _, this _, rfl, rfl, rfl⟩

/-- Unchecked and checked variants agree on inputs that pass the checks, and the checked variants
reject all others. -/
theorem C55_unchecked (P : Params F G1 G2 GT) (vks : List G2) (msgs : List (List Byte))
    (msg : List Byte) (sig : G1) :
    (vks.all P.vkCheck = true ∧ P.sigOnCurve sig = true →
      aggregateVerifyUnchecked P vks msgs sig = aggregateVerify P vks msgs sig ∧
      multiSigVerifyUnchecked P vks msg sig = multiSigVerify P vks msg sig) ∧
    (¬ (vks.all P.vkCheck = true ∧ P.sigOnCurve sig = true) →
      aggregateVerify P vks msgs sig ≠ .ok () ∧ multiSigVerify P vks msg sig ≠ .ok ()) := by
  constructor
  · rintro ⟨h1, h2⟩
    simp only [aggregateVerify, aggregateVerifyUnchecked, multiSigVerify, multiSigVerifyUnchecked,
      h1, h2, Bool.true_eq_false, if_false, and_self]
  · intro hn
    have : vks.all P.vkCheck = false ∨ P.sigOnCurve sig = false := by
      cases h1 : vks.all P.vkCheck <;> cases h2 : P.sigOnCurve sig <;> simp_all
    constructor
    · unfold aggregateVerify
      rcases this with h | h <;> simp only [h] <;> split_ifs <;> simp_all
    · unfold multiSigVerify
      rcases this with h | h <;> simp only [h] <;> split_ifs <;> simp_all

/-! ### A toy pairing: the field with 101 elements, the pairing is multiplication -/

def toyHash (bs : List Byte) : F101 := ((1 + leNat bs : ℕ) : ZMod 101)

def toy : Params F101 F101 F101 F101 where
  e := LinearMap.mul F101 F101
  g2 := 5
  hash := toyHash
  sigOnCurve := fun _ => true
  vkCheck := fun _ => true
  csId := [66, 76, 83]

theorem toy_good : GoodPairing toy := by
  refine ⟨?_, fun _ => rfl, fun _ => rfl⟩
  intro a b h
  have h5 : (5 : F101) ≠ 0 := by decide +kernel
  exact mul_right_cancel₀ h5 h

-- three signers, permuted signatures
example : aggregateVerify toy [verKeyOf toy 7, verKeyOf toy 8, verKeyOf toy 9] [[1], [2], [1, 3]]
      (schemeSign toy 9 [1, 3] + schemeSign toy 7 [1] + schemeSign toy 8 [2]) = .ok () ∧
    schemeSign toy 7 [1] ≠ 0 ∧
    multiSigVerify toy [verKeyOf toy 7, verKeyOf toy 8] [1, 2]
      (schemeSign toy 8 [1, 2] + schemeSign toy 7 [1, 2]) = .ok () := by decide +kernel

/-! ## What multi-signature acceptance does not mean -/

/-- A signer can register a key for which a signature that looks like a multi-signature of the
others can be made without them (the rogue key attack): for every honest verification key `vk₁`
there is a key `vk₂` that passes the checks, and every message gets an accepted multi-signature
computed from `b` alone. The code leaves the required proofs of possession to the caller. -/
theorem C55_rogue_key_counterexample (P : Params F G1 G2 GT) (h : GoodPairing P) (sk₁ b : F)
    (msg : List Byte) :
    let vk₁ := verKeyOf P sk₁
    let vk₂ := b • P.g2 - vk₁
    P.vkCheck vk₂ = true ∧
      multiSigVerify P [vk₁, vk₂] msg (b • P.hash (msg ++ P.csId)) = .ok () := by
  have hv : b • P.g2 - verKeyOf P sk₁ = verKeyOf P (b - sk₁) := by simp [verKeyOf, sub_smul]
  simp only [hv]
  refine ⟨h.checks _, ?_⟩
  apply (C55_multi_sig_exact P h [sk₁, b - sk₁] (by simp) msg _).2
  simp [schemeSign, sign, ← add_smul]

/-! ## C65: the context string -/

/-- The context string is appended to the message without a separator: moving bytes between the
two changes neither signing nor verification. -/
theorem C65_bls_context_counterexample (P : Params F G1 G2 GT) (msg mid csid : List Byte)
    (hmid : mid ≠ []) :
    (msg, mid ++ csid) ≠ (msg ++ mid, csid) ∧
    (∀ sk : F, sign P sk msg (mid ++ csid) = sign P sk (msg ++ mid) csid) ∧
    (∀ vk sig, verify P vk msg sig (mid ++ csid) = verify P vk (msg ++ mid) sig csid) := by
  refine ⟨?_, ?_, ?_⟩
  · intro he
    simp only [Prod.mk.injEq] at he
    have := congrArg List.length he.1
    simp only [List.length_append, Nat.left_eq_add, List.length_eq_zero_iff] at this
    exact hmid this
  · intro sk
    simp [sign, List.append_assoc]
  · intro vk sig
    simp [verify, verifyInternal, List.append_assoc]

example : ([1, 2] : List Byte) ≠ [] := by decide

/-- What is true: with one context string (or context strings of one length) a non-zero signature
accepted for two messages comes with a collision of the hash to the curve. -/
theorem C65_bls_context_partial (P : Params F G1 G2 GT) (h : GoodPairing P) (sk : F)
    (hsk : sk ≠ 0) (m m' csid csid' : List Byte) (hlen : csid.length = csid'.length) (sig : G1)
    (h1 : verify P (verKeyOf P sk) m sig csid = .ok ())
    (h2 : verify P (verKeyOf P sk) m' sig csid' = .ok ()) :
    (m = m' ∧ csid = csid') ∨ ∃ x y, x ≠ y ∧ P.hash x = P.hash y := by
  rw [C55_verify_exact P h] at h1 h2
  by_cases he : m ++ csid = m' ++ csid'
  · left
    exact List.append_inj' he hlen
  · right
    refine ⟨_, _, he, ?_⟩
    have := h1.symm.trans h2
    have h3 := congrArg (fun x => sk⁻¹ • x) this
    simpa [smul_smul, inv_mul_cancel₀ hsk] using h3

example : verify toy (verKeyOf toy 7) [1] (schemeSign toy 7 [1]) toy.csId = .ok () ∧
    (7 : F101) ≠ 0 := by decide +kernel

/-! ## C67: the VRF -/

/-- What the VRF relies on about `blst`. -/
structure GoodBlst (P : Blst F G1 G2 GT) : Prop where
  nondeg : ∀ a b : G1, P.e a P.g2 = P.e b P.g2 → a = b
  pk : ∀ sk : F, sk ≠ 0 → P.pkValid (sk • P.g2) = true
  sig : ∀ a : G1, a ≠ 0 → P.sigValid a = true
  hash : ∀ m, P.hash m ≠ 0

theorem blsVerify_ok (P : Blst F G1 G2 GT) (vk : G2) (msg : List Byte) (sig : G1)
    (h : blsVerify P vk msg sig = .ok ()) : P.e sig P.g2 = P.e (P.hash msg) vk := by
  unfold blsVerify at h
  split_ifs at h with h1 h2 h3
  exact h3

/-- The owner of the key can always prove its evaluation: the proof is accepted and yields the
value that `evaluate` computed. -/
theorem C67_vrf_completeness (P : Blst F G1 G2 GT) (hP : GoodBlst P) (H : List Byte → List Byte)
    (sk : F) (hsk : sk ≠ 0) (input : List Byte) :
    ∃ proof out, vrfProve P sk input = .ok proof ∧ vrfEvaluate P H sk input = .ok out ∧
      vrfVerify P H proof (blsPk P sk) input = .ok (true, some out) := by
  refine ⟨sk • P.hash input, H (P.sigBytes (sk • P.hash input)), rfl, rfl, ?_⟩
  have h1 : P.pkValid (blsPk P sk) = true := hP.pk sk hsk
  have h2 : P.sigValid (sk • P.hash input) = true := by
    apply hP.sig
    intro h0
    have := congrArg (fun x => sk⁻¹ • x) h0
    simp only [smul_smul, inv_mul_cancel₀ hsk, one_smul, smul_zero] at this
    exact hP.hash _ this
  have h3 : P.e (sk • P.hash input) P.g2 = P.e (P.hash input) (blsPk P sk) := by simp [blsPk]
  simp only [vrfVerify, blsVerify, h1, h2, h3, vrfProofToHash, Bool.true_eq_false, if_false,
    if_true]

/-- Uniqueness: whoever made the proofs, and for any public key whatsoever, two accepted proofs
for one input give the same output. -/
theorem C67_vrf_uniqueness (P : Blst F G1 G2 GT) (hP : GoodBlst P) (H : List Byte → List Byte)
    (pk : G2) (input : List Byte) (π π' : G1) (o o' : List Byte)
    (h : vrfVerify P H π pk input = .ok (true, some o))
    (h' : vrfVerify P H π' pk input = .ok (true, some o')) : o = o' := by
  have key : ∀ (π : G1) (o : List Byte), vrfVerify P H π pk input = .ok (true, some o) →
      P.e π P.g2 = P.e (P.hash input) pk ∧ o = H (P.sigBytes π) := by
    intro π o h
    unfold vrfVerify at h
    cases hv : blsVerify P pk input π with
    | error e => simp [hv] at h
    | ok u =>
      simp only [hv, vrfProofToHash, Except.ok.injEq, Prod.mk.injEq, true_and,
        Option.some.injEq] at h
      exact ⟨blsVerify_ok P _ _ _ hv, h.symm⟩
  obtain ⟨a1, a2⟩ := key _ _ h
  obtain ⟨b1, b2⟩ := key _ _ h'
  rw [a2, b2, hP.nondeg _ _ (a1.trans b1.symm)]

/-- The output is returned exactly when the flag is true. -/
theorem C67_vrf_output_iff (P : Blst F G1 G2 GT) (H : List Byte → List Byte) (π : G1) (pk : G2)
    (input : List Byte) : ∃ b o, vrfVerify P H π pk input = .ok (b, o) ∧ (b = true ↔ o.isSome) ∧
      (b = true ↔ blsVerify P pk input π = .ok ()) := by
  unfold vrfVerify vrfProofToHash
  cases hv : blsVerify P pk input π with
  | error e => exact ⟨_, _, rfl, by simp, by simp⟩
  | ok u => exact ⟨_, _, rfl, by simp, by simp⟩

def toyBlst : Blst F101 F101 F101 F101 where
  e := LinearMap.mul F101 F101
  g2 := 5
  hash := fun bs => if toyHash bs = 0 then 1 else toyHash bs
  pkValid := fun a => decide (a ≠ 0)
  sigValid := fun a => decide (a ≠ 0)
  sigBytes := fun a => toLE 96 (ZMod.val (n := 101) a)

theorem toyBlst_good : GoodBlst toyBlst := by
  have h5 : (5 : F101) ≠ 0 := by decide +kernel
  refine ⟨fun a b h => mul_right_cancel₀ h5 h, ?_, ?_, ?_⟩
  · intro sk hsk
    simpa [toyBlst, h5] using hsk
  · intro a ha
    simpa [toyBlst] using ha
  · intro m
    simp only [toyBlst]
    split
    · decide +kernel
    · assumption

example : ∃ o, vrfVerify toyBlst (fun l => l.take 2) (blsSign toyBlst 3 [1, 2]) (blsPk toyBlst 3)
    [1, 2] = .ok (true, some o) := ⟨[27, 0], by decide +kernel⟩

/-! ## C68: canonical serialization of BLS12-381 keys and signatures -/

/-- What the code relies on about the encoders of `blst`. -/
structure GoodCodec {T : Type} (C : Codec T) : Prop where
  compressLen : ∀ x, (C.compress x).length = C.compressedSize
  serializeLen : ∀ x, (C.serialize x).length = C.size
  uncompress : ∀ x, C.uncompress (C.compress x) = some x
  deserialize : ∀ x, C.deserialize (C.serialize x) = some x
  small : C.size < 2 ^ 64 ∧ C.compressedSize < 2 ^ 64

/-- Reading back what was written gives the value and leaves the following bytes unread, in both
modes; with validation switched on this holds for valid values. -/
theorem C68_roundtrip {T : Type} (C : Codec T) (hC : GoodCodec C) (x : T) (m : Compress)
    (validate : Bool) (hv : validate = true → C.valid x = true) (rest : List Byte) :
    deserializeWithMode C (serializeWithMode C x m ++ rest) m validate = some (x, rest) := by
  have h8 : ∀ v, (toLE 8 v).length = 8 := toLE_length 8
  have hle : ∀ v, v < 2 ^ 64 → leNat (toLE 8 v) = v := by
    intro v hv
    rw [leNat_toLE]
    exact Nat.mod_eq_of_lt (by simpa using hv)
  have hval : ¬ (validate = true ∧ C.valid x = false) := by
    rintro ⟨a, b⟩
    simp [hv a] at b
  cases m with
  | yes =>
    have hl := hC.compressLen x
    simp [deserializeWithMode, serializeWithMode, List.append_assoc, h8, hle _ hC.small.2, hl,
      hC.uncompress, hval]
  | no =>
    have hl := hC.serializeLen x
    simp [deserializeWithMode, serializeWithMode, List.append_assoc, h8, hle _ hC.small.1, hl,
      hC.deserialize, hval]

/-- The reported size is never the number of bytes written: the eight bytes of the length prefix
are not counted, and for verification keys (96 bytes compressed, 192 uncompressed) the
uncompressed mode reports the compressed size. -/
theorem C68_size_counterexample {T : Type} (C : Codec T) (hC : GoodCodec C) (x : T) :
    (∀ m, (serializeWithMode C x m).length = sigSerializedSize C m + 8) ∧
    (serializeWithMode C x .yes).length = verKeySerializedSize C .yes + 8 ∧
    (C.compressedSize = 96 → C.size = 192 →
      (serializeWithMode C x .no).length = 200 ∧ verKeySerializedSize C .no = 96) := by
  refine ⟨?_, ?_, ?_⟩
  · intro m
    cases m <;> simp [serializeWithMode, sigSerializedSize, toLE_length, hC.compressLen,
      hC.serializeLen, add_comm]
  · simp [serializeWithMode, verKeySerializedSize, toLE_length, hC.compressLen, add_comm]
  · intro h1 h2
    simp [serializeWithMode, verKeySerializedSize, toLE_length, hC.serializeLen, h1, h2]

/-- a toy encoder with the sizes of BLS12-381 verification keys -/
def toyCodec : Codec F101 where
  compressedSize := 96
  size := 192
  compress := fun x => toLE 96 (ZMod.val (n := 101) x)
  serialize := fun x => toLE 192 (ZMod.val (n := 101) x)
  uncompress := fun l => some ((leNat l : ℕ) : ZMod 101)
  deserialize := fun l => some ((leNat l : ℕ) : ZMod 101)
  valid := fun x => decide (x ≠ 0)

theorem toyCodec_good : GoodCodec toyCodec := by
  have hv : ∀ (n : ℕ) (_ : 1 ≤ n) (x : ZMod 101),
      ((leNat (toLE n x.val) : ℕ) : ZMod 101) = x := by
    intro n hn x
    rw [leNat_toLE, Nat.mod_eq_of_lt, ZMod.natCast_zmod_val]
    calc x.val < 101 := ZMod.val_lt _
      _ ≤ 256 ^ 1 := by decide
      _ ≤ 256 ^ n := Nat.pow_le_pow_right (by norm_num) hn
  exact ⟨fun x => toLE_length _ _, fun x => toLE_length _ _,
    fun x => congrArg some (hv 96 (by norm_num) x),
    fun x => congrArg some (hv 192 (by norm_num) x), by decide⟩

example : GoodCodec toyCodec ∧ toyCodec.valid 7 = true := ⟨toyCodec_good, by decide +kernel⟩

end Verif.Props.Bls
