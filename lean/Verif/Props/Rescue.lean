import Verif.Hash.MdsLemmas
import Verif.Util.Fields

/-!
# C38: the Rescue permutation and cipher are bijections

The general theorems hold for every prime and all constants meeting the two conditions `Good`; the
conditions are then checked by the kernel for the five sets of constants shipped with the crate,
whose moduli are proved prime in `Verif.Util.Fields`. The two placeholder sets do not meet them.
-/

set_option linter.unusedSectionVars false

namespace Verif.Rescue

section general
variable {p : ℕ} [Fact p.Prime]

/-- C38: with any 25 round keys the cipher is defined on every state and a bijection -/
theorem C38_round_keys_bijective {K : Consts} (h : Good p K) (keys : List (Vec (ZMod p)))
    (hlen : keys.length = 2 * rounds + 1) :
    ∃ f : Vec (ZMod p) → Vec (ZMod p), Function.Bijective f ∧
      ∀ s, prpWithRoundKeys K (PRP.default K) keys s = some (f s) := by
  cases keys with
  | nil => simp [rounds] at hlen
  | cons k ks =>
    refine ⟨fun s => roundLoop K (PRP.default K).mds 0 ks (addVec s k), ?_, ?_⟩
    · refine Function.Injective.bijective_of_finite ?_
      exact (roundLoop_injective h ks 0).comp (addVec_left_injective k)
    · intro s
      simp [prpWithRoundKeys, hlen]

/-- any other number of round keys is refused -/
theorem C38_round_keys_length {K : Consts} (keys : List (Vec (ZMod p)))
    (hlen : keys.length ≠ 2 * rounds + 1) (s : Vec (ZMod p)) :
    prpWithRoundKeys K (PRP.default K) keys s = none := by
  simp [prpWithRoundKeys, hlen]

theorem scheduleLoop_length {F : Type} [CommRing F] (K : Consts) (m : Mat F) (ks : List (Vec F)) :
    ∀ i aux, (scheduleLoop K m i ks aux).length = ks.length := by
  induction ks with
  | nil => intros; rfl
  | cons k ks ih => intro i aux; simp [scheduleLoop, ih]

/-- C38: for every key the pseudorandom permutation is a bijection -/
theorem C38_prp_bijective {K : Consts} (h : Good p K) (hk : K.keyInjection.length = 2 * rounds)
    (key : Vec (ZMod p)) :
    ∃ f : Vec (ZMod p) → Vec (ZMod p), Function.Bijective f ∧
      ∀ s, prp K (PRP.default K) key s = some (f s) := by
  have hl : ¬ (PRP.default K : PRP (ZMod p)).keyInjection.length < 2 * rounds := by
    simp [PRP.default, hk]
  obtain ⟨f, hf, hs⟩ := C38_round_keys_bijective h (keys := addVec key (PRP.default K).initVec ::
    scheduleLoop K (PRP.default K).mds 0 ((PRP.default K).keyInjection.take (2 * rounds))
      (addVec key (PRP.default K).initVec)) (by
        simp [scheduleLoop_length, PRP.default, hk])
  refine ⟨f, hf, fun s => ?_⟩
  rw [← hs s]
  simp [prp, keySchedule, hl]

/-- C38: different keys give different round keys already in the first and in every later place -/
theorem C38_key_schedule_injective {K : Consts} (h : Good p K)
    (key key' : Vec (ZMod p)) (ks ks' : List (Vec (ZMod p)))
    (h1 : keySchedule K (PRP.default K) key = some ks)
    (h2 : keySchedule K (PRP.default K) key' = some ks') (i : ℕ) (hi : i < ks.length)
    (heq : ks[i]? = ks'[i]?) : key = key' := by
  unfold keySchedule at h1 h2
  split at h1
  · exact absurd h1 (by simp)
  rename_i hl
  simp only [if_neg hl, Option.some.injEq] at h1 h2
  subst h1; subst h2
  have step : ∀ (l : List (Vec (ZMod p))) (j : ℕ) (a b : Vec (ZMod p)) (n : ℕ), n < l.length →
      (scheduleLoop K (PRP.default K).mds j l a)[n]? = (scheduleLoop K (PRP.default K).mds j l b)[n]? →
      a = b := by
    intro l
    induction l with
    | nil => intro j a b n hn; simp at hn
    | cons k l ih =>
      intro j a b n hn he
      apply round_injective h j k
      cases n with
      | zero => simpa [scheduleLoop] using he
      | succ n =>
        refine ih (j + 1) _ _ n (by simpa using hn) ?_
        simpa [scheduleLoop] using he
  cases i with
  | zero =>
    apply addVec_left_injective (PRP.default K).initVec
    simpa using heq
  | succ i =>
    apply addVec_left_injective (PRP.default K).initVec
    refine step _ 0 _ _ i ?_ (by simpa using heq)
    simpa [scheduleLoop_length] using hi

end general

/-! ## The shipped constants -/

/-- the matrix of a parameter set over the integers -/
def intMat (m : Vec (Vec ℕ)) : Fin 4 → Fin 4 → ℤ := fun i j => ((m.get i).get j : ℤ)

theorem toMatrix_ofBytes (p : ℕ) (m : Vec (Vec ℕ)) :
    toMatrix (m.map ofBytes : Mat (ZMod p)) = (Matrix.of (intMat m)).map (Int.cast : ℤ → ZMod p) := by
  ext i j
  simp [toMatrix, get_map, ofBytes, intMat]

theorem mds_of_check {p : ℕ} {K : Consts} (h : MinorsOk p (intMat K.mds)) :
    IsMDS (toMatrix (K.mds.map ofBytes : Mat (ZMod p))) := by
  rw [toMatrix_ofBytes]
  exact mds_of_minors _ h

/-- a parameter set together with its modulus -/
structure Instance where
  p : ℕ
  K : Consts

/-- the five shipped parameter sets -/
def shipped : List Instance :=
  [⟨p_ed381, ed381⟩, ⟨p_ed377, ed377⟩, ⟨p_ed254, ed254⟩, ⟨p_fq254, fq254⟩, ⟨p_fq377, fq377⟩]

/-- what is evaluated for every parameter set -/
def Instance.ok (I : Instance) : Prop :=
  I.K.A * limbsVal I.K.aInv % (I.p - 1) = 1 ∧ I.K.A < 2 ^ 512 ∧ limbsVal I.K.aInv < 2 ^ 512 ∧
  I.p ≠ 2 ∧ MinorsOk I.p (intMat I.K.mds) ∧ I.K.keyInjection.length = 24 ∧
  I.K.initVec :: scheduleNat I.p I.K 0 I.K.keyInjection I.K.initVec = I.K.permRoundKeys

instance (I : Instance) : Decidable I.ok := by unfold Instance.ok; infer_instance

theorem shipped_ok : ∀ I ∈ shipped, I.ok := by decide +kernel

theorem shipped_prime : ∀ I ∈ shipped, I.p.Prime := by
  simp only [shipped, List.mem_cons, List.not_mem_nil, or_false, forall_eq_or_imp, forall_eq]
  exact ⟨Fields.prime_ed381, Fields.prime_ed377, Fields.prime_ed254, Fields.prime_fq254,
    Fields.prime_fq377⟩

/-- C38: the matrix of every shipped parameter set is MDS: all square submatrices are invertible -/
theorem C38_shipped_mds (I : Instance) (hI : I ∈ shipped) :
    IsMDS (toMatrix (I.K.mds.map ofBytes : Mat (ZMod I.p))) :=
  mds_of_check (shipped_ok I hI).2.2.2.2.1

/-- C38: hence the linear layer has branch number five: a non-zero difference in `w` positions is
mapped to a difference in at least `5 - w` positions -/
theorem C38_shipped_branch_number (I : Instance) (hI : I ∈ shipped) (v : Vec (ZMod I.p))
    (hv : v ≠ zeroVec) :
    5 ≤ weight v.get + weight (mulVec (PRP.default I.K).mds v).get := by
  have := Fact.mk (shipped_prime I hI)
  rw [mulVec_get]
  refine branch_of_mds (C38_shipped_mds I hI) v.get ?_
  intro h
  apply hv
  apply Vec.get_injective
  rw [h]
  funext i
  fin_cases i <;> rfl

/-- C38: the constants of every shipped parameter set meet the conditions: the two exponents are
inverse to each other and the matrix is invertible -/
theorem C38_shipped_good (I : Instance) (hI : I ∈ shipped) : Good I.p I.K := by
  obtain ⟨h1, -, -, h2, -, -, -⟩ := shipped_ok I hI
  have := Fact.mk (shipped_prime I hI)
  have hp := (shipped_prime I hI).two_le
  refine ⟨?_, ?_, ?_⟩
  · rw [h1, Nat.mod_eq_of_lt (by omega)]
  · rcases Nat.eq_zero_or_pos (I.K.A * limbsVal I.K.aInv) with h0 | h0
    · rw [h0, Nat.zero_mod] at h1; omega
    · exact h0
  · have := C38_shipped_mds I hI 4 (RelEmbedding.refl _) (RelEmbedding.refl _)
    exact isUnit_iff_ne_zero.2 this

/-- C38: the shipped permutation round keys are the key schedule of the zero key -/
theorem C38_shipped_round_keys (I : Instance) (hI : I ∈ shipped) :
    keySchedule I.K (PRP.default I.K : PRP (ZMod I.p)) zeroVec =
      some (Permutation.default I.K).roundKeys := by
  obtain ⟨-, hA, hInv, -, -, hl, hk⟩ := shipped_ok I hI
  have h0 : addVec (zeroVec : Vec (ZMod I.p)) (ofBytes I.K.initVec) = ofBytes I.K.initVec := by
    ext <;> simp [addVec, Vec.zipWith, zeroVec]
  have hl' : ¬ (PRP.default I.K : PRP (ZMod I.p)).keyInjection.length < 2 * rounds := by
    simp [PRP.default, hl, rounds]
  have ht : (PRP.default I.K : PRP (ZMod I.p)).keyInjection.take (2 * rounds) =
      I.K.keyInjection.map ofBytes := by
    simp [PRP.default, hl, rounds, List.take_of_length_le]
  unfold keySchedule
  rw [if_neg hl']
  simp only [ht, Permutation.default, ← hk, List.map_cons, scheduleNat_cast I.K hA hInv]
  simp [PRP.default, h0]

/-- C38: the permutation of every shipped parameter set never panics and is a bijection of the
state space -/
theorem C38_shipped_permutation_bijective (I : Instance) (hI : I ∈ shipped) :
    ∃ f : Vec (ZMod I.p) → Vec (ZMod I.p), Function.Bijective f ∧
      ∀ s, (Permutation.default I.K).eval I.K s = some (f s) := by
  have := Fact.mk (shipped_prime I hI)
  refine C38_round_keys_bijective (C38_shipped_good I hI) _ ?_
  obtain ⟨-, -, -, -, -, hl, hk⟩ := shipped_ok I hI
  have hlen : ∀ (l : List (Vec ℕ)) i a, (scheduleNat I.p I.K i l a).length = l.length := by
    intro l
    induction l with
    | nil => intros; rfl
    | cons k l ih => intro i a; simp [scheduleNat, ih]
  simp [Permutation.default, ← hk, hlen, hl, rounds]

/-- C38: the permutation is the cipher with the zero key, for every shipped parameter set -/
theorem C38_shipped_permutation_is_prp (I : Instance) (hI : I ∈ shipped) (s : Vec (ZMod I.p)) :
    (Permutation.default I.K).eval I.K s = prp I.K (PRP.default I.K) zeroVec s := by
  simp [prp, C38_shipped_round_keys I hI, Permutation.eval, Permutation.default]

/-- C38: the cipher of every shipped parameter set never panics and is a bijection for every key -/
theorem C38_shipped_prp_bijective (I : Instance) (hI : I ∈ shipped) (key : Vec (ZMod I.p)) :
    ∃ f : Vec (ZMod I.p) → Vec (ZMod I.p), Function.Bijective f ∧
      ∀ s, prp I.K (PRP.default I.K) key s = some (f s) := by
  have := Fact.mk (shipped_prime I hI)
  exact C38_prp_bijective (C38_shipped_good I hI) (shipped_ok I hI).2.2.2.2.2.1 key

/-- C38: the placeholder constants of the BLS12-381 and BW6-761 base fields give a constant map
whenever the round keys are theirs: the permutation is not injective over any field -/
theorem C38_placeholder_counterexample {F : Type} [Field F] (s t : Vec F) :
    (Permutation.default placeholder).eval placeholder s =
      (Permutation.default placeholder).eval placeholder t ∧
    (Permutation.default placeholder).eval placeholder s = some zeroVec := by
  have key : ∀ s : Vec F, (Permutation.default placeholder).eval placeholder s = some zeroVec := by
    intro s
    have hlen : (Permutation.default placeholder : Permutation F).roundKeys.length
        = 2 * rounds + 1 := by
      simp [Permutation.default, placeholder, rounds]
    have hz : (ofBytes ⟨0, 0, 0, 0⟩ : Vec F) = zeroVec := by simp [ofBytes, Vec.map, zeroVec]
    have hr : ∀ v : Vec F, linear v (placeholder.mds.map ofBytes : Mat F) zeroVec = zeroVec := by
      intro v
      simp [linear, placeholder, Vec.map, ofBytes, mulVec, dotProduct, addVec, Vec.zipWith, zeroVec]
    have hks : (Permutation.default placeholder : Permutation F).roundKeys
        = List.replicate 25 zeroVec := by
      simp [Permutation.default, placeholder, hz]
    unfold Permutation.eval prpWithRoundKeys
    rw [if_neg (by simpa using hlen), hks]
    simp [List.replicate, roundLoop, Permutation.default, PRP.default, hr]
  exact ⟨(key s).trans (key t).symm, key s⟩

/-! ## Known answers

The test vectors of `lib.rs:455-580` (`test_rescue_perm_on_0_vec`) hold of the model. -/

theorem roundLoop_eq_last (K : Consts) {q : ℕ} (m : Mat (ZMod q)) (ks : List (Vec (ZMod q))) :
    ∀ (i : ℕ) (s : Vec (ZMod q)),
      (s :: scheduleLoop K m i ks s).getLast? = some (roundLoop K m i ks s) := by
  induction ks with
  | nil => intro i s; rfl
  | cons k ks ih =>
    intro i s
    have := ih (i + 1) (linear (powVec s (expOf K i)) m k)
    simp only [scheduleLoop, roundLoop, List.getLast?_cons_cons, this]

/-- the expected outputs on the zero input -/
def knownAnswers : List (Instance × Vec ℕ) := [
  (⟨p_ed381, ed381⟩,
    ⟨0xd59ca60b743d1a6edbd60465ba9a15bc31adf800f3e28c72b4da28466245312,
      0x4be5ac6f94b46528d1ad101fdac6c0723078b5734dffdf19abb762ab6cabbe1b,
      0x653f8076b57c00eb09aa9cc44431d9d1f89799ccceae5f0229635b39abd8607,
      0x605c44acce98364d663113055dcdd34251c87e7e909dc0491194cd0ab334239c⟩),
  (⟨p_ed377, ed377⟩,
    ⟨0x251a349f0da422376205e44a60d3908e02927ae9d4686e0b55a7a1574f2f265,
      0x253edec680a5f380b08d78162eaddac1d3dca70fc7e3dfce20fb84bba6ab567,
      0xacbf0ce2f4bff086ebe5b9952e34635cfb1c922e9b4c399adbc8d8ea1a0c510,
      0x90201df19762d16e289a82049cfbf3f0ec426eb04169d8ab21525e958d0b033⟩),
  (⟨p_ed254, ed254⟩,
    ⟨0x17b47749f1a536d27a9bdb0548b8aaf221540efc02b2cc9fee4cf9148e55e7dd,
      0x25c068dc7ca5f04c72fd1d48904bec7bd9072073ff83804e7484b3b73c995f43,
      0x23a6a04c1e3d13896f1eee3a9b22f4ed1edbbb28206d3e365ce9109d09217b2c,
      0x25125f715be10733d357f6d6ae885b551a5a8a157144d1a908c1fd29a2479b25⟩),
  (⟨p_fq254, fq254⟩,
    ⟨0x1b609b96b63948b078e9e08c65c47ab787e22b06f9f441a410fc18040842acc9,
      0x9198ac8de5126919a7df315ecfcd40de1afd1f614012175c6f2255407f9c200,
      0x1d068317039bd57d52eba4bd6fba9b29a7b40de8b1d614aeed5e35d4eab7db78,
      0x1b3f03da32e37e8efb35caeece578d0d25e9288739e43ded20daf39ef9b8c672⟩),
  (⟨p_fq377, fq377⟩,
    ⟨0x12cb7290e5bba122e22d3497a6d120fc830981fdd4287d00d647790898dc4e75389ac69eb4fe178cebf9cdf7e12be37,
      0x167f82143d5896e2a269f98e733c26a62c735f01fe4dc6f45f88caa5b3d0011bed750198ac5c1ec362eda57952efe68,
      0x2f50db55e4d1702a37dd75952f377d7ae0c160caa91c276f32bb286276882efb59a01b6161c3431b3a233b0493b484,
      0x19d7d47fc7cc51e11552babcccf697a1bcb13c336fe72ccb07a255dd88894bc8d95341a0b58f57fde3b6f7f8a9e014e⟩)]

theorem knownAnswers_ok : ∀ A ∈ knownAnswers, A.1.K.permRoundKeys.length = 25 ∧
    (scheduleNat A.1.p A.1.K 0 A.1.K.permRoundKeys.tail
      (A.1.K.permRoundKeys.headD ⟨0, 0, 0, 0⟩)).getLast? = some A.2 := by
  decide +kernel

theorem knownAnswers_hold (A : Instance × Vec ℕ) (hA : A ∈ knownAnswers) :
    (Permutation.default A.1.K).eval A.1.K (zeroVec : Vec (ZMod A.1.p)) = some (ofBytes A.2) := by
  have hI : A.1 ∈ shipped := by
    simp only [knownAnswers, List.mem_cons, List.not_mem_nil, or_false] at hA
    rcases hA with rfl | rfl | rfl | rfl | rfl <;> simp [shipped]
  obtain ⟨hl, h3⟩ := knownAnswers_ok A hA
  obtain ⟨-, h1, h2, -, -, -, -⟩ := shipped_ok A.1 hI
  obtain ⟨⟨q, K⟩, a⟩ := A
  simp only [] at hl h3 h1 h2 ⊢
  obtain ⟨k0, ks, hk⟩ : ∃ k0 ks, K.permRoundKeys = k0 :: ks := by
    cases hk : K.permRoundKeys with
    | nil => simp [hk] at hl
    | cons k0 ks => exact ⟨k0, ks, rfl⟩
  rw [hk] at hl h3
  have h4 := congrArg (Option.map (ofBytes : Vec ℕ → Vec (ZMod q))) h3
  rw [List.tail_cons, List.headD_cons, ← List.getLast?_map, scheduleNat_cast K h1 h2] at h4
  have h0 : addVec (zeroVec : Vec (ZMod q)) (ofBytes k0) = ofBytes k0 := by
    ext <;> simp [addVec, Vec.zipWith, zeroVec]
  have h5 := roundLoop_eq_last K (K.mds.map ofBytes : Mat (ZMod q)) (ks.map ofBytes) 0 (ofBytes k0)
  have hne : (scheduleLoop K (K.mds.map ofBytes : Mat (ZMod q)) 0 (ks.map ofBytes) (ofBytes k0)).getLast? ≠
      none := by rw [h4]; simp
  unfold Permutation.eval prpWithRoundKeys
  have hlen : ¬ (Permutation.default K : Permutation (ZMod q)).roundKeys.length ≠ 2 * rounds + 1 := by
    simp [Permutation.default, hk, rounds] at hl ⊢
    exact hl
  rw [if_neg hlen]
  simp only [Permutation.default, PRP.default, hk, List.map_cons, h0]
  rw [← h5, ← Option.map_some, ← h4]
  cases hsl : scheduleLoop K (K.mds.map ofBytes : Mat (ZMod q)) 0 (ks.map ofBytes) (ofBytes k0) with
  | nil => rw [hsl] at hne; simp at hne
  | cons x l => rw [List.getLast?_cons_cons]

/-! ## Examples -/

/-- the hypotheses of the general theorems are met by the shipped sets -/
example : (⟨p_ed254, ed254⟩ : Instance) ∈ shipped ∧ Good p_ed254 ed254 :=
  ⟨by simp [shipped], C38_shipped_good ⟨p_ed254, ed254⟩ (by simp [shipped])⟩

/-- a small set of constants over the field with 7 elements: `x ^ 5` is its own inverse -/
def toyConsts : Consts :=
  ⟨5, [5], ⟨⟨1, 1, 1, 1⟩, ⟨1, 2, 3, 4⟩, ⟨1, 4, 2, 2⟩, ⟨1, 1, 6, 1⟩⟩, ⟨1, 2, 3, 4⟩, List.replicate 24 ⟨1, 0, 2, 5⟩,
    List.replicate 25 ⟨3, 1, 0, 6⟩⟩

instance : Fact (Nat.Prime 7) := ⟨by norm_num⟩

example : Good 7 toyConsts := by
  refine ⟨by decide, by decide, ?_⟩
  rw [toMatrix_ofBytes]
  have := (Int.castRingHom (ZMod 7)).map_det (Matrix.of (intMat toyConsts.mds))
  rw [det_eq_det4] at this
  have h2 : (((Matrix.of (intMat toyConsts.mds)).map (Int.cast : ℤ → ZMod 7))).det =
    ((det4 (intMat toyConsts.mds) : ℤ) : ZMod 7) := this.symm
  rw [h2]
  exact isUnit_iff_ne_zero.2 (by decide)

end Verif.Rescue
