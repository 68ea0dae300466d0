import Verif.Circuit.RescueSpec
import Verif.Props.CircuitSpec
import Verif.Props.Rescue

/-!
# C38, C69: the Rescue gadgets compute the native functions

`Correct` is defined in `Verif/Props/CircuitSpec.lean`. The conclusion of every theorem is about the
functions of `Verif/Hash/Rescue.lean` (the model of the code outside the circuit), applied to the
values an assignment gives to the input variables.
-/

set_option linter.unusedSectionVars false

namespace Verif.Props.Circuit

open Verif.Circuit
open Verif.Rescue (Vec Consts PRP Good Instance shipped)

variable {p : ℕ}

section general
variable [Fact p.Prime] {K : Consts}

/-! ## C38: permutation and cipher -/

/-- C38: the permutation gadget computes the native permutation -/
theorem C38_permutation_gadget (hA : K.A = 5 ∨ K.A = 11) (hg : Good p K)
    (hk : K.permRoundKeys.length = 25) (s : Vec ℕ) :
    Correct (rescuePermutation K s : Build p (Vec ℕ)) (InS s) (fun _ => True)
      (fun v w => (Rescue.Permutation.default K).eval K (s.map w) = some (v.map w)) :=
  .of_spec (rescuePermutation_rel K s) (fun _ _ h => h) (fun _ _ _ _ _ h => h)
    (fun _ hc hd => (rescuePermutation_spec hc hA hg hk s).weaken (fun _ => hd))

/-- C38: the cipher gadget computes the native cipher; the key is a variable of the circuit -/
theorem C38_prp_gadget (hA : K.A = 5 ∨ K.A = 11) (hg : Good p K)
    (hk : K.keyInjection.length = 24) (key s : Vec ℕ) :
    Correct (prp K key s : Build p (Vec ℕ)) (fun c => InS key c ∧ InS s c) (fun _ => True)
      (fun v w => Rescue.prp K (PRP.default K) (key.map w) (s.map w) = some (v.map w)) :=
  .of_spec (prp_rel K key s) (fun _ _ h => h) (fun _ _ _ _ _ h => h)
    (fun _ hc hd => (prp_spec hc hA hg hk key s).weaken (fun _ => hd))

/-- C38: for any other exponent no circuit is built -/
theorem C38_permutation_gadget_other_exponent (h5 : K.A ≠ 5) (h11 : K.A ≠ 11) (s : Vec ℕ)
    (c : Circ p) (v : Vec ℕ) (c' : Circ p) : rescuePermutation K s c ≠ .ok (v, c') := by
  have hinv : ∀ (x : ℕ) (c : Circ p) v c', powAlphaInv K x c ≠ .ok (v, c') := by
    intro x c v c' h
    obtain ⟨_, _, _, h⟩ := bind_ok h
    obtain ⟨_, _, _, h⟩ := bind_ok h
    obtain ⟨_, _, _, h⟩ := bind_ok h
    rw [if_neg h5, if_neg h11] at h
    cases h
  have hinvs : ∀ (s : Vec ℕ) (c : Circ p) v c', powAlphaInvState K s c ≠ .ok (v, c') := by
    intro s c v c' h
    obtain ⟨_, _, _, h⟩ := bind_ok h
    obtain ⟨_, _, h1, h⟩ := bind_ok h
    exact hinv _ _ _ _ h1
  intro h
  unfold rescuePermutation permutationWithConstRoundKeys at h
  generalize (Rescue.Permutation.default K : Rescue.Permutation (ZMod p)).roundKeys = keys at h
  by_cases hl : keys.length ≠ 2 * Rescue.rounds + 1
  · rw [if_pos hl] at h
    cases h
  · rw [if_neg hl] at h
    obtain _ | ⟨k0, _ | ⟨k1, ks⟩⟩ := keys
    · cases h
    · simp [Rescue.rounds] at hl
    · obtain ⟨s1, c1, _, h⟩ := bind_ok h
      obtain ⟨_, _, h1, h⟩ := bind_ok h
      simp only [roundConst, Nat.zero_mod, if_true] at h1
      obtain ⟨_, _, h2, _⟩ := bind_ok h1
      exact hinvs _ _ _ _ h2

/-! ## C69: hash, PRF and commitment -/

variable {f : Vec (ZMod p) → Vec (ZMod p)}

/-- C69: the sponge without padding, on a positive multiple of three elements -/
theorem C69_sponge_no_padding_partial (h : HashOk K f) (data : List ℕ) (num : ℕ) (hne : data ≠ [])
    (hlen : data.length % 3 = 0) :
    Correct (rescueSpongeNoPadding K data num : Build p (List ℕ))
      (fun c => ∀ v ∈ data, v < c.numVars) (fun _ => True)
      (fun vs w => Rescue.spongeNoPadding f (data.map w) num = .ok (vs.map w)) :=
  .of_spec (rescueSpongeNoPadding_rel K data num) (fun _ _ h => h) (fun _ _ _ _ _ h => h)
    (fun _ hc hd => (rescueSpongeNoPadding_spec h hc data num).weaken (fun _ => ⟨⟨hne, hlen⟩, hd⟩))

/-- C69: on any other input the gadget fails; outside the circuit only the length is checked, so that
the two disagree on the empty input -/
theorem C69_sponge_no_padding_error {data : List ℕ} (h : data = [] ∨ data.length % 3 ≠ 0) (num : ℕ) (c : Circ p) :
    rescueSpongeNoPadding K data num c = .error .parameter := by
  obtain _ | ⟨a, _ | ⟨b, _ | ⟨d, rest⟩⟩⟩ := data
  · rfl
  · rfl
  · rfl
  · simp only [rescueSpongeNoPadding]
    rcases h with h | h
    · simp at h
    · rw [if_pos (by simp only [List.length_cons] at h; omega)]
      rfl

/-- C69: the variable-length hash with bit padding, on a non-empty input -/
theorem C69_variable_length_hash_partial (h : HashOk K f) (data : List ℕ) (num : ℕ) (hne : data ≠ []) :
    Correct (rescueSpongeWithPadding K data num : Build p (List ℕ))
      (fun c => ∀ v ∈ data, v < c.numVars) (fun _ => True)
      (fun vs w => Rescue.variableEvaluate f num (data.map w) = .ok (vs.map w)) := by
  refine .of_spec (rescueSpongeWithPadding_rel K data num) (fun _ _ h => h) (fun _ _ _ _ _ h => h)
    (fun _ hc hd => (Spec.conseq hc (rescueSpongeWithPadding_spec h hc data num)
      (fun _ _ _ => ⟨hne, hd⟩) (fun _ _ _ h => h) ?_))
  intro vs w _ _ h1
  have hl : (vs.map w).length = num := by
    unfold Rescue.spongeWithBitPadding at h1
    cases hs : Rescue.spongeNoPadding f (Rescue.bitPad (data.map w)) num with
    | error e => rw [hs] at h1; cases h1
    | ok r =>
      rw [hs] at h1
      cases h1
      exact spongeNoPadding_length hs
  simp only [Rescue.variableEvaluate, h1, Rescue.checkLen]
  rw [if_neg (by simpa using hl)]

/-- C69: the hash of the empty input exists outside the circuit but the gadget refuses it -/
theorem C69_empty_hash_counterexample (num : ℕ) (c : Circ p) :
    rescueSpongeWithPadding K [] num c = .error .parameter ∧
      ∃ out, Rescue.variableEvaluate f num [] = .ok out := by
  refine ⟨rfl, ?_⟩
  have hl := (Rescue.squeezeAux_spec f (rate := Rescue.crhfRate) (by decide) (by decide) (num + 1)
    (Rescue.absorb f Rescue.crhfRate Rescue.zeroVec (Rescue.bitPad [])) num (by omega)).1
  refine ⟨(Rescue.squeeze f Rescue.crhfRate
    (Rescue.absorb f Rescue.crhfRate Rescue.zeroVec (Rescue.bitPad [])) num).1, ?_⟩
  have hmod : (Rescue.bitPad ([] : List (ZMod p))).length % Rescue.crhfRate = 0 := by
    rw [Rescue.bitPad, Rescue.padWithZeros_length _ (by decide)]
    exact Rescue.lenToNextMultiple_mod _ _ (by decide)
  simp only [Rescue.variableEvaluate, Rescue.spongeWithBitPadding, Rescue.spongeNoPadding,
    Rescue.squeeze, Rescue.checkLen, Rescue.expect]
  rw [if_neg (by simpa using hmod)]
  simp only []
  rw [if_neg (by simpa using hl)]

/-- C69: the keyed sponge without padding; on the empty input it gives `0`, as the native one does -/
theorem C69_keyed_sponge (h : HashOk K f) (key : ℕ) (data : List ℕ) (hlen : data.length % 4 = 0) :
    Correct (fsksNoPadding K key data : Build p ℕ)
      (fun c => key < c.numVars ∧ ∀ v ∈ data, v < c.numVars) (fun _ => True)
      (fun v w => Rescue.fsksNoPadding f (w key) (data.map w) 1 = .ok [w v]) :=
  .of_spec (fsksNoPadding_rel K key data) (fun _ _ h => h) (fun _ _ _ _ _ h => h)
    (fun _ hc hd => (fsksNoPadding_spec h hc key data).weaken (fun _ => ⟨hlen, hd⟩))

/-- C69: the PRF gadget computes the PRF with one output, on a non-empty input -/
theorem C69_prf_partial (h : HashOk K f) (key : ℕ) (data : List ℕ) (hne : data ≠ []) :
    Correct (evalPrf K key data : Build p ℕ)
      (fun c => key < c.numVars ∧ ∀ v ∈ data, v < c.numVars) (fun _ => True)
      (fun v w => Rescue.prfEvaluate f 1 (w key) (data.map w) = .ok [w v]) := by
  refine .of_spec (fsksZeroPadding_rel K key data) (fun _ _ h => h) (fun _ _ _ _ _ h => h)
    (fun _ hc hd => (Spec.conseq hc (fsksZeroPadding_spec h hc key data)
      (fun _ _ _ => ⟨hne, hd⟩) (fun _ _ _ h => h) ?_))
  intro v w _ _ h1
  simp [Rescue.prfEvaluate, h1]

/-- C69: on the empty input the PRF gadget fails while the native PRF gives `0` for every key -/
theorem C69_empty_prf_counterexample (key : ℕ) (x : ZMod p) (c : Circ p) :
    evalPrf K key [] c = .error .parameter ∧ Rescue.prfEvaluate f 1 x [] = .ok [0] :=
  ⟨rfl, rfl⟩

/-- C69: the commitment gadget computes the native commitment -/
theorem C69_commitment (h : HashOk K f) (input : List ℕ) (r : ℕ) :
    Correct (rescueCommit K input r : Build p ℕ)
      (fun c => r < c.numVars ∧ ∀ v ∈ input, v < c.numVars) (fun _ => True)
      (fun v w => Rescue.commit f (input.length + 1) (input.map w) (some (w r)) = .ok (w v)) :=
  .of_spec (rescueCommit_rel K input r) (fun _ _ h => h) (fun _ _ _ _ _ h => h)
    (fun _ hc hd => (rescueCommit_spec h hc input r).weaken (fun _ => hd))

end general

/-! ## The shipped constants -/

theorem shipped_alpha : ∀ I ∈ shipped, I.K.A = 5 ∨ I.K.A = 11 := by decide +kernel
theorem shipped_keys : ∀ I ∈ shipped, I.K.permRoundKeys.length = 25 ∧ I.K.keyInjection.length = 24 := by
  decide +kernel

/-- C69: the hypotheses of the theorems above hold for every shipped parameter set -/
theorem C69_shipped_hash_ok (I : Instance) (hI : I ∈ shipped) (f : Vec (ZMod I.p) → Vec (ZMod I.p))
    (hf : ∀ s, (Rescue.Permutation.default I.K).eval I.K s = some (f s)) : HashOk I.K f :=
  ⟨shipped_alpha I hI, Rescue.C38_shipped_good I hI, (shipped_keys I hI).1, hf⟩

/-- C38: the permutation gadget of every shipped parameter set computes the native permutation -/
theorem C38_shipped_permutation_gadget (I : Instance) (hI : I ∈ shipped) (s : Vec ℕ) :
    Correct (rescuePermutation I.K s : Build I.p (Vec ℕ)) (InS s) (fun _ => True)
      (fun v w => (Rescue.Permutation.default I.K).eval I.K (s.map w) = some (v.map w)) := by
  have := Fact.mk (Rescue.shipped_prime I hI)
  exact C38_permutation_gadget (shipped_alpha I hI) (Rescue.C38_shipped_good I hI)
    (shipped_keys I hI).1 s

/-- C38: the cipher gadget of every shipped parameter set computes the native cipher -/
theorem C38_shipped_prp_gadget (I : Instance) (hI : I ∈ shipped) (key s : Vec ℕ) :
    Correct (prp I.K key s : Build I.p (Vec ℕ)) (fun c => InS key c ∧ InS s c) (fun _ => True)
      (fun v w => Rescue.prp I.K (PRP.default I.K) (key.map w) (s.map w) = some (v.map w)) := by
  have := Fact.mk (Rescue.shipped_prime I hI)
  exact C38_prp_gadget (shipped_alpha I hI) (Rescue.C38_shipped_good I hI) (shipped_keys I hI).2 key s

/-! ## Examples -/

open Verif.Rescue (toyConsts)

theorem toy_good : Good 7 toyConsts := by
  refine ⟨by decide, by decide, ?_⟩
  rw [Rescue.toMatrix_ofBytes]
  have := (Int.castRingHom (ZMod 7)).map_det (Matrix.of (Rescue.intMat toyConsts.mds))
  rw [Rescue.det_eq_det4] at this
  have h2 : (((Matrix.of (Rescue.intMat toyConsts.mds)).map (Int.cast : ℤ → ZMod 7))).det =
    ((Rescue.det4 (Rescue.intMat toyConsts.mds) : ℤ) : ZMod 7) := this.symm
  rw [h2]
  exact isUnit_iff_ne_zero.2 (by decide)

/-- the permutation of the small set of constants -/
def toyPerm (s : Vec (ZMod 7)) : Vec (ZMod 7) :=
  (((Rescue.Permutation.default toyConsts).eval toyConsts s).getD Rescue.zeroVec)

theorem toy_hashOk : HashOk toyConsts toyPerm := by
  refine ⟨Or.inl rfl, toy_good, by decide, fun s => ?_⟩
  obtain ⟨f, -, hf⟩ := Rescue.C38_round_keys_bijective toy_good
    ((Rescue.Permutation.default toyConsts).roundKeys) (by decide)
  have := hf s
  unfold toyPerm Rescue.Permutation.eval
  rw [show (Rescue.Permutation.default toyConsts).rescuePrp = (PRP.default toyConsts : PRP (ZMod 7))
    from rfl, this]
  rfl

/-- the gadget run on a concrete circuit: the check accepts and the value is the native one -/
example : (match rescuePermutation toyConsts ⟨2, 3, 4, 5⟩ demo with
    | .ok (v, c') => decide (checkSat c' [] = .ok ()) && decide (v.map c'.val =
        toyPerm ⟨3, 5, 0, 1⟩)
    | .error _ => false) = true := by decide +kernel

example : (match rescueCommit toyConsts [3, 4, 5] 2 demo with
    | .ok (v, c') => decide (checkSat c' [] = .ok ()) && decide (.ok (c'.val v) =
        Rescue.commit toyPerm 4 [5, 0, 1] (some 3))
    | .error _ => false) = true := by decide +kernel

end Verif.Props.Circuit
