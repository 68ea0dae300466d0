import Verif.Plonk.Keys
import Verif.Plonk.VerifierLemmas

/-!
# Model of the batch argument: `plonk/src/proof_system/batch_arg.rs` and the merging of keys in `structs.rs`

`partial_verify` computes the two points the verifier pairs, with a blinding factor, and `decide` pairs them.
`aggregate_verify_keys` merges the keys of circuits of type A with those of circuits of type B. The transcript is a
parameter: a function from the keys, the public inputs and the proof to the challenges.
-/

namespace Verif.Plonk

set_option linter.unusedSectionVars false

open Verif.Pcs

section
variable {F G G2 : Type} [Field F] [DecidableEq F] [AddCommGroup G] [Module F G] [DecidableEq G]

/-- `VerifyingKey::merge`, `structs.rs:777-820` -/
def mergeVk (a b : VKey F G G2) : Except VErr (VKey F G G2) :=
  if a.merged || b.merged then .error .parameter
  else if a.domSize ≠ b.domSize then .error .parameter
  else if a.numInputs ≠ b.numInputs then .error .parameter
  else if a.lookup.isSome || b.lookup.isSome then .error .parameter
  else .ok
    { domSize := a.domSize, numInputs := a.numInputs + b.numInputs
      sigmas := (a.sigmas.zip b.sigmas).map fun x => x.1 + x.2
      selectors := (a.selectors.zip b.selectors).map fun x => x.1 + x.2
      k := a.k, openKey := a.openKey, merged := true, lookup := none }

/-- the loop of `aggregate_verify_keys`, `batch_arg.rs:204-208` -/
def mergeVks : List (VKey F G G2 × VKey F G G2) → Except VErr (List (VKey F G G2))
  | [] => .ok []
  | x :: l =>
    match mergeVk x.1 x.2 with
    | .error e => .error e
    | .ok v =>
      match mergeVks l with
      | .error e => .error e
      | .ok r => .ok (v :: r)

/-- `aggregate_verify_keys`, `batch_arg.rs:192-209` -/
def aggregateVks (as bs : List (VKey F G G2)) : Except VErr (List (VKey F G G2)) :=
  if as.length ≠ bs.length then .error .parameter else mergeVks (as.zip bs)

/-- `partial_verify`, `batch_arg.rs:116-184`: the two points of the pairing check -/
def partialVerify (newDom : ℕ → Option (Domain F)) (chal : List (VKey F G G2) → List (List F) → BProof F G → Chal F)
    (βg g : G) (vks : List (VKey F G G2)) (pi : List F) (b : BProof F G) (blind : F) : Except VErr (G × G) :=
  match vks with
  | [] => .error .parameter
  | vk :: rest =>
    if vks.length ≠ b.len then .error .parameter
    else if !(rest.all fun v => decide (v.domSize = vk.domSize)) then .error .parameter
    else
      match verifierDomain newDom vk.domSize with
      | .error e => .error e
      | .ok d =>
        match prepare d vks (List.replicate vks.length (pi ++ pi)) b (chal vks (List.replicate vks.length (pi ++ pi)) b) with
        | .error e => .error e
        | .ok x =>
          .ok ((((SB.push ([] : SB F G) 1 x.opening).push x.u x.shifted).push blind g).msm,
            ((((x.comm.push x.point x.opening).push (x.nextPoint * x.u) x.shifted).push (-x.eval) g).push blind βg).msm)

/-- `decide`, `batch_arg.rs:212-217` -/
def decidePoints {GT : Type} [AddCommGroup G2] [Module F G2] [AddCommGroup GT] [Module F GT] [DecidableEq GT]
    (e : G →ₗ[F] G2 →ₗ[F] GT) (k : VerifierParam G G2) (P1 P2 : G) : Bool :=
  decide (e P1 k.betaH + e (-P2) k.h = 0)

/-- `ProvingKey::merge`, `structs.rs:604-643` -/
def mergePk (a b : PKey F G G2) : Except VErr (PKey F G G2) :=
  if a.vk.domSize ≠ b.vk.domSize then .error .parameter
  else if a.vk.numInputs ≠ b.vk.numInputs then .error .parameter
  else if a.lookup.isSome || b.lookup.isSome then .error .parameter
  else
    match mergeVk a.vk b.vk with
    | .error e => .error e
    | .ok vk => .ok
      { sigmas := (a.sigmas.zip b.sigmas).map fun x => addPoly x.1 x.2
        selectors := (a.selectors.zip b.selectors).map fun x => addPoly x.1 x.2
        commitKey := a.commitKey, vk := vk, lookup := none }

/-! ## The points -/

/-- the left side of the pairing equation -/
def openA (x : PcsInfo F G) : G := x.opening + x.u • x.shifted

/-- the right side of the pairing equation -/
def openB (x : PcsInfo F G) (g : G) : G :=
  x.comm.msm + x.point • x.opening + (x.u * x.nextPoint) • x.shifted - x.eval • g

theorem batch_single {GT : Type} [AddCommGroup G2] [Module F G2] [AddCommGroup GT] [Module F GT] [DecidableEq GT]
    (e : G →ₗ[F] G2 →ₗ[F] GT) (hash : List F → F) (k : VerifierParam G G2) (x : PcsInfo F G) :
    batchVerifyOpening e hash k [x] = true ↔ e (openA x) k.betaH = e (openB x k.g) k.h := by
  unfold batchVerifyOpening
  simp only [innerA, innerB, sb_push, sb_merge, sb_msm_nil, one_smul, one_mul, zero_add, decide_eq_true_eq]
  rw [map_neg, LinearMap.neg_apply, ← sub_eq_add_neg, sub_eq_zero]
  unfold openA openB
  rw [neg_smul, ← sub_eq_add_neg]

theorem checkInstances_all {d : Domain F} {lk : List (Option (LkProof F G))} : ∀ {l : List (List F × VKey F G G2)} {i : ℕ},
    checkInstances d lk i l = .ok () → ∀ x ∈ l, x.1.length = x.2.numInputs ∧ x.2.domSize = d.size
  | [], _, _, x, hx => by simp at hx
  | (pi, vk) :: l, i, h, x, hx => by
    unfold checkInstances at h
    by_cases h1 : pi.length = vk.numInputs
    · rw [if_neg (not_not.2 h1)] at h
      cases hl : lk[i]? with
      | none => rw [hl] at h; cases h
      | some o =>
        rw [hl] at h
        simp only at h
        split_ifs at h with h2 h3
        rcases List.mem_cons.1 hx with rfl | hx
        · exact ⟨h1, not_not.1 h3⟩
        · exact checkInstances_all h x hx
    · rw [if_pos h1] at h
      cases h

theorem prepare_all {d : Domain F} {vks : List (VKey F G G2)} {pis : List (List F)} {b : BProof F G} {ch : Chal F}
    {x : PcsInfo F G} (h : prepare d vks pis b ch = .ok x) : vks.length = b.len ∧ vks ≠ [] ∧ ∀ vk ∈ vks, vk.domSize = d.size := by
  unfold prepare at h
  split_ifs at h with h1
  have h2 : checkNumbers vks pis b = true := by simpa using h1
  unfold checkNumbers at h2
  simp only [Bool.and_eq_true, decide_eq_true_eq, Bool.not_eq_true', List.isEmpty_eq_false_iff] at h2
  obtain ⟨⟨h2, h3⟩, h4⟩ := h2
  refine ⟨h2, h4, ?_⟩
  cases hc : checkInstances d b.lookups 0 (pis.zip vks) with
  | error e => rw [hc] at h; cases h
  | ok u =>
    intro vk hvk
    obtain ⟨i, hi, rfl⟩ := List.getElem_of_mem hvk
    have : (pis[i]'(by omega), vks[i]) ∈ pis.zip vks := by
      have hz : i < (pis.zip vks).length := by rw [List.length_zip]; omega
      have := List.getElem_mem hz
      rwa [List.getElem_zip] at this
    exact (checkInstances_all hc _ this).2

theorem partialVerify_ok {newDom : ℕ → Option (Domain F)} {chal : List (VKey F G G2) → List (List F) → BProof F G → Chal F}
    {βg g : G} {vks : List (VKey F G G2)} {pi : List F} {b : BProof F G} {blind : F} {P : G × G} :
    partialVerify newDom chal βg g vks pi b blind = .ok P ↔
      ∃ d x, (∃ vk ∈ vks.head?, newDom vk.domSize = some d) ∧
        prepare d vks (List.replicate vks.length (pi ++ pi)) b (chal vks (List.replicate vks.length (pi ++ pi)) b) = .ok x ∧
        P = (openA x + blind • g, openB x g + blind • βg) := by
  have hP : ∀ x : PcsInfo F G, ((((SB.push ([] : SB F G) 1 x.opening).push x.u x.shifted).push blind g).msm,
      ((((x.comm.push x.point x.opening).push (x.nextPoint * x.u) x.shifted).push (-x.eval) g).push blind βg).msm) =
      (openA x + blind • g, openB x g + blind • βg) := fun x => by
    unfold openA openB
    simp only [sb_push, sb_msm_nil, zero_add, one_smul, neg_smul, ← sub_eq_add_neg]
    rw [mul_comm x.u]
  cases vks with
  | nil => simp [partialVerify]
  | cons vk rest =>
    constructor
    · intro h
      unfold partialVerify at h
      simp only at h
      split_ifs at h with h1 h2
      unfold verifierDomain at h
      cases hd : newDom vk.domSize with
      | none => rw [hd] at h; cases h
      | some d =>
        rw [hd] at h
        simp only at h
        split at h
        · cases h
        · rename_i x hx
          refine ⟨d, x, ⟨vk, rfl, hd⟩, hx, ?_⟩
          rw [← hP]
          exact (Except.ok.inj h).symm
    · rintro ⟨d, x, ⟨vk', hvk, hd⟩, hx, rfl⟩
      obtain rfl : vk = vk' := by simpa using hvk
      obtain ⟨p1, -, p3⟩ := prepare_all hx
      unfold partialVerify verifierDomain
      simp only
      rw [if_neg (not_not.2 p1), if_neg, hd]
      · simp only
        rw [hx]
        simp only
        rw [hP]
      · rw [Bool.not_eq_true', Bool.not_eq_false, List.all_eq_true]
        intro v hv
        rw [decide_eq_true_eq, p3 v (by simp [hv]), p3 vk (by simp)]

end

end Verif.Plonk
