import Verif.Props.Multilinear
import Verif.Pcs.IopTranscript
import Verif.Props.TranscriptBinding
import Mathlib.Algebra.MvPolynomial.Eval
import Mathlib.Algebra.MvPolynomial.Degrees

/-!
# C89: soundness of the multilinear batch argument with the challenge of its transcript

The prover is algebraic: every group element it sends is a polynomial in the secrets of the two reference strings, times
the generator. The theorem says which polynomial identities an accepting verifier leaves open.
-/

set_option linter.unusedSectionVars false

namespace Verif.Props.Ml

open Verif.Pcs Verif.Conv Verif.Plonk

variable {F G1 G2 GT : Type} [Field F] [DecidableEq F]
  [AddCommGroup G1] [Module F G1] [DecidableEq G1]
  [AddCommGroup G2] [Module F G2] [DecidableEq G2]
  [AddCommGroup GT] [Module F GT] [DecidableEq GT]

/-! ## The transcript -/

/-- a call of a method of the transcript -/
inductive IopCall where
  | append (label : String) (msg : List Byte)
  | challenge (label : String)
  | bytes (label : String) (n : ℕ)

/-- the state after a call; a refused call leaves the transcript as it is -/
def IopCall.run (r : ℕ) (M : String → List Op → List Byte) (t : Iop) : IopCall → Iop
  | .append l m => t.append l m
  | .challenge l => match t.challenge r M l with
    | .ok (_, t') => t'
    | .error _ => t
  | .bytes l n => match t.byteChallenge M l n with
    | .ok (_, t') => t'
    | .error _ => t

/-- In every state a transcript can reach, challenges are refused exactly before the first message, and then nothing
was recorded. -/
theorem C89_empty (r : ℕ) (M : String → List Op → List Byte) (label : String) (calls : List IopCall) :
    let t := calls.foldl (IopCall.run r M) (Iop.new label)
    t.label = label ∧
    ((∃ x, t.challenge r M "a" = .ok x) ↔ ∃ l m, IopCall.append l m ∈ calls) ∧
    (t.ops = [] ↔ ∀ x, t.challenge r M "a" ≠ .ok x) := by
  intro t
  have key : ∀ (calls : List IopCall) (t0 : Iop), t0.label = label → (t0.isEmpty = true ↔ t0.ops = []) →
      let t := calls.foldl (IopCall.run r M) t0
      t.label = label ∧ (t.isEmpty = true ↔ t.ops = []) ∧
      (t.isEmpty = false ↔ t0.isEmpty = false ∨ ∃ l m, IopCall.append l m ∈ calls) := by
    intro calls
    induction calls with
    | nil => intro t0 h1 h2; exact ⟨h1, h2, by simp⟩
    | cons c cs ih =>
      intro t0 h1 h2
      have hstep : (c.run r M t0).label = label ∧ ((c.run r M t0).isEmpty = true ↔ (c.run r M t0).ops = []) ∧
          ((c.run r M t0).isEmpty = false ↔ t0.isEmpty = false ∨ ∃ l m, c = IopCall.append l m) := by
        cases c with
        | append l m => exact ⟨h1, by simp [IopCall.run, Iop.append], by simp [IopCall.run, Iop.append]⟩
        | challenge l =>
          unfold IopCall.run Iop.challenge
          cases he : t0.isEmpty with
          | true => simp only [if_true]; exact ⟨h1, by rw [he] at h2; rw [he]; exact h2, by simp [he]⟩
          | false => simp [Iop.append, h1]
        | bytes l n =>
          unfold IopCall.run Iop.byteChallenge
          cases he : t0.isEmpty with
          | true => simp only [if_true]; exact ⟨h1, by rw [he] at h2; rw [he]; exact h2, by simp [he]⟩
          | false => simp [Iop.append, h1]
      obtain ⟨a, b, c'⟩ := ih _ hstep.1 hstep.2.1
      refine ⟨a, b, ?_⟩
      rw [List.foldl_cons, c', hstep.2.2]
      constructor
      · rintro ((h | ⟨l, m, rfl⟩) | ⟨l, m, h⟩)
        · exact .inl h
        · exact .inr ⟨l, m, by simp⟩
        · exact .inr ⟨l, m, by simp [h]⟩
      · rintro (h | ⟨l, m, h⟩)
        · exact .inl (.inl h)
        · rcases List.mem_cons.1 h with h | h
          · exact .inl (.inr ⟨l, m, h.symm⟩)
          · exact .inr ⟨l, m, h⟩
  obtain ⟨h1, h2, h3⟩ := key calls (Iop.new label) rfl (by simp [Iop.new])
  have hch : (∃ x, t.challenge r M "a" = .ok x) ↔ t.isEmpty = false := by
    unfold Iop.challenge
    cases t.isEmpty <;> simp
  refine ⟨h1, ?_, ?_⟩
  · rw [hch, h3]; simp [Iop.new]
  · rw [← h2]
    constructor
    · intro h x hx
      rw [hch.1 ⟨x, hx⟩] at h
      cases h
    · intro h
      cases he : t.isEmpty with
      | true => rfl
      | false => obtain ⟨x, hx⟩ := hch.2 he; exact absurd hx (h x)

example : (∃ x, (Iop.new "a").challenge 101 (fun _ _ => [7]) "r" = .ok x) = False ∧
    ((Iop.new "a").append "m" [1]).challenge 101 (fun _ _ => [7, 1]) "r" =
      .ok (7 + 256, ⟨"a", [.append "m" [1], .challenge "r" 64, .append "r" [61]], false⟩) := by
  refine ⟨?_, by decide +kernel⟩
  simp [Iop.challenge, Iop.new]

/-- what has been recorded when the challenge of a batch is drawn: the commitment, the points with their lengths, the
commitment to `q`, in this order -/
def mlOps {r : ℕ} {G : Type} (serG : G → List Byte) (comm : G) (points : List (List (ZMod r))) (q : G) : List Op :=
  [.append "w" (serG comm)] ++
    points.map (fun x => .append "w" (toLE 8 x.length ++ x.flatMap serField)) ++
    [.append "q(x)" (serG q), .challenge "r" 64]

/-- The challenge of a batch is never refused: it is the number drawn after the commitment, the points and the
commitment to `q`. -/
theorem C89_challenge {r : ℕ} {G : Type} (serG : G → List Byte) (M : String → List Op → List Byte) (comm : G)
    (points : List (List (ZMod r))) (q : G) :
    mlChallenge serG M comm points q = .ok (fromLeBytesModOrder r (M "ml kzg" (mlOps serG comm points q))) := by
  have hf : ∀ (pts : List (List (ZMod r))) (t : Iop),
      pts.foldl (fun t x => t.append "w" (serVec x)) t =
        ⟨t.label, t.ops ++ pts.map (fun x => Op.append "w" (serVec x)), if pts = [] then t.isEmpty else false⟩ := by
    intro pts
    induction pts with
    | nil => intro t; simp
    | cons x pts ih =>
      intro t
      rw [List.foldl_cons, ih]
      simp [Iop.append]
  unfold mlChallenge
  simp only [hf]
  simp [Iop.challenge, Iop.append, Iop.new, mlOps, serVec]

/-- ... and what it is drawn from determines the commitment, the points and the commitment to `q`. -/
theorem C89_binding {r : ℕ} [hr : NeZero r] {G : Type} (serG : G → List Byte) (hs : Function.Injective serG)
    (comm comm' : G) (points points' : List (List (ZMod r))) (q q' : G)
    (h : mlOps serG comm points q = mlOps serG comm' points' q') : comm = comm' ∧ points = points' ∧ q = q' := by
  have hcode : Code (serField : ZMod r → List Byte) ((bits r + 7) / 8) := 
    ⟨fun _ => toLE_length _ _, Verif.Props.TranscriptBinding.serField_inj, by
      have : 0 < bits r := Nat.size_pos.2 (Nat.pos_of_ne_zero hr.out)
      omega⟩
  unfold mlOps at h
  have hlen := congrArg List.length h
  simp only [List.length_append, List.length_map, List.length_cons, List.length_nil] at hlen
  obtain ⟨h1, h2⟩ := List.append_inj h (by simp; omega)
  obtain ⟨h3, h4⟩ := List.append_inj h1 rfl
  refine ⟨hs (by simpa using h3), ?_, hs (by simpa using h2)⟩
  refine (List.map_injective_iff.2 ?_) h4
  intro x y hxy
  simp only [Op.append.injEq, true_and] at hxy
  exact hcode.flatMap_inj (List.append_inj hxy (by simp [toLE_length])).2

example : mlOps (fun x : ℕ => [Fin.ofNat 256 x]) 3 [[(1 : ZMod 101), 2], [4, 5]] 9 =
    [.append "w" [3], .append "w" [2, 0, 0, 0, 0, 0, 0, 0, 1, 2], .append "w" [2, 0, 0, 0, 0, 0, 0, 0, 4, 5],
      .append "q(x)" [9], .challenge "r" 64] := by decide +kernel

/-! ## Algebraic provers -/

/-- the secrets behind the two reference strings: the trapdoor of the univariate one, the factor between the two
generators, the trapdoors of the multilinear one -/
inductive Secret where
  | tau
  | gamma
  | t (j : ℕ)

/-- the secrets of given reference strings -/
def secrets (τ γ : F) (t : List F) : Secret → F
  | .tau => τ
  | .gamma => γ
  | .t j => t.getD j 0

/-- the number a polynomial in the secrets has -/
noncomputable def known (τ γ : F) (t : List F) (a : MvPolynomial Secret F) : F := MvPolynomial.aeval (secrets τ γ t) a

/-- the claim that a commitment `a` opens to `v` at `z` with the proof `o`, as an identity of polynomials -/
noncomputable def uniClaim (a o : MvPolynomial Secret F) (z v : F) : MvPolynomial Secret F :=
  a - MvPolynomial.C v - (MvPolynomial.X .tau - MvPolynomial.C z) * o

/-- the table `w` as a polynomial in the trapdoors `k`, `k + 1`, ... -/
noncomputable def tablePoly (w : List F) (k M : ℕ) : MvPolynomial Secret F :=
  ∑ b ∈ Finset.range (2 ^ M), MvPolynomial.C (w.getD b 0) *
    ∏ j ∈ Finset.range M, (if b.testBit j then MvPolynomial.X (.t (k + j)) else 1 - MvPolynomial.X (.t (k + j)))

/-- the claim that the commitment to the table `w` opens to `v` at the point `x` with the proofs `os` -/
noncomputable def mlClaim (w : List F) (k : ℕ) (os : List (MvPolynomial Secret F)) (x : List F) (v : F) :
    MvPolynomial Secret F :=
  MvPolynomial.X .gamma * (tablePoly w k x.length - MvPolynomial.C v) -
    ∑ j ∈ Finset.range x.length, (MvPolynomial.X (.t (k + j)) - MvPolynomial.C (x.getD j 0)) * os.getD j 0

/-- the secrets are no root of the polynomial, unless it is zero -/
def NoRoot (τ γ : F) (t : List F) (a : MvPolynomial Secret F) : Prop := known τ γ t a = 0 → a = 0

/-- only the trapdoor of the univariate reference string is left -/
noncomputable def onlyTau : Secret → Polynomial F
  | .tau => Polynomial.X
  | _ => 0

theorem onlyTau_natDegree (a : MvPolynomial Secret F) :
    (MvPolynomial.aeval onlyTau a : Polynomial F).natDegree ≤ a.degreeOf .tau := by
  rw [MvPolynomial.aeval_def, MvPolynomial.eval₂_eq]
  refine Polynomial.natDegree_sum_le_of_forall_le _ _ fun d hd => ?_
  have h1 : d .tau ≤ a.degreeOf .tau := MvPolynomial.degreeOf_le_iff.1 (le_refl _) d hd
  refine (Polynomial.natDegree_C_mul_le _ _).trans ?_
  refine (Polynomial.natDegree_prod_le _ _).trans ?_
  classical
  have h2 : ∀ i ∈ d.support, (onlyTau i ^ d i : Polynomial F).natDegree ≤ if i = .tau then d .tau else 0 := by
    intro i hi
    cases i with
    | tau => simp [onlyTau]
    | gamma => rw [show (onlyTau Secret.gamma : Polynomial F) = 0 from rfl, zero_pow (Finsupp.mem_support_iff.1 hi)]; simp
    | t j => rw [show (onlyTau (Secret.t j) : Polynomial F) = 0 from rfl, zero_pow (Finsupp.mem_support_iff.1 hi)]; simp
  refine (Finset.sum_le_sum h2).trans ?_
  rw [Finset.sum_ite_eq']
  split_ifs <;> omega

theorem known_tablePoly (τ γ : F) (t : List F) (w : List F) (M : ℕ) (hM : M ≤ t.length) :
    known τ γ t (tablePoly w (t.length - M) M) = mle w (lastVars t M) := by
  have hl : (lastVars t M).length = M := by simp [lastVars]; omega
  unfold known tablePoly mle
  rw [hl, map_sum]
  refine Finset.sum_congr rfl fun b _ => ?_
  rw [map_mul, map_prod, MvPolynomial.algHom_C]
  congr 1
  refine Finset.prod_congr rfl fun j _ => ?_
  have : (lastVars t M).getD j 0 = t.getD (t.length - M + j) 0 := by
    unfold lastVars; rw [List.getD_eq_getElem?_getD, List.getElem?_drop, ← List.getD_eq_getElem?_getD]
  rw [this]
  split_ifs <;> simp [secrets]

/-- What acceptance says, with nothing assumed about the lengths. -/
theorem accepted (e : G1 →ₗ[F] G2 →ₗ[F] GT) (S : ℕ) (root : F) (points : List (List F))
    (chal : G1 → List (List F) → G1 → F) (τ : F) (gu : G1) (hu : G2) (D : ℕ)
    (upp : ProverParam G1) (uvp : VerifierParam G1 G2) (HU : UniParams τ gu hu D upp uvp)
    (t : List F) (g : G1) (h : G2) (sup : ℕ)
    (pp : MProverParam G1 G2) (vp : MVerifierParam G1 G2) (HM : MlParams t g h sup pp vp)
    (hnd : ∀ a : G1, e a h = 0 → a = 0) (hndu : ∀ a : G1, e a hu = 0 → a = 0)
    (comm : G1) (vals : List F) (bp : MBatchProof G1)
    (hacc : mBatchVerify S root chal e uvp vp comm points vals bp = .ok true) :
    points ≠ [] ∧ (∀ x ∈ points, x.length = (points.getD 0 []).length) ∧ Nat.clog 2 points.length ≤ S ∧
    bp.qOpens.length = points.length + 1 ∧ vals.length = points.length + 1 ∧
    mergedVars (points.getD 0 []).length points.length ≤ sup ∧ sup ≤ t.length ∧
    bp.proof.length = mergedVars (points.getD 0 []).length points.length ∧
    (let d := circDomain S root (Nat.clog 2 points.length)
     let x := lPoint (buildL (points.getD 0 []).length points d) (chal comm points bp.qComm)
     let v := vals.getD points.length 0
     (∀ i, i < points.length → bp.qComm = vals.getD i 0 • gu + (τ - d.gen ^ i) • bp.qOpens.getD i 0) ∧
     bp.qComm = v • gu + (τ - chal comm points bp.qComm) • bp.qOpens.getD points.length 0 ∧
     x.length = mergedVars (points.getD 0 []).length points.length ∧
     comm = v • g + ∑ j ∈ Finset.range x.length, ((lastVars t x.length).getD j 0 - x.getD j 0) • bp.proof.getD j 0) := by
  obtain ⟨-, hug, huh, hub⟩ := uniParams_eq HU
  obtain ⟨hst, hlt, -, hvp⟩ := mlParams_eq HM
  obtain ⟨srs, hs1, hs2⟩ := HM
  unfold mBatchVerify at hacc
  simp only at hacc
  by_cases c1 : points.length = 0
  · rw [if_pos c1] at hacc; cases hacc
  rw [if_neg c1] at hacc
  by_cases c2 : points.length + 1 ≠ bp.qOpens.length
  · rw [if_pos c2] at hacc; cases hacc
  rw [if_neg c2] at hacc
  by_cases c3 : points.length + 1 ≠ vals.length
  · rw [if_pos c3] at hacc; cases hacc
  rw [if_neg c3] at hacc
  by_cases c4 : points.any (fun x => decide (x.length ≠ (points.getD 0 []).length)) = true
  · rw [if_pos c4] at hacc; cases hacc
  rw [if_neg c4] at hacc
  by_cases c5 : S < Nat.clog 2 points.length
  · have : newDomain S root points.length = none := by unfold newDomain; rw [if_pos c5]
    rw [this] at hacc; cases hacc
  have hk : Nat.clog 2 points.length ≤ S := by omega
  rw [newDomain_eq S root _ hk] at hacc
  simp only at hacc
  set d := circDomain S root (Nat.clog 2 points.length) with hd
  set n := (points.getD 0 []).length with hn
  set r := chal comm points bp.qComm with hr
  by_cases c6 : ((List.range points.length).all fun i =>
      verify e uvp bp.qComm (d.gen ^ i) (vals.getD i 0) (bp.qOpens.getD i 0)) = false
  · rw [if_pos c6] at hacc; cases hacc
  rw [if_neg c6] at hacc
  by_cases c7 : verify e uvp bp.qComm r (vals.getD points.length 0) (bp.qOpens.getD points.length 0) = false
  · rw [if_pos c7] at hacc; cases hacc
  rw [if_neg c7] at hacc
  have hver : ∀ z v o, verify e uvp bp.qComm z v o = true → bp.qComm = v • gu + (τ - z) • o := by
    intro z v o
    rw [verify_iff, claimEq_trapdoor e uvp τ (by rw [hub, huh]), huh, hug]
    intro h0
    have := hndu _ h0
    rw [sub_eq_zero] at this
    rw [this]
    abel
  have hlp : (lPoint (buildL n points d) r).length = mergedVars n points.length := by
    rw [lPoint_length]
    unfold mergedVars
    omega
  have hM : mergedVars n points.length ≤ sup := by
    by_contra hc
    have hv : vp.numVars = sup := by rw [hvp]; exact hlt
    unfold mVerify at hacc
    simp only at hacc
    rw [if_pos (by rw [hv, hlp]; omega)] at hacc
    cases hacc
  have ht0 : t ≠ [] := by rintro rfl; cases hs1
  have hpl : bp.proof.length = (lPoint (buildL n points d) r).length := by
    by_contra hc
    have := C51_length_counterexample e t ht0 g h sup hst srs hs1 pp vp hs2 comm
      (lPoint (buildL n points d) r) (by rw [hlp]; exact hM) (vals.getD points.length 0) bp.proof hc
    rw [this] at hacc
    cases hacc
  refine ⟨by rintro h0; exact c1 (by rw [h0]; rfl), ?_, hk, by omega, by omega, hM, hst, by rw [hpl, hlp], ?_, ?_, hlp, ?_⟩
  · intro x hx
    by_contra hc
    apply c4
    rw [List.any_eq_true]
    exact ⟨x, hx, by simpa using hc⟩
  · intro i hi
    rw [Bool.not_eq_false, List.all_eq_true] at c6
    exact hver _ _ _ (c6 i (List.mem_range.2 hi))
  · exact hver _ _ _ (by simpa using c7)
  · exact (C51_verify_iff e t ht0 g h hnd sup hst srs hs1 pp vp hs2 comm _ (by rw [hlp]; exact hM) _ _ hpl).1 hacc

/-- **Knowledge soundness for algebraic provers.** The table `w` behind the commitment, the points and the polynomial
`a` behind the commitment to `q` fix a non-zero polynomial `E` and a curve `cs` through the points. Whatever the verifier
then draws and whatever the prover sends: if the proof is accepted, the challenge is no root of `E`, and the secrets are
no root of the identities the prover would have to violate, then the value reported for every point is the value of the
`i`-th part of the table at the (reversed) point. -/
theorem C89_soundness (S : ℕ) (root : F) (hr : IsPrimitiveRoot root (2 ^ S)) (points : List (List F)) (w : List F)
    (a : MvPolynomial Secret F) (n : ℕ) (hn : n = (points.getD 0 []).length) :
    ∃ (omega : F) (cs : List (Polynomial F)) (E : Polynomial F),
      (nextPow2 points.length ≤ 2 ^ S → (∀ x ∈ points, x.length = n) →
        IsPrimitiveRoot omega (nextPow2 points.length) ∧ cs.length = mergedVars n points.length ∧
        (∀ c ∈ cs, c.natDegree ≤ nextPow2 points.length - 1) ∧
        ∀ i, i < points.length → cs.map (Polynomial.eval (omega ^ i)) = (points.getD i []).reverse ++
          (List.range (Nat.clog 2 points.length)).map (fun j => if i.testBit j then 1 else 0)) ∧
      E ≠ 0 ∧ E.natDegree ≤ max (a.degreeOf .tau) (maxDegree n points.length) ∧
      ∀ (chal : G1 → List (List F) → G1 → F) (e : G1 →ₗ[F] G2 →ₗ[F] GT) (τ γ : F) (t : List F) (gu g : G1) (hu h : G2)
        (D sup : ℕ) (upp : ProverParam G1) (uvp : VerifierParam G1 G2) (pp : MProverParam G1 G2)
        (vp : MVerifierParam G1 G2) (_ : UniParams τ gu hu D upp uvp) (_ : MlParams t g h sup pp vp)
        (_ : gu ≠ 0) (_ : g = γ • gu) (_ : ∀ x : G1, e x h = 0 → x = 0) (_ : ∀ x : G1, e x hu = 0 → x = 0)
        (comm qComm : G1) (opens proof : List (MvPolynomial Secret F)) (vals : List F) (r v : F),
        comm = mle w (lastVars t (mergedVars n points.length)) • g →
        qComm = known τ γ t a • gu →
        r = chal comm points qComm →
        v = vals.getD points.length 0 →
        (∀ i, i < points.length → NoRoot τ γ t (uniClaim a (opens.getD i 0) (omega ^ i) (vals.getD i 0))) →
        NoRoot τ γ t (uniClaim a (opens.getD points.length 0) r v) →
        NoRoot τ γ t (mlClaim w (t.length - mergedVars n points.length) proof (cs.map (Polynomial.eval r)) v) →
        E.eval r ≠ 0 →
        mBatchVerify S root chal e uvp vp comm points vals
          ⟨proof.map (known τ γ t · • gu), qComm, opens.map (known τ γ t · • gu)⟩ = .ok true →
        ∀ i, i < points.length → vals.getD i 0 = mle w ((points.getD i []).reverse ++
          (List.range (Nat.clog 2 points.length)).map (fun j => if i.testBit j then 1 else 0)) := by
  set d := circDomain S root (Nat.clog 2 points.length) with hd
  set q : Polynomial F := MvPolynomial.aeval onlyTau a with hq
  set Q := circPoly w (buildL n points d) with hQ
  have hQe : ∀ x, Q.eval x = mleSum w (lPoint (buildL n points d) x) := fun x => circPoly_eval _ _ _
  have hmle : ∀ f x : List F, mle f x = mleSum f x := fun _ _ => rfl
  have hQd : Q.natDegree ≤ maxDegree n points.length := by
    have := circPoly_natDegree w (buildL n points d) d.size (fun p hp => buildL_mem_length n points d p hp)
    rw [buildL_length] at this
    exact this
  have hcs : ∀ x, ((buildL n points d).reverse.map toPoly).map (Polynomial.eval x) =
      lPoint (buildL n points d) x := by
    intro x
    unfold lPoint
    rw [List.map_map]
    refine List.map_congr_left fun p _ => ?_
    rw [Function.comp_apply, toPoly_eval, horner_eq]
  classical
  refine ⟨d.gen, (buildL n points d).reverse.map toPoly, if q - Q = 0 then 1 else q - Q, ?_, ?_, ?_, ?_⟩
  · intro hS hp
    have hk : Nat.clog 2 points.length ≤ S := (Nat.pow_le_pow_iff_right (by norm_num)).1 hS
    have hprim : IsPrimitiveRoot d.gen d.size := circDomain_primitive S root hr _ hk
    refine ⟨hprim, ?_, ?_, ?_⟩
    · have : (lPoint (buildL n points d) 0).length = mergedVars n points.length := by
        rw [lPoint_length]
        unfold mergedVars
        omega
      rw [← hcs, List.length_map] at this
      exact this
    · intro c hc
      obtain ⟨p, hp', rfl⟩ := List.mem_map.1 hc
      have h1 := buildL_mem_length n points d p (List.mem_reverse.1 hp')
      have h2 := toPoly_natDegree p
      have h3 : d.size = nextPow2 points.length := rfl
      omega
    · intro i hi
      rw [hcs, lPoint_omega n points d hprim (le_two_pow_clog _) hp i hi]
      rfl
  · split_ifs with h
    · exact one_ne_zero
    · exact h
  · split_ifs with h
    · simp
    · exact (Polynomial.natDegree_sub_le _ _).trans (max_le_max (onlyTau_natDegree a) hQd)
  intro chal e τ γ t gu g hu h D sup upp uvp pp vp HU HM hgu hg hnd hndu comm qComm opens proof vals r v hcomm hqc hrc hv
    hu1 hu2 hml hE hacc i hi
  obtain ⟨hne, hlen, hk, ho, hvl, hsup, hst, hpr, heq1, heq2, hxl, heq3⟩ :=
    accepted e S root points chal τ gu hu D upp uvp HU t g h sup pp vp HM hnd hndu comm vals _ hacc
  simp only [← hn, ← hrc, ← hd, ← hv] at hlen ho hpr heq1 heq2 heq3 hxl hsup
  have hmap : ∀ (l : List (MvPolynomial Secret F)) (j : ℕ),
      (l.map (known τ γ t · • gu)).getD j 0 = known τ γ t (l.getD j 0) • gu := by
    intro l j
    rw [List.getD_eq_getElem?_getD, List.getD_eq_getElem?_getD, List.getElem?_map]
    cases l[j]? <;> simp [known]
  have huni : ∀ (o : MvPolynomial Secret F) (z u : F), qComm = u • gu + (τ - z) • (known τ γ t o • gu) →
      NoRoot τ γ t (uniClaim a o z u) → q.eval z = u := by
    intro o z u hc hno
    have h0 : known τ γ t (uniClaim a o z u) = 0 := by
      have h1 : (known τ γ t a - u - (τ - z) * known τ γ t o) • gu = 0 := by
        rw [sub_smul, sub_smul, ← hqc, hc, mul_smul]; abel
      have h2 := (smul_eq_zero.1 h1).resolve_right hgu
      rw [← h2]
      simp [known, uniClaim, secrets]
    have h1 := congrArg (MvPolynomial.aeval (onlyTau : Secret → Polynomial F)) (hno h0)
    have h2 : q - Polynomial.C u - (Polynomial.X - Polynomial.C z) * MvPolynomial.aeval onlyTau o = 0 := by
      rw [map_zero] at h1
      rw [← h1]
      simp [uniClaim, onlyTau, hq, MvPolynomial.algHom_C]
    have h3 := congrArg (Polynomial.eval z) h2
    simpa [sub_eq_zero] using h3
  have hqi : q.eval (d.gen ^ i) = vals.getD i 0 := by
    refine huni (opens.getD i 0) _ _ ?_ (hu1 i hi)
    have := heq1 i hi
    rw [hmap] at this
    exact this
  have hqr : q.eval r = v := by
    refine huni (opens.getD points.length 0) _ _ ?_ hu2
    rw [hmap] at heq2
    exact heq2
  rw [hcs] at hml
  set x := lPoint (buildL n points d) r with hx
  have hwx : mle w x = v := by
    have h0 : known τ γ t (mlClaim w (t.length - mergedVars n points.length) proof x v) = 0 := by
      have h1 : (γ * (mle w (lastVars t x.length) - v) - ∑ j ∈ Finset.range x.length,
          ((lastVars t x.length).getD j 0 - x.getD j 0) * known τ γ t (proof.getD j 0)) • gu = 0 := by
        rw [sub_smul, Finset.sum_smul, mul_comm, mul_smul, ← hg, sub_smul, hxl, ← hcomm, sub_eq_zero]
        conv_lhs => rw [heq3]
        rw [add_sub_cancel_left, hxl]
        refine Finset.sum_congr rfl fun j _ => ?_
        rw [hmap, mul_smul]
      have h2 := (smul_eq_zero.1 h1).resolve_right hgu
      rw [← h2]
      unfold mlClaim
      rw [← hxl, ← known_tablePoly τ γ t w x.length (by omega)]
      unfold known
      rw [map_sub, map_mul, map_sub, map_sum, MvPolynomial.aeval_X, MvPolynomial.algHom_C]
      congr 1
      refine Finset.sum_congr rfl fun j _ => ?_
      have : (lastVars t x.length).getD j 0 = t.getD (t.length - x.length + j) 0 := by
        unfold lastVars; rw [List.getD_eq_getElem?_getD, List.getElem?_drop, ← List.getD_eq_getElem?_getD]
      rw [this, map_mul, map_sub, MvPolynomial.aeval_X, MvPolynomial.algHom_C]
      rfl
    have h1 := hml h0
    have h2 := congrArg (MvPolynomial.aeval (fun s : Secret => match s with
      | .tau => (0 : F)
      | .gamma => 1
      | .t j => x.getD (j - (t.length - mergedVars n points.length)) 0)) h1
    unfold mlClaim at h2
    rw [map_sub, map_mul, map_sub, map_sum, MvPolynomial.aeval_X, MvPolynomial.algHom_C, map_zero, one_mul,
      Finset.sum_eq_zero, sub_zero, sub_eq_zero] at h2
    · rw [← show algebraMap F F v = v from rfl, ← h2]
      unfold mle tablePoly
      rw [map_sum]
      refine Finset.sum_congr rfl fun b _ => ?_
      rw [map_mul, map_prod, MvPolynomial.algHom_C]
      congr 1
      refine Finset.prod_congr rfl fun j _ => ?_
      split_ifs <;> simp
    · intro j _
      rw [map_mul, map_sub, MvPolynomial.aeval_X, MvPolynomial.algHom_C]
      simp
  have hzero : q - Q = 0 := by
    by_contra hc
    rw [if_neg hc] at hE
    apply hE
    rw [Polynomial.eval_sub, hqr, hQe, ← hmle, hwx, sub_self]
  rw [← hqi, sub_eq_zero.1 hzero, hQe, lPoint_omega n points d (circDomain_primitive S root hr _ hk) (le_two_pow_clog _)
    hlen i hi]
  rfl

/-- ... in terms of the polynomials committed to: with the commitment `batch_commit` returns for a list of polynomials,
under parameters for exactly the merged number of variables, the reported values are those of the polynomials, in order. -/
theorem C89_polynomials (S : ℕ) (root : F) (hr : IsPrimitiveRoot root (2 ^ S)) (points : List (List F))
    (polys : List (Mle F)) (n : ℕ) (hwf : ∀ p ∈ polys, p.WF ∧ p.numVars = n) (hne : polys ≠ [])
    (hl : points.length = polys.length) (hn : n = (points.getD 0 []).length) (a : MvPolynomial Secret F) :
    ∃ (w : Mle F) (omega : F) (cs : List (Polynomial F)) (E : Polynomial F), mergePolys polys = .ok w ∧
      (nextPow2 points.length ≤ 2 ^ S → (∀ x ∈ points, x.length = n) →
        IsPrimitiveRoot omega (nextPow2 points.length) ∧ cs.length = mergedVars n points.length ∧
        (∀ c ∈ cs, c.natDegree ≤ nextPow2 points.length - 1) ∧
        ∀ i, i < points.length → cs.map (Polynomial.eval (omega ^ i)) = (points.getD i []).reverse ++
          (List.range (Nat.clog 2 points.length)).map (fun j => if i.testBit j then 1 else 0)) ∧
      E ≠ 0 ∧ E.natDegree ≤ max (a.degreeOf .tau) (maxDegree n points.length) ∧
      ∀ (chal : G1 → List (List F) → G1 → F) (e : G1 →ₗ[F] G2 →ₗ[F] GT) (τ γ : F) (t : List F) (gu g : G1) (hu h : G2)
        (D : ℕ) (upp : ProverParam G1) (uvp : VerifierParam G1 G2) (pp : MProverParam G1 G2)
        (vp : MVerifierParam G1 G2) (_ : UniParams τ gu hu D upp uvp)
        (_ : MlParams t g h (mergedVars n points.length) pp vp)
        (_ : gu ≠ 0) (_ : g = γ • gu) (_ : ∀ x : G1, e x h = 0 → x = 0) (_ : ∀ x : G1, e x hu = 0 → x = 0)
        (comm qComm : G1) (opens proof : List (MvPolynomial Secret F)) (vals : List F) (r v : F),
        mBatchCommit pp polys = .ok comm →
        qComm = known τ γ t a • gu →
        r = chal comm points qComm →
        v = vals.getD points.length 0 →
        (∀ i, i < points.length → NoRoot τ γ t (uniClaim a (opens.getD i 0) (omega ^ i) (vals.getD i 0))) →
        NoRoot τ γ t (uniClaim a (opens.getD points.length 0) r v) →
        NoRoot τ γ t (mlClaim w.evals (t.length - mergedVars n points.length) proof (cs.map (Polynomial.eval r)) v) →
        E.eval r ≠ 0 →
        mBatchVerify S root chal e uvp vp comm points vals
          ⟨proof.map (known τ γ t · • gu), qComm, opens.map (known τ γ t · • gu)⟩ = .ok true →
        ∀ i, i < points.length → vals.getD i 0 = mle (polys.getD i ⟨0, []⟩).evals (points.getD i []).reverse := by
  obtain ⟨w, h1, h2, h3, h4⟩ := C52_merge polys n hne hwf
  obtain ⟨omega, cs, E, hc, hE, hd, key⟩ := C89_soundness (G1 := G1) (G2 := G2) (GT := GT) S root hr points w.evals a n hn
  refine ⟨w, omega, cs, E, h1, hc, hE, hd, ?_⟩
  intro chal e τ γ t gu g hu h D upp uvp pp vp HU HM hgu hg hnd hndu comm qComm opens proof vals r v hcomm hqc hrc hv
    hu1 hu2 hml hEr hacc i hi
  have hcm := C52_commit t g h _ pp vp HM polys w h1
  rw [hcomm] at hcm
  have hlen := (accepted e S root points chal τ gu hu D upp uvp HU t g h _ pp vp HM hnd hndu comm vals _ hacc).2.1
  rw [key chal e τ γ t gu g hu h D _ upp uvp pp vp HU HM hgu hg hnd hndu comm qComm opens proof vals r v
    (Except.ok.inj hcm) hqc hrc hv hu1 hu2 hml hEr hacc i hi]
  refine h4 _ _ ?_ i (by omega) (by rw [hl])
  rw [List.length_reverse, List.getD_eq_getElem _ _ hi, hlen _ (List.getElem_mem _), ← hn]

/-! ### Example: the honest proof of `C52_order_counterexample`, with the polynomials behind its elements -/

/-- the polynomials behind the proof `[11, 64]` -/
noncomputable def toyProof : List (MvPolynomial Secret F101) :=
  [MvPolynomial.X .gamma * (1 + 5 * MvPolynomial.X (.t 1)), MvPolynomial.X .gamma * 32]

example : (2 : F101) ≠ 0 ∧ (2 : F101) = (1 : F101) • 2 ∧ mle toyP.evals (lastVars [5, 11] 2) • (2 : F101) = 4 ∧
    toyProof.map (known 5 1 [5, 11] · • (2 : F101)) = [11, 64] ∧
    [(0 : MvPolynomial Secret F101), 0].map (known 5 1 [5, 11] · • (2 : F101)) = [0, 0] ∧
    known 5 1 [5, 11] (MvPolynomial.C (73 : F101)) • (2 : F101) = 45 := by
  refine ⟨by decide +kernel, by decide +kernel, by decide +kernel, ?_, ?_, ?_⟩
  · simp only [toyProof, known, secrets, List.map_cons, List.map_nil, map_mul, map_add, map_one, map_ofNat,
      MvPolynomial.aeval_X]
    decide +kernel
  · simp [known]
  · simp only [known, MvPolynomial.algHom_C]
    decide +kernel

/-- the condition on the challenge is needed: if it is 2 whatever the prover sends, the value 0 is accepted for the point
at which the polynomial is 73, with `q = 73 (X - 1)` -/
example : mBatchVerify 2 (10 : F101) (fun _ _ _ => 2) toyE toyU.2 (paramsOf ([5, 11] : List F101) (2 : F101) (3 : F101)).2
    4 [[2, 6]] [0, 73] ⟨[11, 64], 79, [45, 45]⟩ = .ok true := by decide +kernel

/-- none of the identities is violated: they all hold -/
example (τ γ : F101) (t : List F101) : NoRoot τ γ t (uniClaim (MvPolynomial.C 73) 0 1 73) ∧
    mlClaim toyP.evals 0 toyProof [6, 2] 73 = 0 := by
  refine ⟨fun _ => ?_, ?_⟩
  · simp [uniClaim]
  · have hb : (Nat.testBit 1 0 = true) ∧ (Nat.testBit 1 1 = false) ∧ (Nat.testBit 2 0 = false) ∧ (Nat.testBit 2 1 = true) ∧
      (Nat.testBit 3 0 = true) ∧ (Nat.testBit 3 1 = true) := by decide
    obtain ⟨b1, b2, b3, b4, b5, b6⟩ := hb
    simp only [mlClaim, tablePoly, toyProof, toyP, List.length_cons, List.length_nil, Finset.sum_range_succ,
      Finset.prod_range_succ, Finset.range_zero, Finset.sum_empty, Finset.prod_empty, zero_add, Nat.reduceAdd,
      Nat.reducePow, b1, b2, b3, b4, b5, b6, Nat.zero_testBit, if_true, Bool.false_eq_true, if_false, List.getD_cons_zero,
      List.getD_cons_succ, map_ofNat, one_mul]
    ring

end Verif.Props.Ml
