import Verif.Props.Dummy
import Verif.Props.Prover
import Verif.Plonk.ProverTotal

/-!
# C97: the prover's proofs have the numbers of dummy proofs
-/

set_option linter.unusedSectionVars false

namespace Verif.Props.Dummy

open Verif.Plonk Verif.Pcs Verif.Circuit
open Verif.Props.VerifierInput (Defined)
open Verif.Circuit.VerifierInput (store)
open Verif.Props.VerifierCircuit (Params Ready)
open Verif.Circuit.VerifierPoly (Info)

variable {p : ℕ} [Fact p.Prime] {G G2 : Type} [AddCommGroup G] [Module (ZMod p) G] [AddCommGroup G2]
  [Module (ZMod p) G2]

/-- a key made for a circuit without lookups has five permutation polynomials -/
theorem preprocess_sigmas {rnd : List (ZMod p)} {srs : Srs G G2} {f : FCirc p} {pk : PKey (ZMod p) G G2}
    (hu : f.circ.ultra = none) (h : preprocess rnd srs f = .ok pk) : pk.sigmas.length = 5 := by
  unfold preprocess at h
  split at h
  · simp at h
  obtain ⟨sel, -, h⟩ := Plonk.except_bind_ok h
  obtain ⟨sig, hsig, h⟩ := Plonk.except_bind_ok h
  obtain ⟨lpk, -, h⟩ := Plonk.except_bind_ok h
  obtain ⟨ko, -, h⟩ := Plonk.except_bind_ok h
  obtain ⟨selC, -, h⟩ := Plonk.except_bind_ok h
  obtain ⟨sigC, -, h⟩ := Plonk.except_bind_ok h
  obtain ⟨lvk, -, h⟩ := Plonk.except_bind_ok h
  obtain ⟨k, -, h⟩ := Plonk.except_bind_ok h
  obtain rfl := Except.ok.inj h
  have := liftC_ok hsig
  unfold sigmaPolys at this
  split at this
  · simp at this
  · simp only [Except.ok.injEq] at this
    rw [← this]
    simp [numWireTypes, hu]

theorem option_mapM_length {α β : Type} {g : α → Option β} : ∀ {l : List α} {x : List β},
    l.mapM g = some x → x.length = l.length
  | [], x, h => by
    rw [List.mapM_nil] at h
    cases h; rfl
  | a :: l, x, h => by
    rw [List.mapM_cons] at h
    cases ha : g a with
    | none => simp [ha] at h
    | some b =>
      cases hl : l.mapM g with
      | none => simp [ha, hl] at h
      | some y =>
        simp only [ha, hl, Option.bind_eq_bind, Option.bind_some, Option.pure_def, Option.some.injEq] at h
        subst h
        simp [option_mapM_length hl]

theorem wirePolys_five {f : FCirc p} {l : List (List (ZMod p))} (hu : f.circ.ultra = none)
    (h : wirePolys f = .ok l) : l.length = 5 := by
  unfold wirePolys at h
  split at h
  · simp at h
  split at h
  · simp at h
  · rename_i l' hl
    have := option_mapM_length hl
    obtain rfl := Except.ok.inj h
    rw [List.length_map, this]
    simp [wireVecs, hu]

theorem maskParts_length {n : ℕ} : ∀ {l : List (List (ZMod p))} {rnd : ℕ → ZMod p} {a : ZMod p} {m : List (List (ZMod p))},
    maskParts n rnd a l = .ok m → m.length = l.length
  | [], _, _, m, h => by
    rw [maskParts] at h
    obtain rfl := Except.ok.inj h
    rfl
  | [] :: _, _, _, m, h => by
    rw [maskParts] at h
    cases h
  | [c :: q], _, _, m, h => by
    rw [maskParts] at h
    obtain rfl := Except.ok.inj h
    rfl
  | (c :: q) :: r :: l, rnd, a, m, h => by
    rw [maskParts] at h
    split at h
    · cases h
    split at h
    · cases h
    · rename_i m' hm
      obtain rfl := Except.ok.inj h
      simp [maskParts_length hm]

theorem splitQuot_length {n nw : ℕ} {rnd : ℕ → ZMod p} {t : List (ZMod p)} {m : List (List (ZMod p))}
    (h : splitQuot n nw rnd t = .ok m) : m.length = nw := by
  unfold splitQuot at h
  split at h
  · cases h
  split at h
  · cases h
  · rw [maskParts_length h]; simp

/-- an instance without lookups before the first round -/
def Before (r : Run (ZMod p) G G2) : Prop :=
  r.cs.lookup = false ∧ r.pk.sigmas.length = 5 ∧ ∀ l, r.cs.wirePolys = .ok l → l.length = 5

/-- an instance without lookups after the first round -/
def After (r : Run (ZMod p) G G2) : Prop :=
  r.cs.lookup = false ∧ r.pk.sigmas.length = 5 ∧ r.wires.length = 5 ∧ r.wireComms.length = 5

theorem round1_after {d : Domain (ZMod p)} {r s : Run (ZMod p) G G2} (hr : Before r) (h : round1 d r = .ok s) : After s := by
  unfold round1 at h
  obtain ⟨ps, h1, h⟩ := Plonk.except_bind_ok h
  obtain ⟨cs, h2, h⟩ := Plonk.except_bind_ok h
  obtain ⟨pi, -, h⟩ := Plonk.except_bind_ok h
  obtain rfl := Except.ok.inj h
  have h3 := hr.2.2 _ (liftC_ok h1)
  have h4 := mapM_length' (liftP_ok h2)
  exact ⟨hr.1, hr.2.1, by simpa using h3, by simpa [h3] using h4⟩

theorem lkRound1_after {d : Domain (ZMod p)} {τ : Option (ZMod p)} {r s : Run (ZMod p) G G2} (hr : After r)
    (h : lkRound1 d τ r = .ok s) : After s := by
  unfold lkRound1 at h
  rw [hr.1, if_neg (by simp)] at h
  obtain rfl := Except.ok.inj h
  exact hr

theorem round2_after {d : Domain (ZMod p)} {β γ : ZMod p} {r s : Run (ZMod p) G G2} (hr : After r)
    (h : round2 d β γ r = .ok s) : After s := by
  unfold round2 at h
  obtain ⟨z, -, h⟩ := Plonk.except_bind_ok h
  obtain ⟨c, -, h⟩ := Plonk.except_bind_ok h
  obtain rfl := Except.ok.inj h
  exact hr

theorem lkRound2_after {d : Domain (ZMod p)} {τ : Option (ZMod p)} {β γ : ZMod p} {r s : Run (ZMod p) G G2} (hr : After r)
    (h : lkRound2 d τ β γ r = .ok s) : After s := by
  unfold lkRound2 at h
  rw [hr.1, if_neg (by simp)] at h
  obtain rfl := Except.ok.inj h
  exact hr

theorem mapM_keeps {ε α β : Type} {g : α → Except ε β} {P : α → Prop} {Q : β → Prop} {l : List α} {m : List β}
    (h : l.mapM g = .ok m) (hP : ∀ a ∈ l, P a) (hg : ∀ a b, P a → g a = .ok b → Q b) : ∀ b ∈ m, Q b := by
  intro b hb
  obtain ⟨a, ha, hab⟩ := mapM_mem h b hb
  exact hg a b (hP a ha) hab

theorem proveRuns_turbo {gen : ZMod p} {newDom : ℕ → Option (Domain (ZMod p))} {oracle : List (Call (ZMod p) G G2) → ZMod p}
    {extra : Option (List ℕ)} {quotMask : ℕ → ZMod p} {n : ℕ} {ck : ProverParam G} {rs : List (Run (ZMod p) G G2)}
    {b : BProof (ZMod p) G} (hrs : ∀ r ∈ rs, Before r)
    (h : proveRuns gen newDom oracle extra quotMask n 5 ck rs = .ok b) : TurboBatch rs.length b := by
  unfold proveRuns proveRunsWith at h
  obtain ⟨pis, -, h⟩ := Plonk.except_bind_ok h
  obtain ⟨⟨d, quot⟩, -, h⟩ := Plonk.except_bind_ok h
  obtain ⟨r1, h1, h⟩ := Plonk.except_bind_ok h
  simp only at h
  obtain ⟨r2, h2, h⟩ := Plonk.except_bind_ok h
  obtain ⟨r3, h3, h⟩ := Plonk.except_bind_ok h
  obtain ⟨r4, h4, h⟩ := Plonk.except_bind_ok h
  obtain ⟨q, -, h⟩ := Plonk.except_bind_ok h
  obtain ⟨ts, hts, h⟩ := Plonk.except_bind_ok h
  obtain ⟨tc, htc, h⟩ := Plonk.except_bind_ok h
  obtain ⟨les, h5, h⟩ := Plonk.except_bind_ok h
  obtain ⟨lin, -, h⟩ := Plonk.except_bind_ok h
  obtain ⟨lin', -, h⟩ := Plonk.except_bind_ok h
  obtain ⟨⟨w, w'⟩, -, h⟩ := Plonk.except_bind_ok h
  obtain ⟨lks, h6, h⟩ := Plonk.except_bind_ok h
  have e := (mapM_length' h4).trans ((mapM_length' h3).trans ((mapM_length' h2).trans (mapM_length' h1)))
  have e5 := (mapM_length' h5).trans e
  have e6 := mapM_length' h6
  rw [List.length_zip, e, e5, min_self] at e6
  have a1 := mapM_keeps (P := Before) (Q := After) h1 hrs fun _ _ => round1_after
  have a2 := mapM_keeps (P := After) (Q := After) h2 a1 fun _ _ => lkRound1_after
  have a3 := mapM_keeps (P := After) (Q := After) h3 a2 fun _ _ => round2_after
  have a4 := mapM_keeps (P := After) (Q := After) h4 a3 fun _ _ => lkRound2_after
  have a5 : ∀ x ∈ lks, x = none := by
    intro x hx
    obtain ⟨⟨r, le⟩, hm, hr⟩ := mapM_mem h6 x hx
    have hl := (a4 r (List.of_mem_zip hm).1).1
    simp only [runLkProof, hl] at hr
    rw [if_neg (by simp)] at hr
    exact (Except.ok.inj hr).symm
  have a6 : tc.length = 5 := (mapM_length' (liftP_ok htc)).trans (splitQuot_length hts)
  obtain rfl := Except.ok.inj h
  refine ⟨⟨by simpa using e, ?_⟩, by simpa using e, ⟨by simpa using e, ?_⟩, ?_, a6⟩
  · intro x hx
    obtain ⟨r, hr, rfl⟩ := List.mem_map.1 hx
    exact (a4 r hr).2.2.2
  · intro x hx
    obtain ⟨r, hr, rfl⟩ := List.mem_map.1 hx
    have := a4 r hr
    exact ⟨by simpa [runEvals] using this.2.2.1, by simp [runEvals, this.2.1]⟩
  · rw [← e6]
    exact List.eq_replicate_of_mem a5

/-- **C97** (prover).  A proof returned by the prover for circuits without lookups, with keys made for them, has the numbers of
a dummy proof of as many instances. -/
theorem C97_prover {gen : ZMod p} {newDom : ℕ → Option (Domain (ZMod p))} {oracle : List (Call (ZMod p) G G2) → ZMod p}
    {extra : Option (List ℕ)} {masks : ℕ → Masks (ZMod p)} {quotMask : ℕ → ZMod p}
    {L : List (FCirc p × PKey (ZMod p) G G2)} {π : BProof (ZMod p) G} (hu : ∀ y ∈ L, y.1.circ.ultra = none)
    (hk : ∀ y ∈ L, ∃ rnd srs, preprocess rnd srs y.1 = .ok y.2)
    (h : batchProve gen newDom oracle extra masks quotMask (L.map (·.1.arith)) (L.map (·.2)) = .ok π) :
    TurboBatch L.length π := by
  cases L with
  | nil => cases h
  | cons y L =>
    simp only [List.map_cons, batchProve] at h
    split at h
    · cases h
    split at h
    · cases h
    split at h
    · cases h
    have hn : y.1.arith.nw = 5 := by simp [FCirc.arith, numWireTypes, hu y (by simp)]
    rw [hn] at h
    have := proveRuns_turbo ?_ h
    · simpa using this
    · intro r hr
      obtain ⟨i, hi, rfl⟩ := List.mem_mapIdx.1 hr
      have hz : (((y.1.arith :: L.map (·.1.arith)).zip (y.2 :: L.map (·.2)))[i]) ∈
          (y :: L).map (fun z => (z.1.arith, z.2)) := by
        rw [← List.map_cons (f := fun z : FCirc p × PKey (ZMod p) G G2 => z.1.arith),
          ← List.map_cons (f := fun z : FCirc p × PKey (ZMod p) G G2 => z.2)] at hi
        have : ((y.1.arith :: L.map (·.1.arith)).zip (y.2 :: L.map (·.2))) =
            (y :: L).map (fun z => (z.1.arith, z.2)) := by
          rw [← List.map_cons (f := fun z : FCirc p × PKey (ZMod p) G G2 => z.1.arith),
            ← List.map_cons (f := fun z : FCirc p × PKey (ZMod p) G G2 => z.2), List.zip_map']
        rw [← this]
        exact List.getElem_mem _
      obtain ⟨z, hz1, hz2⟩ := List.mem_map.1 hz
      obtain ⟨rnd, srs, hp⟩ := hk z hz1
      rw [← hz2]
      exact ⟨by simp [FCirc.arith, hu z hz1], preprocess_sigmas (hu z hz1) hp, fun l hl => wirePolys_five (hu z hz1) hl⟩

/-- **C97** (whole).  For circuits without lookups, the keys preprocessing makes for them, the inputs and any proof the prover
returns: dummy keys can be made from the sizes and numbers of public inputs of the circuits alone, and the circuit that stores
them and the dummy proof is the one that stores the keys, the inputs and the proof, with the same variables. -/
theorem C97_real [DecidableEq G] {P k : ℕ} [Fact P.Prime] {I : Info P} {c : Circ P} {te : G → Option (ZMod P × ZMod P)}
    (hP : Params I p k) (hc : Ready k c) {pin : List (ZMod P)} (hs : checkSat c pin = .ok ()) (h0 : te 0 ≠ none)
    {gen : ZMod p} {newDom : ℕ → Option (Domain (ZMod p))} {oracle : List (Call (ZMod p) G G2) → ZMod p}
    {extra : Option (List ℕ)} {masks : ℕ → Masks (ZMod p)} {quotMask : ℕ → ZMod p} {rnd : List (ZMod p)} {srs : Srs G G2}
    {L : List (FCirc p × PKey (ZMod p) G G2)} {π : BProof (ZMod p) G} {PI : List (ZMod p)}
    (hu : ∀ y ∈ L, y.1.circ.ultra = none) (hk : ∀ y ∈ L, preprocess rnd srs y.1 = .ok y.2)
    (h : batchProve gen newDom oracle extra masks quotMask (L.map (·.1.arith)) (L.map (·.2)) = .ok π)
    (hd : Defined te (L.map (·.2.vk)) π) :
    ∃ DK : List (VKey (ZMod p) G G2),
      (L.map fun y => (y.1.circ.pubIds.length, y.1.dom.size)).mapM (fun x => dummyKey rnd x.1 x.2) = .ok DK ∧
      ∃ r c₁ c₂, store te I.m I.tpm DK (List.replicate PI.length 0) (dummyProof L.length) c = .ok (r, c₁) ∧
        store te I.m I.tpm (L.map (·.2.vk)) PI π c = .ok (r, c₂) ∧ Circuit.Same c₁ c₂ := by
  have hT := C97_prover hu (fun y hy => ⟨rnd, srs, hk y hy⟩) h
  have hD : ∃ DK : List (VKey (ZMod p) G G2),
      (L.map fun y => (y.1.circ.pubIds.length, y.1.dom.size)).mapM (fun x => dummyKey rnd x.1 x.2) = .ok DK ∧
        List.Forall₂ LikeKey (L.map (·.2.vk)) DK := by
    clear h hd hT
    induction L with
    | nil => exact ⟨[], rfl, .nil⟩
    | cons y L ih =>
      obtain ⟨DK, h1, h2⟩ := ih (fun z hz => hu z (by simp [hz])) (fun z hz => hk z (by simp [hz]))
      obtain ⟨dk, h3, h4⟩ := C97_key (hu y (by simp)) (hk y (by simp))
      refine ⟨dk :: DK, ?_, .cons h4 h2⟩
      rw [List.map_cons, List.mapM_cons, h3, h1]
      rfl
  obtain ⟨DK, h1, h2⟩ := hD
  refine ⟨DK, h1, C97_circuit hP hc hs h0 h2 (fun v hv => ?_) hT hd⟩
  obtain ⟨x, -, hx⟩ := mapM_mem h1 v hv
  exact ⟨rnd, _, _, hx⟩

/-! ### Example -/

/-- a circuit without lookups, with two public inputs and a gate -/
def exT : Circ 193 := Finalize.withEq (Finalize.withPub (Finalize.withPub (Circ.new 193 none) 3) 5)

/-- the prover returns a proof for it -/
theorem exT_proved : ∃ (f : FCirc 193) (pk : PKey (ZMod 193) (ZMod 193) (ZMod 193)) (π : BProof (ZMod 193) (ZMod 193)),
    f.circ.ultra = none ∧
    preprocess Prover.rnd193 (genSrs (5 : ZMod 193) (1 : ZMod 193) (1 : ZMod 193) 10 1) f = .ok pk ∧
    batchProve 5 (newDomain 6 125) Prover.exOracle none Prover.exMasks (fun i => i + 1) [f.arith] [pk] = .ok π ∧
    π.quot ≠ (dummyProof 1 : BProof (ZMod 193) (ZMod 193)).quot := by
  have h : okAnd (finalize' 6 125 Prover.rnd193 exT) (fun f =>
      okAnd (preprocess (p := 193) Prover.rnd193 (genSrs (5 : ZMod 193) (1 : ZMod 193) (1 : ZMod 193) 10 1) f) fun pk =>
      okAnd (batchProve 5 (newDomain 6 125) Prover.exOracle none Prover.exMasks (fun i => i + 1) [f.arith] [pk]) fun π =>
        decide (f.circ.ultra = none ∧ π.quot ≠ [0, 0, 0, 0, 0])) = true := by
    decide +kernel
  obtain ⟨f, -, h⟩ := okAnd_elim h
  obtain ⟨pk, hpk, h⟩ := okAnd_elim h
  obtain ⟨π, hπ, h⟩ := okAnd_elim h
  rw [decide_eq_true_iff] at h
  exact ⟨f, pk, π, h.1, hpk, hπ, h.2⟩

/-- its numbers are those of a dummy proof -/
example : ∃ π : BProof (ZMod 193) (ZMod 193), π.quot ≠ (dummyProof 1 : BProof (ZMod 193) (ZMod 193)).quot ∧ TurboBatch 1 π := by
  obtain ⟨f, pk, π, hu, hpk, hπ, hq⟩ := exT_proved
  exact ⟨π, hq, C97_prover (L := [(f, pk)]) (by simpa using hu) (by simpa using ⟨_, _, hpk⟩) hπ⟩

instance : Fact (Nat.Prime 4099) := ⟨by norm_num⟩

/-- the field of 193 elements in two limbs of four bits, in circuits over the field of 4099 elements -/
def I193 : Info 4099 := ⟨4, some 16, 193, ⟨1, 12, 4, 16⟩⟩

theorem I193_params : Params I193 193 2 :=
  ⟨⟨by constructor <;> decide +kernel, by decide +kernel, by decide +kernel, by decide, by decide, le_refl 2, by decide +kernel⟩,
    rfl, rfl, by decide +kernel, by decide +kernel⟩

/-- the verifier circuit of the proof, made from dummies -/
example : ∃ (f : FCirc 193) (pk : PKey (ZMod 193) (ZMod 193) (ZMod 193)) (π : BProof (ZMod 193) (ZMod 193))
    (dk : VKey (ZMod 193) (ZMod 193) (ZMod 193)) (r : _) (c₁ c₂ : Circ 4099),
    π.quot ≠ (dummyProof 1 : BProof (ZMod 193) (ZMod 193)).quot ∧
    dummyKey Prover.rnd193 f.circ.pubIds.length f.dom.size = .ok dk ∧
    store (fun g : ZMod 193 => some (((g.val : ℕ) : ZMod 4099), 1)) 4 (some 16) [dk] [0, 0] (dummyProof 1)
      (Circ.new 4099 (some 2)) = .ok (r, c₁) ∧
    store (fun g : ZMod 193 => some (((g.val : ℕ) : ZMod 4099), 1)) 4 (some 16) [pk.vk] [3, 5] π
      (Circ.new 4099 (some 2)) = .ok (r, c₂) ∧ Circuit.Same c₁ c₂ := by
  obtain ⟨f, pk, π, hu, hpk, hπ, hq⟩ := exT_proved
  have hw := wf_new (p := 4099) (some 2)
  have hr : RangeOK (Circ.new 4099 (some 2)) := by
    intro j hj
    simp only [Circ.new, Option.some.injEq] at hj
    subst hj
    exact ⟨by norm_num, by norm_num, by decide +kernel⟩
  have hs : checkSat (Circ.new 4099 (some 2)) [] = .ok () :=
    (checkSat_ok hw []).2 (Verif.Props.Emulated.sat_new (p := 4099) (some 2))
  obtain ⟨DK, h1, r, c₁, c₂, h2, h3, h4⟩ := C97_real (L := [(f, pk)]) (PI := [3, 5])
    (te := fun g : ZMod 193 => some (((g.val : ℕ) : ZMod 4099), 1)) I193_params ⟨hw, hr, rfl⟩ hs (by simp)
    (by simpa using hu) (by simpa using hpk) hπ
    ⟨by simp, by simp, by simp, by simp, by simp, by simp, by simp⟩
  rw [List.map_cons, List.map_nil, List.mapM_cons] at h1
  obtain ⟨dk, h5, h1⟩ := Plonk.except_bind_ok h1
  obtain rfl : [dk] = DK := Except.ok.inj h1
  exact ⟨f, pk, π, dk, r, c₁, c₂, hq, h5, h2, h3, h4⟩

end Verif.Props.Dummy
