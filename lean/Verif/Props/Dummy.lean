import Verif.Plonk.Dummy
import Verif.Props.PlonkSerde
import Verif.Props.VerifierInput
import Verif.Props.EndToEnd

/-!
# C97: dummy proofs and keys
-/

set_option linter.unusedSectionVars false

namespace Verif.Props.Dummy

open Verif.Plonk Verif.Pcs Verif.Circuit
open Verif.Props.PlonkSerde (KeyShape ProofShape prepare_turbo wiresOf)
open Verif.Props.VerifierInput (Like Defined C88_honest C88_uniform)
open Verif.Circuit.VerifierInput (store)
open Verif.Props.VerifierCircuit (Params Ready)
open Verif.Circuit.VerifierPoly (Info)

variable {p : ℕ} [Fact p.Prime] {G G2 GT : Type} [AddCommGroup G] [Module (ZMod p) G] [AddCommGroup G2]
  [Module (ZMod p) G2] [AddCommGroup GT] [Module (ZMod p) GT] [DecidableEq G] [DecidableEq GT]

/-- a key has the numbers of a circuit without lookups -/
structure LikeKey (a b : VKey (ZMod p) G G2) : Prop where
  sigmas : a.sigmas.length = b.sigmas.length
  selectors : a.selectors.length = b.selectors.length
  merged : a.merged = b.merged
  domSize : a.domSize = b.domSize
  numInputs : a.numInputs = b.numInputs
  k : a.k = b.k
  lookup : a.lookup.isSome = b.lookup.isSome

theorem liftC_ok {α : Type} {x : Except CErr α} {a : α} (h : liftC x = .ok a) : x = .ok a := by
  cases x <;> simp_all [liftC]

theorem liftP_ok {α : Type} {x : Except Pcs.Err α} {a : α} (h : liftP x = .ok a) : x = .ok a := by
  cases x <;> simp_all [liftP]

/-- **C97** (keys).  The dummy key for the numbers of a circuit without lookups is like the key made for the circuit, with the
same coset representatives. -/
theorem C97_key {rnd : List (ZMod p)} {srs : Srs G G2} {f : FCirc p} {pk : PKey (ZMod p) G G2} (hu : f.circ.ultra = none)
    (h : preprocess rnd srs f = .ok pk) :
    ∃ dk : VKey (ZMod p) G G2, dummyKey rnd f.circ.pubIds.length f.dom.size = .ok dk ∧ LikeKey pk.vk dk := by
  unfold preprocess at h
  split at h
  · simp at h
  simp only [bind, Except.bind] at h
  split at h
  · simp at h
  rename_i sel hsel
  split at h
  · simp at h
  rename_i sig hsig
  split at h
  · simp at h
  rename_i lpk hlpk
  split at h
  · simp at h
  rename_i ko hko
  split at h
  · simp at h
  rename_i selC hselC
  split at h
  · simp at h
  rename_i sigC hsigC
  split at h
  · simp at h
  rename_i lvk hlvk
  split at h
  · simp at h
  rename_i k hk
  simp only [Except.ok.injEq] at h
  subst h
  have hw : numWireTypes f.circ = 5 := by simp [numWireTypes, hu]
  have hl : lpk = none := by
    simp only [lookupPk, hu, Except.ok.injEq] at hlpk
    exact hlpk.symm
  have hlv : lvk = none := by
    rw [hl] at hlvk
    simp only [lookupVk, Except.ok.injEq] at hlvk
    exact hlvk.symm
  have h1 : sel.length = 13 := by
    have := liftC_ok hsel
    unfold selectorPolys at this
    split at this
    · simp at this
    · simp only [Except.ok.injEq] at this
      rw [← this]
      simp [allSelectors, hu]
  have h2 : sig.length = 5 := by
    have := liftC_ok hsig
    unfold sigmaPolys at this
    split at this
    · simp at this
    · simp only [Except.ok.injEq] at this
      rw [← this]
      simp [hw]
  have h3 := mapM_length' (liftP_ok hselC)
  have h4 := mapM_length' (liftP_ok hsigC)
  have h5 := liftC_ok hk
  rw [hw] at h5
  refine ⟨⟨f.dom.size, f.circ.pubIds.length, List.replicate 5 0, List.replicate 13 0, k, dummyOpenKey, false, none⟩, ?_, ?_⟩
  · simp only [dummyKey, h5]
  · exact ⟨by simp [h4, h2], by simp [h3, h1], rfl, rfl, rfl, rfl, by simp [hlv]⟩

/-- a batch proof of `n` instances without lookups has the numbers the prover writes -/
structure TurboBatch (n : ℕ) (b : BProof (ZMod p) G) : Prop where
  wires : b.wires.length = n ∧ ∀ w ∈ b.wires, w.length = 5
  prodPerm : b.prodPerm.length = n
  evals : b.evals.length = n ∧ ∀ e ∈ b.evals, e.wires.length = 5 ∧ e.sigmas.length = 4
  lookups : b.lookups = List.replicate n none
  quot : b.quot.length = 5

/-- **C97** (proofs).  The dummy proof has the numbers of a proof of the prover. -/
theorem C97_proof (n : ℕ) : TurboBatch n (dummyProof n : BProof (ZMod p) G) := by
  refine ⟨⟨by simp [dummyProof], ?_⟩, by simp [dummyProof], ⟨by simp [dummyProof], ?_⟩, rfl, by simp [dummyProof]⟩
  · intro w hw
    rw [List.eq_of_mem_replicate hw]; simp
  · intro e he
    rw [List.eq_of_mem_replicate he]; simp [dummyEvals]

theorem forall₂_of_length {α β : Type} {R : α → β → Prop} : ∀ {l : List α} {m : List β}, l.length = m.length →
    (∀ a ∈ l, ∀ b ∈ m, R a b) → List.Forall₂ R l m
  | [], [], _, _ => .nil
  | a :: l, b :: m, h, hr => .cons (hr a (by simp) b (by simp)) (forall₂_of_length (Nat.succ.inj h)
      fun x hx y hy => hr x (by simp [hx]) y (by simp [hy]))
  | [], _ :: _, h, _ => by cases h
  | _ :: _, [], h, _ => by cases h

/-- **C97** (verifier circuit).  A circuit that stores dummy keys, inputs and a dummy proof can be made, if the neutral element
has coordinates, and it is the circuit, with the same variables, that stores keys like them, inputs as many, and a proof of as
many instances: keys of the outer proof can be made from dummies. -/
theorem C97_circuit {P k n : ℕ} [Fact P.Prime] {I : Info P} {c : Circ P} {te : G → Option (ZMod P × ZMod P)}
    (hP : Params I p k) (hc : Ready k c) {pin : List (ZMod P)} (hs : checkSat c pin = .ok ()) (h0 : te 0 ≠ none)
    {VK DK : List (VKey (ZMod p) G G2)} (hk : List.Forall₂ LikeKey VK DK)
    (hdk : ∀ v ∈ DK, ∃ rnd i N, dummyKey rnd i N = .ok v) {PI : List (ZMod p)} {B : BProof (ZMod p) G}
    (hB : TurboBatch n B) (hd : Defined te VK B) :
    ∃ r c₁ c₂, store te I.m I.tpm DK (List.replicate PI.length 0) (dummyProof n) c = .ok (r, c₁) ∧
      store te I.m I.tpm VK PI B c = .ok (r, c₂) ∧ Circuit.Same c₁ c₂ := by
  have hD := C97_proof (p := p) (G := G) n
  have hl : Like DK (List.replicate PI.length 0) (dummyProof n) VK PI B :=
    { keys := hk.flip.imp fun a b h => ⟨h.sigmas.symm, h.selectors.symm, h.merged.symm, h.domSize.symm, h.numInputs.symm,
        h.k.symm⟩
      inputs := by simp
      wires := forall₂_of_length (hD.wires.1.trans hB.wires.1.symm) fun a ha b hb => (hD.wires.2 a ha).trans (hB.wires.2 b hb).symm
      prodPerm := hD.prodPerm.trans hB.prodPerm.symm
      evals := forall₂_of_length (hD.evals.1.trans hB.evals.1.symm) fun a ha b hb =>
        ⟨(hD.evals.2 a ha).1.trans (hB.evals.2 b hb).1.symm, (hD.evals.2 a ha).2.trans (hB.evals.2 b hb).2.symm⟩
      quot := hD.quot.trans hB.quot.symm }
  have hkey : ∀ v ∈ DK, (∀ g ∈ v.sigmas, g = 0) ∧ ∀ g ∈ v.selectors, g = 0 := by
    intro v hv
    obtain ⟨rnd, i, N, h⟩ := hdk v hv
    unfold dummyKey at h
    split at h
    · simp at h
    · simp only [Except.ok.injEq] at h
      subst h
      exact ⟨fun g hg => List.eq_of_mem_replicate hg, fun g hg => List.eq_of_mem_replicate hg⟩
  have hdef : Defined te DK (dummyProof n) :=
    { sigmas := fun v hv g hg => by rw [(hkey v hv).1 g hg]; exact h0
      selectors := fun v hv g hg => by rw [(hkey v hv).2 g hg]; exact h0
      wires := fun l hl g hg => by
        rw [List.eq_of_mem_replicate hl] at hg
        rw [List.eq_of_mem_replicate hg]; exact h0
      prodPerm := fun g hg => by rw [List.eq_of_mem_replicate hg]; exact h0
      quot := fun g hg => by rw [List.eq_of_mem_replicate hg]; exact h0
      opening := h0
      shifted := h0 }
  obtain ⟨v1, p1, b1, c1, e1, -⟩ := C88_honest (PI := List.replicate PI.length 0) hP hc hs hdef
  obtain ⟨v2, p2, b2, c2, e2, -⟩ := C88_honest (PI := PI) hP hc hs hd
  obtain ⟨hr, hsame⟩ := C88_uniform hl e1 e2
  exact ⟨_, c1, c2, e1, hr ▸ e2, hsame⟩

theorem dummy_fields {rnd : List (ZMod p)} {n N : ℕ} {dk : VKey (ZMod p) G G2} (h : dummyKey rnd n N = .ok dk) :
    dk.domSize = N ∧ dk.numInputs = n ∧ dk.sigmas.length = 5 ∧ dk.lookup = none ∧ dk.merged = false ∧
      dk.openKey = dummyOpenKey := by
  unfold dummyKey at h
  split at h
  · simp at h
  · simp only [Except.ok.injEq] at h
    subst h
    simp

/-- **C97** (refuted: a dummy key convinces no one).  The opening key of a dummy key is all zero: `verify` accepts every proof
of the right shape under it, for every public input. -/
theorem C97_accepts_counterexample {rnd : List (ZMod p)} {n N : ℕ} {dk : VKey (ZMod p) G G2}
    (hdk : dummyKey rnd n N = .ok dk) (newDom : ℕ → Option (Domain (ZMod p))) (e : G →ₗ[ZMod p] G2 →ₗ[ZMod p] GT)
    (hash : List (ZMod p) → ZMod p) (oracle : List (Call (ZMod p) G G2) → ZMod p) (extra : Option (List ℕ))
    {d : Domain (ZMod p)} (hd : newDom N = some d) (hgood : Good d) (hN : N = d.size) (hn : n ≤ N)
    (pi : List (ZMod p)) (hpi : pi.length = n) (b : Proof (ZMod p) G) (hb : ProofShape dk b) :
    Plonk.verify newDom e hash oracle dk pi b extra = .ok true := by
  obtain ⟨h1, h2, h3, h4, h5, h6⟩ := dummy_fields hdk
  obtain ⟨info, hinfo⟩ := prepare_turbo hgood (challenges oracle extra [dk] [pi] b.toBatch) (h1.trans hN) h4
    ⟨by simp [wiresOf, h3, h4], by simp [h4]⟩ (hpi.trans h2.symm) (by rw [h5]; simpa [hpi] using hN ▸ hn) hb
  simp [Plonk.verify, Plonk.batchVerify, items, prepareItems, prepareItem, verifierDomain, hd, hinfo, batchVerifyOpening,
    h1, h6, dummyOpenKey]

/-- **C97** (refuted, batches).  With a dummy key in front, whatever the other keys are, the batch verifier never rejects: it
accepts, or reports an error of the shape. -/
theorem C97_batch_counterexample {rnd : List (ZMod p)} {n N : ℕ} {dk : VKey (ZMod p) G G2}
    (hdk : dummyKey rnd n N = .ok dk) (newDom : ℕ → Option (Domain (ZMod p))) (e : G →ₗ[ZMod p] G2 →ₗ[ZMod p] GT)
    (hash : List (ZMod p) → ZMod p)
    (chal : List (VKey (ZMod p) G G2) → List (List (ZMod p)) → BProof (ZMod p) G → Chal (ZMod p))
    (vks : List (VKey (ZMod p) G G2)) (pis : List (List (ZMod p))) (b : BProof (ZMod p) G) :
    verifyBatch newDom e hash chal (dk :: vks) pis b ≠ .ok false := by
  obtain ⟨-, -, -, -, -, h6⟩ := dummy_fields hdk
  simp only [verifyBatch]
  split
  · simp
  · split
    · simp
    · simp [batchVerifyOpening, h6, dummyOpenKey]

/-! ## Examples -/

instance : Fact (Nat.Prime 193) := ⟨by norm_num⟩

/-- a dummy key for one input over a domain of two points -/
example : ∃ dk : VKey (ZMod 193) (ZMod 193) (ZMod 193), dummyKey [5, 7, 2, 3] 1 2 = .ok dk ∧ dk.k = [1, 5, 7, 2, 3] ∧
    dk.selectors.length = 13 := by
  refine ⟨⟨2, 1, List.replicate 5 0, List.replicate 13 0, [1, 5, 7, 2, 3], dummyOpenKey, false, none⟩, ?_, rfl, rfl⟩
  have : cosetReps ([5, 7, 2, 3] : List (ZMod 193)) 5 2 = .ok [1, 5, 7, 2, 3] := by decide +kernel
  simp only [dummyKey, this]

/-- under it a proof of numbers that come from nowhere is accepted, with any pairing -/
example (e : ZMod 193 →ₗ[ZMod 193] ZMod 193 →ₗ[ZMod 193] ZMod 193) (hash : List (ZMod 193) → ZMod 193)
    (oracle : List (Call (ZMod 193) (ZMod 193) (ZMod 193)) → ZMod 193) (dk : VKey (ZMod 193) (ZMod 193) (ZMod 193))
    (hdk : dummyKey [5, 7, 2, 3] 1 2 = .ok dk) :
    Plonk.verify (fun n => if n = 2 then some ⟨1, 192, 1⟩ else none) e hash oracle dk [7]
      ⟨[1, 2, 3, 4, 5], 7, [8], 9, 10, ⟨[1, 2, 3, 4, 5], [1, 2, 3, 4], 6⟩, none⟩ none = .ok true := by
  have h := (dummy_fields hdk).2.2.2.1
  exact C97_accepts_counterexample hdk _ e hash oracle none (d := ⟨1, 192, 1⟩) rfl PlonkSerde.ex_good rfl (by norm_num) [7] rfl _
    ⟨by simp [wiresOf, h], by simp, by simp [wiresOf, h], by simp [wiresOf, h], by simp [h], by simp⟩

/-- the numbers of a dummy proof of two instances -/
example : (dummyProof 2 : BProof (ZMod 193) (ZMod 193)).wires = [[0, 0, 0, 0, 0], [0, 0, 0, 0, 0]] ∧
    (dummyProof 2 : BProof (ZMod 193) (ZMod 193)).len = 2 := ⟨rfl, rfl⟩

/-- the key of the example circuit of C73 is like a dummy key -/
example : ∃ (f : FCirc 97) (pk : PKey (ZMod 97) (ZMod 97) (ZMod 97)) (dk : VKey (ZMod 97) (ZMod 97) (ZMod 97)),
    preprocess Finalize.rnd97 (genSrs (5 : ZMod 97) (1 : ZMod 97) (1 : ZMod 97) 10 1) f = .ok pk ∧
      dummyKey Finalize.rnd97 f.circ.pubIds.length f.dom.size = .ok dk ∧ LikeKey pk.vk dk := by
  obtain ⟨f, hf, h4, -⟩ := EndToEnd.exP_final
  obtain ⟨I, hI, -⟩ := EndToEnd.C73_key EndToEnd.built_exP CopyConstraints.prim28 hf [4] (by decide +kernel)
  have hu : EndToEnd.exP.ultra = none := by decide +kernel
  obtain ⟨pk, h1, -⟩ := EndToEnd.C73_preprocess EndToEnd.built_exP CopyConstraints.prim28 hf (fun k h => by rw [hu] at h; cases h) hI
    (5 : ZMod 97) (1 : ZMod 97) (1 : ZMod 97) (m := 10) (by omega)
  obtain ⟨dk, h2, h3⟩ := C97_key (by rw [EndToEnd.final_ultra EndToEnd.built_exP hf]; exact hu) h1
  exact ⟨f, pk, dk, h1, h2, h3⟩

section circuit

open Verif.Rescue

/-- the key with other points than `dk` -/
def exKey (dk : VKey (ZMod p_ed377) (ZMod p_ed377) (ZMod p_ed377)) : VKey (ZMod p_ed377) (ZMod p_ed377) (ZMod p_ed377) :=
  ⟨2, 1, [1, 0, 1, 0, 1], List.replicate 13 1, dk.k, ⟨1, 1, 0, [], []⟩, false, none⟩

/-- a proof with other points than the dummy proof -/
def exProof : BProof (ZMod p_ed377) (ZMod p_ed377) :=
  ⟨[[1, 0, 1, 1, 1]], [1], [⟨[1, 0, 1, 0, 1], [1, 0, 1, 0], 1⟩], [none], [1, 1, 1, 1, 1], 1, 1⟩

/-- coordinates of points -/
def exTe (g : ZMod p_ed377) : Option (ZMod p_fq377 × ZMod p_fq377) := some ((g.val : ZMod p_fq377), 1)

/-- the circuit made from a dummy key and proof in a new circuit, and from a key and a proof with other points -/
example (rnd : List (ZMod p_ed377)) (dk : VKey (ZMod p_ed377) (ZMod p_ed377) (ZMod p_ed377)) (h : dummyKey rnd 1 2 = .ok dk) (x : ZMod p_ed377) :
    ∃ r c₁ c₂, store exTe VerifierCircuit.I377.m VerifierCircuit.I377.tpm [dk] (List.replicate [x].length 0) (dummyProof 1)
        (Circ.new p_fq377 (some 16)) = .ok (r, c₁) ∧
      store exTe VerifierCircuit.I377.m VerifierCircuit.I377.tpm [exKey dk] [x] exProof (Circ.new p_fq377 (some 16)) =
        .ok (r, c₂) ∧ Circuit.Same c₁ c₂ := by
  obtain ⟨hR, -, hs⟩ := VerifierInput.ex_new
  obtain ⟨h1, h2, h3, h4, h5, -⟩ := dummy_fields h
  have h6 : dk.selectors.length = 13 := by
    unfold dummyKey at h
    split at h
    · simp at h
    · simp only [Except.ok.injEq] at h
      subst h
      simp
  have ht : ∀ g, exTe g ≠ none := fun g => by simp [exTe]
  have hk : LikeKey (exKey dk) dk := ⟨h3.symm, h6.symm, h5.symm, h1.symm, h2.symm, rfl, by rw [h4]; rfl⟩
  have hB : TurboBatch 1 exProof :=
    ⟨⟨rfl, fun w hw => by rw [List.mem_singleton.1 hw]; rfl⟩, rfl,
      ⟨rfl, fun w hw => by rw [List.mem_singleton.1 hw]; exact ⟨rfl, rfl⟩⟩, rfl, rfl⟩
  exact C97_circuit (n := 1) VerifierCircuit.I377_params hR hs (ht 0) (.cons hk .nil)
    (fun v hv => by rw [List.mem_singleton.1 hv]; exact ⟨rnd, 1, 2, h⟩) hB
    ⟨fun _ _ g _ => ht g, fun _ _ g _ => ht g, fun _ _ g _ => ht g, fun g _ => ht g, fun g _ => ht g, ht _, ht _⟩

end circuit

end Verif.Props.Dummy
