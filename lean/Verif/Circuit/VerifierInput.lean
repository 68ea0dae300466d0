import Verif.Circuit.TranscriptVar
import Verif.Circuit.TranscriptSpec
import Verif.Circuit.Ecc
import Verif.Circuit.EccSpec
import Verif.Circuit.EmulatedGates
import Verif.Circuit.VerifierSpec
import Verif.Plonk.Verifier

/-!
# Keys and proofs as variables of the verifier circuit

`VerifyingKeyVar::new` and `to_vec` (`plonk/src/circuit/plonk_verifier/mod.rs`), `ProofEvaluations::create_variables` and
`BatchProof::create_variables` (`plonk/src/proof_system/structs.rs`).

* `te` is the conversion of a commitment to a point of the twisted Edwards curve (`TEPoint::from`); `none` is a panic.
* `PlonkError::InvalidParameters` is the error `parameter`.
* A loop and an iterator that stops at the first error are the same function `mapB`.
-/

set_option linter.unusedSectionVars false

namespace Verif.Circuit.VerifierInput

open Verif.Circuit Verif.Circuit.VerifierPoly Verif.Circuit.TranscriptVar Verif.Plonk

variable {p Q : ℕ} {α β G G2 : Type}

/-- one step for every element, in order, until the first error -/
def mapB (f : α → Build p β) : List α → Build p (List β)
  | [] => pure []
  | x :: xs => do
    let y ← f x
    let ys ← mapB f xs
    pure (y :: ys)

/-- `circuit.create_point_variable(TEPoint::from(comm.0))`, `mod.rs:70`, `structs.rs:352-354` -/
def storePoint (te : G → Option (ZMod p × ZMod p)) (g : G) : Build p (ℕ × ℕ) :=
  match te g with
  | some P => createPointVariable P
  | none => Build.fail .panic

/-- `VerifyingKeyVar::new`, `mod.rs:57-84`; the opening key and the lookup key are not stored -/
def vkVarNew (te : G → Option (ZMod p × ZMod p)) (vk : VKey (ZMod Q) G G2) : Build p (VkVar Q) := do
  let sigmas ← mapB (storePoint te) vk.sigmas
  let selectors ← mapB (storePoint te) vk.selectors
  pure ⟨sigmas, selectors, vk.merged, vk.domSize, vk.numInputs, vk.k⟩

/-- `VerifyingKeyVar::to_vec`, `mod.rs:87-98` -/
def vkToVec (v : VkVar Q) : List ℕ :=
  v.sigmas.flatMap (fun P => [P.1, P.2]) ++ v.selectors.flatMap (fun P => [P.1, P.2])

/-- `FpElemVar::new_from_field_element(circuit, &field_switching(x), m, two_power_m)`, `structs.rs:313-315` -/
def storeElem (m : ℕ) (tpm : Option (ZMod p)) (x : ZMod Q) : Build p (FpElemVar p) := do
  let y ← switch p x
  newFromFieldElement y m tpm

/-- `ProofEvaluations::create_variables`, `structs.rs:293-333` -/
def evalsVarNew (m : ℕ) (tpm : Option (ZMod p)) (e : Evals (ZMod Q)) : Build p (EvalsVar p) :=
  if modulusBits p ≤ modulusBits Q then Build.fail .parameter
  else do
    let wires ← mapB (storeElem m tpm) e.wires
    let sigmas ← mapB (storeElem m tpm) e.sigmas
    let permNext ← storeElem m tpm e.permNext
    pure ⟨wires, sigmas, permNext⟩

/-- `BatchProof::create_variables`, `structs.rs:338-390`; the lookup proofs are not stored -/
def proofVarNew (te : G → Option (ZMod p × ZMod p)) (m : ℕ) (tpm : Option (ZMod p)) (b : BProof (ZMod Q) G) :
    Build p (ProofVar p) := do
  let wires ← mapB (mapB (storePoint te)) b.wires
  let prodPerm ← mapB (storePoint te) b.prodPerm
  let evals ← mapB (evalsVarNew m tpm) b.evals
  let quot ← mapB (storePoint te) b.quot
  let opening ← storePoint te b.opening
  let shifted ← storePoint te b.shifted
  pure ⟨wires, prodPerm, evals, quot, opening, shifted⟩

/-- keys, public inputs and a proof; the public inputs as the evaluations are -/
def store (te : G → Option (ZMod p × ZMod p)) (m : ℕ) (tpm : Option (ZMod p)) (VK : List (VKey (ZMod Q) G G2))
    (PI : List (ZMod Q)) (B : BProof (ZMod Q) G) : Build p (List (VkVar Q) × List (FpElemVar p) × ProofVar p) := do
  let vks ← mapB (vkVarNew te) VK
  let pi ← mapB (storeElem m tpm) PI
  let b ← proofVarNew te m tpm B
  pure (vks, pi, b)

/-! ## What is stored -/

section

variable {H : Prop} {k : ℕ} {I : Info p} {te : G → Option (ZMod p × ZMod p)}

theorem mapB_spec {f : α → Build p β} {B : α → β → Circ p → Prop} {R : α → β → (ℕ → ZMod p) → Prop}
    (hB : ∀ a b c c', Ext c c' → B a b c → B a b c') (l : List α)
    (hf : ∀ x ∈ l, ∀ c, Ctx H k c → Spec (f x) c H (B x) (R x)) : ∀ {c : Circ p} (_ : Ctx H k c),
    Spec (mapB f l) c H (fun ys c' => List.Forall₂ (fun y x => B x y c') ys l)
      (fun ys w => List.Forall₂ (fun y x => R x y w) ys l) := by
  induction l with
  | nil => intro c hc; exact Spec.pure hc.wf .nil (fun _ _ _ => .nil)
  | cons x xs ih =>
    intro c hc
    rw [mapB]
    refine hbind hc.wf (hf x (by simp) c hc) ?_
    intro v c1 e1 hv
    refine hbind e1.wf (ih (fun y hy => hf y (by simp [hy])) (hc.ext e1)) ?_
    intro vs c2 e2 hvs
    exact Spec.pure e2.wf (.cons (hB _ _ _ _ e2 hv) hvs) (fun _ _ _ h1 h2 => .cons h2 h1)

/-- the variables exist and store the point -/
def HasPoint (te : G → Option (ZMod p × ZMod p)) (g : G) (P : ℕ × ℕ) (c : Circ p) : Prop :=
  PIn c P ∧ te g = some (c.val P.1, c.val P.2)

theorem HasPoint.ext {g : G} {P : ℕ × ℕ} {c c' : Circ p} (e : Ext c c') (h : HasPoint te g P c) : HasPoint te g P c' :=
  ⟨PIn.ext e h.1, by rw [h.2, e.val _ h.1.1, e.val _ h.1.2]⟩

theorem storePoint_spec {g : G} (hg : H → te g ≠ none) {c : Circ p} (hc : WF c) :
    Spec (storePoint te g) c H (HasPoint te g) (fun _ _ => True) := by
  unfold storePoint
  cases h : te g with
  | none => exact Spec.fail fun hH => hg hH h
  | some P =>
    refine Spec.conseq hc (createPointVariable_spec hc P H) (fun h _ _ => h) ?_ (fun _ _ _ _ _ => trivial)
    rintro v c' _ ⟨h1, h2⟩
    refine ⟨h1, ?_⟩
    rw [h, ← h2]; rfl

theorem storePoints_spec (gs : List G) (hg : H → ∀ g ∈ gs, te g ≠ none) {c : Circ p} (hc : Ctx H k c) :
    Spec (mapB (storePoint te) gs) c H (fun ps c' => List.Forall₂ (fun P g => HasPoint te g P c') ps gs) (fun _ _ => True) :=
  (Spec.conseq hc.wf (mapB_spec (B := HasPoint te) (R := fun _ _ _ => True) (fun _ _ _ _ e h => HasPoint.ext e h) gs
    (fun g hm _ hc => storePoint_spec (fun hH => hg hH g hm) hc.wf) hc) (fun h _ _ => h) (fun _ _ _ h => h)
    (fun _ _ _ _ _ => trivial))

/-- the conversion is defined for the commitments of a key -/
def KeyOk (te : G → Option (ZMod p × ZMod p)) (vk : VKey (ZMod Q) G G2) : Prop :=
  (∀ g ∈ vk.sigmas, te g ≠ none) ∧ ∀ g ∈ vk.selectors, te g ≠ none

/-- the variables of a key -/
structure HasKey (te : G → Option (ZMod p × ZMod p)) (vk : VKey (ZMod Q) G G2) (v : VkVar Q) (c : Circ p) : Prop where
  sigmas : List.Forall₂ (fun P g => HasPoint te g P c) v.sigmas vk.sigmas
  selectors : List.Forall₂ (fun P g => HasPoint te g P c) v.selectors vk.selectors
  merged : v.merged = vk.merged
  domSize : v.domSize = vk.domSize
  numInputs : v.numInputs = vk.numInputs
  k : v.k = vk.k

theorem HasKey.ext {vk : VKey (ZMod Q) G G2} {v : VkVar Q} {c c' : Circ p} (e : Ext c c') (h : HasKey te vk v c) :
    HasKey te vk v c' :=
  ⟨h.sigmas.imp fun _ _ g => g.ext e, h.selectors.imp fun _ _ g => g.ext e, h.merged, h.domSize, h.numInputs, h.k⟩

theorem vkVarNew_spec (vk : VKey (ZMod Q) G G2) (hg : H → KeyOk te vk) {c : Circ p} (hc : Ctx H k c) :
    Spec (vkVarNew te vk) c H (HasKey te vk) (fun _ _ => True) := by
  unfold vkVarNew
  refine hbind hc.wf (storePoints_spec _ (fun hH => (hg hH).1) hc) ?_
  intro s c1 e1 h1
  refine hbind e1.wf (storePoints_spec _ (fun hH => (hg hH).2) (hc.ext e1)) ?_
  intro q c2 e2 h2
  exact Spec.pure e2.wf ⟨h1.imp fun _ _ g => g.ext e2, h2, rfl, rfl, rfl, rfl⟩ (fun _ _ _ _ _ => trivial)

variable [hp : Fact p.Prime] [hQ : Fact Q.Prime]

theorem storeElem_spec (h : Par I Q k) {c : Circ p} (hc : Ctx H k c) (x : ZMod Q) :
    Spec (storeElem I.m I.tpm x) c H (fun v c' => Hol True I.mod x v c') (fun v w => v.Small I.mod w) := by
  have hl : x.val < p := (ZMod.val_lt x).trans h.q_lt_p
  unfold storeElem
  refine switch_bind (fun _ => hl) ?_
  intro y hy
  obtain ⟨e, he, hk⟩ := cst_new h (hy hl)
  unfold newFromFieldElement
  refine Spec.liftE_bind' (fun _ => ⟨e, he⟩) ?_
  intro e' he'
  obtain rfl : e' = e := by rw [he] at he'; cases he'; rfl
  have hm := h.m
  refine Spec.conseq hc.wf (newFromFpElem_spec hc.wf hc.rng e' I.m I.tpm) ?_ ?_ ?_
  · intro _ _ _
    refine ⟨by rw [hc.ultra]; rfl, by rw [hm]; exact h.mul.mpos, ?_, ?_⟩
    · rw [hm, ← hk.m]; exact hk.ok.p0
    · rw [hm, ← hk.m]; exact hk.ok.p1
  · rintro v c' _ ⟨g1, g2, g3, g4, g5⟩
    refine ⟨g1, ⟨by rw [g2, hm], by rw [g3, h.tpm]; rfl⟩, fun _ => ?_⟩
    have e1 := hk.ok.p0
    have e2 := hk.int
    unfold FpElem.int at e2
    rw [hk.m] at e1 e2
    unfold St
    rw [g4, g5, ← e2]
    refine ⟨?_, ?_⟩
    · rw [Nat.add_mul_mod_self_left, Nat.mod_eq_of_lt e1]
    · rw [Nat.add_mul_div_left _ _ (by positivity), Nat.div_eq_of_lt e1, zero_add]
  · rintro v w _ _ g
    rw [hm] at g
    exact g

theorem storeElems_spec (h : Par I Q k) {c : Circ p} (hc : Ctx H k c) (xs : List (ZMod Q)) :
    Spec (mapB (storeElem I.m I.tpm) xs) c H (fun vs c' => List.Forall₂ (fun v x => Hol True I.mod x v c') vs xs)
      (fun vs w => List.Forall₂ (fun v _ => v.Small I.mod w) vs xs) :=
  mapB_spec (B := fun x v c' => Hol True I.mod x v c') (R := fun _ v w => v.Small I.mod w) (fun _ _ _ _ e h => Hol.ext h e) xs (fun x _ _ hc => storeElem_spec h hc x) hc

/-- the variables of evaluations -/
structure HasEvals (q : FpElem p) (e : Evals (ZMod Q)) (v : EvalsVar p) (c : Circ p) : Prop where
  wires : List.Forall₂ (fun v x => Hol True q x v c) v.wires e.wires
  sigmas : List.Forall₂ (fun v x => Hol True q x v c) v.sigmas e.sigmas
  permNext : Hol True q e.permNext v.permNext c

/-- the limbs of evaluations are in range -/
structure EvalsSmall (q : FpElem p) (e : Evals (ZMod Q)) (v : EvalsVar p) (w : ℕ → ZMod p) : Prop where
  wires : List.Forall₂ (fun v _ => v.Small q w) v.wires e.wires
  sigmas : List.Forall₂ (fun v _ => v.Small q w) v.sigmas e.sigmas
  permNext : v.permNext.Small q w

theorem HasEvals.ext {q : FpElem p} {e : Evals (ZMod Q)} {v : EvalsVar p} {c c' : Circ p} (x : Ext c c') (h : HasEvals q e v c) :
    HasEvals q e v c' :=
  ⟨h.wires.imp fun _ _ g => g.ext x, h.sigmas.imp fun _ _ g => g.ext x, h.permNext.ext x⟩

theorem bits_lt (h : Par I Q k) : modulusBits Q < modulusBits p := by
  unfold modulusBits
  have h1 := h.q_lt
  have h2 := h.wide
  have h3 : Nat.size Q ≤ 2 * I.mod.m := Nat.size_le.2 h1
  have h4 : 2 * I.mod.m + k + 2 < Nat.size p := Nat.lt_size.2 h2
  omega

theorem evalsVarNew_spec (h : Par I Q k) {c : Circ p} (hc : Ctx H k c) (e : Evals (ZMod Q)) :
    Spec (evalsVarNew I.m I.tpm e) c H (HasEvals I.mod e) (EvalsSmall I.mod e) := by
  unfold evalsVarNew
  rw [if_neg (by have := bits_lt h; omega)]
  refine hbind hc.wf (storeElems_spec h hc e.wires) ?_
  intro a c1 e1 h1
  refine hbind e1.wf (storeElems_spec h (hc.ext e1) e.sigmas) ?_
  intro b c2 e2 h2
  refine hbind e2.wf (storeElem_spec h (hc.ext (e1.trans e2)) e.permNext) ?_
  intro d c3 e3 h3
  exact Spec.pure e3.wf ⟨h1.imp fun _ _ g => g.ext (e2.trans e3), h2.imp fun _ _ g => g.ext e3, h3⟩
    (fun _ _ _ r3 r2 r1 => ⟨r1, r2, r3⟩)

/-- the conversion is defined for the commitments of a proof -/
structure ProofOk (te : G → Option (ZMod p × ZMod p)) (B : BProof (ZMod Q) G) : Prop where
  wires : ∀ l ∈ B.wires, ∀ g ∈ l, te g ≠ none
  prodPerm : ∀ g ∈ B.prodPerm, te g ≠ none
  quot : ∀ g ∈ B.quot, te g ≠ none
  opening : te B.opening ≠ none
  shifted : te B.shifted ≠ none

/-- the variables of a proof -/
structure HasProof (q : FpElem p) (te : G → Option (ZMod p × ZMod p)) (B : BProof (ZMod Q) G) (v : ProofVar p)
    (c : Circ p) : Prop where
  wires : List.Forall₂ (List.Forall₂ (fun P g => HasPoint te g P c)) v.wires B.wires
  prodPerm : List.Forall₂ (fun P g => HasPoint te g P c) v.prodPerm B.prodPerm
  evals : List.Forall₂ (fun v e => HasEvals q e v c) v.evals B.evals
  quot : List.Forall₂ (fun P g => HasPoint te g P c) v.quot B.quot
  opening : HasPoint te B.opening v.opening c
  shifted : HasPoint te B.shifted v.shifted c

theorem proofVarNew_spec (h : Par I Q k) {c : Circ p} (hc : Ctx H k c) (B : BProof (ZMod Q) G) (hg : H → ProofOk te B) :
    Spec (proofVarNew te I.m I.tpm B) c H (HasProof I.mod te B)
      (fun v w => List.Forall₂ (fun v e => EvalsSmall I.mod e v w) v.evals B.evals) := by
  unfold proofVarNew
  refine hbind hc.wf (mapB_spec (R := fun _ _ _ => True) (B := fun l ps c => List.Forall₂ (fun P g => HasPoint te g P c) ps l)
    (fun _ _ _ _ e h => h.imp fun _ _ g => g.ext e) B.wires
    (fun l hl _ hc => storePoints_spec l (fun hH => (hg hH).wires l hl) hc) hc) ?_
  intro a c1 e1 h1
  refine hbind e1.wf (storePoints_spec _ (fun hH => (hg hH).prodPerm) (hc.ext e1)) ?_
  intro b c2 e2 h2
  have x2 := e1.trans e2
  refine hbind e2.wf (mapB_spec (B := HasEvals I.mod) (fun _ _ _ _ e h => HasEvals.ext e h) B.evals (fun x _ _ hc => evalsVarNew_spec h hc x)
    (hc.ext x2)) ?_
  intro d c3 e3 h3
  have x3 := x2.trans e3
  refine hbind e3.wf (storePoints_spec _ (fun hH => (hg hH).quot) (hc.ext x3)) ?_
  intro q c4 e4 h4
  refine hbind e4.wf (storePoint_spec (fun hH => (hg hH).opening) e4.wf) ?_
  intro o c5 e5 h5
  refine hbind e5.wf (storePoint_spec (fun hH => (hg hH).shifted) e5.wf) ?_
  intro s c6 e6 h6
  have y5 := e5.trans e6
  have y4 := e4.trans y5
  have y3 := e3.trans y4
  refine Spec.pure e6.wf ⟨?_, ?_, ?_, ?_, ?_, h6⟩ (fun _ _ _ _ _ _ r _ _ => r)
  · exact h1.imp fun _ _ g => g.imp fun _ _ g => g.ext (e2.trans y3)
  · exact h2.imp fun _ _ g => g.ext y3
  · exact h3.imp fun _ _ g => g.ext y4
  · exact h4.imp fun _ _ g => g.ext y5
  · exact h5.ext e6

/-- keys, public inputs and a proof as variables -/
structure HasAll (q : FpElem p) (te : G → Option (ZMod p × ZMod p)) (VK : List (VKey (ZMod Q) G G2)) (PI : List (ZMod Q))
    (B : BProof (ZMod Q) G) (r : List (VkVar Q) × List (FpElemVar p) × ProofVar p) (c : Circ p) : Prop where
  keys : List.Forall₂ (fun v vk => HasKey te vk v c) r.1 VK
  inputs : List.Forall₂ (fun v x => Hol True q x v c) r.2.1 PI
  proof : HasProof q te B r.2.2 c

theorem store_spec (h : Par I Q k) {c : Circ p} (hc : Ctx H k c) (VK : List (VKey (ZMod Q) G G2)) (PI : List (ZMod Q))
    (B : BProof (ZMod Q) G) (hk : H → ∀ vk ∈ VK, KeyOk te vk) (hg : H → ProofOk te B) :
    Spec (store te I.m I.tpm VK PI B) c H (HasAll I.mod te VK PI B)
      (fun r w => List.Forall₂ (fun v _ => v.Small I.mod w) r.2.1 PI ∧
        List.Forall₂ (fun v e => EvalsSmall I.mod e v w) r.2.2.evals B.evals) := by
  unfold store
  refine hbind hc.wf (mapB_spec (B := HasKey te) (R := fun _ _ _ => True) (fun _ _ _ _ e h => HasKey.ext e h) VK
    (fun vk hv _ hc => vkVarNew_spec vk (fun hH => hk hH vk hv) hc) hc) ?_
  intro a c1 e1 h1
  refine hbind e1.wf (storeElems_spec h (hc.ext e1) PI) ?_
  intro b c2 e2 h2
  refine hbind e2.wf (proofVarNew_spec h (hc.ext (e1.trans e2)) B hg) ?_
  intro d c3 e3 h3
  exact Spec.pure e3.wf ⟨h1.imp fun _ _ g => g.ext (e2.trans e3), h2.imp fun _ _ g => g.ext e3, h3⟩
    (fun _ _ _ r3 r2 _ => ⟨r2, r3⟩)

end

/-! ## The circuit does not depend on the values -/

section

theorem mapB_rel {α' : Type} {f : α → Build p β} {f' : α' → Build p β} {P : α → α' → Prop} (h : ∀ x y, P x y → Rel (f x) (f' y)) :
    ∀ {l : List α} {l' : List α'}, List.Forall₂ P l l' → Rel (mapB f l) (mapB f' l')
  | _, _, .nil => Rel.pure _
  | _, _, .cons a t => by
    rw [mapB, mapB]
    exact Rel.bind (h _ _ a) fun _ => Rel.bind (mapB_rel h t) fun _ => Rel.pure _

variable {G' G2' : Type} {te : G → Option (ZMod p × ZMod p)} {te' : G' → Option (ZMod p × ZMod p)}

theorem storePoint_rel (g : G) (g' : G') : Rel (storePoint te g) (storePoint te' g') := by
  unfold storePoint
  split
  · split
    · exact createPointVariable_rel _ _
    · exact Rel.failR _ _
  · exact Rel.failL _ _

/-- lists of the same length -/
def SameLen {α α' : Type} (l : List α) (l' : List α') : Prop := List.Forall₂ (fun _ _ => True) l l'

theorem storePoints_rel {gs : List G} {gs' : List G'} (h : SameLen gs gs') :
    Rel (mapB (storePoint te) gs) (mapB (storePoint te') gs') :=
  mapB_rel (P := fun _ _ => True) (fun x y _ => storePoint_rel x y) h

/-- keys of the same shape -/
structure KeyLike (a : VKey (ZMod Q) G G2) (b : VKey (ZMod Q) G' G2') : Prop where
  sigmas : SameLen a.sigmas b.sigmas
  selectors : SameLen a.selectors b.selectors
  merged : a.merged = b.merged
  domSize : a.domSize = b.domSize
  numInputs : a.numInputs = b.numInputs
  k : a.k = b.k

theorem vkVarNew_rel {a : VKey (ZMod Q) G G2} {b : VKey (ZMod Q) G' G2'} (h : KeyLike a b) :
    Rel (vkVarNew te a) (vkVarNew te' b) := by
  unfold vkVarNew
  rw [h.merged, h.domSize, h.numInputs, h.k]
  exact Rel.bind (storePoints_rel h.sigmas) fun _ => Rel.bind (storePoints_rel h.selectors) fun _ => Rel.pure _

theorem newFromFpElem_rel (e e' : FpElem p) (m : ℕ) (tpm : Option (ZMod p)) :
    Rel (newFromFpElem e m tpm) (newFromFpElem e' m tpm) := by
  unfold newFromFpElem
  exact Rel.bind (Rel.createVariable _ _) fun _ => Rel.bind (Rel.createVariable _ _) fun _ =>
    Rel.bind (rangeGateWithLookup_rel _ _) fun _ => Rel.bind (rangeGateWithLookup_rel _ _) fun _ => Rel.pure _

theorem newFromFieldElement_rel (x y : ZMod p) (m : ℕ) (tpm : Option (ZMod p)) :
    Rel (newFromFieldElement x m tpm) (newFromFieldElement y m tpm) := by
  unfold newFromFieldElement
  exact Rel.liftE_bind2 fun _ _ => newFromFpElem_rel _ _ _ _

theorem switch_cases {s t : ℕ} (x : ZMod s) : (∃ y, (switch t x : Build p (ZMod t)) = pure y) ∨
    (switch t x : Build p (ZMod t)) = Build.fail .panic := by
  unfold switch
  split
  · exact .inl ⟨_, rfl⟩
  · exact .inr rfl

theorem fail_bind (e : CErr) (f : α → Build p β) : (Build.fail e : Build p α) >>= f = Build.fail e := rfl
theorem pure_bind' (x : α) (f : α → Build p β) : (pure x : Build p α) >>= f = f x := rfl

theorem storeElem_rel {Q' : ℕ} (m : ℕ) (tpm : Option (ZMod p)) (x : ZMod Q) (y : ZMod Q') :
    Rel (storeElem m tpm x) (storeElem m tpm y) := by
  unfold storeElem
  rcases switch_cases (p := p) (t := p) x with ⟨a, ha⟩ | ha
  · rcases switch_cases (p := p) (t := p) y with ⟨b, hb⟩ | hb
    · rw [ha, hb, pure_bind', pure_bind']
      exact newFromFieldElement_rel _ _ _ _
    · rw [hb, fail_bind]; exact Rel.failR _ _
  · rw [ha, fail_bind]; exact Rel.failL _ _

theorem storeElems_rel {m : ℕ} {tpm : Option (ZMod p)} {xs ys : List (ZMod Q)} (h : SameLen xs ys) :
    Rel (mapB (storeElem m tpm) xs) (mapB (storeElem m tpm) ys) :=
  mapB_rel (P := fun _ _ => True) (fun x y _ => storeElem_rel m tpm x y) h

/-- evaluations of the same shape -/
def EvalsLike (a b : Evals (ZMod Q)) : Prop := SameLen a.wires b.wires ∧ SameLen a.sigmas b.sigmas

theorem evalsVarNew_rel {m : ℕ} {tpm : Option (ZMod p)} {a b : Evals (ZMod Q)} (h : EvalsLike a b) :
    Rel (evalsVarNew m tpm a) (evalsVarNew m tpm b) := by
  unfold evalsVarNew
  exact Rel.guard (Rel.bind (storeElems_rel h.1) fun _ => Rel.bind (storeElems_rel h.2) fun _ =>
    Rel.bind (storeElem_rel _ _ _ _) fun _ => Rel.pure _)

/-- proofs of the same shape -/
structure ProofLike (a : BProof (ZMod Q) G) (b : BProof (ZMod Q) G') : Prop where
  wires : List.Forall₂ SameLen a.wires b.wires
  prodPerm : SameLen a.prodPerm b.prodPerm
  evals : List.Forall₂ EvalsLike a.evals b.evals
  quot : SameLen a.quot b.quot

theorem proofVarNew_rel {m : ℕ} {tpm : Option (ZMod p)} {a : BProof (ZMod Q) G} {b : BProof (ZMod Q) G'} (h : ProofLike a b) :
    Rel (proofVarNew te m tpm a) (proofVarNew te' m tpm b) := by
  unfold proofVarNew
  exact Rel.bind (mapB_rel (fun _ _ h => storePoints_rel h) h.wires) fun _ => Rel.bind (storePoints_rel h.prodPerm) fun _ =>
    Rel.bind (mapB_rel (fun _ _ h => evalsVarNew_rel h) h.evals) fun _ => Rel.bind (storePoints_rel h.quot) fun _ =>
    Rel.bind (storePoint_rel _ _) fun _ => Rel.bind (storePoint_rel _ _) fun _ => Rel.pure _

theorem store_rel {m : ℕ} {tpm : Option (ZMod p)} {VK : List (VKey (ZMod Q) G G2)} {VK' : List (VKey (ZMod Q) G' G2')}
    {PI PI' : List (ZMod Q)} {B : BProof (ZMod Q) G} {B' : BProof (ZMod Q) G'} (hk : List.Forall₂ KeyLike VK VK')
    (hi : SameLen PI PI') (h : ProofLike B B') : Rel (store te m tpm VK PI B) (store te' m tpm VK' PI' B') := by
  unfold store
  exact Rel.bind (mapB_rel (fun _ _ h => vkVarNew_rel h) hk) fun _ => Rel.bind (storeElems_rel hi) fun _ =>
    Rel.bind (proofVarNew_rel h) fun _ => Rel.pure _

end

end Verif.Circuit.VerifierInput
