import Verif.Circuit.MerkleGadget
import Verif.Props.Ecc
import Verif.Props.RescueCircuit
import Verif.Props.MerkleProofs

/-!
# C37: the Merkle gadgets and the native verifier

`Tree.verify` and `Tree.nonMembershipVerify` are the native verifiers (`Verif/Merkle/Model.lean`), with the Rescue hasher
`rescueHasher f`. `BitsAt w n b`: the two bits of a level encode the branch `b`. `LeftOk`: the leftmost label of every
level is not zero, which the circuit checks and the native verifier does not. Theorems are for every depth.
-/

set_option linter.unusedSectionVars false

namespace Verif.Props.MerkleCircuit

open Verif.Circuit Verif.Props.Circuit Verif.Props.Ecc
open Verif.Rescue (Vec Consts)
open Verif.Merkle (Hasher toPath foldStep Tree)

variable {p : ℕ} [Fact p.Prime] {K : Consts} {f : Vec (ZMod p) → Vec (ZMod p)}

/-- the variables of the arguments exist -/
def MDom (vs : List ℕ) (nodes : List NodeVar) (c : Circ p) : Prop := (∀ v ∈ vs, v < c.numVars) ∧ ∀ n ∈ nodes, NIn c n

/-- the levels of the proof held by an assignment, along a path -/
def levels (w : ℕ → ZMod p) (nodes : List NodeVar) (path : List (Fin 3)) : List (Fin 3 × List (ZMod p)) :=
  path.zip (nodes.map (sibsAt w))

theorem bits_congr {c : Circ p} {w w' : ℕ → ZMod p} (h : ∀ i, i < c.numVars → w' i = w i) :
    ∀ {nodes : List NodeVar} {path : List (Fin 3)}, (∀ n ∈ nodes, NIn c n) → List.Forall₂ (BitsAt w) nodes path →
      List.Forall₂ (BitsAt w') nodes path
  | [], _, _, hb => by cases hb; exact .nil
  | n :: ns, _, hn, hb => by
    cases hb with
    | cons h1 h2 =>
      have hx := hn n (by simp)
      exact .cons ⟨by rw [h _ hx.2.2.1]; exact h1.1, by rw [h _ hx.2.2.2]; exact h1.2⟩
        (bits_congr h (fun m hm => hn m (by simp [hm])) h2)

theorem levels_congr {c : Circ p} {w w' : ℕ → ZMod p} (h : ∀ i, i < c.numVars → w' i = w i) {nodes : List NodeVar}
    (path : List (Fin 3)) (hn : ∀ n ∈ nodes, NIn c n) : levels w' nodes path = levels w nodes path := by
  unfold levels
  congr 1
  exact List.map_congr_left fun n hm => by simp [sibsAt, h _ (hn n hm).1, h _ (hn n hm).2.1]

/-- the root the native verifier computes -/
def root (H : Hasher (ZMod p) ℕ (ZMod p)) (L : List (Fin 3 × List (ZMod p))) (leaf : ZMod p) : ZMod p :=
  L.foldl (foldStep H) leaf

theorem verify_iff (com e : ZMod p) (n : ℕ) (proof : List (List (ZMod p))) :
    Tree.verify 3 (rescueHasher f) id com n e proof = .ok true ↔ (∀ s ∈ proof, s.length = 2) ∧
      root (rescueHasher f) ((toPath 3 n proof.length).zip proof) ((rescueHasher f).digestLeaf n e) = com := by
  rw [Merkle.verify_true_iff]
  unfold Merkle.foldTo root
  rw [List.take_of_length_le (by simp), List.take_length]
  rfl

theorem nonMembershipVerify_iff (com : ZMod p) (n : ℕ) (proof : List (List (ZMod p))) :
    Tree.nonMembershipVerify 3 (rescueHasher f) id com n proof = .ok true ↔ (∀ s ∈ proof, s.length = 2 ∨ s = []) ∧
      root (rescueHasher f) ((toPath 3 n proof.length).zip proof) 0 = com := by
  rw [Merkle.nonmem_true_iff]
  unfold Merkle.foldTo root
  rw [List.take_of_length_le (by simp), List.take_length]
  rfl

/-! ## Membership -/

/-- **C37, `is_member`, all assignments.** -/
theorem C37_is_member_circuit (hf : HashOk K f) (idx elem : ℕ) (nodes : List NodeVar) (com : ℕ) :
    Correct (isMember K idx elem nodes com) (MDom [idx, elem, com] nodes)
      (fun w => ∃ path, List.Forall₂ (BitsAt w) nodes path ∧
        LeftOk (rescueHasher f) (levels w nodes path) (zeroPadHash f [1, w idx, w elem]))
      (fun v w => ∀ path, List.Forall₂ (BitsAt w) nodes path →
        LeftOk (rescueHasher f) (levels w nodes path) (zeroPadHash f [1, w idx, w elem]) ∧
        w v = if root (rescueHasher f) (levels w nodes path) (zeroPadHash f [1, w idx, w elem]) = w com
          then 1 else 0) := by
  refine correct_of (isMember_rel K idx elem nodes com) (fun _ _ h => h) ?_
    fun c hc hd => ⟨fun v c' => v < c'.numVars, ?_⟩
  · rintro c w w' ⟨hv, hn⟩ hw ⟨path, h1, h2⟩
    refine ⟨path, bits_congr hw hn h1, ?_⟩
    rw [levels_congr hw path hn, hw _ (hv idx (by simp)), hw _ (hv elem (by simp))]
    exact h2
  · exact Spec.conseq hc (isMember_spec hf hc idx elem nodes com)
      (fun h _ _ => ⟨⟨⟨hd.1 idx (by simp), hd.1 elem (by simp), hd.1 com (by simp)⟩, hd.2⟩, h⟩)
      (fun _ _ _ h => h) (fun _ _ _ _ h => h)

/-- what `enforce_membership_proof` enforces -/
def MemberHolds (f : Vec (ZMod p) → Vec (ZMod p)) (w : ℕ → ZMod p) (idx elem : ℕ) (nodes : List NodeVar) (com : ℕ)
    (path : List (Fin 3)) : Prop :=
  LeftOk (rescueHasher f) (levels w nodes path) (zeroPadHash f [1, w idx, w elem]) ∧
    root (rescueHasher f) (levels w nodes path) (zeroPadHash f [1, w idx, w elem]) = w com

/-- **C37, `enforce_membership_proof`, all assignments.** -/
theorem C37_enforce_member_circuit (hf : HashOk K f) (idx elem : ℕ) (nodes : List NodeVar) (com : ℕ) :
    Correct (enforceMembershipProof K idx elem nodes com) (MDom [idx, elem, com] nodes)
      (fun w => ∃ path, List.Forall₂ (BitsAt w) nodes path ∧ MemberHolds f w idx elem nodes com path)
      (fun _ w => ∀ path, List.Forall₂ (BitsAt w) nodes path → MemberHolds f w idx elem nodes com path) := by
  refine correct_of (enforceMembershipProof_rel K idx elem nodes com) (fun _ _ h => h) ?_
    fun c hc hd => ⟨fun _ _ => True, ?_⟩
  · rintro c w w' ⟨hv, hn⟩ hw ⟨path, h1, h2⟩
    refine ⟨path, bits_congr hw hn h1, ?_⟩
    unfold MemberHolds
    rw [levels_congr hw path hn, hw _ (hv idx (by simp)), hw _ (hv elem (by simp)), hw _ (hv com (by simp))]
    exact h2
  · exact Spec.conseq hc (enforceMembershipProof_spec hf hc idx elem nodes com)
      (fun h _ _ => ⟨⟨⟨hd.1 idx (by simp), hd.1 elem (by simp), hd.1 com (by simp)⟩, hd.2⟩, h⟩)
      (fun _ _ _ h => h) (fun _ _ _ _ h => h)

/-- **C37, membership, exactly (partial).** The bits of the proof variable encode the position `n` and the index
variable holds `n`: an assignment extends to the gadget if and only if the native verifier accepts and no level has a
zero in its leftmost slot. Missing for the full statement: the condition on the leftmost slots. -/
theorem C37_member_agrees_partial (hf : HashOk K f) {idx elem : ℕ} {nodes : List NodeVar} {com : ℕ} {c : Circ p}
    (hc : WF c) (hd : MDom [idx, elem, com] nodes c) {c' : Circ p} {u : Unit}
    (hm : enforceMembershipProof K idx elem nodes com c = .ok (u, c')) {pi : List (ZMod p)} {w : ℕ → ZMod p}
    (hw : Sat c pi w) (n : ℕ) (hn : w idx = n) (hb : List.Forall₂ (BitsAt w) nodes (toPath 3 n nodes.length)) :
    (∃ w' : ℕ → ZMod p, (∀ i, i < c.numVars → w' i = w i) ∧ Sat c' pi w') ↔
      Tree.verify 3 (rescueHasher f) id (w com) n (w elem) (nodes.map (sibsAt w)) = .ok true ∧
        LeftOk (rescueHasher f) (levels w nodes (toPath 3 n nodes.length)) ((rescueHasher f).digestLeaf n (w elem)) := by
  have h := C37_enforce_member_circuit hf idx elem nodes com
  have hleaf : (rescueHasher f).digestLeaf n (w elem) = zeroPadHash f [1, w idx, w elem] := by rw [hn]; rfl
  rw [verify_iff, hleaf, List.length_map]
  constructor
  · rintro ⟨w', h1, h2⟩
    obtain ⟨g1, g2⟩ := (h.sound c hc hd u c' hm pi w' h2).2 _ (bits_congr h1 hd.2 hb)
    rw [levels_congr h1 _ hd.2, h1 _ (hd.1 idx (by simp)), h1 _ (hd.1 elem (by simp))] at g1 g2
    rw [h1 _ (hd.1 com (by simp))] at g2
    exact ⟨⟨by simp [sibsAt], g2⟩, g1⟩
  · rintro ⟨⟨-, g2⟩, g1⟩
    exact h.complete c hc hd u c' hm pi w hw ⟨_, hb, g1, g2⟩

/-! ### The whole flow -/

/-- `create_variable` for index and element, `create_membership_proof_variable`, `create_commitment_variable`,
`enforce_membership_proof`: the flow of the documentation, `gadgets/mod.rs:35-60`. The value `x` of the index variable
and the position `n` the proof variable is created for are two arguments of the library too. -/
def memberFlow (K : Consts) (x : ZMod p) (n : ℕ) (e : ZMod p) (proof : List (List (ZMod p))) (com : ZMod p) :
    Build p (ℕ × ℕ × List NodeVar × ℕ) := do
  let idx ← createVariable x
  let el ← createVariable e
  let nodes ← createMembershipProofVariable n proof
  let cm ← createVariable com
  enforceMembershipProof K idx el nodes cm
  pure (idx, el, nodes, cm)

theorem padSibs_map {proof : List (List (ZMod p))} (h : ∀ s ∈ proof, s.length = 2) : proof.map padSibs = proof := by
  conv_rhs => rw [← List.map_id proof]
  refine List.map_congr_left fun s hs => ?_
  have := h s hs
  unfold padSibs
  rw [if_neg (by rintro rfl; simp at this), List.take_of_length_le (by omega)]
  rfl

/-- membership of the leaf `(x, e)` below `com` along the path of `n` -/
def MemberAt (f : Vec (ZMod p) → Vec (ZMod p)) (x : ZMod p) (n : ℕ) (e : ZMod p) (proof : List (List (ZMod p)))
    (com : ZMod p) : Prop :=
  LeftOk (rescueHasher f) ((toPath 3 n proof.length).zip proof) (zeroPadHash f [1, x, e]) ∧
    root (rescueHasher f) ((toPath 3 n proof.length).zip proof) (zeroPadHash f [1, x, e]) = com

theorem memberFlow_spec (hp2 : p ≠ 2) (hf : HashOk K f) (x : ZMod p) (n : ℕ) (e : ZMod p)
    (proof : List (List (ZMod p))) (hs : ∀ s ∈ proof, s.length = 2) (com : ZMod p) {c : Circ p} (hc : WF c) :
    Spec (memberFlow K x n e proof com) c (MemberAt f x n e proof com)
      (fun v c' => (c'.val v.1 = x ∧ c'.val v.2.1 = e ∧ c'.val v.2.2.2 = com) ∧ v.2.2.1.length = proof.length ∧
        List.Forall₂ (BitsAt c'.val) v.2.2.1 (toPath 3 n proof.length) ∧
        (c'.val 0 = 0 → v.2.2.1.map (sibsAt c'.val) = proof))
      (fun v w => (∃ path, List.Forall₂ (BitsAt w) v.2.2.1 path) ∧
        ∀ path, List.Forall₂ (BitsAt w) v.2.2.1 path → MemberHolds f w v.1 v.2.1 v.2.2.1 v.2.2.2 path) := by
  unfold memberFlow
  refine Spec.bind (createVariable_spec hc x True) (fun _ _ _ => trivial) hc ?_
  rintro idx c1 e1 ⟨i1, v1⟩
  refine Spec.bind (createVariable_spec e1.wf e True) (fun _ _ _ => trivial) e1.wf ?_
  rintro el c2 e2 ⟨i2, v2⟩
  refine Spec.bind (createMembershipProofVariable_spec hp2 n proof e2.wf)
    (fun _ _ _ s h => (hs s h).ge) e2.wf ?_
  rintro nodes c3 e3 ⟨i3, b3, s3⟩
  refine Spec.bind (createVariable_spec e3.wf com True) (fun _ _ _ => trivial) e3.wf ?_
  rintro cm c4 e4 ⟨i4, v4⟩
  have e24 := (e2.trans e3).trans e4
  have k1 := (e24.val idx i1).trans v1
  have k2 := ((e3.trans e4).val el i2).trans v2
  have b4 := bitsAt_ext e4 i3 b3
  have s4 : c4.val 0 = 0 → nodes.map (sibsAt c4.val) = proof := fun h0 => by
    rw [sibsAt_ext e4 i3, s3 (by rw [← e4.val 0 e3.wf.z]; exact h0), padSibs_map hs]
  have n4 : ∀ m ∈ nodes, NIn c4 m := fun m hm => (i3 m hm).ext e4
  refine Spec.bind (enforceMembershipProof_spec hf e4.wf idx el nodes cm) ?_ e4.wf ?_
  · rintro ⟨⟨⟨⟨h, _⟩, _⟩, _⟩, _⟩ h0 -
    refine ⟨⟨⟨e24.lt i1, (e3.trans e4).lt i2, i4⟩, n4⟩, _, b4, ?_⟩
    rw [s4 h0, k1, k2, v4]
    exact h
  rintro _ c5 e5 -
  refine Spec.pure e5.wf ⟨⟨?_, ?_, ?_⟩, ?_, bitsAt_ext e5 n4 b4, fun h0 => ?_⟩ ?_
  · exact (e5.val idx (e24.lt i1)).trans k1
  · exact (e5.val el ((e3.trans e4).lt i2)).trans k2
  · exact (e5.val cm i4).trans v4
  · have := b3.length_eq
    simpa using this
  · rw [sibsAt_ext e5 n4]
    exact s4 (by rw [← e5.val 0 e4.wf.z]; exact h0)
  · rintro w - - g5 g4 g3 g2 g1
    exact ⟨g3, fun path hp => g5 path hp⟩

theorem memberFlow_rel (K : Consts) (x x' : ZMod p) (n n' : ℕ) (e e' : ZMod p) {proof proof' : List (List (ZMod p))}
    (h : SameShape proof proof') (com com' : ZMod p) :
    Rel (memberFlow K x n e proof com) (memberFlow K x' n' e' proof' com') :=
  Rel.bind (Rel.createVariable _ _) fun _ => Rel.bind (Rel.createVariable _ _) fun _ =>
    Rel.bind (createMembershipProofVariable_rel n n' h) fun _ => Rel.bind (Rel.createVariable _ _) fun _ =>
    Rel.bind (enforceMembershipProof_rel _ _ _ _ _) fun _ => Rel.pure _

/-- **C37, the honest flow exactly.** -/
theorem C37_flow_iff (hp2 : p ≠ 2) (hf : HashOk K f) (x : ZMod p) (n : ℕ) (e : ZMod p)
    (proof : List (List (ZMod p))) (hs : ∀ s ∈ proof, s.length = 2) (com : ZMod p) {c : Circ p} (hc : WF c)
    {pi : List (ZMod p)} (hch : checkSat c pi = .ok ()) :
    (∃ v c', memberFlow K x n e proof com c = .ok (v, c') ∧ checkSat c' pi = .ok ()) ↔ MemberAt f x n e proof com := by
  have h := memberFlow_spec hp2 hf x n e proof hs com hc
  constructor
  · rintro ⟨v, c', hm, hck⟩
    obtain ⟨e1, ⟨⟨b1, b2, b3⟩, b4, b5, b6⟩, r⟩ := h.sound v c' hm
    have hsat := (checkSat_ok e1.wf pi).1 hck
    obtain ⟨-, r2⟩ := r pi _ hsat
    obtain ⟨r3, r4⟩ := r2 _ b5
    rw [levels, b6 (hsat.zero e1.wf), b1, b2] at r3 r4
    rw [b3] at r4
    exact ⟨r3, r4⟩
  · intro hA
    obtain ⟨v, c', hm, hsat⟩ := h.complete hA pi ((checkSat_ok hc pi).1 hch)
    exact ⟨v, c', hm, (checkSat_ok (h.sound v c' hm).1.wf pi).2 hsat⟩

theorem toPath_pathVal : ∀ path : List (Fin 3), toPath 3 (pathVal path) path.length = path
  | [] => rfl
  | b :: bs => by
    have h1 : Fin.ofNat 3 (b + 3 * pathVal bs) = b := by
      apply Fin.ext
      simp only [Fin.ofNat]
      have := b.isLt
      omega
    have h2 : (b + 3 * pathVal bs) / 3 = pathVal bs := by have := b.isLt; omega
    simp only [pathVal, List.length_cons, toPath, h1, h2, toPath_pathVal bs]

theorem pathVal_lt : ∀ path : List (Fin 3), pathVal path < 3 ^ path.length
  | [] => by simp [pathVal]
  | b :: bs => by
    have := pathVal_lt bs
    have := b.isLt
    simp only [pathVal, List.length_cons, pow_succ]
    omega

theorem sameShape_of {proof proof' : List (List (ZMod p))} (hl : proof'.length = proof.length)
    (h : ∀ s ∈ proof, s.length = 2) (h' : ∀ s ∈ proof', s.length = 2) : SameShape proof proof' := by
  unfold SameShape
  rw [List.forall₂_iff_get]
  refine ⟨hl.symm, fun i h1 h2 => ?_⟩
  rw [h _ (List.get_mem _ _), h' _ (List.get_mem _ _)]

/-- **C37, what the circuit of the flow proves.** The index, element and commitment variables can take the values
`x'`, `e'`, `r'` if and only if for some position `n'` below `3 ^ height` and some siblings the leaf `(x', e')` folds to
`r'` along the path of `n'`. Nothing relates `n'` to `x'`. -/
theorem C37_flow_adversary (hp2 : p ≠ 2) (hf : HashOk K f) {x : ZMod p} {n : ℕ} {e : ZMod p}
    {proof : List (List (ZMod p))} (hs : ∀ s ∈ proof, s.length = 2) {com : ZMod p} {c : Circ p} (hc : WF c)
    {v : ℕ × ℕ × List NodeVar × ℕ} {c' : Circ p} (hm : memberFlow K x n e proof com c = .ok (v, c'))
    {pi : List (ZMod p)} {w₀ : ℕ → ZMod p} (hw : Sat c pi w₀) (x' e' r' : ZMod p) :
    (∃ w, Sat c' pi w ∧ w v.1 = x' ∧ w v.2.1 = e' ∧ w v.2.2.2 = r') ↔
      ∃ (n' : ℕ) (proof' : List (List (ZMod p))), n' < 3 ^ proof.length ∧ proof'.length = proof.length ∧
        (∀ s ∈ proof', s.length = 2) ∧ MemberAt f x' n' e' proof' r' := by
  constructor
  · rintro ⟨w, hsat, rfl, rfl, rfl⟩
    obtain ⟨-, ⟨-, b4, -, -⟩, r⟩ := (memberFlow_spec hp2 hf x n e proof hs com hc).sound v c' hm
    obtain ⟨⟨path, hp⟩, r2⟩ := r pi w hsat
    have hl : path.length = proof.length := by rw [← hp.length_eq, b4]
    refine ⟨pathVal path, v.2.2.1.map (sibsAt w), by rw [← hl]; exact pathVal_lt path, by simp [b4],
      by simp [sibsAt], ?_⟩
    unfold MemberAt
    rw [List.length_map, b4, ← hl, toPath_pathVal]
    exact r2 path hp
  · rintro ⟨n', proof', -, hl, hs', hA⟩
    obtain ⟨d', -, ⟨⟨b1, b2, b3⟩, -⟩, -, -, hsat⟩ := Spec.universal''
      (memberFlow_rel K x x' n n' e e' (sameShape_of hl hs hs') com r') hc
      (memberFlow_spec hp2 hf x' n' e' proof' hs' r' (assign_wf hc w₀)) hA hm hw
    exact ⟨d'.val, hsat, b1, b2, b3⟩

/-- two foldings along a path hash different inputs to the same value at some level -/
def Collision (f : Vec (ZMod p) → Vec (ZMod p)) (path : List (Fin 3)) (p₁ : List (List (ZMod p))) (i₁ : ZMod p)
    (p₂ : List (List (ZMod p))) (i₂ : ZMod p) : Prop :=
  ∃ k < path.length, Merkle.levelInput (rescueHasher f) path p₁ i₁ k ≠ Merkle.levelInput (rescueHasher f) path p₂ i₂ k ∧
    zeroPadHash f (0 :: Merkle.levelInput (rescueHasher f) path p₁ i₁ k) =
      zeroPadHash f (0 :: Merkle.levelInput (rescueHasher f) path p₂ i₂ k)

/-- a folding meets the label zero -/
def ZeroLabel (f : Vec (ZMod p) → Vec (ZMod p)) (path : List (Fin 3)) (p₁ : List (List (ZMod p))) (i₁ : ZMod p) : Prop :=
  i₁ = 0 ∨ ∃ k < path.length, zeroPadHash f (0 :: Merkle.levelInput (rescueHasher f) path p₁ i₁ k) = 0

theorem foldTo_all (path : List (Fin 3)) (proof : List (List (ZMod p))) (i : ZMod p) (hl : proof.length = path.length) :
    Merkle.foldTo (rescueHasher f) path proof i path.length = root (rescueHasher f) (path.zip proof) i := by
  unfold Merkle.foldTo root
  rw [List.take_length, List.take_of_length_le hl.le]

/-- **C37, binding.** Whatever assignment satisfies the circuit, its bits encode a path, hence a position `n'` below
`3 ^ height`. Every native proof of that length accepted for the commitment at `n'` is for the same element, the index
variable holds `n'` modulo the field, and the siblings are the same; otherwise the two foldings show a collision. -/
theorem C37_binding (hp2 : p ≠ 2) (hf : HashOk K f) {x : ZMod p} {n : ℕ} {e : ZMod p}
    {proof : List (List (ZMod p))} (hs : ∀ s ∈ proof, s.length = 2) {com : ZMod p} {c : Circ p} (hc : WF c)
    {v : ℕ × ℕ × List NodeVar × ℕ} {c' : Circ p} (hm : memberFlow K x n e proof com c = .ok (v, c'))
    {pi : List (ZMod p)} {w : ℕ → ZMod p} (hw : Sat c' pi w) :
    ∃ path : List (Fin 3), path.length = proof.length ∧ List.Forall₂ (BitsAt w) v.2.2.1 path ∧
      ∀ (e₂ : ZMod p) (proof₂ : List (List (ZMod p))), proof₂.length = proof.length →
        Tree.verify 3 (rescueHasher f) id (w v.2.2.2) (pathVal path) e₂ proof₂ = .ok true →
        (w v.1 = pathVal path ∧ w v.2.1 = e₂ ∧ v.2.2.1.map (sibsAt w) = proof₂) ∨
        ([1, w v.1, w v.2.1] ≠ [1, (pathVal path : ZMod p), e₂] ∧
          zeroPadHash f [1, w v.1, w v.2.1] = zeroPadHash f [1, (pathVal path : ZMod p), e₂]) ∨
        Collision f path (v.2.2.1.map (sibsAt w)) (zeroPadHash f [1, w v.1, w v.2.1]) proof₂
          (zeroPadHash f [1, (pathVal path : ZMod p), e₂]) := by
  obtain ⟨-, ⟨-, b4, -, -⟩, r⟩ := (memberFlow_spec hp2 hf x n e proof hs com hc).sound v c' hm
  obtain ⟨⟨path, hp⟩, r2⟩ := r pi w hw
  have hl : path.length = proof.length := by rw [← hp.length_eq, b4]
  obtain ⟨-, hroot⟩ := r2 path hp
  refine ⟨path, hl, hp, ?_⟩
  intro e₂ proof₂ hl2 hv2
  rw [verify_iff] at hv2
  obtain ⟨hw2, hr2⟩ := hv2
  rw [hl2, ← hl, toPath_pathVal] at hr2
  have hlen1 : (v.2.2.1.map (sibsAt w)).length = path.length := by simp [b4, hl]
  have hlen2 : proof₂.length = path.length := by rw [hl2, hl]
  have hw1 : ∀ s ∈ v.2.2.1.map (sibsAt w), s.length = 3 - 1 := by simp [sibsAt]
  have heq := (foldTo_all (f := f) path _ (zeroPadHash f [1, w v.1, w v.2.1]) hlen1).trans
    ((hroot.trans hr2.symm).trans (foldTo_all path proof₂ _ hlen2).symm)
  rcases Merkle.fold_binding (rescueHasher f) (by norm_num : 2 ≤ 3) path _ proof₂ _ _ path.length le_rfl hlen1.ge
    hlen2.ge hw1 hw2 heq with ⟨h1, h2⟩ | ⟨k, hk, h1, h2⟩
  · by_cases hne : [1, w v.1, w v.2.1] = [1, (pathVal path : ZMod p), e₂]
    · simp only [List.cons.injEq, and_true, true_and] at hne
      rw [List.take_of_length_le hlen1.le, List.take_of_length_le hlen2.le] at h2
      exact Or.inl ⟨hne.1, hne.2, h2⟩
    · exact Or.inr (Or.inl ⟨hne, h1⟩)
  · exact Or.inr (Or.inr ⟨k, hk, h1, h2⟩)

/-! ### Against the commitment of a tree -/

open Verif.Props.Merkle (Op run specRun emptyStore Store Sim run_sim sim_new present)

/-- what the native lookup of a tree built by a history offers at each position -/
theorem lookup_history (ops : List (Op ℕ (ZMod p))) (height : ℕ) (hrange : ∀ op ∈ ops, op.pos < 3 ^ height)
    (hlen : ops.length < 2 ^ 64) {t : Tree 3 (ZMod p) ℕ (ZMod p)}
    {outs : List (Verif.Merkle.LookupResult (ZMod p) Unit Unit)}
    (ht : run (rescueHasher f) id (Tree.new height) ops = .ok (t, outs)) (n : ℕ) (hn : n < 3 ^ height) :
    match (specRun id emptyStore ops).1 n with
    | some e => ∃ proof, proof.length = height ∧ t.universalLookup (rescueHasher f) id n = .ok (.ok e proof) ∧
        Tree.verify 3 (rescueHasher f) id (t.commitment (rescueHasher f)) n e proof = .ok true
    | none => ∃ proof, proof.length = height ∧ t.universalLookup (rescueHasher f) id n = .ok (.notFound proof) ∧
        Tree.nonMembershipVerify 3 (rescueHasher f) id (t.commitment (rescueHasher f)) n proof = .ok true := by
  have hp0 : present (emptyStore : Store (ZMod p)) (3 ^ height) = 0 := by simp [present, emptyStore]
  obtain ⟨t', m, h1, h2, h3, -⟩ := run_sim (rescueHasher f) id ops (Tree.new height) emptyStore _
    (sim_new (rescueHasher f) id height) hrange hp0.symm (by simpa [Tree.new, hp0] using hlen)
  rw [ht] at h1
  simp only [Except.ok.injEq, Prod.mk.injEq] at h1
  obtain ⟨rfl, -⟩ := h1
  simp only [Tree.new] at h3
  have hwf : t.WellFormed (rescueHasher f) id := by
    unfold Tree.WellFormed
    rw [h2.root]
    apply Merkle.canon_wf
    intro path p e hth hm
    have hpl : path.length = t.height := by have := hth.1; simpa using this
    have := h2.coherent path p e hm
    rw [hpl]; exact this
  have hag := h2.agree n (by rw [h3]; exact hn)
  have hl := Merkle.lookup_canon (rescueHasher f) m t.height [] (toPath 3 n t.height) (Merkle.Through.root _ _)
  rw [← h2.root] at hl
  obtain ⟨r, hr, hok, hnf⟩ := Merkle.lookup_fold (rescueHasher f) id (by norm_num : 2 ≤ 3) t.height []
    (toPath 3 n t.height) t.root hwf (Merkle.Through.root _ _)
  cases hm : m (toPath 3 n t.height) with
  | none =>
    rw [hm] at hl hag
    obtain ⟨q, hq⟩ := hl
    rw [← hag]
    rw [hq] at hr
    simp only [Except.ok.injEq] at hr
    exact ⟨q, (hnf q hr.symm).1.trans h3, hq,
      Merkle.lookup_notFound_verifies _ id (by norm_num) t hwf n q hq⟩
  | some pe =>
    obtain ⟨p0, e⟩ := pe
    rw [hm] at hl hag
    obtain ⟨q, hq⟩ := hl
    rw [← hag]
    rw [hq] at hr
    simp only [Except.ok.injEq] at hr
    exact ⟨q, (hok e q hr.symm).1.trans h3, hq,
      Merkle.lookup_ok_verifies _ id Function.injective_id (by norm_num) t hwf n (by rw [h3]; exact hn) e q hq⟩

/-- **C37, membership circuits are sound for trees.** If the commitment variable holds the commitment of a tree built
by any history of updates, of the height of the proof, then the element variable holds an element stored at a position
`n'` of the tree and the index variable holds `n'`; or the assignment shows a collision or a label zero. -/
theorem C37_sound_on_trees (hp2 : p ≠ 2) (hf : HashOk K f) {x : ZMod p} {n : ℕ} {e : ZMod p}
    {proof : List (List (ZMod p))} (hs : ∀ s ∈ proof, s.length = 2) {com : ZMod p} {c : Circ p} (hc : WF c)
    {v : ℕ × ℕ × List NodeVar × ℕ} {c' : Circ p} (hm : memberFlow K x n e proof com c = .ok (v, c'))
    {pi : List (ZMod p)} {w : ℕ → ZMod p} (hw : Sat c' pi w)
    (ops : List (Op ℕ (ZMod p))) (hrange : ∀ op ∈ ops, op.pos < 3 ^ proof.length) (hlen : ops.length < 2 ^ 64)
    {t : Tree 3 (ZMod p) ℕ (ZMod p)} {outs : List (Verif.Merkle.LookupResult (ZMod p) Unit Unit)}
    (ht : run (rescueHasher f) id (Tree.new proof.length) ops = .ok (t, outs))
    (hcom : w v.2.2.2 = t.commitment (rescueHasher f)) :
    ∃ n' : ℕ, n' < 3 ^ proof.length ∧
      ((w v.1 = n' ∧ (specRun id emptyStore ops).1 n' = some (w v.2.1)) ∨
      let path := toPath 3 n' proof.length
      let leaf := zeroPadHash f [1, w v.1, w v.2.1]
      let sibs := v.2.2.1.map (sibsAt w)
      ZeroLabel f path sibs leaf ∨
      (∃ proof₂, t.universalLookup (rescueHasher f) id n' = .ok (.notFound proof₂) ∧
        Collision f path sibs leaf proof₂ 0) ∨
      (∃ e₂ proof₂, t.universalLookup (rescueHasher f) id n' = .ok (.ok e₂ proof₂) ∧
        (([1, w v.1, w v.2.1] ≠ [1, (n' : ZMod p), e₂] ∧ leaf = zeroPadHash f [1, (n' : ZMod p), e₂]) ∨
          Collision f path sibs leaf proof₂ (zeroPadHash f [1, (n' : ZMod p), e₂])))) := by
  obtain ⟨path, hl, hp, hb⟩ := C37_binding hp2 hf hs hc hm hw
  have hlt : pathVal path < 3 ^ proof.length := by rw [← hl]; exact pathVal_lt path
  have hpath : toPath 3 (pathVal path) proof.length = path := by rw [← hl]; exact toPath_pathVal path
  refine ⟨pathVal path, hlt, ?_⟩
  simp only [hpath]
  have hh := lookup_history ops proof.length hrange hlen ht (pathVal path) hlt
  cases hst : (specRun id emptyStore ops).1 (pathVal path) with
  | some e₂ =>
    rw [hst] at hh
    obtain ⟨proof₂, h1, h2, h3⟩ := hh
    rcases hb e₂ proof₂ h1 (by rw [hcom]; exact h3) with ⟨g1, g2, -⟩ | g | g
    · left; exact ⟨g1, by rw [g2]⟩
    · right; right; right; exact ⟨e₂, proof₂, h2, Or.inl g⟩
    · right; right; right; exact ⟨e₂, proof₂, h2, Or.inr g⟩
  | none =>
    rw [hst] at hh
    obtain ⟨proof₂, h1, h2, h3⟩ := hh
    right
    obtain ⟨-, ⟨-, b4, -, -⟩, r⟩ := (memberFlow_spec hp2 hf x n e proof hs com hc).sound v c' hm
    obtain ⟨-, r2⟩ := r pi w hw
    obtain ⟨-, hroot⟩ := r2 path hp
    rw [nonMembershipVerify_iff] at h3
    obtain ⟨hw2, hr2⟩ := h3
    rw [h1, hpath] at hr2
    have hlen1 : (v.2.2.1.map (sibsAt w)).length = path.length := by simp [b4, hl]
    have hlen2 : proof₂.length = path.length := by rw [h1, hl]
    have heq := (foldTo_all (f := f) path _ (zeroPadHash f [1, w v.1, w v.2.1]) hlen1).trans
      ((hroot.trans (hcom.trans hr2.symm)).trans (foldTo_all path proof₂ _ hlen2).symm)
    rcases Merkle.fold_exclusive (rescueHasher f) (by norm_num : 2 ≤ 3) path _ proof₂ _ path.length le_rfl hlen1.ge
      hlen2.ge (by simp [sibsAt]) hw2 heq with g | ⟨k, hk, g⟩ | ⟨k, hk, g1, -, g2⟩
    · left; left; exact g
    · left; right; exact ⟨k, hk, g⟩
    · right; left; exact ⟨proof₂, h2, k, hk, g1, g2⟩

/-! ### Disagreements -/

/-- **C37 fails for sparse trees.** For every hash: put one element into the middle slot of an empty tree of height 1.
The tree's own membership proof is accepted by the native verifier, and the circuit built from it is not satisfied. No
assignment with these bits and siblings satisfies it either, so `is_member` has no value there, rather than the value
false. -/
theorem C37_sparse_counterexample (hp2 : p ≠ 2) (hf : HashOk K f) (e : ZMod p) {c : Circ p} (hc : WF c)
    {pi : List (ZMod p)} (hch : checkSat c pi = .ok ()) :
    ∃ t : Tree 3 (ZMod p) ℕ (ZMod p),
      Tree.update (rescueHasher f) id (Tree.new 1) 1 e = .ok (t, .notFound ()) ∧
      t.universalLookup (rescueHasher f) id 1 = .ok (.ok e [[0, 0]]) ∧
      Tree.verify 3 (rescueHasher f) id (t.commitment (rescueHasher f)) 1 e [[0, 0]] = .ok true ∧
      ¬ ∃ v c', memberFlow K 1 1 e [[0, 0]] (t.commitment (rescueHasher f)) c = .ok (v, c') ∧
        checkSat c' pi = .ok () := by
  refine ⟨_, rfl, rfl, ?_, ?_⟩
  · rw [verify_iff]
    exact ⟨by simp, rfl⟩
  · rw [C37_flow_iff hp2 hf 1 1 e [[0, 0]] (by simp) _ hc hch]
    rintro ⟨h, -⟩
    exact h.1 (by simp)

/-- the same for `is_member`: no assignment at all -/
theorem C37_is_member_undefined_counterexample (hf : HashOk K f) {idx elem com : ℕ} {n : NodeVar} {c : Circ p}
    (hc : WF c) (hd : MDom [idx, elem, com] [n] c) {c' : Circ p} {b : ℕ}
    (hm : isMember K idx elem [n] com c = .ok (b, c')) {pi : List (ZMod p)} {w : ℕ → ZMod p}
    (hmid : BitsAt w n 1) (h1 : w n.s1 = 0) : ¬ Sat c' pi w := by
  intro hsat
  obtain ⟨h, -⟩ := ((C37_is_member_circuit hf idx elem [n] com).sound c hc hd b c' hm pi w hsat).2 [1]
    (.cons hmid .nil)
  exact h.1 (by simp [sibsAt, h1])

/-- **C37, the index variable is not tied to the path.** For every hash, every element and siblings: with the index
variable 0 and a proof variable for position 1 the circuit accepts `digest [s₁, leaf (0, e), s₂]`. The native verifier
rejects the same index, element, proof and commitment, unless `[leaf, s₁, s₂]` and `[s₁, leaf, s₂]` collide. -/
theorem C37_index_counterexample (hp2 : p ≠ 2) (hf : HashOk K f) (e s₁ s₂ : ZMod p) (h1 : s₁ ≠ 0)
    (hleaf : s₁ ≠ zeroPadHash f [1, 0, e]) {c : Circ p} (hc : WF c) {pi : List (ZMod p)}
    (hch : checkSat c pi = .ok ()) :
    let com := zeroPadHash f [0, s₁, zeroPadHash f [1, 0, e], s₂]
    (∃ v c', memberFlow K 0 1 e [[s₁, s₂]] com c = .ok (v, c') ∧ checkSat c' pi = .ok ()) ∧
    (Tree.verify 3 (rescueHasher f) id com 0 e [[s₁, s₂]] = .ok true →
      [0, zeroPadHash f [1, 0, e], s₁, s₂] ≠ [0, s₁, zeroPadHash f [1, 0, e], s₂] ∧
      zeroPadHash f [0, zeroPadHash f [1, 0, e], s₁, s₂] = zeroPadHash f [0, s₁, zeroPadHash f [1, 0, e], s₂]) := by
  refine ⟨?_, ?_⟩
  · rw [C37_flow_iff hp2 hf 0 1 e [[s₁, s₂]] (by simp) _ hc hch]
    exact ⟨⟨by simpa [toPath] using h1, trivial⟩, rfl⟩
  · rw [verify_iff]
    rintro ⟨-, h⟩
    refine ⟨fun hh => ?_, ?_⟩
    · simp only [List.cons.injEq, and_true, true_and] at hh
      exact hleaf hh.2
    · have h0 : (rescueHasher f).digestLeaf 0 e = zeroPadHash f [1, 0, e] := by simp [rescueHasher]
      rw [h0] at h
      exact h

/-! ## Non-membership -/

/-- **C37, `is_non_member`, all assignments.** -/
theorem C37_is_nonmember_circuit (hf : HashOk K f) (idx : ℕ) (nodes : List NodeVar) (com : ℕ) :
    Correct (isNonMember K idx nodes com) (MDom [idx, com] nodes)
      (fun w => ∃ path, List.Forall₂ (BitsAt w) nodes path)
      (fun v w => ∀ path, List.Forall₂ (BitsAt w) nodes path →
        w v = if (pathVal path : ZMod p) = w idx ∧
          (levels w nodes path).foldl (sparseStep (rescueHasher f)) 0 = w com then 1 else 0) := by
  refine correct_of (isNonMember_rel K idx nodes com) (fun _ _ h => h) ?_
    fun c hc hd => ⟨fun v c' => v < c'.numVars, ?_⟩
  · rintro c w w' ⟨hv, hn⟩ hw ⟨path, h1⟩
    exact ⟨path, bits_congr hw hn h1⟩
  · exact Spec.conseq hc (isNonMember_spec hf hc idx nodes com)
      (fun h _ _ => ⟨⟨⟨hd.1 idx (by simp), hd.1 com (by simp)⟩, hd.2⟩, h⟩)
      (fun _ _ _ h => h) (fun _ _ _ _ h => h)

/-- **C37, `enforce_non_membership_proof`, all assignments.** -/
theorem C37_enforce_nonmember_circuit (hf : HashOk K f) (idx : ℕ) (nodes : List NodeVar) (com : ℕ) :
    Correct (enforceNonMembershipProof K idx nodes com) (MDom [idx, com] nodes)
      (fun w => ∃ path, List.Forall₂ (BitsAt w) nodes path ∧ (pathVal path : ZMod p) = w idx ∧
        (levels w nodes path).foldl (sparseStep (rescueHasher f)) 0 = w com)
      (fun _ w => ∀ path, List.Forall₂ (BitsAt w) nodes path → (pathVal path : ZMod p) = w idx ∧
        (levels w nodes path).foldl (sparseStep (rescueHasher f)) 0 = w com) := by
  refine correct_of (enforceNonMembershipProof_rel K idx nodes com) (fun _ _ h => h) ?_
    fun c hc hd => ⟨fun _ _ => True, ?_⟩
  · rintro c w w' ⟨hv, hn⟩ hw ⟨path, h1, h2, h3⟩
    refine ⟨path, bits_congr hw hn h1, by rw [hw _ (hv idx (by simp))]; exact h2, ?_⟩
    rw [levels_congr hw path hn, hw _ (hv com (by simp))]
    exact h3
  · exact Spec.conseq hc (enforceNonMembershipProof_spec hf hc idx nodes com)
      (fun h _ _ => ⟨⟨⟨hd.1 idx (by simp), hd.1 com (by simp)⟩, hd.2⟩, h⟩)
      (fun _ _ _ h => h) (fun _ _ _ _ h => h)

/-- the native form of a proof in which empty subtrees are written as zero siblings: a level is empty as long as the
running label and all siblings are zero -/
def normalise (H : Hasher (ZMod p) ℕ (ZMod p)) : List (Fin 3 × List (ZMod p)) → ZMod p → List (List (ZMod p))
  | [], _ => []
  | bs :: rest, cur =>
    (if cur = 0 ∧ ∀ s ∈ bs.2, s = 0 then [] else bs.2) :: normalise H rest (sparseStep H cur bs)

theorem normalise_length (H : Hasher (ZMod p) ℕ (ZMod p)) : ∀ L cur, (normalise H L cur).length = L.length
  | [], _ => rfl
  | bs :: rest, cur => by simp [normalise, normalise_length H rest]

theorem normalise_sizes (H : Hasher (ZMod p) ℕ (ZMod p)) : ∀ L cur, (∀ q ∈ L, q.2.length = 2) →
    ∀ s ∈ normalise H L cur, s.length = 2 ∨ s = []
  | [], _, _, s, hs => by simp [normalise] at hs
  | bs :: rest, cur, h, s, hs => by
    rcases List.mem_cons.1 hs with rfl | hs
    · split
      · exact Or.inr rfl
      · exact Or.inl (h bs (by simp))
    · exact normalise_sizes H rest _ (fun q hq => h q (by simp [hq])) s hs

theorem sparse_eq_native {H : Hasher (ZMod p) ℕ (ZMod p)} (hd : H.dflt = 0) :
    ∀ (path : List (Fin 3)) (sibs : List (List (ZMod p))) (cur : ZMod p), path.length = sibs.length →
      (∀ s ∈ sibs, s.length = 2) →
      (path.zip sibs).foldl (sparseStep H) cur = (path.zip (normalise H (path.zip sibs) cur)).foldl (foldStep H) cur
  | [], _, _, _, _ => rfl
  | b :: path, [], _, h, _ => by simp at h
  | b :: path, s :: sibs, cur, h, hs => by
    have ih := sparse_eq_native hd path sibs (sparseStep H cur (b, s)) (by simpa using h)
      (fun t ht => hs t (by simp [ht]))
    have hs2 := hs s (by simp)
    rw [List.zip_cons_cons, List.foldl_cons, ih, normalise, List.zip_cons_cons, List.foldl_cons]
    congr 1
    unfold sparseStep foldStep
    by_cases hz : cur = 0 ∧ ∀ t ∈ s, t = 0
    · simp only [if_pos hz, if_true, hd]
    · rw [if_neg hz, if_neg hz, if_neg (fun h0 => by rw [show s = [] from h0] at hs2; simp at hs2)]

/-- native acceptance of the normalised proof at the position of the path -/
theorem sparse_iff_native (path : List (Fin 3)) (sibs : List (List (ZMod p))) (com : ZMod p)
    (hl : path.length = sibs.length) (hs : ∀ s ∈ sibs, s.length = 2) :
    (path.zip sibs).foldl (sparseStep (rescueHasher f)) 0 = com ↔
      Tree.nonMembershipVerify 3 (rescueHasher f) id com (pathVal path)
        (normalise (rescueHasher f) (path.zip sibs) 0) = .ok true := by
  rw [nonMembershipVerify_iff, sparse_eq_native rfl path sibs 0 hl hs, normalise_length]
  have : (path.zip sibs).length = path.length := by simp [hl]
  rw [this, toPath_pathVal]
  refine ⟨fun h => ⟨normalise_sizes _ _ _ fun q hq => hs _ (List.of_mem_zip hq).2, h⟩, fun h => h.2⟩

/-- **C37, non-membership, exactly.** The bits of the proof variable encode a path: an assignment extends to the gadget
if and only if the index variable holds the position of the path (modulo the field) and the native verifier accepts, at
that position, the proof in which the all-zero levels at the bottom are written as empty levels. -/
theorem C37_nonmember_exact (hf : HashOk K f) {idx : ℕ} {nodes : List NodeVar} {com : ℕ} {c : Circ p}
    (hc : WF c) (hd : MDom [idx, com] nodes c) {c' : Circ p} {u : Unit}
    (hm : enforceNonMembershipProof K idx nodes com c = .ok (u, c')) {pi : List (ZMod p)} {w : ℕ → ZMod p}
    (hw : Sat c pi w) (path : List (Fin 3)) (hb : List.Forall₂ (BitsAt w) nodes path) :
    (∃ w' : ℕ → ZMod p, (∀ i, i < c.numVars → w' i = w i) ∧ Sat c' pi w') ↔
      w idx = (pathVal path : ZMod p) ∧ Tree.nonMembershipVerify 3 (rescueHasher f) id (w com) (pathVal path)
        (normalise (rescueHasher f) (levels w nodes path) 0) = .ok true := by
  have h := C37_enforce_nonmember_circuit hf idx nodes com
  unfold levels
  rw [← sparse_iff_native path (nodes.map (sibsAt w)) (w com) (by simp [hb.length_eq]) (by simp [sibsAt])]
  constructor
  · rintro ⟨w', h1, h2⟩
    obtain ⟨g1, g2⟩ := (h.sound c hc hd u c' hm pi w' h2).2 _ (bits_congr h1 hd.2 hb)
    rw [h1 _ (hd.1 idx (by simp))] at g1
    rw [levels_congr h1 _ hd.2, h1 _ (hd.1 com (by simp))] at g2
    exact ⟨g1.symm, g2⟩
  · rintro ⟨g1, g2⟩
    exact h.complete c hc hd u c' hm pi w hw ⟨_, hb, g1.symm, g2⟩

/-- index variable, non-membership proof variable, commitment variable, `enforce_non_membership_proof` -/
def nonMemberFlow (K : Consts) (x : ZMod p) (n : ℕ) (proof : List (List (ZMod p))) (com : ZMod p) :
    Build p (ℕ × List NodeVar × ℕ) := do
  let idx ← createVariable x
  let nodes ← createNonMembershipProofVariable n proof
  let cm ← createVariable com
  enforceNonMembershipProof K idx nodes cm
  pure (idx, nodes, cm)

/-- absence at the position `n`, as the circuit sees it -/
def AbsentAt (f : Vec (ZMod p) → Vec (ZMod p)) (x : ZMod p) (n : ℕ) (proof : List (List (ZMod p)))
    (com : ZMod p) : Prop :=
  x = ((n % 3 ^ proof.length : ℕ) : ZMod p) ∧
    ((toPath 3 n proof.length).zip (proof.map padSibs)).foldl (sparseStep (rescueHasher f)) 0 = com

theorem pathVal_toPath (n h : ℕ) : pathVal (toPath 3 n h) = n % 3 ^ h := by
  have h1 := toPath_pathVal (toPath 3 n h)
  rw [Merkle.toPath_length] at h1
  have h2 := pathVal_lt (toPath 3 n h)
  rw [Merkle.toPath_length] at h2
  rw [Merkle.toPath_mod n h] at h1 h2 ⊢
  exact Merkle.toPath_inj _ _ h h2 (Nat.mod_lt _ (by positivity)) h1

theorem nonMemberFlow_spec (hp2 : p ≠ 2) (hf : HashOk K f) (x : ZMod p) (n : ℕ)
    (proof : List (List (ZMod p))) (hs : ∀ s ∈ proof, s.length ≠ 1) (com : ZMod p) {c : Circ p} (hc : WF c) :
    Spec (nonMemberFlow K x n proof com) c (AbsentAt f x n proof com)
      (fun v c' => (c'.val v.1 = x ∧ c'.val v.2.2 = com) ∧ v.2.1.length = proof.length ∧
        List.Forall₂ (BitsAt c'.val) v.2.1 (toPath 3 n proof.length) ∧
        (c'.val 0 = 0 → v.2.1.map (sibsAt c'.val) = proof.map padSibs))
      (fun v w => (∃ path, List.Forall₂ (BitsAt w) v.2.1 path) ∧
        ∀ path, List.Forall₂ (BitsAt w) v.2.1 path → (pathVal path : ZMod p) = w v.1 ∧
          (levels w v.2.1 path).foldl (sparseStep (rescueHasher f)) 0 = w v.2.2) := by
  unfold nonMemberFlow
  refine Spec.bind (createVariable_spec hc x True) (fun _ _ _ => trivial) hc ?_
  rintro idx c1 e1 ⟨i1, v1⟩
  refine Spec.bind (createNonMembershipProofVariable_spec hp2 n proof e1.wf) (fun _ _ _ => hs) e1.wf ?_
  rintro nodes c3 e3 ⟨i3, b3, s3⟩
  refine Spec.bind (createVariable_spec e3.wf com True) (fun _ _ _ => trivial) e3.wf ?_
  rintro cm c4 e4 ⟨i4, v4⟩
  have e24 := e3.trans e4
  have k1 := (e24.val idx i1).trans v1
  have b4 := bitsAt_ext e4 i3 b3
  have s4 : c4.val 0 = 0 → nodes.map (sibsAt c4.val) = proof.map padSibs := fun h0 => by
    rw [sibsAt_ext e4 i3, s3 (by rw [← e4.val 0 e3.wf.z]; exact h0)]
  have n4 : ∀ m ∈ nodes, NIn c4 m := fun m hm => (i3 m hm).ext e4
  refine Spec.bind (enforceNonMembershipProof_spec hf e4.wf idx nodes cm) ?_ e4.wf ?_
  · rintro ⟨⟨⟨⟨h1, h2⟩, _⟩, _⟩, _⟩ h0 -
    refine ⟨⟨⟨e24.lt i1, i4⟩, n4⟩, _, b4, ?_⟩
    rw [s4 h0, k1, v4, pathVal_toPath]
    exact ⟨h1.symm, h2⟩
  rintro _ c5 e5 -
  refine Spec.pure e5.wf ⟨⟨?_, ?_⟩, ?_, bitsAt_ext e5 n4 b4, fun h0 => ?_⟩ ?_
  · exact (e5.val idx (e24.lt i1)).trans k1
  · exact (e5.val cm i4).trans v4
  · have := b3.length_eq
    simpa using this
  · rw [sibsAt_ext e5 n4]
    exact s4 (by rw [← e5.val 0 e4.wf.z]; exact h0)
  · rintro w - - g5 g4 g3 g1
    exact ⟨g3, fun path hp => g5 path hp⟩

theorem nonMemberFlow_rel (K : Consts) (x x' : ZMod p) (n n' : ℕ) {proof proof' : List (List (ZMod p))}
    (h : SameShape proof proof') (com com' : ZMod p) :
    Rel (nonMemberFlow K x n proof com) (nonMemberFlow K x' n' proof' com') :=
  Rel.bind (Rel.createVariable _ _) fun _ =>
    Rel.bind (createNonMembershipProofVariable_rel n n' h) fun _ => Rel.bind (Rel.createVariable _ _) fun _ =>
    Rel.bind (enforceNonMembershipProof_rel _ _ _ _) fun _ => Rel.pure _

/-- **C37, the honest non-membership flow, exactly.** -/
theorem C37_nonmember_flow_iff (hp2 : p ≠ 2) (hf : HashOk K f) (x : ZMod p) (n : ℕ)
    (proof : List (List (ZMod p))) (hs : ∀ s ∈ proof, s.length = 2 ∨ s = []) (com : ZMod p) {c : Circ p} (hc : WF c)
    {pi : List (ZMod p)} (hch : checkSat c pi = .ok ()) :
    (∃ v c', nonMemberFlow K x n proof com c = .ok (v, c') ∧ checkSat c' pi = .ok ()) ↔
      x = ((n % 3 ^ proof.length : ℕ) : ZMod p) ∧ Tree.nonMembershipVerify 3 (rescueHasher f) id com n
        (normalise (rescueHasher f) ((toPath 3 n proof.length).zip (proof.map padSibs)) 0) = .ok true := by
  have hs1 : ∀ s ∈ proof, s.length ≠ 1 := fun s hm => by rcases hs s hm with h | h <;> simp [h]
  have hpad : ∀ s ∈ proof.map padSibs, s.length = 2 := by
    intro s hm
    obtain ⟨t, ht, rfl⟩ := List.mem_map.1 hm
    unfold padSibs
    rcases hs t ht with h | h
    · rw [if_neg (by rintro rfl; simp at h), List.length_take]; omega
    · simp [h]
  have hpos : ∀ q, q.length = proof.length →
      (Tree.nonMembershipVerify 3 (rescueHasher f) id com n q = .ok true ↔
      Tree.nonMembershipVerify 3 (rescueHasher f) id com (pathVal (toPath 3 n proof.length)) q = .ok true) := by
    intro q hq
    rw [nonMembershipVerify_iff, nonMembershipVerify_iff, hq, pathVal_toPath, ← Merkle.toPath_mod]
  rw [hpos _ (by simp [normalise_length]), ← sparse_iff_native _ _ _ (by simp) hpad]
  have h := nonMemberFlow_spec hp2 hf x n proof hs1 com hc
  constructor
  · rintro ⟨v, c', hm, hck⟩
    obtain ⟨e1, ⟨⟨b1, b2⟩, b4, b5, b6⟩, r⟩ := h.sound v c' hm
    have hsat := (checkSat_ok e1.wf pi).1 hck
    obtain ⟨-, r2⟩ := r pi _ hsat
    obtain ⟨r3, r4⟩ := r2 _ b5
    rw [pathVal_toPath, b1] at r3
    rw [levels, b6 (hsat.zero e1.wf), b2] at r4
    exact ⟨r3.symm, r4⟩
  · intro hA
    obtain ⟨v, c', hm, hsat⟩ := h.complete hA pi ((checkSat_ok hc pi).1 hch)
    exact ⟨v, c', hm, (checkSat_ok (h.sound v c' hm).1.wf pi).2 hsat⟩

/-- **C37, non-membership circuits are sound with respect to the native verifier.** Whatever satisfies the circuit
contains a position below `3 ^ height`, equal to the index variable modulo the field, and a native non-membership
proof of that height for it. -/
theorem C37_nonmember_sound (hp2 : p ≠ 2) (hf : HashOk K f) {x : ZMod p} {n : ℕ} {proof : List (List (ZMod p))}
    (hs : ∀ s ∈ proof, s.length ≠ 1) {com : ZMod p} {c : Circ p} (hc : WF c) {v : ℕ × List NodeVar × ℕ}
    {c' : Circ p} (hm : nonMemberFlow K x n proof com c = .ok (v, c')) {pi : List (ZMod p)} {w : ℕ → ZMod p}
    (hw : Sat c' pi w) :
    ∃ (n' : ℕ) (proof' : List (List (ZMod p))), n' < 3 ^ proof.length ∧ proof'.length = proof.length ∧
      w v.1 = (n' : ZMod p) ∧ Tree.nonMembershipVerify 3 (rescueHasher f) id (w v.2.2) n' proof' = .ok true := by
  obtain ⟨-, ⟨-, b4, -, -⟩, r⟩ := (nonMemberFlow_spec hp2 hf x n proof hs com hc).sound v c' hm
  obtain ⟨⟨path, hp⟩, r2⟩ := r pi w hw
  have hl : path.length = proof.length := by rw [← hp.length_eq, b4]
  obtain ⟨h1, h2⟩ := r2 path hp
  have hl' : path.length = (v.2.1.map (sibsAt w)).length := by simp [b4, hl]
  exact ⟨pathVal path, normalise (rescueHasher f) (levels w v.2.1 path) 0, by rw [← hl]; exact pathVal_lt path,
    by simp [normalise_length, levels, b4, hl], h1.symm,
    (sparse_iff_native path (v.2.1.map (sibsAt w)) _ hl' (by simp [sibsAt])).1 h2⟩

/-- **C37, what the non-membership circuit proves,** for a proof variable made without empty levels: the index and
commitment variables can take the values `x'`, `r'` if and only if for some position congruent to `x'` the native
verifier accepts a non-membership proof of the same height which is empty exactly where everything below is zero. -/
theorem C37_nonmember_flow_adversary (hp2 : p ≠ 2) (hf : HashOk K f) {x : ZMod p} {n : ℕ}
    {proof : List (List (ZMod p))} (hs : ∀ s ∈ proof, s.length = 2) {com : ZMod p} {c : Circ p} (hc : WF c)
    {v : ℕ × List NodeVar × ℕ} {c' : Circ p} (hm : nonMemberFlow K x n proof com c = .ok (v, c'))
    {pi : List (ZMod p)} {w₀ : ℕ → ZMod p} (hw : Sat c pi w₀) (x' r' : ZMod p) :
    (∃ w, Sat c' pi w ∧ w v.1 = x' ∧ w v.2.2 = r') ↔
      ∃ (n' : ℕ) (sibs : List (List (ZMod p))), n' < 3 ^ proof.length ∧ sibs.length = proof.length ∧
        (∀ s ∈ sibs, s.length = 2) ∧ x' = (n' : ZMod p) ∧
        Tree.nonMembershipVerify 3 (rescueHasher f) id r' n'
          (normalise (rescueHasher f) ((toPath 3 n' proof.length).zip sibs) 0) = .ok true := by
  have hs1 : ∀ s ∈ proof, s.length ≠ 1 := fun s hm => by simp [hs s hm]
  constructor
  · rintro ⟨w, hsat, rfl, rfl⟩
    obtain ⟨-, ⟨-, b4, -, -⟩, r⟩ := (nonMemberFlow_spec hp2 hf x n proof hs1 com hc).sound v c' hm
    obtain ⟨⟨path, hp⟩, r2⟩ := r pi w hsat
    have hl : path.length = proof.length := by rw [← hp.length_eq, b4]
    obtain ⟨h1, h2⟩ := r2 path hp
    have hl' : path.length = (v.2.1.map (sibsAt w)).length := by simp [b4, hl]
    refine ⟨pathVal path, v.2.1.map (sibsAt w), by rw [← hl]; exact pathVal_lt path, by simp [b4], by simp [sibsAt],
      h1.symm, ?_⟩
    rw [← hl, toPath_pathVal]
    exact (sparse_iff_native path (v.2.1.map (sibsAt w)) _ hl' (by simp [sibsAt])).1 h2
  · rintro ⟨n', sibs, hn, hl, hs', rfl, hA⟩
    have hs1' : ∀ s ∈ sibs, s.length ≠ 1 := fun s hm => by simp [hs' s hm]
    have hA' : AbsentAt f (n' : ZMod p) n' sibs r' := by
      refine ⟨by rw [hl, Nat.mod_eq_of_lt hn], ?_⟩
      rw [padSibs_map hs', hl, sparse_iff_native _ _ _ (by simp [hl]) hs', pathVal_toPath, Nat.mod_eq_of_lt hn]
      exact hA
    obtain ⟨d', -, ⟨⟨b1, b2⟩, -⟩, -, -, hsat⟩ := Spec.universal''
      (nonMemberFlow_rel K x n' n n' (sameShape_of hl hs hs') com r') hc
      (nonMemberFlow_spec hp2 hf n' n' sibs hs1' r' (assign_wf hc w₀)) hA' hm hw
    exact ⟨d'.val, hsat, b1, b2⟩

/-- **C37, non-membership circuits are sound for trees.** If the commitment variable holds the commitment of a tree
built by any history, of the height of the proof, then some position equal to the index variable modulo the field is
absent; or the native proof extracted from the assignment and the tree's own membership proof show a collision or a
label zero. -/
theorem C37_nonmember_sound_on_trees (hp2 : p ≠ 2) (hf : HashOk K f) {x : ZMod p} {n : ℕ}
    {proof : List (List (ZMod p))} (hs : ∀ s ∈ proof, s.length ≠ 1) {com : ZMod p} {c : Circ p} (hc : WF c)
    {v : ℕ × List NodeVar × ℕ} {c' : Circ p} (hm : nonMemberFlow K x n proof com c = .ok (v, c'))
    {pi : List (ZMod p)} {w : ℕ → ZMod p} (hw : Sat c' pi w)
    (ops : List (Op ℕ (ZMod p))) (hrange : ∀ op ∈ ops, op.pos < 3 ^ proof.length) (hlen : ops.length < 2 ^ 64)
    {t : Tree 3 (ZMod p) ℕ (ZMod p)} {outs : List (Verif.Merkle.LookupResult (ZMod p) Unit Unit)}
    (ht : run (rescueHasher f) id (Tree.new proof.length) ops = .ok (t, outs))
    (hcom : w v.2.2 = t.commitment (rescueHasher f)) :
    ∃ (n' : ℕ) (proof' : List (List (ZMod p))), n' < 3 ^ proof.length ∧ w v.1 = (n' : ZMod p) ∧
      Tree.nonMembershipVerify 3 (rescueHasher f) id (w v.2.2) n' proof' = .ok true ∧
      ((specRun id emptyStore ops).1 n' = none ∨
      ∃ e₂ proof₂, t.universalLookup (rescueHasher f) id n' = .ok (.ok e₂ proof₂) ∧
        let path := toPath 3 n' proof.length
        let leaf := zeroPadHash f [1, (n' : ZMod p), e₂]
        (ZeroLabel f path proof₂ leaf ∨ Collision f path proof₂ leaf proof' 0)) := by
  obtain ⟨n', proof', h1, h2, h3, h4⟩ := C37_nonmember_sound hp2 hf hs hc hm hw
  refine ⟨n', proof', h1, h3, h4, ?_⟩
  have hh := lookup_history ops proof.length hrange hlen ht n' h1
  cases hst : (specRun id emptyStore ops).1 n' with
  | none => left; rfl
  | some e₂ =>
    rw [hst] at hh
    obtain ⟨proof₂, g1, g2, g3⟩ := hh
    right
    refine ⟨e₂, proof₂, g2, ?_⟩
    rw [hcom] at h4
    rcases Verif.Props.Merkle.C07_present_xor_absent_partial (rescueHasher f) id (by norm_num : 2 ≤ 3) _ n' e₂ proof₂
      proof' (by rw [g1, h2]) g3 h4 with g | ⟨k, hk, g⟩ | ⟨k, hk, g4, -, g5⟩
    · left; left; exact g
    · left; right
      rw [g1] at g hk
      exact ⟨k, by simpa using hk, g⟩
    · right
      rw [g1] at g4 g5 hk
      exact ⟨k, by simpa using hk, g4, g5⟩

theorem normalise_append (H : Hasher (ZMod p) ℕ (ZMod p)) : ∀ (L : List (Fin 3 × List (ZMod p))) (q) (cur : ZMod p),
    normalise H (L ++ [q]) cur = normalise H L cur ++
      [if L.foldl (sparseStep H) cur = 0 ∧ ∀ s ∈ q.2, s = 0 then [] else q.2]
  | [], q, cur => rfl
  | bs :: L, q, cur => by rw [List.cons_append, normalise, normalise_append H L]; rfl

/-- no label of the tree is zero, except those of the empty subtrees -/
def NoZeroLabel (H : Hasher (ZMod p) ℕ (ZMod p)) : Verif.Merkle.Node 3 (ZMod p) ℕ (ZMod p) → Prop
  | .empty => True
  | .leaf v _ _ => v ≠ 0
  | .forgotten v => v ≠ 0
  | .branch v c => v ≠ 0 ∧ ∀ i, NoZeroLabel H (c i)

theorem noZero_value {H : Hasher (ZMod p) ℕ (ZMod p)} {n : Verif.Merkle.Node 3 (ZMod p) ℕ (ZMod p)}
    (h : NoZeroLabel H n) (hne : n ≠ .empty) : n.value H ≠ 0 := by
  cases n with
  | empty => exact absurd rfl hne
  | leaf => exact h
  | forgotten => exact h
  | branch => exact h.1

theorem normalise_replicate (H : Hasher (ZMod p) ℕ (ZMod p)) : ∀ (path : List (Fin 3)),
    normalise H (path.zip ((List.replicate path.length []).map padSibs)) 0 = List.replicate path.length [] ∧
    (path.zip ((List.replicate path.length []).map padSibs)).foldl (sparseStep H) 0 = 0
  | [] => ⟨rfl, rfl⟩
  | b :: path => by
    obtain ⟨h1, h2⟩ := normalise_replicate H path
    have hz : (0 : ZMod p) = 0 ∧ ∀ s ∈ padSibs ([] : List (ZMod p)), s = 0 := by simp [padSibs]
    have hs : sparseStep H 0 (b, padSibs []) = 0 := if_pos hz
    constructor
    · simp only [List.length_cons, List.replicate_succ, List.map_cons, List.zip_cons_cons, normalise, hs, h1,
        List.cons.injEq, and_true]
      simp [padSibs]
    · simp only [List.length_cons, List.replicate_succ, List.map_cons, List.zip_cons_cons, List.foldl_cons, hs, h2]

/-- the non-membership proofs of a tree without zero labels are their own normal form -/
theorem lookup_clean (H : Hasher (ZMod p) ℕ (ZMod p)) (hd : H.dflt = 0)
    (m : Verif.Merkle.Content 3 ℕ (ZMod p)) : ∀ (h : ℕ) (pre path : List (Fin 3)), Merkle.Through h pre path →
    NoZeroLabel H (Merkle.canon H m h pre) → ∀ q, Merkle.lookupInternal H h (Merkle.canon H m h pre) path = .ok (.notFound q) →
      q.length = h ∧ normalise H ((path.take h).zip (q.map padSibs)) 0 = q ∧
      ((path.take h).zip (q.map padSibs)).foldl (sparseStep H) 0 = (Merkle.canon H m h pre).value H := by
  intro h
  induction h with
  | zero =>
    intro pre path _ _ q hq
    simp only [Merkle.canon] at hq ⊢
    cases hm : m pre with
    | none =>
      simp only [hm, Merkle.lookupInternal, Except.ok.injEq, Verif.Merkle.LookupResult.notFound.injEq,
        List.replicate_zero] at hq
      subst hq
      exact ⟨rfl, by simp [normalise], by simp [Verif.Merkle.Node.value, hd]⟩
    | some pe => simp [hm, Merkle.mkLeaf, Merkle.lookupInternal] at hq
  | succ h ih =>
    intro pre path ht hz q hq
    obtain ⟨b, hb, htb⟩ := ht.step
    have hlen : (path.take (h + 1)).length = h + 1 := by
      have := ht.1
      rw [List.length_take]; omega
    by_cases hall : ((List.finRange 3).all fun i => (Merkle.canon H m h (i :: pre)).isEmpty) = true
    · have hemp : Merkle.canon H m (h + 1) pre = .empty := by simp only [Merkle.canon, hall, if_true]
      rw [hemp] at hq ⊢
      simp only [Merkle.lookupInternal, Except.ok.injEq, Verif.Merkle.LookupResult.notFound.injEq] at hq
      subst hq
      obtain ⟨h1, h2⟩ := normalise_replicate H (path.take (h + 1))
      rw [hlen] at h1 h2
      exact ⟨by simp, h1, by rw [h2]; exact hd.symm⟩
    · have hbr : Merkle.canon H m (h + 1) pre = Merkle.mkBranch H fun i => Merkle.canon H m h (i :: pre) := by
        simp only [Merkle.canon, hall, if_false, Bool.false_eq_true]
      rw [hbr] at hq hz ⊢
      simp only [Merkle.mkBranch, Merkle.lookupInternal, hb] at hq
      cases hr : Merkle.lookupInternal H h (Merkle.canon H m h (b :: pre)) path with
      | error e => simp [hr] at hq
      | ok r =>
        cases r with
        | ok e q' => simp [hr] at hq
        | notInMemory => simp [hr] at hq
        | notFound q' =>
          simp only [hr, Except.ok.injEq, Verif.Merkle.LookupResult.notFound.injEq] at hq
          subst hq
          obtain ⟨h1, h2, h3⟩ := ih (b :: pre) path htb (hz.2 b) q' hr
          set cs : Fin 3 → Verif.Merkle.Node 3 (ZMod p) ℕ (ZMod p) := fun i => Merkle.canon H m h (i :: pre) with hcs
          set sb := Merkle.siblings H cs b with hsb
          have hsl : sb.length = 2 := Merkle.siblings_length H cs b
          have hpad : padSibs sb = sb := by
            unfold padSibs
            rw [if_neg (by rintro h0; rw [h0] at hsl; simp at hsl), List.take_of_length_le (by omega)]
          have hzip : (path.take (h + 1)).zip ((q' ++ [sb]).map padSibs) =
              (path.take h).zip (q'.map padSibs) ++ [(b, sb)] := by
            rw [Merkle.Through.take htb, List.map_append, List.zip_append (by
              have := htb.1
              simp only [List.length_cons] at this
              simp [h1]; omega)]
            simp [hpad]
          have hnz : ¬ ((cs b).value H = 0 ∧ ∀ s ∈ sb, s = 0) := by
            rintro ⟨k1, k2⟩
            apply hall
            rw [List.all_eq_true]
            intro i _
            rw [Merkle.isEmpty_iff]
            by_contra hne
            have := noZero_value (hz.2 i) hne
            by_cases hib : i = b
            · rw [hib] at this; exact this k1
            · exact this (k2 _ (List.mem_map.2 ⟨i, by simp [hib], rfl⟩))
          have hcv : ((path.take h).zip (q'.map padSibs)).foldl (sparseStep H) 0 = (cs b).value H := h3
          refine ⟨by simp [h1], ?_, ?_⟩
          · rw [hzip, normalise_append, h2, hcv]
            simp only [if_neg hnz]
          · rw [hzip, List.foldl_append, hcv]
            show sparseStep H ((cs b).value H) (b, sb) = Merkle.digestBranch H cs
            rw [← Merkle.foldStep_siblings H cs b (by norm_num)]
            unfold sparseStep foldStep
            rw [if_neg hnz, if_neg (fun h0 => by rw [show Merkle.siblings H cs b = [] from h0] at hsb; rw [hsb] at hsl; simp at hsl)]

/-- **C37, non-membership circuits are complete for trees (partial).** For a tree built by any history, and an absent
position: the circuit made from the tree's own non-membership proof is satisfied, if no label in the tree is zero.
Missing for the full statement: trees in which the hash of a leaf or a branch is zero. -/
theorem C37_nonmember_complete_partial (hp2 : p ≠ 2) (hf : HashOk K f) (ops : List (Op ℕ (ZMod p))) (height : ℕ)
    (hrange : ∀ op ∈ ops, op.pos < 3 ^ height) (hlen : ops.length < 2 ^ 64)
    {t : Tree 3 (ZMod p) ℕ (ZMod p)} {outs : List (Verif.Merkle.LookupResult (ZMod p) Unit Unit)}
    (ht : run (rescueHasher f) id (Tree.new height) ops = .ok (t, outs)) (hz : NoZeroLabel (rescueHasher f) t.root)
    (n : ℕ) (hn : n < 3 ^ height) {q : List (List (ZMod p))}
    (hl : t.universalLookup (rescueHasher f) id n = .ok (.notFound q)) {c : Circ p} (hc : WF c)
    {pi : List (ZMod p)} (hch : checkSat c pi = .ok ()) :
    ∃ v c', nonMemberFlow K (n : ZMod p) n q (t.commitment (rescueHasher f)) c = .ok (v, c') ∧
      checkSat c' pi = .ok () := by
  have hp0 : present (emptyStore : Store (ZMod p)) (3 ^ height) = 0 := by simp [present, emptyStore]
  obtain ⟨t', m, h1, h2, h3, -⟩ := run_sim (rescueHasher f) id ops (Tree.new height) emptyStore _
    (sim_new (rescueHasher f) id height) hrange hp0.symm (by simpa [Tree.new, hp0] using hlen)
  rw [ht] at h1
  simp only [Except.ok.injEq, Prod.mk.injEq] at h1
  obtain ⟨rfl, -⟩ := h1
  simp only [Tree.new] at h3
  have hth := Merkle.Through.root (a := 3) n t.height
  unfold Tree.universalLookup at hl
  rw [h2.root] at hl hz
  obtain ⟨g1, g2, g3⟩ := lookup_clean (rescueHasher f) rfl m t.height [] _ hth hz q hl
  have hnative := lookup_history (f := f) ops height hrange hlen ht n hn
  have hsizes : (∀ s ∈ q, s.length = 2 ∨ s = []) ∧
      Tree.nonMembershipVerify 3 (rescueHasher f) id (t.commitment (rescueHasher f)) n q = .ok true := by
    unfold Tree.universalLookup at hnative
    rw [h2.root] at hnative
    cases hst : (specRun id emptyStore ops).1 n with
    | some e =>
      rw [hst] at hnative
      obtain ⟨_, -, hx, -⟩ := hnative
      exact absurd (hl.symm.trans hx) (by simp)
    | none =>
      rw [hst] at hnative
      obtain ⟨q2, -, hx, hv⟩ := hnative
      have : q = q2 := by
        have := hl.symm.trans hx
        simpa using this
      subst this
      exact ⟨((nonMembershipVerify_iff _ _ _).1 hv).1, hv⟩
  rw [C37_nonmember_flow_iff hp2 hf _ _ _ hsizes.1 _ hc hch]
  rw [List.take_of_length_le (by simp)] at g2
  have hqh : q.length = height := g1.trans h3
  refine ⟨by rw [hqh, Nat.mod_eq_of_lt hn], ?_⟩
  rw [g1, g2]
  exact hsizes.2

/-! ### Completeness of membership: trees filled from the left -/

theorem LeftOk_append (H : Hasher (ZMod p) ℕ (ZMod p)) : ∀ (L : List (Fin 3 × List (ZMod p))) (q) (cur : ZMod p),
    LeftOk H (L ++ [q]) cur ↔ LeftOk H L cur ∧ (if q.1 = 0 then L.foldl (foldStep H) cur else q.2.headD 0) ≠ 0
  | [], q, cur => by simp [LeftOk]
  | bs :: L, q, cur => by
    rw [List.cons_append, LeftOk, LeftOk_append H L, LeftOk, List.foldl_cons, and_assoc]

/-- with a path, the leftmost leaf below each node on it is present -/
def LeftFilled (m : Verif.Merkle.Content 3 ℕ (ZMod p)) (path : List (Fin 3)) : Prop :=
  ∀ k ≤ path.length, m (List.replicate k 0 ++ path.drop k) ≠ none

theorem siblings_head (H : Hasher (ZMod p) ℕ (ZMod p)) (cs : Fin 3 → Verif.Merkle.Node 3 (ZMod p) ℕ (ZMod p)) (b : Fin 3)
    (hb : b ≠ 0) : (Merkle.siblings H cs b).headD 0 = (cs 0).value H := by
  rw [Merkle.siblings_eq_eraseIdx]
  fin_cases b
  · exact absurd rfl hb
  · simp
  · simp

theorem lookup_left (H : Hasher (ZMod p) ℕ (ZMod p))
    (m : Verif.Merkle.Content 3 ℕ (ZMod p)) : ∀ (h : ℕ) (pre path : List (Fin 3)), Merkle.Through h pre path →
    NoZeroLabel H (Merkle.canon H m h pre) → LeftFilled m path → ∀ p0 e, m path = some (p0, e) → ∀ q,
      Merkle.lookupInternal H h (Merkle.canon H m h pre) path = .ok (.ok e q) →
      q.length = h ∧ LeftOk H ((path.take h).zip q) (H.digestLeaf p0 e) ∧
      ((path.take h).zip q).foldl (foldStep H) (H.digestLeaf p0 e) = (Merkle.canon H m h pre).value H := by
  intro h
  induction h with
  | zero =>
    intro pre path ht _ _ p0 e hm q hq
    have := ht.zero
    subst this
    simp only [Merkle.canon, hm, Merkle.mkLeaf, Merkle.lookupInternal, Except.ok.injEq,
      Verif.Merkle.LookupResult.ok.injEq, true_and] at hq ⊢
    subst hq
    exact ⟨rfl, by simp [LeftOk], by simp [Verif.Merkle.Node.value]⟩
  | succ h ih =>
    intro pre path ht hz hleft p0 e hm q hq
    obtain ⟨b, hb, htb⟩ := ht.step
    by_cases hall : ((List.finRange 3).all fun i => (Merkle.canon H m h (i :: pre)).isEmpty) = true
    · have hemp : Merkle.canon H m (h + 1) pre = .empty := by simp only [Merkle.canon, hall, if_true]
      rw [hemp] at hq
      simp [Merkle.lookupInternal] at hq
    · have hbr : Merkle.canon H m (h + 1) pre = Merkle.mkBranch H fun i => Merkle.canon H m h (i :: pre) := by
        simp only [Merkle.canon, hall, if_false, Bool.false_eq_true]
      rw [hbr] at hq hz ⊢
      simp only [Merkle.mkBranch, Merkle.lookupInternal, hb] at hq
      cases hr : Merkle.lookupInternal H h (Merkle.canon H m h (b :: pre)) path with
      | error e => simp [hr] at hq
      | ok r =>
        cases r with
        | notFound q' => simp [hr] at hq
        | notInMemory => simp [hr] at hq
        | ok e' q' =>
          simp only [hr, Except.ok.injEq, Verif.Merkle.LookupResult.ok.injEq] at hq
          obtain ⟨rfl, rfl⟩ := hq
          obtain ⟨h1, h2, h3⟩ := ih (b :: pre) path htb (hz.2 b) hleft p0 e' hm q' hr
          set cs : Fin 3 → Verif.Merkle.Node 3 (ZMod p) ℕ (ZMod p) := fun i => Merkle.canon H m h (i :: pre) with hcs
          have hzip : (path.take (h + 1)).zip (q' ++ [Merkle.siblings H cs b]) =
              (path.take h).zip q' ++ [(b, Merkle.siblings H cs b)] := by
            rw [Merkle.Through.take htb, List.zip_append (by
              have := htb.1
              simp only [List.length_cons] at this
              simp [h1]; omega)]
            simp
          have hpl : h + 1 ≤ path.length := by have := ht.1; omega
          have h0 : (cs 0).value H ≠ 0 := by
            refine noZero_value (hz.2 0) fun he => ?_
            refine hleft (h + 1) hpl (Merkle.canon_empty H m h (0 :: pre) _ ⟨?_, ?_⟩ he)
            · have := ht.1
              simp; omega
            · rw [List.replicate_succ', List.append_assoc, List.drop_left' (by simp), ht.2]
              rfl
          have hcv : ((path.take h).zip q').foldl (foldStep H) (H.digestLeaf p0 e') = (cs b).value H := h3
          refine ⟨by simp [h1], ?_, ?_⟩
          · rw [hzip, LeftOk_append]
            refine ⟨h2, ?_⟩
            by_cases hb0 : b = 0
            · rw [if_pos hb0, hcv, hb0]; exact h0
            · rw [if_neg hb0]
              show (Merkle.siblings H cs b).headD 0 ≠ 0
              rw [siblings_head H cs b hb0]; exact h0
          · rw [hzip, List.foldl_append, hcv]
            exact Merkle.foldStep_siblings H cs b (by norm_num)

theorem pathVal_leftmost : ∀ (k : ℕ) (path : List (Fin 3)), k ≤ path.length →
    pathVal (List.replicate k 0 ++ path.drop k) ≤ pathVal path
  | 0, path, _ => by simp
  | k + 1, [], h => by simp at h
  | k + 1, b :: path, h => by
    have := pathVal_leftmost k path (by simpa using h)
    simp only [List.replicate_succ, List.cons_append, List.drop_succ_cons, pathVal, Fin.val_zero]
    omega

/-- **C37, membership circuits are complete for trees filled from the left (partial).** For a tree built by any
history and a present position `n` such that every position below `n` is present too (as in every append-only tree):
the circuit made from the tree's own membership proof is satisfied, if no label in the tree is zero. Missing for the
full statement: trees with gaps, for which it is false, and trees with a label zero. -/
theorem C37_member_complete_partial (hp2 : p ≠ 2) (hf : HashOk K f) (ops : List (Op ℕ (ZMod p))) (height : ℕ)
    (hrange : ∀ op ∈ ops, op.pos < 3 ^ height) (hlen : ops.length < 2 ^ 64)
    {t : Tree 3 (ZMod p) ℕ (ZMod p)} {outs : List (Verif.Merkle.LookupResult (ZMod p) Unit Unit)}
    (ht : run (rescueHasher f) id (Tree.new height) ops = .ok (t, outs)) (hz : NoZeroLabel (rescueHasher f) t.root)
    (n : ℕ) (hn : n < 3 ^ height) (hfill : ∀ i ≤ n, (specRun id emptyStore ops).1 i ≠ none)
    {e : ZMod p} {q : List (List (ZMod p))}
    (hl : t.universalLookup (rescueHasher f) id n = .ok (.ok e q)) {c : Circ p} (hc : WF c)
    {pi : List (ZMod p)} (hch : checkSat c pi = .ok ()) :
    ∃ v c', memberFlow K (n : ZMod p) n e q (t.commitment (rescueHasher f)) c = .ok (v, c') ∧
      checkSat c' pi = .ok () := by
  have hp0 : present (emptyStore : Store (ZMod p)) (3 ^ height) = 0 := by simp [present, emptyStore]
  obtain ⟨t', m, h1, h2, h3, -⟩ := run_sim (rescueHasher f) id ops (Tree.new height) emptyStore _
    (sim_new (rescueHasher f) id height) hrange hp0.symm (by simpa [Tree.new, hp0] using hlen)
  rw [ht] at h1
  simp only [Except.ok.injEq, Prod.mk.injEq] at h1
  obtain ⟨rfl, -⟩ := h1
  simp only [Tree.new] at h3
  have hth := Merkle.Through.root (a := 3) n t.height
  have hl' := hl
  unfold Tree.universalLookup at hl
  rw [h2.root] at hl hz
  have hcan := Merkle.lookup_canon (rescueHasher f) m t.height [] _ hth
  have hag := h2.agree n (by rw [h3]; exact hn)
  obtain ⟨p0, hm⟩ : ∃ p0, m (toPath 3 n t.height) = some (p0, e) := by
    cases hmm : m (toPath 3 n t.height) with
    | none =>
      rw [hmm] at hcan
      obtain ⟨_, hx⟩ := hcan
      exact absurd (hl.symm.trans hx) (by simp)
    | some pe =>
      obtain ⟨p0, e0⟩ := pe
      rw [hmm] at hcan
      obtain ⟨_, hx⟩ := hcan
      have := hl.symm.trans hx
      simp only [Except.ok.injEq, Verif.Merkle.LookupResult.ok.injEq] at this
      exact ⟨p0, by rw [this.1]⟩
  have hp0n : p0 = n := by
    obtain ⟨g1, g2⟩ := h2.coherent _ _ _ hm
    exact Merkle.toPath_inj _ _ _ g1 (by rw [h3]; exact hn) g2
  subst hp0n
  have hleft : LeftFilled m (toPath 3 p0 t.height) := by
    intro k hk
    set pth := List.replicate k (0 : Fin 3) ++ (toPath 3 p0 t.height).drop k with hpth
    have hkt : k ≤ t.height := by simpa using hk
    have hpl : pth.length = t.height := by simp [hpth]; omega
    have hle : pathVal pth ≤ p0 := by
      have := pathVal_leftmost k _ hk
      rw [pathVal_toPath, Nat.mod_eq_of_lt (by rw [h3]; exact hn)] at this
      exact this
    have hag' := h2.agree (pathVal pth) (by rw [← hpl]; exact pathVal_lt pth)
    rw [← hpl, toPath_pathVal] at hag'
    intro hnone
    rw [hnone] at hag'
    exact hfill _ hle hag'.symm
  obtain ⟨g1, g2, g3⟩ := lookup_left (rescueHasher f) m t.height [] _ hth hz hleft p0 e hm q hl
  have hwf : t.WellFormed (rescueHasher f) id := by
    unfold Tree.WellFormed
    rw [h2.root]
    apply Merkle.canon_wf
    intro path p e hth hm
    have hpl : path.length = t.height := by have := hth.1; simpa using this
    have := h2.coherent path p e hm
    rw [hpl]; exact this
  have hver := (verify_iff _ _ _ _).1 (Merkle.lookup_ok_verifies _ id Function.injective_id (by norm_num) t hwf p0
    (by rw [h3]; exact hn) e q hl')
  rw [C37_flow_iff hp2 hf _ _ _ _ hver.1 _ hc hch]
  rw [List.take_of_length_le (by simp), ← g1] at g2
  exact ⟨g2, hver.2⟩

/-! ### Disagreements of the non-membership circuit -/

/-- **C37, positions are seen modulo the field.** In a tree with more than `p` positions, the circuit with index variable
`n` accepts the absence of position `n + p`, whatever is stored at `n`. -/
theorem C37_alias_counterexample (hp2 : p ≠ 2) (hf : HashOk K f) (ops : List (Op ℕ (ZMod p))) (height : ℕ)
    (hrange : ∀ op ∈ ops, op.pos < 3 ^ height) (hlen : ops.length < 2 ^ 64)
    {t : Tree 3 (ZMod p) ℕ (ZMod p)} {outs : List (Verif.Merkle.LookupResult (ZMod p) Unit Unit)}
    (ht : run (rescueHasher f) id (Tree.new height) ops = .ok (t, outs)) (hz : NoZeroLabel (rescueHasher f) t.root)
    (n : ℕ) (hn : n + p < 3 ^ height) {q : List (List (ZMod p))}
    (hl : t.universalLookup (rescueHasher f) id (n + p) = .ok (.notFound q)) {c : Circ p} (hc : WF c)
    {pi : List (ZMod p)} (hch : checkSat c pi = .ok ()) :
    ∃ v c', nonMemberFlow K (n : ZMod p) (n + p) q (t.commitment (rescueHasher f)) c = .ok (v, c') ∧
      checkSat c' pi = .ok () := by
  have := C37_nonmember_complete_partial hp2 hf ops height hrange hlen ht hz (n + p) hn hl hc hch
  simpa using this

/-- up to `p` positions the index variable determines the position -/
theorem C37_index_determines (h n n' : ℕ) (hh : 3 ^ h ≤ p) (hn : n < 3 ^ h) (hn' : n' < 3 ^ h)
    (he : (n : ZMod p) = (n' : ZMod p)) : n = n' := by
  rw [ZMod.natCast_eq_natCast_iff'] at he
  rwa [Nat.mod_eq_of_lt (by omega), Nat.mod_eq_of_lt (by omega)] at he

/-- **C37, member and non-member.** For every hash and element with a non-zero leaf `(1, e)`: under the commitment
`digest [leaf, 0, 0]` the membership circuit accepts index 1 with element `e`, and the non-membership circuit accepts
index 1. (The native verifier accepts no two such proofs without a collision or a label zero.) -/
theorem C37_member_and_nonmember_counterexample (hp2 : p ≠ 2) (hf : HashOk K f) (e : ZMod p)
    (hne : zeroPadHash f [1, 1, e] ≠ 0) {c : Circ p} (hc : WF c) {pi : List (ZMod p)} (hch : checkSat c pi = .ok ()) :
    let com := zeroPadHash f [0, zeroPadHash f [1, 1, e], 0, 0]
    (∃ v c', memberFlow K 1 0 e [[0, 0]] com c = .ok (v, c') ∧ checkSat c' pi = .ok ()) ∧
    (∃ v c', nonMemberFlow K 1 1 [[zeroPadHash f [1, 1, e], 0]] com c = .ok (v, c') ∧ checkSat c' pi = .ok ()) := by
  refine ⟨?_, ?_⟩
  · rw [C37_flow_iff hp2 hf 1 0 e [[0, 0]] (by simp) _ hc hch]
    exact ⟨⟨by simpa [toPath] using hne, trivial⟩, rfl⟩
  · rw [C37_nonmember_flow_iff hp2 hf 1 1 _ (by simp) _ hc hch]
    refine ⟨by simp, ?_⟩
    rw [nonMembershipVerify_iff]
    simp [normalise, padSibs, toPath, hne, root, foldStep]
    rfl

/-- **C37, zero siblings.** The circuit accepts the proof `[[0, 0]]` of absence under the commitment 0; the native
verifier accepts it only if `digest [0, 0, 0] = 0`. -/
theorem C37_zero_siblings_counterexample (hp2 : p ≠ 2) (hf : HashOk K f) {c : Circ p} (hc : WF c)
    {pi : List (ZMod p)} (hch : checkSat c pi = .ok ()) :
    (∃ v c', nonMemberFlow K 0 0 [[0, 0]] 0 c = .ok (v, c') ∧ checkSat c' pi = .ok ()) ∧
    (Tree.nonMembershipVerify 3 (rescueHasher f) id 0 0 [[0, 0]] = .ok true ↔ zeroPadHash f [0, 0, 0, 0] = 0) := by
  refine ⟨?_, ?_⟩
  · rw [C37_nonmember_flow_iff hp2 hf 0 0 _ (by simp) _ hc hch]
    refine ⟨by simp, ?_⟩
    rw [nonMembershipVerify_iff]
    simp [normalise, padSibs, toPath, root, foldStep]
    rfl
  · rw [nonMembershipVerify_iff]
    simp [toPath, root, foldStep]
    rfl

/-- **C37, the shape of the membership circuit does not depend on the witness,** -/
theorem C37_member_shape (K : Consts) (x x' : ZMod p) (n n' : ℕ) (e e' : ZMod p) {proof proof' : List (List (ZMod p))}
    (hl : proof'.length = proof.length) (h : ∀ s ∈ proof, s.length = 2) (h' : ∀ s ∈ proof', s.length = 2)
    (com com' : ZMod p) : Rel (memberFlow K x n e proof com) (memberFlow K x' n' e' proof' com') :=
  memberFlow_rel K x x' n n' e e' (sameShape_of hl h h') com com'

/-- adds `k` variables -/
def Grows {α : Type} (m : Build p α) (k : ℕ) : Prop := ∀ c v c', m c = .ok (v, c') → c'.numVars = c.numVars + k

theorem Grows.bind {α β : Type} {m : Build p α} {g : α → Build p β} {k l : ℕ} (h : Grows m k) (hg : ∀ v, Grows (g v) l) :
    Grows (m >>= g) (k + l) := by
  intro c v c' hm
  obtain ⟨u, c1, h1, h2⟩ := bind_ok hm
  rw [hg u c1 v c' h2, h c u c1 h1, Nat.add_assoc]

theorem Grows.pure {α : Type} (v : α) : Grows (Pure.pure v : Build p α) 0 := by
  intro c u c' h
  cases h; rfl

theorem grows_createVariable (x : ZMod p) : Grows (createVariable x) 1 := by
  intro c v c' h
  unfold createVariable at h
  split at h
  · cases h
  · cases h; rfl

theorem grows_insertGate (a b d e g : ℕ) (s : Sel p) : Grows (insertGate a b d e g s) 0 := by
  intro c v c' h
  unfold insertGate at h
  split at h
  · cases h
  · cases h; rfl

theorem grows_checkVar (a : ℕ) : Grows (checkVar a : Build p Unit) 0 := by
  intro c v c' h
  unfold checkVar at h
  split at h
  · cases h
  · cases h; rfl

theorem grows_witness (a : ℕ) : Grows (witness a : Build p (ZMod p)) 0 := by
  intro c v c' h
  unfold witness at h
  split at h
  · cases h
  · cases h; rfl

theorem grows_boolean (b : Bool) : Grows (createBooleanVariable b : Build p ℕ) 1 :=
  Grows.bind (grows_createVariable _) fun _ =>
    Grows.bind (Grows.bind (grows_checkVar _) fun _ => grows_insertGate _ _ _ _ _ _) fun _ => Grows.pure _

theorem grows_add (a b : ℕ) : Grows (add a b : Build p ℕ) 1 :=
  Grows.bind (k := 0) (l := 1) (grows_checkVar _) fun _ => Grows.bind (k := 0) (l := 1) (grows_checkVar _) fun _ =>
    Grows.bind (k := 0) (l := 1) (grows_witness _) fun _ => Grows.bind (k := 0) (l := 1) (grows_witness _) fun _ =>
    Grows.bind (k := 1) (l := 0) (grows_createVariable _) fun _ =>
      Grows.bind (k := 0) (l := 0) (Grows.bind (grows_checkVar _) fun _ => Grows.bind (grows_checkVar _) fun _ =>
        Grows.bind (grows_checkVar _) fun _ => grows_insertGate _ _ _ _ _ _) fun _ => Grows.pure _

theorem grows_bound (n : NodeVar) : Grows (boundNodes [n] : Build p Unit) 1 :=
  Grows.bind (k := 1) (l := 0) (grows_add _ _) fun _ => Grows.bind (k := 0) (l := 0)
    (Grows.bind (grows_checkVar _) fun _ => grows_insertGate _ _ _ _ _ _) fun _ => Grows.pure _

/-- **that of the non-membership circuit does.** Two proofs of the same height, one with an empty level: the circuit of
the second has two variables less. -/
theorem C37_nonmember_shape_counterexample (n : ℕ) (s₁ s₂ : ZMod p) {c : Circ p}
    {v₁ v₂ : List NodeVar} {c₁ c₂ : Circ p}
    (h₁ : createNonMembershipProofVariable n [[s₁, s₂]] c = .ok (v₁, c₁))
    (h₂ : createNonMembershipProofVariable n [[]] c = .ok (v₂, c₂)) : c₁.numVars = c₂.numVars + 2 := by
  have key : ∀ (s : List (ZMod p)) k, (∀ b, Grows (createNodeVarSparse b s) k) → ∀ v c',
      createNonMembershipProofVariable n [s] c = .ok (v, c') → c'.numVars = c.numVars + (k + 1) := by
    intro s k hk v c' h
    unfold createNonMembershipProofVariable at h
    obtain ⟨ns, d1, g1, g2⟩ := bind_ok h
    obtain ⟨u, d2, g3, g4⟩ := bind_ok g2
    cases g4
    simp only [toPath, List.length_singleton, List.zip_cons_cons, List.zip_nil_right, createNodes] at g1
    obtain ⟨m, d3, g5, g6⟩ := bind_ok g1
    obtain ⟨ms, d4, g7, g8⟩ := bind_ok g6
    cases g8
    cases g7
    rw [grows_bound m _ _ _ g3, hk _ _ _ _ g5, Nat.add_assoc]
  have e1 := key [s₁, s₂] 4 (fun b => Grows.bind (k := 1) (l := 3) (grows_createVariable _) fun _ =>
    Grows.bind (k := 1) (l := 2) (grows_createVariable _) fun _ => Grows.bind (k := 1) (l := 1) (grows_boolean _) fun _ =>
      Grows.bind (k := 1) (l := 0) (grows_boolean _) fun _ => Grows.pure _) v₁ c₁ h₁
  have e2 := key [] 2 (fun b => Grows.bind (k := 1) (l := 1) (grows_boolean _) fun _ =>
      Grows.bind (k := 1) (l := 0) (grows_boolean _) fun _ => Grows.pure _) v₂ c₂ h₂
  omega

/-! ## Examples: the small hash over seven elements -/

section Examples

open Verif.Rescue (toyConsts)

/-- the tree of the small hash with 3 at position 1 and height 2 -/
def toyOps : List (Op ℕ (ZMod 7)) := [⟨1, fun _ => some 3⟩]

/-- two elements from the left, height 1 -/
def toyOps' : List (Op ℕ (ZMod 7)) := [⟨0, fun _ => some 3⟩, ⟨1, fun _ => some 5⟩]

/-- the tree of a history -/
def toyTree (h : ℕ) (ops : List (Op ℕ (ZMod 7))) : Tree 3 (ZMod 7) ℕ (ZMod 7) :=
  match run (rescueHasher toyPerm) id (Tree.new h) ops with
  | .ok (t, _) => t
  | .error _ => Tree.new h

/-- no zero label, as a test -/
def noZero : Verif.Merkle.Node 3 (ZMod 7) ℕ (ZMod 7) → Bool
  | .empty => true
  | .leaf v _ _ => decide (v ≠ 0)
  | .forgotten v => decide (v ≠ 0)
  | .branch v c => decide (v ≠ 0) && (noZero (c 0) && (noZero (c 1) && noZero (c 2)))

theorem noZero_of : ∀ n : Verif.Merkle.Node 3 (ZMod 7) ℕ (ZMod 7), noZero n = true → NoZeroLabel (rescueHasher toyPerm) n
  | .empty, _ => trivial
  | .leaf v _ _, h => by simpa [noZero, NoZeroLabel] using h
  | .forgotten v, h => by simpa [noZero, NoZeroLabel] using h
  | .branch v c, h => by
    simp only [noZero, Bool.and_eq_true, decide_eq_true_eq] at h
    refine ⟨h.1, fun i => noZero_of _ ?_⟩
    fin_cases i
    · exact h.2.1
    · exact h.2.2.1
    · exact h.2.2.2

theorem toy_run (h : ℕ) (ops : List (Op ℕ (ZMod 7))) (hr : ∀ op ∈ ops, op.pos < 3 ^ h) (hl : ops.length < 2 ^ 64) :
    ∃ outs, run (rescueHasher toyPerm) id (Tree.new h) ops = .ok (toyTree h ops, outs) := by
  obtain ⟨t, h1, -⟩ := Verif.Props.Merkle.C01_universal_tree_is_map (rescueHasher toyPerm) id h ops hr hl
  exact ⟨_, by rw [toyTree, h1]⟩

/-- the result of a lookup of an absent position -/
def absentProof (t : Tree 3 (ZMod 7) ℕ (ZMod 7)) (n : ℕ) : List (List (ZMod 7)) :=
  match t.universalLookup (rescueHasher toyPerm) id n with
  | .ok (.notFound q) => q
  | _ => []

/-- the result of a lookup of a present position -/
def presentProof (t : Tree 3 (ZMod 7) ℕ (ZMod 7)) (n : ℕ) : ZMod 7 × List (List (ZMod 7)) :=
  match t.universalLookup (rescueHasher toyPerm) id n with
  | .ok (.ok e q) => (e, q)
  | _ => (0, [])

/-- the membership circuit accepts the element at position 1 of the tree with two elements -/
example : ∃ v c', memberFlow toyConsts (1 : ZMod 7) 1 5 [[1, 0]] ((toyTree 1 toyOps').commitment (rescueHasher toyPerm))
    demo = .ok (v, c') ∧ checkSat c' [] = .ok () := by
  obtain ⟨outs, ho⟩ := toy_run 1 toyOps' (by decide) (by decide)
  have hp : presentProof (toyTree 1 toyOps') 1 = (5, [[1, 0]]) := by decide +kernel
  have hl : (toyTree 1 toyOps').universalLookup (rescueHasher toyPerm) id 1 = .ok (.ok 5 [[1, 0]]) := by
    unfold presentProof at hp
    split at hp
    · rename_i e q heq
      rw [heq]
      simp only [Prod.mk.injEq] at hp
      rw [hp.1, hp.2]
    · exact absurd hp (by decide)
  have := C37_member_complete_partial (p := 7) (by decide) toy_hashOk toyOps' 1 (by decide) (by decide) ho
    (noZero_of _ (by decide +kernel)) 1 (by decide) (by decide) hl demo_wf (pi := []) (by decide +kernel)
  simpa using this

/-- position 8 of the tree with one element is absent, position 1 is present; the non-membership circuit accepts the
absence of 8 with the index variable `8 = 1` -/
example : (specRun id emptyStore toyOps).1 1 = some 3 ∧
    ∃ v c', nonMemberFlow toyConsts (1 : ZMod 7) 8 [[], [5, 0]]
      ((toyTree 2 toyOps).commitment (rescueHasher toyPerm)) demo = .ok (v, c') ∧ checkSat c' [] = .ok () := by
  refine ⟨by decide, ?_⟩
  obtain ⟨outs, ho⟩ := toy_run 2 toyOps (by decide) (by decide)
  have hp : absentProof (toyTree 2 toyOps) 8 = [[], [5, 0]] := by decide +kernel
  have hl : (toyTree 2 toyOps).universalLookup (rescueHasher toyPerm) id (1 + 7) = .ok (.notFound [[], [5, 0]]) := by
    unfold absentProof at hp
    split at hp
    · rename_i q heq
      rw [heq, hp]
    · exact absurd hp (by decide)
  have := C37_alias_counterexample (p := 7) (by decide) toy_hashOk toyOps 2 (by decide) (by decide) ho
    (noZero_of _ (by decide +kernel)) 1 (by decide) hl demo_wf (pi := []) (by decide +kernel)
  simpa using this

/-- the hypotheses of the counterexamples for the small hash -/
example : zeroPadHash toyPerm [1, 1, 5] ≠ 0 ∧ (1 : ZMod 7) ≠ zeroPadHash toyPerm [1, 0, 2] ∧ HashOk toyConsts toyPerm ∧
    checkSat demo [] = .ok () :=
  ⟨by decide +kernel, by decide +kernel, toy_hashOk, by decide +kernel⟩

end Examples

end Verif.Props.MerkleCircuit
