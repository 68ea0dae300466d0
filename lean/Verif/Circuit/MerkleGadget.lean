import Verif.Circuit.RescueSpec
import Verif.Merkle.Binding

/-!
# Model of the Merkle tree gadgets

`merkle_tree/src/gadgets/mod.rs` and `gadgets/universal_merkle_tree.rs`, for 3-ary trees hashed with
Rescue. Variable 0 is `circuit.zero()`, variable 1 is `circuit.one()`. A position is a natural
number; its traversal path is `Merkle.toPath`. A proof is the list of the sibling lists
(`path_values`), leaf level first.
-/

set_option linter.unusedSectionVars false

namespace Verif.Circuit

open Verif.Rescue (Vec Consts)
open Verif.Merkle (Hasher toPath foldStep)

variable {p : ℕ}

/-- `Merkle3AryNodeVar`, `gadgets/mod.rs:230-241`; `Merkle3AryProofVar` (lines 243-249) is a list of these -/
structure NodeVar where
  s1 : ℕ
  s2 : ℕ
  l : ℕ
  r : ℕ

/-- `constrain_sibling_order`, `gadgets/mod.rs:211-228` -/
def constrainSiblingOrder (node s1 s2 l r : ℕ) : Build p (ℕ × ℕ × ℕ) := do
  let left ← conditionalSelect l s1 node
  let right ← conditionalSelect r s2 node
  let lpr ← add left right
  let mid ← lc node s1 s2 lpr 1 1 1 (-1)
  pure (left, mid, right)

/-- indexing with `[0]` -/
def firstOf : List ℕ → Build p ℕ
  | [] => Build.fail .panic
  | v :: _ => pure v

/-- `RescueDigestGadget::digest`, `gadgets/mod.rs:270-277` -/
def merkleDigest (K : Consts) (data : List ℕ) : Build p ℕ := do
  let input := 0 :: data
  let out ← rescueSpongeNoPadding K
    (Rescue.resize input (Rescue.lenToNextMultiple input.length Rescue.crhfRate) 0) 1
  firstOf out

/-- `RescueDigestGadget::digest_leaf`, `gadgets/mod.rs:279-290` -/
def merkleDigestLeaf (K : Consts) (pos elem : ℕ) : Build p ℕ := do
  let input := [1, pos, elem]
  let out ← rescueSpongeNoPadding K
    (Rescue.resize input (Rescue.lenToNextMultiple input.length Rescue.crhfRate) 0) 1
  firstOf out

/-- the closure in `create_membership_proof_variable`, `gadgets/mod.rs:313-320`; indexing a sibling
list that is too short panics -/
def createNodeVar (branch : Fin 3) (siblings : List (ZMod p)) : Build p NodeVar :=
  match siblings with
  | x :: y :: _ => do
    let s1 ← createVariable x
    let s2 ← createVariable y
    let l ← createBooleanVariable (branch == 0)
    let r ← createBooleanVariable (branch == 2)
    pure ⟨s1, s2, l, r⟩
  | _ => Build.fail .panic

/-- the closure in `create_non_membership_proof_variable`, `universal_merkle_tree.rs:97-113`: an
empty sibling list gives the zero variable for both siblings -/
def createNodeVarSparse (branch : Fin 3) (siblings : List (ZMod p)) : Build p NodeVar :=
  match siblings with
  | [] => do
    let l ← createBooleanVariable (branch == 0)
    let r ← createBooleanVariable (branch == 2)
    pure ⟨0, 0, l, r⟩
  | x :: y :: _ => do
    let s1 ← createVariable x
    let s2 ← createVariable y
    let l ← createBooleanVariable (branch == 0)
    let r ← createBooleanVariable (branch == 2)
    pure ⟨s1, s2, l, r⟩
  | [_] => Build.fail .panic

/-- the `map … collect` over the levels -/
def createNodes (f : Fin 3 → List (ZMod p) → Build p NodeVar) : List (Fin 3 × List (ZMod p)) → Build p (List NodeVar)
  | [] => pure []
  | bs :: rest => do
    let n ← f bs.1 bs.2
    let ns ← createNodes f rest
    pure (n :: ns)

/-- the loop at `gadgets/mod.rs:325-331` and `universal_merkle_tree.rs:118-124` -/
def boundNodes : List NodeVar → Build p Unit
  | [] => pure ()
  | n :: ns => do
    let s ← add n.l n.r
    enforceBool s
    boundNodes ns

/-- `create_membership_proof_variable`, `gadgets/mod.rs:303-334` -/
def createMembershipProofVariable (pos : ℕ) (proof : List (List (ZMod p))) : Build p (List NodeVar) := do
  let nodes ← createNodes createNodeVar ((toPath 3 pos proof.length).zip proof)
  boundNodes nodes
  pure nodes

/-- `create_non_membership_proof_variable`, `universal_merkle_tree.rs:87-127` -/
def createNonMembershipProofVariable (pos : ℕ) (proof : List (List (ZMod p))) : Build p (List NodeVar) := do
  let nodes ← createNodes createNodeVarSparse ((toPath 3 pos proof.length).zip proof)
  boundNodes nodes
  pure nodes

/-- the loop of `is_member`, `gadgets/mod.rs:353-365` -/
def memberLoop (K : Consts) : List NodeVar → ℕ → Build p ℕ
  | [], cur => pure cur
  | n :: ns, cur => do
    let x ← constrainSiblingOrder cur n.s1 n.s2 n.l n.r
    nonZeroGate x.1
    let cur' ← merkleDigest K [x.1, x.2.1, x.2.2]
    memberLoop K ns cur'

/-- `is_member`, `gadgets/mod.rs:343-369` -/
def isMember (K : Consts) (idx elem : ℕ) (nodes : List NodeVar) (com : ℕ) : Build p ℕ := do
  let leaf ← merkleDigestLeaf K idx elem
  let root ← memberLoop K nodes leaf
  isEqual com root

/-- `enforce_membership_proof`, `gadgets/mod.rs:371-386` -/
def enforceMembershipProof (K : Consts) (idx elem : ℕ) (nodes : List NodeVar) (com : ℕ) : Build p Unit := do
  let b ← isMember K idx elem nodes com
  enforceTrue b

/-- the first loop of `is_non_member`, `universal_merkle_tree.rs:38-46` -/
def indexLoop : List NodeVar → ZMod p → ℕ → Build p ℕ
  | [], _, cum => pure cum
  | n :: ns, base, cum => do
    let c ← sub 1 n.l
    let c ← add c n.r
    let t ← mulConstant c base
    let cum' ← add cum t
    indexLoop ns (base + base + base) cum'

/-- the second loop of `is_non_member`, `universal_merkle_tree.rs:51-71` -/
def nonMemberLoop (K : Consts) : List NodeVar → ℕ → Build p ℕ
  | [], cur => pure cur
  | n :: ns, cur => do
    let x ← constrainSiblingOrder cur n.s1 n.s2 n.l n.r
    let z0 ← isZero x.1
    let z1 ← isZero x.2.1
    let z2 ← isZero x.2.2
    let allZero ← logicAndAll [z0, z1, z2]
    let h ← merkleDigest K [x.1, x.2.1, x.2.2]
    let cur' ← conditionalSelect allZero h 0
    nonMemberLoop K ns cur'

/-- `is_non_member`, `universal_merkle_tree.rs:31-75` -/
def isNonMember (K : Consts) (idx : ℕ) (nodes : List NodeVar) (com : ℕ) : Build p ℕ := do
  let cum ← indexLoop nodes 1 0
  let ic ← isEqual cum idx
  let root ← nonMemberLoop K nodes 0
  let cc ← isEqual root com
  logicAnd ic cc

/-- `enforce_non_membership_proof`, `universal_merkle_tree.rs:77-85` -/
def enforceNonMembershipProof (K : Consts) (idx : ℕ) (nodes : List NodeVar) (com : ℕ) : Build p Unit := do
  let b ← isNonMember K idx nodes com
  enforceTrue b

/-! ## The hash outside the circuit -/

/-- `RescueCRHF::sponge_with_zero_padding(·, 1)[0]` -/
def zeroPadHash (f : Vec (ZMod p) → Vec (ZMod p)) (xs : List (ZMod p)) : ZMod p :=
  match Rescue.spongeWithZeroPadding f xs 1 with
  | .ok (h :: _) => h
  | _ => 0

/-- `RescueHash`, `merkle_tree/src/prelude.rs:53-66`; `F::from` reduces the position modulo `p`,
`F::default()` is zero -/
def rescueHasher (f : Vec (ZMod p) → Vec (ZMod p)) : Hasher (ZMod p) ℕ (ZMod p) where
  dflt := 0
  digest data := zeroPadHash f (0 :: data)
  digestLeaf pos e := zeroPadHash f [1, (pos : ZMod p), e]

/-! ## Specifications -/

variable [Fact p.Prime] {K : Consts} {f : Vec (ZMod p) → Vec (ZMod p)}

/-- the sponge over the padded input is the hash outside the circuit -/
theorem zeroPadHash_eq {xs : List (ZMod p)} {l : List (ZMod p)}
    (h : Rescue.spongeNoPadding f (Rescue.padWithZeros xs Rescue.crhfRate) 1 = .ok l) : l = [zeroPadHash f xs] := by
  obtain ⟨x, rfl⟩ := List.length_eq_one_iff.1 (spongeNoPadding_length h)
  simp [zeroPadHash, Rescue.spongeWithZeroPadding, h, Rescue.expect]

theorem hashWires_spec (h : HashOk K f) {c : Circ p} (hc : WF c) (input : List ℕ) (h0 : input ≠ []) :
    Spec (do
        let out ← rescueSpongeNoPadding K
          (Rescue.resize input (Rescue.lenToNextMultiple input.length Rescue.crhfRate) 0) 1
        firstOf out : Build p ℕ) c (∀ v ∈ input, v < c.numVars)
      (fun v c' => v < c'.numVars) (fun v w => w v = zeroPadHash f (input.map w)) := by
  have hlen := Rescue.lenToNextMultiple_mod input.length Rescue.crhfRate (by norm_num [Rescue.crhfRate])
  have hle := Rescue.le_lenToNextMultiple input.length Rescue.crhfRate (by norm_num [Rescue.crhfRate])
  have hres : Rescue.resize input (Rescue.lenToNextMultiple input.length Rescue.crhfRate) 0 =
      input ++ List.replicate (Rescue.lenToNextMultiple input.length Rescue.crhfRate - input.length) 0 := by
    rw [Rescue.resize, List.take_of_length_le hle]
  refine Spec.bind (rescueSpongeNoPadding_spec h hc _ 1) ?_ hc ?_
  · rintro hv - -
    rw [hres]
    refine ⟨⟨by simp [h0], ?_⟩, fun v hx => ?_⟩
    · rw [List.length_append, List.length_replicate, Nat.add_sub_cancel' hle]; exact hlen
    · rcases List.mem_append.1 hx with hx | hx
      · exact hv v hx
      · rw [List.eq_of_mem_replicate hx]; exact hc.z
  rintro out c1 e1 hout
  cases out with
  | nil =>
    refine Spec.fail ?_
    rintro ⟨_, h1⟩
    have := spongeNoPadding_length h1
    simp at this
  | cons v rest =>
    refine Spec.pure e1.wf (hout v (by simp)) ?_
    rintro w h00 - g
    have : (Rescue.resize input (Rescue.lenToNextMultiple input.length Rescue.crhfRate) 0).map w =
        Rescue.padWithZeros (input.map w) Rescue.crhfRate := by
      rw [hres, Rescue.padWithZeros, Rescue.resize, List.take_of_length_le (by simpa using hle)]
      simp [h00]
    rw [this] at g
    have := zeroPadHash_eq g
    simp only [List.map_cons, List.cons.injEq] at this
    exact this.1

theorem merkleDigest_spec (h : HashOk K f) {c : Circ p} (hc : WF c) (data : List ℕ) :
    Spec (merkleDigest K data) c (∀ v ∈ data, v < c.numVars) (fun v c' => v < c'.numVars)
      (fun v w => w v = (rescueHasher f).digest (data.map w)) := by
  unfold merkleDigest
  refine Spec.conseq hc (hashWires_spec h hc (0 :: data) (by simp)) ?_ (fun _ _ _ h => h) ?_
  · rintro h - - v hv
    rcases List.mem_cons.1 hv with rfl | hv
    · exact hc.z
    · exact h v hv
  · rintro v w h0 - g
    rw [g, List.map_cons, h0]; rfl

theorem merkleDigestLeaf_spec (h : HashOk K f) {c : Circ p} (hc : WF c) (pos elem : ℕ) :
    Spec (merkleDigestLeaf K pos elem) c (pos < c.numVars ∧ elem < c.numVars) (fun v c' => v < c'.numVars)
      (fun v w => w v = zeroPadHash f [1, w pos, w elem]) := by
  unfold merkleDigestLeaf
  refine Spec.conseq hc (hashWires_spec h hc [1, pos, elem] (by simp)) ?_ (fun _ _ _ h => h) ?_
  · rintro ⟨h1, h2⟩ - - v hv
    simp only [List.mem_cons, List.not_mem_nil, or_false] at hv
    rcases hv with rfl | rfl | rfl
    · exact lt_of_lt_of_le (by norm_num) hc.two
    · exact h1
    · exact h2
  · rintro v w - h1 g
    simpa [h1] using g

/-- the two bits of a level encode the branch -/
def BitsAt (w : ℕ → ZMod p) (n : NodeVar) (b : Fin 3) : Prop :=
  w n.l = boolF (b == 0) ∧ w n.r = boolF (b == 2)

/-- the siblings of a level -/
def sibsAt (w : ℕ → ZMod p) (n : NodeVar) : List (ZMod p) := [w n.s1, w n.s2]

/-- the wires of a level exist -/
def NIn (c : Circ p) (n : NodeVar) : Prop :=
  n.s1 < c.numVars ∧ n.s2 < c.numVars ∧ n.l < c.numVars ∧ n.r < c.numVars

theorem NIn.ext {c c' : Circ p} {n : NodeVar} (h : NIn c n) (e : Ext c c') : NIn c' n :=
  ⟨e.lt h.1, e.lt h.2.1, e.lt h.2.2.1, e.lt h.2.2.2⟩

/-- the label read by the non-zero check is not zero, at every level -/
def LeftOk (H : Hasher (ZMod p) ℕ (ZMod p)) : List (Fin 3 × List (ZMod p)) → ZMod p → Prop
  | [], _ => True
  | bs :: rest, cur =>
    (if bs.1 = 0 then cur else bs.2.headD 0) ≠ 0 ∧ LeftOk H rest (foldStep H cur bs)

theorem boolF_dec (b : Bool) : (boolF b : ZMod p) = 0 ∨ (boolF b : ZMod p) = 1 := boolF_cases b

theorem constrainSiblingOrder_spec {c : Circ p} (hc : WF c) (node s1 s2 l r : ℕ) :
    Spec (constrainSiblingOrder node s1 s2 l r) c
      ((node < c.numVars ∧ s1 < c.numVars ∧ s2 < c.numVars ∧ l < c.numVars ∧ r < c.numVars) ∧
        (c.val l = 0 ∨ c.val l = 1) ∧ (c.val r = 0 ∨ c.val r = 1))
      (fun v c' => v.1 < c'.numVars ∧ v.2.1 < c'.numVars ∧ v.2.2 < c'.numVars)
      (fun v w => ∀ b : Fin 3, w l = boolF (b == 0) → w r = boolF (b == 2) →
        [w v.1, w v.2.1, w v.2.2] = [w s1, w s2].take b ++ w node :: [w s1, w s2].drop b) := by
  unfold constrainSiblingOrder
  refine Spec.bind (conditionalSelect_spec hc l s1 node) ?_ hc ?_
  · rintro ⟨⟨h1, h2, h3, h4, h5⟩, h6, h7⟩ - -
    exact ⟨⟨h4, h2, h1⟩, h6⟩
  rintro left c1 e1 hl
  refine Spec.bind (conditionalSelect_spec e1.wf r s2 node) ?_ e1.wf ?_
  · rintro ⟨⟨⟨h1, h2, h3, h4, h5⟩, h6, h7⟩, _⟩ - -
    exact ⟨⟨e1.lt h5, e1.lt h3, e1.lt h1⟩, by rw [e1.val r h5]; exact h7⟩
  rintro right c2 e2 hr
  refine Spec.bind (add_spec e2.wf left right) (fun _ _ _ => ⟨e2.lt hl, hr⟩) e2.wf ?_
  rintro lpr c3 e3 hs
  have e := (e1.trans e2).trans e3
  refine Spec.bind (lc_spec e3.wf node s1 s2 lpr 1 1 1 (-1)) ?_ e3.wf ?_
  · rintro ⟨⟨⟨⟨⟨h1, h2, h3, h4, h5⟩, _⟩, _⟩, _⟩, _⟩ - -
    simp only [List.mem_cons, List.not_mem_nil, or_false, forall_eq_or_imp, forall_eq]
    exact ⟨e.lt h1, e.lt h2, e.lt h3, hs⟩
  rintro mid c4 e4 hm
  refine Spec.pure e4.wf ⟨(e2.trans (e3.trans e4)).lt hl, hm, (e3.trans e4).lt hr⟩ ?_
  rintro w - - g4 g3 g2 g1 b hb1 hb2
  rw [g4, g3, g2, g1, hb1, hb2]
  fin_cases b <;> simp [boolF]
  ring

theorem constrainSiblingOrder_rel (node s1 s2 l r : ℕ) :
    Rel (constrainSiblingOrder node s1 s2 l r : Build p _) (constrainSiblingOrder node s1 s2 l r) := by
  unfold constrainSiblingOrder
  exact Rel.bind (conditionalSelect_rel _ _ _) fun _ => Rel.bind (conditionalSelect_rel _ _ _) fun _ =>
    Rel.bind (add_rel _ _) fun _ => Rel.bind (lc_rel _ _ _ _ _ _ _ _) fun _ => Rel.pure _

theorem firstOf_rel (l : List ℕ) : Rel (firstOf l : Build p ℕ) (firstOf l) := by
  cases l with
  | nil => exact Rel.failL _ _
  | cons v l => exact Rel.pure _

theorem merkleDigest_rel (K : Consts) (data : List ℕ) :
    Rel (merkleDigest K data : Build p ℕ) (merkleDigest K data) :=
  Rel.bind (rescueSpongeNoPadding_rel _ _ _) fun _ => firstOf_rel _

theorem merkleDigestLeaf_rel (K : Consts) (a b : ℕ) :
    Rel (merkleDigestLeaf K a b : Build p ℕ) (merkleDigestLeaf K a b) :=
  Rel.bind (rescueSpongeNoPadding_rel _ _ _) fun _ => firstOf_rel _

theorem bitsAt_ext {c c' : Circ p} (e : Ext c c') : ∀ {nodes : List NodeVar} {path : List (Fin 3)},
    (∀ n ∈ nodes, NIn c n) → List.Forall₂ (BitsAt c.val) nodes path → List.Forall₂ (BitsAt c'.val) nodes path
  | [], _, _, h => by cases h; exact .nil
  | n :: ns, _, hn, h => by
    cases h with
    | cons h1 h2 =>
      have hx := hn n (by simp)
      refine .cons ⟨?_, ?_⟩ (bitsAt_ext e (fun m hm => hn m (by simp [hm])) h2)
      · rw [e.val _ hx.2.2.1]; exact h1.1
      · rw [e.val _ hx.2.2.2]; exact h1.2

theorem sibsAt_ext {c c' : Circ p} (e : Ext c c') {nodes : List NodeVar} (hn : ∀ n ∈ nodes, NIn c n) :
    nodes.map (sibsAt c'.val) = nodes.map (sibsAt c.val) :=
  List.map_congr_left fun n h => by simp [sibsAt, e.val _ (hn n h).1, e.val _ (hn n h).2.1]

theorem memberLoop_spec (h : HashOk K f) (nodes : List NodeVar) : ∀ {c : Circ p} (_ : WF c) (cur : ℕ),
    Spec (memberLoop K nodes cur) c
      ((cur < c.numVars ∧ ∀ n ∈ nodes, NIn c n) ∧ ∃ path, List.Forall₂ (BitsAt c.val) nodes path ∧
        LeftOk (rescueHasher f) (path.zip (nodes.map (sibsAt c.val))) (c.val cur))
      (fun v c' => v = cur ∨ v < c'.numVars)
      (fun v w => ∀ path, List.Forall₂ (BitsAt w) nodes path →
        w v = (path.zip (nodes.map (sibsAt w))).foldl (foldStep (rescueHasher f)) (w cur) ∧
        LeftOk (rescueHasher f) (path.zip (nodes.map (sibsAt w))) (w cur)) := by
  induction nodes with
  | nil =>
    intro c hc cur
    refine Spec.pure hc (Or.inl rfl) ?_
    rintro w - - path hp
    cases hp
    simp [LeftOk]
  | cons n ns ih =>
    intro c hc cur
    unfold memberLoop
    refine Spec.bind (constrainSiblingOrder_spec hc cur n.s1 n.s2 n.l n.r) ?_ hc ?_
    · rintro ⟨⟨h1, h2⟩, path, h3, _⟩ - -
      cases h3 with
      | cons h3 h4 =>
        have := h2 n (by simp)
        exact ⟨⟨h1, this.1, this.2.1, this.2.2.1, this.2.2.2⟩, by rw [h3.1]; exact boolF_dec _,
          by rw [h3.2]; exact boolF_dec _⟩
    rintro x c1 e1 ⟨hx1, hx2, hx3⟩
    have key : ∀ w : ℕ → ZMod p, (∀ b : Fin 3, w n.l = boolF (b == 0) → w n.r = boolF (b == 2) →
        [w x.1, w x.2.1, w x.2.2] = [w n.s1, w n.s2].take b ++ w cur :: [w n.s1, w n.s2].drop b) →
        ∀ b, BitsAt w n b → w x.1 = (if b = 0 then w cur else (sibsAt w n).headD 0) ∧
          foldStep (rescueHasher f) (w cur) (b, sibsAt w n) =
            (rescueHasher f).digest [w x.1, w x.2.1, w x.2.2] := by
      intro w hw b hb
      have := hw b hb.1 hb.2
      refine ⟨?_, ?_⟩
      · have h0 := congrArg (·.headD 0) this
        simp only [List.headD_cons] at h0
        rw [h0]
        fin_cases b <;> simp [sibsAt]
      · simp only [foldStep, sibsAt, reduceCtorEq, if_false, this]
    refine Spec.bind (nonZeroGate_spec e1.wf x.1) ?_ e1.wf ?_
    · rintro ⟨⟨⟨h1, h2⟩, path, h3, h4⟩, g1⟩ - -
      refine ⟨hx1, ?_⟩
      have h3' := bitsAt_ext e1 h2 h3
      have hs := sibsAt_ext e1 h2
      rw [← hs, ← e1.val cur h1] at h4
      cases h3' with
      | cons h5 h6 =>
        rw [(key _ g1 _ h5).1]
        exact h4.1
    rintro _ c2 e2 -
    refine Spec.bind (merkleDigest_spec h e2.wf [x.1, x.2.1, x.2.2]) ?_ e2.wf ?_
    · rintro - - - v hv
      simp only [List.mem_cons, List.not_mem_nil, or_false] at hv
      rcases hv with rfl | rfl | rfl
      exacts [e2.lt hx1, e2.lt hx2, e2.lt hx3]
    rintro cur' c3 e3 hcur'
    have e := (e1.trans e2).trans e3
    refine Spec.conseq e3.wf (ih e3.wf cur') ?_ ?_ ?_
    · rintro ⟨⟨⟨⟨⟨h1, h2⟩, path, h3, h4⟩, g1⟩, g2⟩, g3⟩ - -
      refine ⟨⟨hcur', fun m hm => (h2 m (by simp [hm])).ext e⟩, ?_⟩
      have hns : ∀ m ∈ ns, NIn c m := fun m hm => h2 m (by simp [hm])
      have hs := sibsAt_ext e hns
      have h1n := sibsAt_ext e1 h2
      cases h3 with
      | @cons _ b _ path' h5 h6 =>
        refine ⟨path', bitsAt_ext e hns h6, ?_⟩
        have hn := h2 n (by simp)
        have h5' : BitsAt c1.val n b :=
          ⟨by rw [e1.val _ hn.2.2.1]; exact h5.1, by rw [e1.val _ hn.2.2.2]; exact h5.2⟩
        have h8 := (key _ g1 b h5').2
        rw [List.map_cons, List.map_cons, List.map_cons, List.map_nil, (e2.trans e3).val _ hx1,
          (e2.trans e3).val _ hx2, (e2.trans e3).val _ hx3, ← h8, e1.val cur h1] at g3
        rw [hs, g3]
        rw [List.map_cons, List.map_cons, List.cons.injEq] at h1n
        rw [h1n.1]
        exact h4.2
    · rintro v c' e' hv
      exact Or.inr (hv.elim (fun hv => hv ▸ e'.lt hcur') id)
    · rintro v w - - g4 g3 g2 g1 path hp
      cases hp with
      | @cons _ b _ path' h5 h6 =>
        obtain ⟨k1, k2⟩ := key w g1 b h5
        obtain ⟨m1, m2⟩ := g4 path' h6
        rw [List.map_cons, List.map_cons, List.map_cons, List.map_nil, ← k2] at g3
        simp only [List.map_cons, List.zip_cons_cons, List.foldl_cons, LeftOk]
        rw [g3] at m1 m2
        exact ⟨m1, by rw [← k1]; exact g2, m2⟩

theorem memberLoop_rel (K : Consts) (nodes : List NodeVar) : ∀ cur,
    Rel (memberLoop K nodes cur : Build p ℕ) (memberLoop K nodes cur) := by
  induction nodes with
  | nil => intro cur; exact Rel.pure _
  | cons n ns ih =>
    intro cur
    exact Rel.bind (constrainSiblingOrder_rel _ _ _ _ _) fun _ => Rel.bind (nonZeroGate_rel _) fun _ =>
      Rel.bind (merkleDigest_rel _ _) fun _ => ih _

theorem isMember_spec (h : HashOk K f) {c : Circ p} (hc : WF c) (idx elem : ℕ) (nodes : List NodeVar) (com : ℕ) :
    Spec (isMember K idx elem nodes com) c
      (((idx < c.numVars ∧ elem < c.numVars ∧ com < c.numVars) ∧ ∀ n ∈ nodes, NIn c n) ∧
        ∃ path, List.Forall₂ (BitsAt c.val) nodes path ∧
          LeftOk (rescueHasher f) (path.zip (nodes.map (sibsAt c.val))) (zeroPadHash f [1, c.val idx, c.val elem]))
      (fun v c' => v < c'.numVars)
      (fun v w => ∀ path, List.Forall₂ (BitsAt w) nodes path →
        LeftOk (rescueHasher f) (path.zip (nodes.map (sibsAt w))) (zeroPadHash f [1, w idx, w elem]) ∧
        w v = if (path.zip (nodes.map (sibsAt w))).foldl (foldStep (rescueHasher f))
          (zeroPadHash f [1, w idx, w elem]) = w com then 1 else 0) := by
  unfold isMember
  refine Spec.bind (merkleDigestLeaf_spec h hc idx elem) (fun h _ _ => ⟨h.1.1.1, h.1.1.2.1⟩) hc ?_
  rintro leaf c1 e1 hl
  refine Spec.bind (memberLoop_spec h nodes e1.wf leaf) ?_ e1.wf ?_
  · rintro ⟨⟨⟨⟨h1, h2, h3⟩, hn⟩, path, h4, h5⟩, g1⟩ - -
    refine ⟨⟨hl, fun n hm => (hn n hm).ext e1⟩, path, bitsAt_ext e1 hn h4, ?_⟩
    rw [sibsAt_ext e1 hn, g1, e1.val _ h1, e1.val _ h2]
    exact h5
  rintro root c2 e2 hr
  have hr' : root < c2.numVars := hr.elim (fun h => h ▸ e2.lt hl) id
  refine Spec.conseq e2.wf (isEqual_spec e2.wf com root) ?_ (fun _ _ _ h => h) ?_
  · rintro ⟨⟨⟨⟨⟨h1, h2, h3⟩, hn⟩, _⟩, _⟩, _⟩ - -
    exact ⟨(e1.trans e2).lt h3, hr'⟩
  · rintro v w - - g3 g2 g1 path hp
    obtain ⟨m1, m2⟩ := g2 path hp
    rw [g1] at m1 m2
    refine ⟨m2, ?_⟩
    rw [g3, m1]
    by_cases hh : w com = (path.zip (nodes.map (sibsAt w))).foldl (foldStep (rescueHasher f))
        (zeroPadHash f [1, w idx, w elem])
    · rw [if_pos hh, if_pos hh.symm]
    · rw [if_neg hh, if_neg (fun h => hh h.symm)]

theorem isMember_rel (K : Consts) (idx elem : ℕ) (nodes : List NodeVar) (com : ℕ) :
    Rel (isMember K idx elem nodes com : Build p ℕ) (isMember K idx elem nodes com) :=
  Rel.bind (merkleDigestLeaf_rel _ _ _) fun _ => Rel.bind (memberLoop_rel _ _ _) fun _ => isEqual_rel _ _

theorem enforceMembershipProof_spec (h : HashOk K f) {c : Circ p} (hc : WF c) (idx elem : ℕ)
    (nodes : List NodeVar) (com : ℕ) :
    Spec (enforceMembershipProof K idx elem nodes com) c
      (((idx < c.numVars ∧ elem < c.numVars ∧ com < c.numVars) ∧ ∀ n ∈ nodes, NIn c n) ∧
        ∃ path, List.Forall₂ (BitsAt c.val) nodes path ∧
          LeftOk (rescueHasher f) (path.zip (nodes.map (sibsAt c.val))) (zeroPadHash f [1, c.val idx, c.val elem]) ∧
          (path.zip (nodes.map (sibsAt c.val))).foldl (foldStep (rescueHasher f))
            (zeroPadHash f [1, c.val idx, c.val elem]) = c.val com)
      (fun _ _ => True)
      (fun _ w => ∀ path, List.Forall₂ (BitsAt w) nodes path →
        LeftOk (rescueHasher f) (path.zip (nodes.map (sibsAt w))) (zeroPadHash f [1, w idx, w elem]) ∧
        (path.zip (nodes.map (sibsAt w))).foldl (foldStep (rescueHasher f))
          (zeroPadHash f [1, w idx, w elem]) = w com) := by
  unfold enforceMembershipProof
  refine Spec.bind (isMember_spec h hc idx elem nodes com) ?_ hc ?_
  · rintro ⟨h1, path, h2, h3, _⟩ - -
    exact ⟨h1, path, h2, h3⟩
  rintro b c1 e1 hb
  refine Spec.conseq e1.wf (enforceTrue_spec e1.wf b) ?_ (fun _ _ _ h => h) ?_
  · rintro ⟨⟨⟨⟨h1, h2, h3⟩, hn⟩, path, h4, h5, h6⟩, g1⟩ - -
    refine ⟨hb, ?_⟩
    rw [(g1 path (bitsAt_ext e1 hn h4)).2, sibsAt_ext e1 hn, e1.val _ h1, e1.val _ h2, e1.val _ h3, if_pos h6]
  · rintro _ w - - g2 g1 path hp
    obtain ⟨m1, m2⟩ := g1 path hp
    refine ⟨m1, ?_⟩
    by_contra hh
    rw [if_neg hh, g2] at m2
    exact one_ne_zero m2

theorem enforceMembershipProof_rel (K : Consts) (idx elem : ℕ) (nodes : List NodeVar) (com : ℕ) :
    Rel (enforceMembershipProof K idx elem nodes com : Build p Unit) (enforceMembershipProof K idx elem nodes com) :=
  Rel.bind (isMember_rel _ _ _ _ _) fun _ => enforceConstant_rel _ _

/-! ### Non-membership -/

/-- the position a path leads to -/
def pathVal : List (Fin 3) → ℕ
  | [] => 0
  | b :: bs => b + 3 * pathVal bs

theorem indexLoop_spec (nodes : List NodeVar) : ∀ {c : Circ p} (_ : WF c) (base : ZMod p) (cum : ℕ),
    Spec (indexLoop nodes base cum) c (cum < c.numVars ∧ ∀ n ∈ nodes, NIn c n)
      (fun v c' => v = cum ∨ v < c'.numVars)
      (fun v w => ∀ path, List.Forall₂ (BitsAt w) nodes path → w v = w cum + base * (pathVal path : ZMod p)) := by
  induction nodes with
  | nil =>
    intro c hc base cum
    refine Spec.pure hc (Or.inl rfl) ?_
    rintro w - - path hp
    cases hp
    simp [pathVal]
  | cons n ns ih =>
    intro c hc base cum
    unfold indexLoop
    refine Spec.bind (sub_spec hc 1 n.l) ?_ hc ?_
    · rintro ⟨h1, h2⟩ - -
      exact ⟨lt_of_lt_of_le (by norm_num) hc.two, (h2 n (by simp)).2.2.1⟩
    rintro x c1 e1 hx
    refine Spec.bind (add_spec e1.wf x n.r) ?_ e1.wf ?_
    · rintro ⟨⟨h1, h2⟩, _⟩ - -
      exact ⟨hx, e1.lt (h2 n (by simp)).2.2.2⟩
    rintro y c2 e2 hy
    refine Spec.bind (mulConstant_spec e2.wf y base) (fun _ _ _ => hy) e2.wf ?_
    rintro t c3 e3 ht
    refine Spec.bind (add_spec e3.wf cum t) ?_ e3.wf ?_
    · rintro ⟨⟨⟨⟨h1, h2⟩, _⟩, _⟩, _⟩ - -
      exact ⟨((e1.trans e2).trans e3).lt h1, ht⟩
    rintro cum' c4 e4 hcum
    refine Spec.conseq e4.wf (ih e4.wf (base + base + base) cum') ?_ ?_ ?_
    · rintro ⟨⟨⟨⟨⟨h1, h2⟩, _⟩, _⟩, _⟩, _⟩ - -
      exact ⟨hcum, fun m hm => (h2 m (by simp [hm])).ext (((e1.trans e2).trans e3).trans e4)⟩
    · rintro v c' e' hv
      exact Or.inr (hv.elim (fun hv => hv ▸ e'.lt hcum) id)
    · rintro v w - h1 g5 g4 g3 g2 g1 path hp
      cases hp with
      | @cons _ b _ path' hb hr =>
        rw [g5 path' hr, g4, g3, g2, g1, h1, hb.1, hb.2, pathVal]
        fin_cases b <;> simp [boolF] <;> ring

theorem indexLoop_rel (nodes : List NodeVar) : ∀ (base : ZMod p) (cum : ℕ),
    Rel (indexLoop nodes base cum) (indexLoop nodes base cum) := by
  induction nodes with
  | nil => intro _ _; exact Rel.pure _
  | cons n ns ih =>
    intro base cum
    exact Rel.bind (sub_rel _ _) fun _ => Rel.bind (add_rel _ _) fun _ => Rel.bind (mulConstant_rel _ _) fun _ =>
      Rel.bind (add_rel _ _) fun _ => ih _ _

/-- one level of the label computation for a non-member: zero as long as everything is zero -/
def sparseStep (H : Hasher (ZMod p) ℕ (ZMod p)) (cur : ZMod p) (bs : Fin 3 × List (ZMod p)) : ZMod p :=
  if cur = 0 ∧ ∀ s ∈ bs.2, s = 0 then 0 else H.digest (bs.2.take bs.1 ++ cur :: bs.2.drop bs.1)

theorem nonMemberLoop_spec (h : HashOk K f) (nodes : List NodeVar) : ∀ {c : Circ p} (_ : WF c) (cur : ℕ),
    Spec (nonMemberLoop K nodes cur) c
      ((cur < c.numVars ∧ ∀ n ∈ nodes, NIn c n) ∧ ∃ path, List.Forall₂ (BitsAt c.val) nodes path)
      (fun v c' => v = cur ∨ v < c'.numVars)
      (fun v w => ∀ path, List.Forall₂ (BitsAt w) nodes path →
        w v = (path.zip (nodes.map (sibsAt w))).foldl (sparseStep (rescueHasher f)) (w cur)) := by
  induction nodes with
  | nil =>
    intro c hc cur
    refine Spec.pure hc (Or.inl rfl) ?_
    rintro w - - path hp
    cases hp
    simp
  | cons n ns ih =>
    intro c hc cur
    unfold nonMemberLoop
    refine Spec.bind (constrainSiblingOrder_spec hc cur n.s1 n.s2 n.l n.r) ?_ hc ?_
    · rintro ⟨⟨h1, h2⟩, path, h3⟩ - -
      cases h3 with
      | cons h3 h4 =>
        have := h2 n (by simp)
        exact ⟨⟨h1, this.1, this.2.1, this.2.2.1, this.2.2.2⟩, by rw [h3.1]; exact boolF_dec _,
          by rw [h3.2]; exact boolF_dec _⟩
    rintro x c1 e1 ⟨hx1, hx2, hx3⟩
    refine Spec.bind (isZero_spec e1.wf x.1) (fun _ _ _ => hx1) e1.wf ?_
    rintro z0 c2 e2 hz0
    refine Spec.bind (isZero_spec e2.wf x.2.1) (fun _ _ _ => e2.lt hx2) e2.wf ?_
    rintro z1 c3 e3 hz1
    refine Spec.bind (isZero_spec e3.wf x.2.2) (fun _ _ _ => (e2.trans e3).lt hx3) e3.wf ?_
    rintro z2 c4 e4 hz2
    refine Spec.bind (logicAndAll_spec e4.wf [z0, z1, z2]) ?_ e4.wf ?_
    · rintro - - -
      refine ⟨by simp, fun v hv => ?_⟩
      simp only [List.mem_cons, List.not_mem_nil, or_false] at hv
      rcases hv with rfl | rfl | rfl
      exacts [(e3.trans e4).lt hz0, e4.lt hz1, hz2]
    rintro az c5 e5 haz
    have haz' : az < c5.numVars := by
      rcases haz with h | h
      · simp only [List.head?_cons, Option.some.injEq] at h
        exact h ▸ ((e3.trans e4).trans e5).lt hz0
      · exact h
    have e25 := ((e2.trans e3).trans e4).trans e5
    refine Spec.bind (merkleDigest_spec h e5.wf [x.1, x.2.1, x.2.2]) ?_ e5.wf ?_
    · rintro - - - v hv
      simp only [List.mem_cons, List.not_mem_nil, or_false] at hv
      rcases hv with rfl | rfl | rfl
      exacts [e25.lt hx1, e25.lt hx2, e25.lt hx3]
    rintro d c6 e6 hd
    have prod01 : ∀ w : ℕ → ZMod p, w z0 = (if w x.1 = 0 then 1 else 0) → w z1 = (if w x.2.1 = 0 then 1 else 0) →
        w z2 = (if w x.2.2 = 0 then 1 else 0) → w az = ([z0, z1, z2].map w).prod →
        w az = if w x.1 = 0 ∧ w x.2.1 = 0 ∧ w x.2.2 = 0 then 1 else 0 := by
      intro w a0 a1 a2 a3
      rw [a3]
      simp only [List.map_cons, List.map_nil, List.prod_cons, List.prod_nil, mul_one, a0, a1, a2]
      by_cases k0 : w x.1 = 0 <;> by_cases k1 : w x.2.1 = 0 <;> by_cases k2 : w x.2.2 = 0 <;> simp [k0, k1, k2]
    refine Spec.bind (conditionalSelect_spec e6.wf az d 0) ?_ e6.wf ?_
    · rintro ⟨⟨⟨⟨⟨⟨_, _⟩, g2⟩, g3⟩, g4⟩, g5⟩, _⟩ - -
      refine ⟨⟨e6.lt haz', hd, e6.wf.z⟩, ?_⟩
      rw [e6.val az haz']
      have t0 := ((e3.trans e4).trans e5).val z0 hz0
      have t1 := (e4.trans e5).val z1 hz1
      have t2 := e5.val z2 hz2
      have := prod01 c5.val (by rw [t0, e25.val _ hx1, g2, e2.val _ hx1])
        (by rw [t1, e25.val _ hx2, g3, ← (e2.trans e3).val _ hx2])
        (by rw [t2, e25.val _ hx3, g4, ← ((e2.trans e3).trans e4).val _ hx3]) g5
      rw [this]
      split <;> simp
    rintro cur' c7 e7 hcur'
    have e := (e1.trans e25).trans (e6.trans e7)
    refine Spec.conseq e7.wf (ih e7.wf cur') ?_ ?_ ?_
    · rintro hh - -
      obtain ⟨⟨⟨⟨⟨⟨⟨⟨⟨h1, h2⟩, path, h3⟩, _⟩, _⟩, _⟩, _⟩, _⟩, _⟩, _⟩ := hh
      refine ⟨⟨hcur', fun m hm => (h2 m (by simp [hm])).ext e⟩, ?_⟩
      cases h3 with
      | @cons _ b _ path' h5 h6 => exact ⟨path', bitsAt_ext e (fun m hm => h2 m (by simp [hm])) h6⟩
    · rintro v c' e' hv
      exact Or.inr (hv.elim (fun hv => hv ▸ e'.lt hcur') id)
    · rintro v w h00 - g8 g7 g6 g5 g4 g3 g2 g1 path hp
      cases hp with
      | @cons _ b _ path' h5 h6 =>
        have ho := g1 b h5.1 h5.2
        rw [g8 path' h6]
        simp only [List.map_cons, List.zip_cons_cons, List.foldl_cons]
        congr 1
        rw [g7, h00, prod01 w g2 g3 g4 g5, g6, sparseStep]
        have hz : (w x.1 = 0 ∧ w x.2.1 = 0 ∧ w x.2.2 = 0) ↔ (w cur = 0 ∧ ∀ s ∈ sibsAt w n, s = 0) := by
          fin_cases b <;> simp [sibsAt] at ho ⊢ <;> rw [ho.1, ho.2.1, ho.2.2] <;> tauto
        simp only [List.map_cons, List.map_nil, ho]
        by_cases hc0 : w cur = 0 ∧ ∀ s ∈ sibsAt w n, s = 0
        · rw [if_pos (hz.2 hc0), if_pos hc0]; ring
        · rw [if_neg (fun h => hc0 (hz.1 h)), if_neg hc0]
          simp [sibsAt]

theorem nonMemberLoop_rel (K : Consts) (nodes : List NodeVar) : ∀ cur,
    Rel (nonMemberLoop K nodes cur : Build p ℕ) (nonMemberLoop K nodes cur) := by
  induction nodes with
  | nil => intro cur; exact Rel.pure _
  | cons n ns ih =>
    intro cur
    exact Rel.bind (constrainSiblingOrder_rel _ _ _ _ _) fun _ => Rel.bind (isZero_rel _) fun _ =>
      Rel.bind (isZero_rel _) fun _ => Rel.bind (isZero_rel _) fun _ => Rel.bind (logicAndAll_rel _) fun _ =>
      Rel.bind (merkleDigest_rel _ _) fun _ => Rel.bind (conditionalSelect_rel _ _ _) fun _ => ih _

theorem isNonMember_spec (h : HashOk K f) {c : Circ p} (hc : WF c) (idx : ℕ) (nodes : List NodeVar) (com : ℕ) :
    Spec (isNonMember K idx nodes com) c
      (((idx < c.numVars ∧ com < c.numVars) ∧ ∀ n ∈ nodes, NIn c n) ∧ ∃ path, List.Forall₂ (BitsAt c.val) nodes path)
      (fun v c' => v < c'.numVars)
      (fun v w => ∀ path, List.Forall₂ (BitsAt w) nodes path →
        w v = if (pathVal path : ZMod p) = w idx ∧
          (path.zip (nodes.map (sibsAt w))).foldl (sparseStep (rescueHasher f)) 0 = w com then 1 else 0) := by
  unfold isNonMember
  refine Spec.bind (indexLoop_spec nodes hc 1 0) (fun h _ _ => ⟨hc.z, h.1.2⟩) hc ?_
  rintro cum c1 e1 hcum
  have hcum' : cum < c1.numVars := hcum.elim (fun h => h ▸ e1.wf.z) id
  refine Spec.bind (isEqual_spec e1.wf cum idx) (fun h _ _ => ⟨hcum', e1.lt h.1.1.1.1⟩) e1.wf ?_
  rintro ic c2 e2 hic
  refine Spec.bind (nonMemberLoop_spec h nodes e2.wf 0) ?_ e2.wf ?_
  · rintro ⟨⟨⟨⟨h1, hn⟩, path, hp⟩, _⟩, _⟩ - -
    exact ⟨⟨e2.wf.z, fun n hm => (hn n hm).ext (e1.trans e2)⟩, path, bitsAt_ext (e1.trans e2) hn hp⟩
  rintro root c3 e3 hr
  have hr' : root < c3.numVars := hr.elim (fun h => h ▸ e3.wf.z) id
  refine Spec.bind (isEqual_spec e3.wf root com) ?_ e3.wf ?_
  · rintro ⟨⟨⟨⟨⟨⟨h1, h2⟩, hn⟩, _⟩, _⟩, _⟩, _⟩ - -
    exact ⟨hr', ((e1.trans e2).trans e3).lt h2⟩
  rintro cc c4 e4 hcc
  refine Spec.conseq e4.wf (logicAnd_spec e4.wf ic cc) (fun _ _ _ => ⟨(e3.trans e4).lt hic, hcc⟩)
    (fun _ _ _ h => h) ?_
  rintro v w h00 - g5 g4 g3 g2 g1 path hp
  rw [g5, g4, g2, g1 path hp, g3 path hp, h00, zero_add, one_mul]
  by_cases k1 : (pathVal path : ZMod p) = w idx <;>
    by_cases k2 : (path.zip (nodes.map (sibsAt w))).foldl (sparseStep (rescueHasher f)) 0 = w com <;> simp [k1, k2]

theorem isNonMember_rel (K : Consts) (idx : ℕ) (nodes : List NodeVar) (com : ℕ) :
    Rel (isNonMember K idx nodes com : Build p ℕ) (isNonMember K idx nodes com) :=
  Rel.bind (indexLoop_rel _ _ _) fun _ => Rel.bind (isEqual_rel _ _) fun _ => Rel.bind (nonMemberLoop_rel _ _ _) fun _ =>
    Rel.bind (isEqual_rel _ _) fun _ => logicAnd_rel _ _

theorem enforceNonMembershipProof_spec (h : HashOk K f) {c : Circ p} (hc : WF c) (idx : ℕ)
    (nodes : List NodeVar) (com : ℕ) :
    Spec (enforceNonMembershipProof K idx nodes com) c
      (((idx < c.numVars ∧ com < c.numVars) ∧ ∀ n ∈ nodes, NIn c n) ∧
        ∃ path, List.Forall₂ (BitsAt c.val) nodes path ∧ (pathVal path : ZMod p) = c.val idx ∧
          (path.zip (nodes.map (sibsAt c.val))).foldl (sparseStep (rescueHasher f)) 0 = c.val com)
      (fun _ _ => True)
      (fun _ w => ∀ path, List.Forall₂ (BitsAt w) nodes path → (pathVal path : ZMod p) = w idx ∧
          (path.zip (nodes.map (sibsAt w))).foldl (sparseStep (rescueHasher f)) 0 = w com) := by
  unfold enforceNonMembershipProof
  refine Spec.bind (isNonMember_spec h hc idx nodes com) ?_ hc ?_
  · rintro ⟨h1, path, h2, _⟩ - -
    exact ⟨h1, path, h2⟩
  rintro b c1 e1 hb
  refine Spec.conseq e1.wf (enforceTrue_spec e1.wf b) ?_ (fun _ _ _ h => h) ?_
  · rintro ⟨⟨⟨⟨h1, h2⟩, hn⟩, path, h4, h5, h6⟩, g1⟩ - -
    refine ⟨hb, ?_⟩
    rw [g1 path (bitsAt_ext e1 hn h4), sibsAt_ext e1 hn, e1.val _ h1, e1.val _ h2, if_pos ⟨h5, h6⟩]
  · rintro _ w - - g2 g1 path hp
    have m2 := g1 path hp
    by_contra hh
    rw [if_neg hh, g2] at m2
    exact one_ne_zero m2

theorem enforceNonMembershipProof_rel (K : Consts) (idx : ℕ) (nodes : List NodeVar) (com : ℕ) :
    Rel (enforceNonMembershipProof K idx nodes com : Build p Unit) (enforceNonMembershipProof K idx nodes com) :=
  Rel.bind (isNonMember_rel _ _ _ _) fun _ => enforceConstant_rel _ _

/-! ### Creating the proof variables -/

/-- the two siblings a level is created with -/
def padSibs (s : List (ZMod p)) : List (ZMod p) := if s = [] then [0, 0] else s.take 2

/-- the bits of a level are Boolean -/
def BoolAt (w : ℕ → ZMod p) (n : NodeVar) : Prop := (w n.l = 0 ∨ w n.l = 1) ∧ (w n.r = 0 ∨ w n.r = 1)

theorem createFour_spec (x y : ZMod p) (b0 b2 : Bool) {c : Circ p} (hc : WF c) :
    Spec (do
        let s1 ← createVariable x
        let s2 ← createVariable y
        let l ← createBooleanVariable b0
        let r ← createBooleanVariable b2
        pure ⟨s1, s2, l, r⟩ : Build p NodeVar) c True
      (fun n c' => NIn c' n ∧ (c'.val n.l = boolF b0 ∧ c'.val n.r = boolF b2) ∧ sibsAt c'.val n = [x, y])
      (fun n w => BoolAt w n) := by
  refine Spec.bind (createVariable_spec hc x True) (fun _ _ _ => trivial) hc ?_
  rintro s1 c1 e1 ⟨h1, h1'⟩
  refine Spec.bind (createVariable_spec e1.wf y True) (fun _ _ _ => trivial) e1.wf ?_
  rintro s2 c2 e2 ⟨h2, h2'⟩
  refine Spec.bind (createBooleanVariable_spec e2.wf b0) (fun _ _ _ => trivial) e2.wf ?_
  rintro l c3 e3 ⟨h3, h3'⟩
  refine Spec.bind (createBooleanVariable_spec e3.wf b2) (fun _ _ _ => trivial) e3.wf ?_
  rintro r c4 e4 ⟨h4, h4'⟩
  refine Spec.pure e4.wf ⟨⟨(e2.trans (e3.trans e4)).lt h1, (e3.trans e4).lt h2, e4.lt h3, h4⟩, ⟨?_, h4'⟩, ?_⟩ ?_
  · show c4.val l = _
    rw [e4.val _ h3, h3']
  · show [c4.val s1, c4.val s2] = _
    rw [(e2.trans (e3.trans e4)).val _ h1, (e3.trans e4).val _ h2, h1', h2']
  · rintro w - - g4 g3 - -
    exact ⟨g3, g4⟩

theorem createNodeVar_spec (b : Fin 3) (s : List (ZMod p)) {c : Circ p} (hc : WF c) :
    Spec (createNodeVar b s) c (2 ≤ s.length)
      (fun n c' => NIn c' n ∧ BitsAt c'.val n b ∧ (c'.val 0 = 0 → sibsAt c'.val n = padSibs s)) (fun n w => BoolAt w n) := by
  match s with
  | [] => exact Spec.fail (by simp)
  | [_] => exact Spec.fail (by simp)
  | x :: y :: t =>
    exact Spec.conseq hc (createFour_spec x y _ _ hc) (fun _ _ _ => trivial)
      (fun _ _ _ h => ⟨h.1, h.2.1, fun _ => by rw [h.2.2]; simp [padSibs]⟩) (fun _ _ _ _ h => h)

theorem createNodeVarSparse_spec (b : Fin 3) (s : List (ZMod p)) {c : Circ p} (hc : WF c) :
    Spec (createNodeVarSparse b s) c (s.length ≠ 1)
      (fun n c' => NIn c' n ∧ BitsAt c'.val n b ∧ (c'.val 0 = 0 → sibsAt c'.val n = padSibs s)) (fun n w => BoolAt w n) := by
  match s with
  | [] =>
    refine Spec.bind (createBooleanVariable_spec hc _) (fun _ _ _ => trivial) hc ?_
    rintro l c3 e3 ⟨h3, h3'⟩
    refine Spec.bind (createBooleanVariable_spec e3.wf _) (fun _ _ _ => trivial) e3.wf ?_
    rintro r c4 e4 ⟨h4, h4'⟩
    refine Spec.pure e4.wf ⟨⟨e4.wf.z, e4.wf.z, e4.lt h3, h4⟩, ⟨?_, h4'⟩, ?_⟩ ?_
    · show c4.val l = _
      rw [e4.val _ h3, h3']
    · intro h0
      show [c4.val 0, c4.val 0] = _
      rw [h0]; simp [padSibs]
    · rintro w - - g4 g3
      exact ⟨g3, g4⟩
  | [_] => exact Spec.fail (by simp)
  | x :: y :: t =>
    exact Spec.conseq hc (createFour_spec x y _ _ hc) (fun _ _ _ => trivial)
      (fun _ _ _ h => ⟨h.1, h.2.1, fun _ => by rw [h.2.2]; simp [padSibs]⟩) (fun _ _ _ _ h => h)

theorem createNodes_spec (g : Fin 3 → List (ZMod p) → Build p NodeVar) (ok : List (ZMod p) → Prop)
    (hg : ∀ b s {c : Circ p} (_ : WF c), Spec (g b s) c (ok s)
      (fun n c' => NIn c' n ∧ BitsAt c'.val n b ∧ (c'.val 0 = 0 → sibsAt c'.val n = padSibs s)) (fun n w => BoolAt w n))
    (path : List (Fin 3)) : ∀ (proof : List (List (ZMod p))), path.length = proof.length → ∀ {c : Circ p} (_ : WF c),
    Spec (createNodes g (path.zip proof)) c (∀ s ∈ proof, ok s)
      (fun ns c' => (∀ n ∈ ns, NIn c' n) ∧ List.Forall₂ (BitsAt c'.val) ns path ∧
        (c'.val 0 = 0 → ns.map (sibsAt c'.val) = proof.map padSibs))
      (fun ns w => ∀ n ∈ ns, BoolAt w n) := by
  induction path with
  | nil =>
    intro proof hl c hc
    cases proof with
    | nil => exact Spec.pure hc ⟨by simp, .nil, fun _ => rfl⟩ (by simp)
    | cons _ _ => simp at hl
  | cons b path ih =>
    intro proof hl c hc
    cases proof with
    | nil => simp at hl
    | cons s proof =>
      rw [List.zip_cons_cons, createNodes]
      refine Spec.bind (hg b s hc) (fun h _ _ => h s (by simp)) hc ?_
      rintro n c1 e1 ⟨h1, h2, h3⟩
      refine Spec.bind (ih proof (by simpa using hl) e1.wf) (fun h _ _ s hs => h.1 s (by simp [hs])) e1.wf ?_
      rintro ns c2 e2 ⟨h4, h5, h6⟩
      refine Spec.pure e2.wf ⟨?_, ?_, ?_⟩ ?_
      · intro m hm
        rcases List.mem_cons.1 hm with rfl | hm
        · exact h1.ext e2
        · exact h4 m hm
      · refine .cons ⟨?_, ?_⟩ h5
        · rw [e2.val _ h1.2.2.1]; exact h2.1
        · rw [e2.val _ h1.2.2.2]; exact h2.2
      · intro h0
        have h0' : c1.val 0 = 0 := by rw [← e2.val 0 e1.wf.z]; exact h0
        rw [List.map_cons, List.map_cons, h6 h0, ← h3 h0']
        simp [sibsAt, e2.val _ h1.1, e2.val _ h1.2.1]
      · rintro w - - g2 g1 m hm
        rcases List.mem_cons.1 hm with rfl | hm
        · exact g1
        · exact g2 m hm

theorem boundNodes_spec (hp2 : p ≠ 2) (nodes : List NodeVar) : ∀ {c : Circ p} (_ : WF c),
    Spec (boundNodes nodes) c ((∀ n ∈ nodes, NIn c n) ∧ ∃ path, List.Forall₂ (BitsAt c.val) nodes path)
      (fun _ _ => True)
      (fun _ w => (∀ n ∈ nodes, BoolAt w n) → ∃ path, List.Forall₂ (BitsAt w) nodes path) := by
  induction nodes with
  | nil =>
    intro c hc
    exact Spec.pure hc trivial (fun w _ _ _ => ⟨[], .nil⟩)
  | cons n ns ih =>
    intro c hc
    unfold boundNodes
    refine Spec.bind (add_spec hc n.l n.r) ?_ hc ?_
    · rintro ⟨h, _⟩ - -
      exact ⟨(h n (by simp)).2.2.1, (h n (by simp)).2.2.2⟩
    rintro s c1 e1 hs
    refine Spec.bind (enforceBool_spec e1.wf s) ?_ e1.wf ?_
    · rintro ⟨⟨h, path, hp⟩, g1⟩ - -
      refine ⟨hs, ?_⟩
      have hn := h n (by simp)
      cases hp with
      | @cons _ b _ path' hb _ =>
        rw [g1, e1.val _ hn.2.2.1, e1.val _ hn.2.2.2, hb.1, hb.2]
        fin_cases b <;> simp [boolF]
    rintro _ c2 e2 -
    refine Spec.conseq e2.wf (ih e2.wf) ?_ (fun _ _ _ _ => trivial) ?_
    · rintro ⟨⟨⟨h, path, hp⟩, _⟩, _⟩ - -
      have hn : ∀ m ∈ ns, NIn c m := fun m hm => h m (by simp [hm])
      refine ⟨fun m hm => (hn m hm).ext (e1.trans e2), ?_⟩
      cases hp with
      | @cons _ b _ path' _ hr => exact ⟨path', bitsAt_ext (e1.trans e2) hn hr⟩
    · rintro _ w - - g3 g2 g1 hb
      obtain ⟨path, hp⟩ := g3 (fun m hm => hb m (by simp [hm]))
      have h2 : (1 : ZMod p) + 1 ≠ 0 := by
        intro h
        have : ((2 : ℕ) : ZMod p) = 0 := by push_cast; rw [← one_add_one_eq_two]; exact h
        rw [ZMod.natCast_eq_zero_iff] at this
        exact hp2 (((Nat.prime_dvd_prime_iff_eq Fact.out Nat.prime_two).1 this))
      obtain ⟨hl | hl, hr | hr⟩ := hb n (by simp)
      · exact ⟨1 :: path, .cons ⟨by simp [hl, boolF], by simp [hr, boolF]⟩ hp⟩
      · exact ⟨2 :: path, .cons ⟨by simp [hl, boolF], by simp [hr, boolF]⟩ hp⟩
      · exact ⟨0 :: path, .cons ⟨by simp [hl, boolF], by simp [hr, boolF]⟩ hp⟩
      · rw [g1, hl, hr] at g2
        rcases g2 with g | g
        · exact absurd g h2
        · simp at g

theorem createMembershipProofVariable_spec (hp2 : p ≠ 2) (pos : ℕ) (proof : List (List (ZMod p))) {c : Circ p}
    (hc : WF c) :
    Spec (createMembershipProofVariable pos proof) c (∀ s ∈ proof, 2 ≤ s.length)
      (fun ns c' => (∀ n ∈ ns, NIn c' n) ∧ List.Forall₂ (BitsAt c'.val) ns (toPath 3 pos proof.length) ∧
        (c'.val 0 = 0 → ns.map (sibsAt c'.val) = proof.map padSibs))
      (fun ns w => ∃ path, List.Forall₂ (BitsAt w) ns path) := by
  unfold createMembershipProofVariable
  refine Spec.bind (createNodes_spec createNodeVar (fun s => 2 ≤ s.length)
    (fun b s _ hc => createNodeVar_spec b s hc) (toPath 3 pos proof.length) proof (by simp) hc) (fun h _ _ => h) hc ?_
  rintro ns c1 e1 ⟨h1, h2, h3⟩
  refine Spec.bind (boundNodes_spec hp2 ns e1.wf) (fun _ _ _ => ⟨h1, _, h2⟩) e1.wf ?_
  rintro _ c2 e2 -
  refine Spec.pure e2.wf ⟨fun n hn => (h1 n hn).ext e2, bitsAt_ext e2 h1 h2, fun h0 => ?_⟩ ?_
  · rw [sibsAt_ext e2 h1]
    exact h3 (by rw [← e2.val 0 e1.wf.z]; exact h0)
  · rintro w - - g2 g1
    exact g2 g1

theorem createNonMembershipProofVariable_spec (hp2 : p ≠ 2) (pos : ℕ) (proof : List (List (ZMod p))) {c : Circ p}
    (hc : WF c) :
    Spec (createNonMembershipProofVariable pos proof) c (∀ s ∈ proof, s.length ≠ 1)
      (fun ns c' => (∀ n ∈ ns, NIn c' n) ∧ List.Forall₂ (BitsAt c'.val) ns (toPath 3 pos proof.length) ∧
        (c'.val 0 = 0 → ns.map (sibsAt c'.val) = proof.map padSibs))
      (fun ns w => ∃ path, List.Forall₂ (BitsAt w) ns path) := by
  unfold createNonMembershipProofVariable
  refine Spec.bind (createNodes_spec createNodeVarSparse (fun s => s.length ≠ 1)
    (fun b s _ hc => createNodeVarSparse_spec b s hc) (toPath 3 pos proof.length) proof (by simp) hc)
    (fun h _ _ => h) hc ?_
  rintro ns c1 e1 ⟨h1, h2, h3⟩
  refine Spec.bind (boundNodes_spec hp2 ns e1.wf) (fun _ _ _ => ⟨h1, _, h2⟩) e1.wf ?_
  rintro _ c2 e2 -
  refine Spec.pure e2.wf ⟨fun n hn => (h1 n hn).ext e2, bitsAt_ext e2 h1 h2, fun h0 => ?_⟩ ?_
  · rw [sibsAt_ext e2 h1]
    exact h3 (by rw [← e2.val 0 e1.wf.z]; exact h0)
  · rintro w - - g2 g1
    exact g2 g1

/-! The shape depends on the lengths of the sibling lists only. -/

/-- proofs of the same shape -/
def SameShape (proof proof' : List (List (ZMod p))) : Prop :=
  List.Forall₂ (fun s s' : List (ZMod p) => s.length = s'.length) proof proof'

theorem createNodeVar_rel (b b' : Fin 3) {s s' : List (ZMod p)} (h : s.length = s'.length) :
    Rel (createNodeVar b s) (createNodeVar b' s') := by
  unfold createNodeVar
  match s, s', h with
  | [], [], _ => exact Rel.failL _ _
  | [_], [_], _ => exact Rel.failL _ _
  | x :: y :: _, x' :: y' :: _, _ =>
    exact Rel.bind (Rel.createVariable _ _) fun _ => Rel.bind (Rel.createVariable _ _) fun _ =>
      Rel.bind (createBooleanVariable_rel _ _) fun _ => Rel.bind (createBooleanVariable_rel _ _) fun _ => Rel.pure _

theorem createNodeVarSparse_rel (b b' : Fin 3) {s s' : List (ZMod p)} (h : s.length = s'.length) :
    Rel (createNodeVarSparse b s) (createNodeVarSparse b' s') := by
  unfold createNodeVarSparse
  match s, s', h with
  | [], [], _ =>
    exact Rel.bind (createBooleanVariable_rel _ _) fun _ => Rel.bind (createBooleanVariable_rel _ _) fun _ => Rel.pure _
  | [_], [_], _ => exact Rel.failL _ _
  | x :: y :: _, x' :: y' :: _, _ =>
    exact Rel.bind (Rel.createVariable _ _) fun _ => Rel.bind (Rel.createVariable _ _) fun _ =>
      Rel.bind (createBooleanVariable_rel _ _) fun _ => Rel.bind (createBooleanVariable_rel _ _) fun _ => Rel.pure _

theorem createNodes_rel (g : Fin 3 → List (ZMod p) → Build p NodeVar)
    (hg : ∀ b b' {s s' : List (ZMod p)}, s.length = s'.length → Rel (g b s) (g b' s')) :
    ∀ {proof proof' : List (List (ZMod p))} {path path' : List (Fin 3)}, SameShape proof proof' →
      path.length = path'.length → Rel (createNodes g (path.zip proof)) (createNodes g (path'.zip proof'))
  | [], _, path, path', h, _ => by cases h; simp [createNodes]; exact Rel.pure _
  | s :: proof, _, path, path', h, hl => by
    cases h with
    | cons h1 h2 =>
      match path, path', hl with
      | [], [], _ => exact Rel.pure _
      | b :: path, b' :: path', hl =>
        exact Rel.bind (hg b b' h1) fun _ => Rel.bind (createNodes_rel g hg h2 (by simpa using hl)) fun _ => Rel.pure _

theorem boundNodes_rel (nodes : List NodeVar) : Rel (boundNodes nodes : Build p Unit) (boundNodes nodes) := by
  induction nodes with
  | nil => exact Rel.pure _
  | cons n ns ih => exact Rel.bind (add_rel _ _) fun _ => Rel.bind (enforceBool_rel _) fun _ => ih

theorem createMembershipProofVariable_rel (pos pos' : ℕ) {proof proof' : List (List (ZMod p))}
    (h : SameShape proof proof') :
    Rel (createMembershipProofVariable pos proof) (createMembershipProofVariable pos' proof') :=
  Rel.bind (createNodes_rel _ (fun b b' {_ _} h => createNodeVar_rel b b' h) h (by simp [h.length_eq])) fun _ =>
    Rel.bind (boundNodes_rel _) fun _ => Rel.pure _

theorem createNonMembershipProofVariable_rel (pos pos' : ℕ) {proof proof' : List (List (ZMod p))}
    (h : SameShape proof proof') :
    Rel (createNonMembershipProofVariable pos proof) (createNonMembershipProofVariable pos' proof') :=
  Rel.bind (createNodes_rel _ (fun b b' {_ _} h => createNodeVarSparse_rel b b' h) h (by simp [h.length_eq])) fun _ =>
    Rel.bind (boundNodes_rel _) fun _ => Rel.pure _

end Verif.Circuit
