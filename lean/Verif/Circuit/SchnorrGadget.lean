import Verif.Circuit.EccMul
import Verif.Circuit.RescueSpec
import Verif.Sig.Schnorr

/-!
# Model of `signature/src/gadgets/schnorr.rs`

A `VerKeyVar` is a point variable, a `SignatureVar` the pair of the variable `s` and the point
variable `R`. The trait methods that only create variables are `create_signature_variable` and
`create_signature_vk_variable`.
-/

set_option linter.unusedSectionVars false

namespace Verif.Circuit

open Verif.Rescue (Vec Consts)

variable {p : ℕ}

/-- the bytes of `CS_ID_SCHNORR`, `signature/src/constants.rs:30` -/
def csIdSchnorr : List Conv.Byte :=
  [83, 67, 72, 78, 79, 82, 82, 95, 87, 73, 84, 72, 95, 82, 69, 83, 67, 85, 69, 95, 72, 65, 83, 72, 95, 118, 48, 49]

/-- `challenge_bit_len`, `utilities/src/lib.rs:37-40, 47-52` -/
def challengeBitLen (p : ℕ) : ℕ := ((modulusBits p + 7) / 8 - 1) * 8

/-- `challenge_bits`, `schnorr.rs:168-193`; indexing and slicing out of bounds panic -/
def challengeBits (K : Consts) (vk R : ℕ × ℕ) (msg : List ℕ) : Build p (List ℕ) := do
  let inst ← createVariable (Schnorr.fromBeBytesModOrder p csIdSchnorr)
  enforceConstant inst (Schnorr.fromBeBytesModOrder p csIdSchnorr)
  let h ← rescueSpongeWithPadding K ([inst, vk.1, vk.2, R.1, R.2] ++ msg) 1
  match h with
  | [] => Build.fail .panic
  | chal :: _ => do
    let bits ← unpack chal (modulusBits p)
    if bits.length < challengeBitLen p then Build.fail .panic
    else pure (bits.take (challengeBitLen p))

/-- `verify_sig_core`, `schnorr.rs:133-147`; `gen` is `Affine::<P>::generator()` -/
def verifySigCore [Fact p.Prime] (E : TE p) (gen : ZMod p × ZMod p) (K : Consts) (vk : ℕ × ℕ) (msg : List ℕ)
    (s : ℕ) (R : ℕ × ℕ) : Build p ((ℕ × ℕ) × (ℕ × ℕ)) := do
  let cBits ← challengeBits K vk R msg
  let x ← fixedBaseScalarMul E s gen
  let z ← variableBaseBinaryScalarMul E cBits vk
  let y ← eccAdd E R z
  pure (x, y)

/-- `verify_signature`, `schnorr.rs:95-105` -/
def verifySignature [Fact p.Prime] (E : TE p) (gen : ZMod p × ZMod p) (K : Consts) (vk : ℕ × ℕ) (msg : List ℕ)
    (s : ℕ) (R : ℕ × ℕ) : Build p Unit := do
  let xy ← verifySigCore E gen K vk msg s R
  enforcePointEqual xy.1 xy.2

/-- `check_signature_validity`, `schnorr.rs:107-115` -/
def checkSignatureValidity [Fact p.Prime] (E : TE p) (gen : ZMod p × ZMod p) (K : Consts) (vk : ℕ × ℕ) (msg : List ℕ)
    (s : ℕ) (R : ℕ × ℕ) : Build p ℕ := do
  let xy ← verifySigCore E gen K vk msg s R
  isPointEqual xy.1 xy.2

/-- `create_signature_variable`, `schnorr.rs:117-126`; `s` is in the scalar field with `r` elements -/
def createSignatureVariable {r : ℕ} (s : ZMod r) (R : ZMod p × ZMod p) : Build p (ℕ × (ℕ × ℕ)) := do
  let sv ← createVariable (Conv.frToFq p s)
  let Rv ← createPointVariable R
  pure (sv, Rv)

/-- `create_signature_vk_variable`, `schnorr.rs:128-131` -/
def createSignatureVkVariable (vk : ZMod p × ZMod p) : Build p (ℕ × ℕ) := createPointVariable vk

/-! ## Specifications -/

/-- `VariableLengthRescueCRHF::<F, 1>::evaluate(·).unwrap()[0]`, the hash used outside the circuit -/
def crhf1 (f : Vec (ZMod p) → Vec (ZMod p)) (xs : List (ZMod p)) : ZMod p :=
  match Rescue.variableEvaluate f 1 xs with
  | .ok (h :: _) => h
  | _ => 0

theorem sponge_one [Fact p.Prime] {f : Vec (ZMod p) → Vec (ZMod p)} {xs l : List (ZMod p)}
    (h : Rescue.spongeWithBitPadding f xs 1 = .ok l) : l = [crhf1 f xs] := by
  have hl : l.length = 1 := by
    unfold Rescue.spongeWithBitPadding at h
    cases hs : Rescue.spongeNoPadding f (Rescue.bitPad xs) 1 with
    | error e => rw [hs] at h; cases h
    | ok r =>
      rw [hs] at h
      cases h
      exact spongeNoPadding_length hs
  obtain ⟨x, rfl⟩ := List.length_eq_one_iff.1 hl
  simp [crhf1, Rescue.variableEvaluate, h, Rescue.checkLen]

/-- the number the circuit multiplies the key with -/
def chalNat (f : Vec (ZMod p) → Vec (ZMod p)) (vk R : ZMod p × ZMod p) (msg : List (ZMod p)) : ℕ :=
  (crhf1 f ([Schnorr.fromBeBytesModOrder p csIdSchnorr, vk.1, vk.2, R.1, R.2] ++ msg)).val % 2 ^ challengeBitLen p

theorem challengeBitLen_le (p : ℕ) : challengeBitLen p ≤ modulusBits p := by
  unfold challengeBitLen; omega

variable [Fact p.Prime] {K : Consts} {f : Vec (ZMod p) → Vec (ZMod p)}

/-- the variables of the arguments exist -/
def SigIn (vk R : ℕ × ℕ) (msg : List ℕ) (c : Circ p) : Prop :=
  PIn c vk ∧ PIn c R ∧ ∀ v ∈ msg, v < c.numVars

theorem challengeBits_spec (hp : p ≠ 2) (h : HashOk K f) {c : Circ p} (hc : WF c) (vk R : ℕ × ℕ) (msg : List ℕ) :
    Spec (challengeBits K vk R msg) c (SigIn vk R msg c)
      (fun vs c' => ∀ v ∈ vs, v < c'.numVars)
      (fun vs w => ∃ bs : List Bool, vs.map w = bs.map boolF ∧
        ofBits bs = chalNat f (ptAt w vk) (ptAt w R) (msg.map w)) := by
  unfold challengeBits
  refine Spec.bind (createVariable_spec hc _ True) (fun _ _ _ => trivial) hc ?_
  rintro inst c1 e1 ⟨hi, hx⟩
  refine Spec.bind (enforceConstant_spec e1.wf inst _) (fun _ _ _ => ⟨hi, hx⟩) e1.wf ?_
  rintro _ c2 e2 -
  refine Spec.bind (rescueSpongeWithPadding_spec h e2.wf _ 1) ?_ e2.wf ?_
  · rintro ⟨⟨⟨h1, h2, h3⟩, _⟩, _⟩ - -
    refine ⟨by simp, fun v hv => ?_⟩
    simp only [List.cons_append, List.nil_append, List.mem_cons] at hv
    have e := e1.trans e2
    rcases hv with rfl | rfl | rfl | rfl | rfl | hv
    · exact e2.lt hi
    · exact e.lt h1.1
    · exact e.lt h1.2
    · exact e.lt h2.1
    · exact e.lt h2.2
    · exact e.lt (h3 v hv)
  rintro hs c3 e3 hlt
  have hpos : 0 < modulusBits p := Nat.size_pos.2 (Fact.out : p.Prime).pos
  rcases hs with _ | ⟨chal, rest⟩
  · refine Spec.fail ?_
    rintro ⟨_, h1⟩
    have := sponge_one h1
    simp at this
  refine Spec.bind (unpack_spec hp e3.wf chal (modulusBits p) le_rfl) ?_ e3.wf ?_
  · rintro - - -
    exact ⟨hlt chal (by simp), hpos, (ZMod.val_lt _).trans (Nat.lt_size_self p)⟩
  rintro bits c4 e4 ⟨hl, hb, _⟩
  show Spec (if bits.length < challengeBitLen p then _ else _) _ _ _ _
  rw [if_neg (by rw [hl]; exact not_lt.2 (challengeBitLen_le p))]
  refine Spec.pure e4.wf (fun v hv => hb v (List.mem_of_mem_take hv)) ?_
  rintro w - - ⟨_, g4⟩ g3 g2 -
  refine ⟨bitsLE (challengeBitLen p) (w chal).val, ?_, ?_⟩
  · rw [List.map_take, g4, ← List.map_take, take_bitsLE (challengeBitLen_le p)]
  · rw [ofBits_bitsLE]
    have := sponge_one g3
    simp only [List.map_cons, List.map_append, List.map_nil, List.cons.injEq] at this
    rw [this.1]
    simp only [chalNat, ptAt, g2]

theorem challengeBits_rel (K : Consts) (vk R : ℕ × ℕ) (msg : List ℕ) :
    Rel (challengeBits K vk R msg : Build p (List ℕ)) (challengeBits K vk R msg) := by
  unfold challengeBits
  refine Rel.bind (Rel.createVariable _ _) fun _ => Rel.bind (enforceConstant_rel _ _) fun _ =>
    Rel.bind (rescueSpongeWithPadding_rel _ _ _) fun h => ?_
  cases h with
  | nil => exact Rel.failL _ _
  | cons a l =>
    refine Rel.bind (unpack_rel _ _) fun bits => ?_
    split
    · exact Rel.failL _ _
    · exact Rel.pure _

theorem verifySigCore_spec (hp : p ≠ 2) (h : HashOk K f) {T : TE p} {E : EdGroup (ZMod p)} (hE : OnTE T E)
    (h0 : 0 < fixedBits T) (hb : fixedBits T ≤ modulusBits p) {c : Circ p} (hc : WF c) (G : E.Pt) (vk : ℕ × ℕ)
    (msg : List ℕ) (s : ℕ) (R : ℕ × ℕ) :
    Spec (verifySigCore T G.1 K vk msg s R) c
      ((SigIn vk R msg c ∧ s < c.numVars) ∧ (c.val s).val < 2 ^ fixedBits T ∧
        ∃ A B : E.Pt, ptAt c.val vk = A.1 ∧ ptAt c.val R = B.1)
      (fun v c' => PIn c' v.1 ∧ PIn c' v.2)
      (fun v w => ((w s).val < 2 ^ fixedBits T ∧ ptAt w v.1 = ((w s).val • G).1) ∧
        ∀ A B : E.Pt, ptAt w vk = A.1 → ptAt w R = B.1 →
          ptAt w v.2 = (B + chalNat f A.1 B.1 (msg.map w) • A).1) := by
  unfold verifySigCore
  refine Spec.bind (challengeBits_spec hp h hc vk R msg) (fun h _ _ => h.1.1) hc ?_
  rintro bits c1 e1 hbits
  refine Spec.bind (fixedBaseScalarMul_spec hp e1.wf hE hb s G) ?_ e1.wf ?_
  · rintro ⟨⟨⟨_, h2⟩, h3, _⟩, _⟩ - -
    exact ⟨e1.lt h2, h0, by rw [e1.val s h2]; exact h3⟩
  rintro x c2 e2 hx
  refine Spec.bind (variableBaseBinaryScalarMul_spec e2.wf hE bits vk) ?_ e2.wf ?_
  · rintro ⟨⟨⟨⟨⟨h1, _⟩, h2⟩, h3, A, B, hA, hB⟩, bs, hbs, _⟩, _⟩ - -
    refine ⟨⟨fun v hv => e2.lt (hbits v hv), (h1.ext e1).ext e2⟩, ⟨A, ?_⟩, bs, ?_⟩
    · rw [ptAt_ext (e1.trans e2) h1, hA]
    · rw [← hbs]
      exact List.map_congr_left fun v hv => e2.val v (hbits v hv)
  rintro z c3 e3 hz
  have e := (e1.trans e2).trans e3
  refine Spec.bind (eccAdd_group e3.wf hE R z) ?_ e3.wf ?_
  · rintro ⟨⟨⟨⟨⟨⟨h1, hR, _⟩, h2⟩, h3, A, B, hA, hB⟩, bs, hbs, _⟩, _⟩, g3⟩ - -
    refine ⟨⟨hR.ext e, hz⟩, B, ofBits bs • A, by rw [ptAt_ext e hR, hB], ?_⟩
    refine g3 A bs (by rw [ptAt_ext e h1, hA]) ?_
    rw [← hbs]
    exact List.map_congr_left fun v hv => (e2.trans e3).val v (hbits v hv)
  rintro y c4 e4 hy
  refine Spec.pure e4.wf ⟨hx.ext (e3.trans e4), hy⟩ ?_
  rintro w - - g4 g3 g2 ⟨bs, hbs, hval⟩
  refine ⟨g2, fun A B hA hB => ?_⟩
  rw [g4 B _ hB (g3 A bs hA hbs), hval, hA, hB]

theorem verifySigCore_rel (T : TE p) (G : ZMod p × ZMod p) (K : Consts) (vk : ℕ × ℕ) (msg : List ℕ) (s : ℕ)
    (R : ℕ × ℕ) : Rel (verifySigCore T G K vk msg s R) (verifySigCore T G K vk msg s R) := by
  unfold verifySigCore
  exact Rel.bind (challengeBits_rel _ _ _ _) fun _ => Rel.bind (fixedBaseScalarMul_rel _ _ _) fun _ =>
    Rel.bind (variableBaseBinaryScalarMul_rel _ _ _) fun _ => Rel.bind (eccAdd_rel _ _ _) fun _ => Rel.pure _

/-- what the circuit checks -/
def SigEq (f : Vec (ZMod p) → Vec (ZMod p)) {E : EdGroup (ZMod p)} (G A B : E.Pt) (msg : List (ZMod p)) (s : ZMod p) :
    Prop := s.val • G = B + chalNat f A.1 B.1 msg • A

theorem verifySignature_spec (hp : p ≠ 2) (h : HashOk K f) {T : TE p} {E : EdGroup (ZMod p)} (hE : OnTE T E)
    (h0 : 0 < fixedBits T) (hb : fixedBits T ≤ modulusBits p) {c : Circ p} (hc : WF c) (G : E.Pt) (vk : ℕ × ℕ)
    (msg : List ℕ) (s : ℕ) (R : ℕ × ℕ) :
    Spec (verifySignature T G.1 K vk msg s R) c
      ((SigIn vk R msg c ∧ s < c.numVars) ∧ (c.val s).val < 2 ^ fixedBits T ∧
        ∃ A B : E.Pt, ptAt c.val vk = A.1 ∧ ptAt c.val R = B.1 ∧ SigEq f G A B (msg.map c.val) (c.val s))
      (fun _ _ => True)
      (fun _ w => (w s).val < 2 ^ fixedBits T ∧ ∀ A B : E.Pt, ptAt w vk = A.1 → ptAt w R = B.1 →
          SigEq f G A B (msg.map w) (w s)) := by
  unfold verifySignature
  refine Spec.bind (verifySigCore_spec hp h hE h0 hb hc G vk msg s R) ?_ hc ?_
  · rintro ⟨h1, h2, A, B, hA, hB, _⟩ - -
    exact ⟨h1, h2, A, B, hA, hB⟩
  rintro ⟨x, y⟩ c1 e1 ⟨hx, hy⟩
  refine Spec.conseq e1.wf (enforcePointEqual_spec e1.wf x y) ?_ (fun _ _ _ _ => trivial) ?_
  · rintro ⟨⟨⟨⟨h1, hR, hm⟩, hs⟩, h2, A, B, hA, hB, hAB⟩, ⟨_, g1⟩, g2⟩ - -
    refine ⟨⟨hx, hy⟩, ?_⟩
    have e2 := g2 A B (by rw [ptAt_ext e1 h1, hA]) (by rw [ptAt_ext e1 hR, hB])
    have hmm : msg.map c1.val = msg.map c.val := List.map_congr_left fun v hv => e1.val v (hm v hv)
    have e3 : ptAt c1.val x = _ := g1
    have e4 : ptAt c1.val y = _ := e2
    rw [e3, e4, hmm, e1.val s hs]
    exact congrArg Subtype.val hAB
  · rintro _ w - - g1 ⟨⟨g2, g3⟩, g4⟩
    refine ⟨g2, fun A B hA hB => ?_⟩
    apply Subtype.ext
    rw [← g4 A B hA hB, ← g3]
    exact g1

theorem verifySignature_rel (T : TE p) (G : ZMod p × ZMod p) (K : Consts) (vk : ℕ × ℕ) (msg : List ℕ) (s : ℕ)
    (R : ℕ × ℕ) : Rel (verifySignature T G K vk msg s R) (verifySignature T G K vk msg s R) :=
  Rel.bind (verifySigCore_rel _ _ _ _ _ _ _) fun _ => enforcePointEqual_rel _ _

open Classical in
theorem checkSignatureValidity_spec (hp : p ≠ 2) (h : HashOk K f) {T : TE p} {E : EdGroup (ZMod p)} (hE : OnTE T E)
    (h0 : 0 < fixedBits T) (hb : fixedBits T ≤ modulusBits p) {c : Circ p} (hc : WF c) (G : E.Pt) (vk : ℕ × ℕ)
    (msg : List ℕ) (s : ℕ) (R : ℕ × ℕ) :
    Spec (checkSignatureValidity T G.1 K vk msg s R) c
      ((SigIn vk R msg c ∧ s < c.numVars) ∧ (c.val s).val < 2 ^ fixedBits T ∧
        ∃ A B : E.Pt, ptAt c.val vk = A.1 ∧ ptAt c.val R = B.1)
      (fun v c' => v < c'.numVars)
      (fun v w => (w s).val < 2 ^ fixedBits T ∧ ∀ A B : E.Pt, ptAt w vk = A.1 → ptAt w R = B.1 →
          w v = if SigEq f G A B (msg.map w) (w s) then 1 else 0) := by
  unfold checkSignatureValidity
  refine Spec.bind (verifySigCore_spec hp h hE h0 hb hc G vk msg s R) (fun h _ _ => h) hc ?_
  rintro ⟨x, y⟩ c1 e1 ⟨hx, hy⟩
  refine Spec.conseq e1.wf (isPointEqual_spec e1.wf x y) (fun _ _ _ => ⟨hx, hy⟩) (fun _ _ _ h => h) ?_
  rintro v w - - g1 ⟨⟨g2, g3⟩, g4⟩
  refine ⟨g2, fun A B hA hB => ?_⟩
  rw [g1]
  have e3 : ptAt w x = _ := g3
  have e4 : ptAt w y = _ := g4 A B hA hB
  rw [e3, e4]
  have : (((w s).val • G : E.Pt).1 = (B + chalNat f A.1 B.1 (msg.map w) • A).1) ↔ SigEq f G A B (msg.map w) (w s) :=
    ⟨fun h => Subtype.ext h, fun h => congrArg Subtype.val h⟩
  by_cases hh : SigEq f G A B (msg.map w) (w s)
  · rw [if_pos hh, if_pos (this.2 hh)]
  · rw [if_neg hh, if_neg (fun h => hh (this.1 h))]

theorem checkSignatureValidity_rel (T : TE p) (G : ZMod p × ZMod p) (K : Consts) (vk : ℕ × ℕ) (msg : List ℕ) (s : ℕ)
    (R : ℕ × ℕ) : Rel (checkSignatureValidity T G K vk msg s R) (checkSignatureValidity T G K vk msg s R) :=
  Rel.bind (verifySigCore_rel _ _ _ _ _ _ _) fun _ => isPointEqual_rel _ _

end Verif.Circuit
