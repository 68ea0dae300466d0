import Verif.Circuit.RescueGadget
import Verif.Circuit.Indep
import Verif.Hash.RescueLemmas
import Verif.Hash.SpongeLemmas

/-! # Specifications of the Rescue gadgets -/

set_option linter.unusedSectionVars false

namespace Verif.Circuit

open Verif.Rescue (Vec Mat Consts PRP Good)

variable {p : ℕ} {β : Type}

/-- all variables of a state exist -/
def InS (s : Vec ℕ) (c : Circ p) : Prop :=
  s.a < c.numVars ∧ s.b < c.numVars ∧ s.c < c.numVars ∧ s.d < c.numVars

theorem InS.ext {s : Vec ℕ} {c c' : Circ p} (h : InS s c) (e : Ext c c') : InS s c' :=
  ⟨e.lt h.1, e.lt h.2.1, e.lt h.2.2.1, e.lt h.2.2.2⟩

theorem Ext.vals {s : Vec ℕ} {c c' : Circ p} (e : Ext c c') (h : InS s c) :
    s.map c'.val = s.map c.val := by
  simp [Vec.map, e.val _ h.1, e.val _ h.2.1, e.val _ h.2.2.1, e.val _ h.2.2.2]

theorem Spec.checkState_bind {s : Vec ℕ} {f : Unit → Build p β} {c : Circ p} {C : Prop}
    {B : β → Circ p → Prop} {R : β → (ℕ → ZMod p) → Prop}
    (hC : C → InS s c) (h : InS s c → Spec (f ()) c C B R) :
    Spec (checkState s >>= f) c C B R := by
  have key : (∀ v ∈ s.elems, v < c.numVars) ↔ InS s c := by
    simp [Vec.elems, InS]
  exact Spec.checkVars_bind (fun h' => key.2 (hC h')) (fun h' => h (key.1 h'))

theorem addConstantState_spec {c : Circ p} (hc : WF c) (s : Vec ℕ) (k : Vec (ZMod p)) :
    Spec (addConstantState s k) c (InS s c) (fun v c' => InS v c')
      (fun v w => v.map w = Rescue.addVec (s.map w) k) := by
  unfold addConstantState
  apply Spec.checkState_bind (fun h => h); intro hs
  refine Spec.bind (addConstant_spec hc s.a k.a) (fun _ _ _ => hs.1) hc ?_
  rintro a c1 e1 ha
  refine Spec.bind (addConstant_spec e1.wf s.b k.b) (fun _ _ _ => e1.lt hs.2.1) e1.wf ?_
  rintro b c2 e2 hb
  refine Spec.bind (addConstant_spec e2.wf s.c k.c) (fun _ _ _ => (hs.ext (e1.trans e2)).2.2.1) e2.wf ?_
  rintro d c3 e3 hd
  refine Spec.bind (addConstant_spec e3.wf s.d k.d)
    (fun _ _ _ => (hs.ext ((e1.trans e2).trans e3)).2.2.2) e3.wf ?_
  rintro e c4 e4 he
  refine Spec.pure e4.wf ⟨e4.lt (e3.lt (e2.lt ha)), e4.lt (e3.lt hb), e4.lt hd, he⟩ ?_
  intro w _ _ h4 h3 h2 h1
  simp [Vec.map, Rescue.addVec, Vec.zipWith, h1, h2, h3, h4]

theorem addState_spec {c : Circ p} (hc : WF c) (s t : Vec ℕ) :
    Spec (addState s t) c (InS s c ∧ InS t c) (fun v c' => InS v c')
      (fun v w => v.map w = Rescue.addVec (s.map w) (t.map w)) := by
  unfold addState
  refine Spec.bind (add_spec hc s.a t.a) (fun h _ _ => ⟨h.1.1, h.2.1⟩) hc ?_
  rintro a c1 e1 ha
  refine Spec.bind (add_spec e1.wf s.b t.b) (fun h _ _ => ⟨e1.lt h.1.1.2.1, e1.lt h.1.2.2.1⟩) e1.wf ?_
  rintro b c2 e2 hb
  refine Spec.bind (add_spec e2.wf s.c t.c)
    (fun h _ _ => ⟨e2.lt (e1.lt h.1.1.1.2.2.1), e2.lt (e1.lt h.1.1.2.2.2.1)⟩) e2.wf ?_
  rintro d c3 e3 hd
  refine Spec.bind (add_spec e3.wf s.d t.d)
    (fun h _ _ => ⟨e3.lt (e2.lt (e1.lt h.1.1.1.1.2.2.2)), e3.lt (e2.lt (e1.lt h.1.1.1.2.2.2.2))⟩) e3.wf ?_
  rintro e c4 e4 he
  refine Spec.pure e4.wf ⟨e4.lt (e3.lt (e2.lt ha)), e4.lt (e3.lt hb), e4.lt hd, he⟩ ?_
  intro w _ _ h4 h3 h2 h1
  simp [Vec.map, Rescue.addVec, Vec.zipWith, h1, h2, h3, h4]

theorem stateRow_spec {c : Circ p} (hc : WF c) (s : Vec ℕ) (hs : InS s c) (g : Sel p) (x : ZMod p)
    (hio : g.io = false) (hl : g.lookup = 0) (f : Vec (ZMod p) → ZMod p)
    (hg : ∀ a b c d e, g.output 0 a b c d e = g.o * e ↔ e = f ⟨a, b, c, d⟩)
    (hx : x = f (s.map c.val)) :
    Spec (stateRow s g x) c True (fun v c' => v < c'.numVars) (fun v w => w v = f (s.map w)) := by
  unfold stateRow
  refine Spec.bind (createVariable_spec hc _ True) (fun _ _ _ => trivial) hc ?_
  rintro v c1 e1 ⟨hv, hval⟩
  have hs1 := hs.ext e1
  refine Spec.bind (insertGate_spec e1.wf hio hl ⟨hs1.1, hs1.2.1, hs1.2.2.1, hs1.2.2.2, hv⟩)
    (fun _ _ _ => ?_) e1.wf ?_
  · rw [hg, hval, hx, ← e1.vals hs]; rfl
  · rintro _ c2 e2 -
    refine Spec.pure e2.wf (e2.lt hv) (fun w _ _ h _ => ?_)
    rw [hg] at h
    exact h

theorem affineGate_iff (row : Vec (ZMod p)) (k a b c d e : ZMod p) :
    (affineGate row k).output 0 a b c d e = (affineGate row k).o * e ↔
      e = Rescue.dotProduct row ⟨a, b, c, d⟩ + k := by
  simp only [Sel.output, affineGate, Rescue.dotProduct]
  constructor <;> intro h
  · linear_combination -h
  · linear_combination -h

theorem power5Gate_iff (row : Vec (ZMod p)) (k a b c d e : ZMod p) :
    (power5Gate row k).output 0 a b c d e = (power5Gate row k).o * e ↔
      e = Rescue.dotProduct row (Rescue.powVec ⟨a, b, c, d⟩ [5]) + k := by
  simp only [Sel.output, power5Gate, Rescue.dotProduct, Rescue.powVec, Vec.map,
    Rescue.limbsVal_single]
  constructor <;> intro h
  · linear_combination -h
  · linear_combination -h

/-- four rows in a row -/
theorem stateRows_spec {c : Circ p} (hc : WF c) (s : Vec ℕ) (hs : InS s c)
    (gate : Vec (ZMod p) → ZMod p → Sel p) (f : Vec (ZMod p) → ZMod p → Vec (ZMod p) → ZMod p)
    (hio : ∀ r k, (gate r k).io = false) (hl : ∀ r k, (gate r k).lookup = 0)
    (hg : ∀ r k a b c d e, (gate r k).output 0 a b c d e = (gate r k).o * e ↔ e = f r k ⟨a, b, c, d⟩)
    (m : Mat (ZMod p)) (k out : Vec (ZMod p)) (ho : out = Vec.zipWith (fun r k => f r k (s.map c.val)) m k) :
    Spec (do
      let a ← stateRow s (gate m.a k.a) out.a
      let b ← stateRow s (gate m.b k.b) out.b
      let c ← stateRow s (gate m.c k.c) out.c
      let d ← stateRow s (gate m.d k.d) out.d
      pure (⟨a, b, c, d⟩ : Vec ℕ)) c True (fun v c' => InS v c')
      (fun v w => v.map w = Vec.zipWith (fun r k => f r k (s.map w)) m k) := by
  subst ho
  refine Spec.bind (stateRow_spec hc s hs _ _ (hio _ _) (hl _ _) (f m.a k.a) (hg _ _) rfl)
    (fun _ _ _ => trivial) hc ?_
  rintro a c1 e1 ha
  refine Spec.bind (stateRow_spec e1.wf s (hs.ext e1) _ _ (hio _ _) (hl _ _) (f m.b k.b) (hg _ _)
    (by rw [e1.vals hs]; rfl)) (fun _ _ _ => trivial) e1.wf ?_
  rintro b c2 e2 hb
  have e12 := e1.trans e2
  refine Spec.bind (stateRow_spec e2.wf s (hs.ext e12) _ _ (hio _ _) (hl _ _) (f m.c k.c) (hg _ _)
    (by rw [e12.vals hs]; rfl)) (fun _ _ _ => trivial) e2.wf ?_
  rintro d c3 e3 hd
  have e13 := e12.trans e3
  refine Spec.bind (stateRow_spec e3.wf s (hs.ext e13) _ _ (hio _ _) (hl _ _) (f m.d k.d) (hg _ _)
    (by rw [e13.vals hs]; rfl)) (fun _ _ _ => trivial) e3.wf ?_
  rintro e c4 e4 he
  refine Spec.pure e4.wf ⟨e4.lt (e3.lt (e2.lt ha)), e4.lt (e3.lt hb), e4.lt hd, he⟩ ?_
  intro w _ _ h4 h3 h2 h1
  simp only [Vec.zipWith, Vec.map] at *
  rw [h1, h2, h3, h4]

theorem linear_eq (m : Mat (ZMod p)) (v k : Vec (ZMod p)) :
    Rescue.linear v m k = Vec.zipWith (fun r k => Rescue.dotProduct r v + k) m k := rfl

theorem affineTransform_spec {c : Circ p} (hc : WF c) (s : Vec ℕ) (m : Mat (ZMod p))
    (k : Vec (ZMod p)) :
    Spec (affineTransform s m k) c (InS s c) (fun v c' => InS v c')
      (fun v w => v.map w = Rescue.linear (s.map w) m k) := by
  unfold affineTransform
  apply Spec.checkState_bind (fun h => h); intro hs
  apply Spec.witness_bind (fun h => h.1); intro _
  apply Spec.witness_bind (fun h => h.2.1); intro _
  apply Spec.witness_bind (fun h => h.2.2.1); intro _
  apply Spec.witness_bind (fun h => h.2.2.2); intro _
  exact (stateRows_spec hc s hs affineGate (fun r k v => Rescue.dotProduct r v + k)
    (fun _ _ => rfl) (fun _ _ => rfl) affineGate_iff m k _ rfl).weaken (fun _ => trivial)

theorem power11Row_spec {c : Circ p} (hc : WF c) (x : ℕ) :
    Spec (power11Row x) c (x < c.numVars) (fun v c' => v < c'.numVars) (fun v w => w v = w x ^ 11) := by
  unfold power11Row
  apply Spec.witness_bind (fun h => h); intro hx
  refine Spec.bind (createVariable_spec hc _ True) (fun _ _ _ => trivial) hc ?_
  rintro v c1 e1 ⟨hv, hval⟩
  refine Spec.bind (power11Gate_spec e1.wf x v)
    (fun _ _ _ => ⟨⟨e1.lt hx, hv⟩, by rw [hval, e1.val x hx]⟩) e1.wf ?_
  rintro _ c2 e2 -
  exact Spec.pure e2.wf (e2.lt hv) (fun w _ _ h _ => h)

theorem nonLinearTransform_spec {c : Circ p} (hc : WF c) (K : Consts) (hA : K.A = 5 ∨ K.A = 11)
    (s : Vec ℕ) (m : Mat (ZMod p)) (k : Vec (ZMod p)) :
    Spec (nonLinearTransform K s m k) c (InS s c) (fun v c' => InS v c')
      (fun v w => v.map w = Rescue.nonLinear K (s.map w) m k) := by
  unfold nonLinearTransform
  apply Spec.checkState_bind (fun h => h); intro hs
  apply Spec.witness_bind (fun h => h.1); intro _
  apply Spec.witness_bind (fun h => h.2.1); intro _
  apply Spec.witness_bind (fun h => h.2.2.1); intro _
  apply Spec.witness_bind (fun h => h.2.2.2); intro _
  by_cases h5 : K.A = 5
  · rw [if_pos h5]
    refine Spec.conseq hc ((stateRows_spec hc s hs power5Gate
      (fun r k v => Rescue.dotProduct r (Rescue.powVec v [5]) + k)
      (fun _ _ => rfl) (fun _ _ => rfl) power5Gate_iff m k _ ?_)) (fun _ _ _ => trivial)
      (fun _ _ _ h => h) ?_
    · simp only [Rescue.nonLinear, h5]; rfl
    · intro v w _ _ h
      rw [h]
      simp only [Rescue.nonLinear, h5]; rfl
  · have h11 : K.A = 11 := by rcases hA with h | h; exact absurd h h5; exact h
    rw [if_neg h5, if_pos h11]
    refine Spec.bind (power11Row_spec hc s.a) (fun _ _ _ => hs.1) hc ?_
    rintro a c1 e1 ha
    refine Spec.bind (power11Row_spec e1.wf s.b) (fun _ _ _ => e1.lt hs.2.1) e1.wf ?_
    rintro b c2 e2 hb
    refine Spec.bind (power11Row_spec e2.wf s.c)
      (fun _ _ _ => (hs.ext (e1.trans e2)).2.2.1) e2.wf ?_
    rintro d c3 e3 hd
    refine Spec.bind (power11Row_spec e3.wf s.d)
      (fun _ _ _ => (hs.ext ((e1.trans e2).trans e3)).2.2.2) e3.wf ?_
    rintro e c4 e4 he
    refine Spec.conseq e4.wf (affineTransform_spec e4.wf ⟨a, b, d, e⟩ m k)
      (fun _ _ _ => ⟨e4.lt (e3.lt (e2.lt ha)), e4.lt (e3.lt hb), e4.lt hd, he⟩) (fun _ _ _ h => h) ?_
    intro v w _ _ h h4 h3 h2 h1
    rw [h]
    simp [Vec.map, Rescue.linear, Rescue.nonLinear, Rescue.powVec, Rescue.limbsVal_single, h11,
      h1, h2, h3, h4]

theorem powAlphaInv_spec [Fact p.Prime] {c : Circ p} (hc : WF c) {K : Consts}
    (hA : K.A = 5 ∨ K.A = 11) (hg : Good p K) (x : ℕ) :
    Spec (powAlphaInv K x) c (x < c.numVars) (fun v c' => v < c'.numVars)
      (fun v w => w v = w x ^ Rescue.limbsVal K.aInv) := by
  have hinv : ∀ y : ZMod p, (y ^ K.A) ^ Rescue.limbsVal K.aInv = y :=
    Rescue.pow_mul_eq hg.exps hg.pos
  have hinv' : ∀ y : ZMod p, (y ^ Rescue.limbsVal K.aInv) ^ K.A = y :=
    Rescue.pow_mul_eq (by rw [mul_comm]; exact hg.exps) (by rw [mul_comm]; exact hg.pos)
  unfold powAlphaInv
  apply Spec.checkVar_bind (fun h => h); intro hx
  apply Spec.witness_bind (fun h => h); intro _
  refine Spec.bind (createVariable_spec hc _ True) (fun _ _ _ => trivial) hc ?_
  rintro v c1 e1 ⟨hv, hval⟩
  by_cases h5 : K.A = 5
  · rw [if_pos h5]
    refine Spec.bind (fifthRoot_spec e1.wf v x hv (e1.lt hx)) (fun _ _ _ => ?_) e1.wf ?_
    · rw [hval, e1.val x hx, ← h5, hinv']
    · rintro _ c2 e2 -
      refine Spec.pure e2.wf (e2.lt hv) (fun w _ _ h _ => ?_)
      rw [h, ← h5, hinv]
  · have h11 : K.A = 11 := by rcases hA with h | h; exact absurd h h5; exact h
    rw [if_neg h5, if_pos h11]
    refine Spec.bind (power11Gate_spec e1.wf v x) (fun _ _ _ => ⟨⟨hv, e1.lt hx⟩, ?_⟩) e1.wf ?_
    · rw [hval, e1.val x hx, ← h11, hinv']
    · rintro _ c2 e2 -
      refine Spec.pure e2.wf (e2.lt hv) (fun w _ _ h _ => ?_)
      rw [h, ← h11, hinv]

theorem powAlphaInvState_spec [Fact p.Prime] {c : Circ p} (hc : WF c) {K : Consts}
    (hA : K.A = 5 ∨ K.A = 11) (hg : Good p K) (s : Vec ℕ) :
    Spec (powAlphaInvState K s) c (InS s c) (fun v c' => InS v c')
      (fun v w => v.map w = Rescue.powVec (s.map w) K.aInv) := by
  unfold powAlphaInvState
  apply Spec.checkState_bind (fun h => h); intro hs
  refine Spec.bind (powAlphaInv_spec hc hA hg s.a) (fun _ _ _ => hs.1) hc ?_
  rintro a c1 e1 ha
  refine Spec.bind (powAlphaInv_spec e1.wf hA hg s.b) (fun _ _ _ => e1.lt hs.2.1) e1.wf ?_
  rintro b c2 e2 hb
  refine Spec.bind (powAlphaInv_spec e2.wf hA hg s.c)
    (fun _ _ _ => (hs.ext (e1.trans e2)).2.2.1) e2.wf ?_
  rintro d c3 e3 hd
  refine Spec.bind (powAlphaInv_spec e3.wf hA hg s.d)
    (fun _ _ _ => (hs.ext ((e1.trans e2).trans e3)).2.2.2) e3.wf ?_
  rintro e c4 e4 he
  refine Spec.pure e4.wf ⟨e4.lt (e3.lt (e2.lt ha)), e4.lt (e3.lt hb), e4.lt hd, he⟩ ?_
  intro w _ _ h4 h3 h2 h1
  simp [Vec.map, Rescue.powVec, h1, h2, h3, h4]

theorem roundConst_spec [Fact p.Prime] {c : Circ p} (hc : WF c) {K : Consts}
    (hA : K.A = 5 ∨ K.A = 11) (hg : Good p K) (m : Mat (ZMod p)) (r : ℕ) (s : Vec ℕ)
    (k : Vec (ZMod p)) :
    Spec (roundConst K m r s k) c (InS s c) (fun v c' => InS v c')
      (fun v w => v.map w = Rescue.linear (Rescue.powVec (s.map w) (Rescue.expOf K r)) m k) := by
  unfold roundConst Rescue.expOf
  by_cases h : r % 2 = 0
  · rw [if_pos h, if_pos h]
    refine Spec.bind (powAlphaInvState_spec hc hA hg s) (fun h _ _ => h) hc ?_
    rintro t c1 e1 ht
    refine Spec.conseq e1.wf (affineTransform_spec e1.wf t m k) (fun _ _ _ => ht)
      (fun _ _ _ h => h) ?_
    intro v w _ _ h1 h2
    rw [h1, h2]
  · rw [if_neg h, if_neg h]
    exact nonLinearTransform_spec hc K hA s m k

theorem constKeysLoop_spec [Fact p.Prime] {K : Consts} (hA : K.A = 5 ∨ K.A = 11) (hg : Good p K)
    (m : Mat (ZMod p)) (ks : List (Vec (ZMod p))) : ∀ {c : Circ p} (_ : WF c) (r : ℕ) (s : Vec ℕ),
    Spec (constKeysLoop K m r ks s) c (InS s c) (fun v c' => InS s c → InS v c')
      (fun v w => v.map w = Rescue.roundLoop K m r ks (s.map w)) := by
  induction ks with
  | nil =>
    intro c hc r s
    exact Spec.pure hc (fun h => h) (fun w _ _ => rfl)
  | cons k ks ih =>
    intro c hc r s
    unfold constKeysLoop
    refine Spec.bind (roundConst_spec hc hA hg m r s k) (fun h _ _ => h) hc ?_
    rintro t c1 e1 ht
    refine Spec.conseq e1.wf (ih e1.wf (r + 1) t) (fun _ _ _ => ht) (fun _ _ _ h _ => h ht) ?_
    intro v w _ _ h1 h2
    rw [h1, h2]
    rfl

theorem permutationWithConstRoundKeys_spec [Fact p.Prime] {c : Circ p} (hc : WF c) {K : Consts}
    (hA : K.A = 5 ∨ K.A = 11) (hg : Good p K) (P : PRP (ZMod p)) (keys : List (Vec (ZMod p)))
    (hk : keys.length = 2 * Rescue.rounds + 1) (s : Vec ℕ) :
    Spec (permutationWithConstRoundKeys K s P.mds keys) c (InS s c) (fun v c' => InS v c')
      (fun v w => Rescue.prpWithRoundKeys K P keys (s.map w) = some (v.map w)) := by
  unfold permutationWithConstRoundKeys Rescue.prpWithRoundKeys
  rw [if_neg (by simpa using hk)]
  cases keys with
  | nil => simp [Rescue.rounds] at hk
  | cons k0 ks =>
    refine Spec.bind (addConstantState_spec hc s k0) (fun h _ _ => h) hc ?_
    rintro t c1 e1 ht
    refine Spec.conseq e1.wf (constKeysLoop_spec hA hg P.mds ks e1.wf 0 t) (fun _ _ _ => ht)
      (fun _ _ _ h => h ht) ?_
    intro v w _ _ h1 h2
    rw [if_neg (by simpa using hk), h1, h2]

theorem rescuePermutation_spec [Fact p.Prime] {c : Circ p} (hc : WF c) {K : Consts}
    (hA : K.A = 5 ∨ K.A = 11) (hg : Good p K) (hk : K.permRoundKeys.length = 2 * Rescue.rounds + 1)
    (s : Vec ℕ) :
    Spec (rescuePermutation K s) c (InS s c) (fun v c' => InS v c')
      (fun v w => (Rescue.Permutation.default K).eval K (s.map w) = some (v.map w)) :=
  permutationWithConstRoundKeys_spec hc hA hg (Rescue.Permutation.default K).rescuePrp _
    (by simpa [Rescue.Permutation.default] using hk) s

/-! ## the cipher -/

theorem addVec_zero_right (v : Vec (ZMod p)) : Rescue.addVec v Rescue.zeroVec = v := by
  simp [Rescue.addVec, Vec.zipWith, Rescue.zeroVec]

theorem varKeysLoop_spec [Fact p.Prime] {K : Consts} (hA : K.A = 5 ∨ K.A = 11) (hg : Good p K)
    (m : Mat (ZMod p)) (ks : List (Vec ℕ)) : ∀ {c : Circ p} (_ : WF c) (r : ℕ) (s : Vec ℕ),
    Spec (varKeysLoop K m r ks s) c (InS s c ∧ ∀ k ∈ ks, InS k c) (fun v c' => InS s c → InS v c')
      (fun v w => v.map w = Rescue.roundLoop K m r (ks.map (Vec.map w)) (s.map w)) := by
  induction ks with
  | nil =>
    intro c hc r s
    exact Spec.pure hc (fun h => h) (fun w _ _ => rfl)
  | cons k ks ih =>
    intro c hc r s
    unfold varKeysLoop
    refine Spec.bind (roundConst_spec hc hA hg m r s Rescue.zeroVec) (fun h _ _ => h.1) hc ?_
    rintro t c1 e1 ht
    refine Spec.bind (addState_spec e1.wf t k)
      (fun h _ _ => ⟨ht, (h.1.2 k (by simp)).ext e1⟩) e1.wf ?_
    rintro u c2 e2 hu
    refine Spec.conseq e2.wf (ih e2.wf (r + 1) u)
      (fun h _ _ => ⟨hu, fun x hx => (h.1.1.2 x (by simp [hx])).ext (e1.trans e2)⟩)
      (fun _ _ _ h _ => h hu) ?_
    intro v w _ _ h1 h2 h3
    rw [h1, h2, h3]
    simp only [List.map_cons, Rescue.roundLoop]
    congr 1
    simp [Rescue.addVec, Rescue.linear, Rescue.zeroVec, Vec.zipWith]

theorem prpWithRoundKeys_spec [Fact p.Prime] {c : Circ p} (hc : WF c) {K : Consts}
    (hA : K.A = 5 ∨ K.A = 11) (hg : Good p K) (P : PRP (ZMod p)) (keys : List (Vec ℕ))
    (hk : keys.length = 2 * Rescue.rounds + 1) (s : Vec ℕ) :
    Spec (prpWithRoundKeys K s P.mds keys) c (InS s c ∧ ∀ k ∈ keys, InS k c)
      (fun v c' => InS v c')
      (fun v w => Rescue.prpWithRoundKeys K P (keys.map (Vec.map w)) (s.map w)
        = some (v.map w)) := by
  unfold prpWithRoundKeys
  rw [if_neg (by simpa using hk)]
  cases keys with
  | nil => simp [Rescue.rounds] at hk
  | cons k0 ks =>
    refine Spec.bind (addState_spec hc s k0) (fun h _ _ => ⟨h.1, h.2 k0 (by simp)⟩) hc ?_
    rintro t c1 e1 ht
    refine Spec.conseq e1.wf (varKeysLoop_spec hA hg P.mds ks e1.wf 0 t)
      (fun h _ _ => ⟨ht, fun x hx => (h.1.2 x (by simp [hx])).ext e1⟩)
      (fun _ _ _ h => h ht) ?_
    intro v w _ _ h1 h2
    unfold Rescue.prpWithRoundKeys
    rw [if_neg (by simpa using hk), h1, h2]
    rfl

theorem keyScheduleLoop_spec [Fact p.Prime] {K : Consts} (hA : K.A = 5 ∨ K.A = 11) (hg : Good p K)
    (m : Mat (ZMod p)) (ks : List (Vec (ZMod p))) : ∀ {c : Circ p} (_ : WF c) (r : ℕ) (s : Vec ℕ),
    Spec (keyScheduleLoop K m r ks s) c (InS s c)
      (fun vs c' => vs.length = ks.length ∧ (InS s c → ∀ v ∈ vs, InS v c'))
      (fun vs w => vs.map (Vec.map w) = Rescue.scheduleLoop K m r ks (s.map w)) := by
  induction ks with
  | nil =>
    intro c hc r s
    exact Spec.pure hc ⟨rfl, by simp⟩ (fun w _ _ => rfl)
  | cons k ks ih =>
    intro c hc r s
    unfold keyScheduleLoop
    refine Spec.bind (roundConst_spec hc hA hg m r s k) (fun h _ _ => h) hc ?_
    rintro t c1 e1 ht
    refine Spec.bind (ih e1.wf (r + 1) t) (fun _ _ _ => ht) e1.wf ?_
    rintro vs c2 e2 ⟨hl, hvs⟩
    refine Spec.pure e2.wf ⟨by simp [hl], fun _ v hv => ?_⟩ ?_
    · rcases List.mem_cons.1 hv with rfl | hv
      · exact ht.ext e2
      · exact hvs ht v hv
    · intro w _ _ h1 h2
      simp only [List.map_cons, Rescue.scheduleLoop, h1, h2]

theorem keySchedule_spec [Fact p.Prime] {c : Circ p} (hc : WF c) {K : Consts}
    (hA : K.A = 5 ∨ K.A = 11) (hg : Good p K) (P : PRP (ZMod p))
    (hP : P.keyInjection.length = 2 * Rescue.rounds) (key : Vec ℕ) :
    Spec (keySchedule K P.mds key P) c (InS key c)
      (fun vs c' => vs.length = 2 * Rescue.rounds + 1 ∧ ∀ v ∈ vs, InS v c')
      (fun vs w => Rescue.keySchedule K P (key.map w) = some (vs.map (Vec.map w))) := by
  unfold keySchedule
  refine Spec.bind (addConstantState_spec hc key P.initVec) (fun h _ _ => h) hc ?_
  rintro t c1 e1 ht
  refine Spec.bind (keyScheduleLoop_spec hA hg P.mds P.keyInjection e1.wf 0 t)
    (fun _ _ _ => ht) e1.wf ?_
  rintro vs c2 e2 ⟨hl, hvs⟩
  refine Spec.pure e2.wf ⟨by simp [hl, hP], fun v hv => ?_⟩ ?_
  · rcases List.mem_cons.1 hv with rfl | hv
    · exact ht.ext e2
    · exact hvs ht v hv
  · intro w _ _ h1 h2
    simp only [Rescue.keySchedule, hP, lt_irrefl, if_false, List.map_cons, h1, h2]
    rw [List.take_of_length_le (le_of_eq hP)]

theorem prp_spec [Fact p.Prime] {c : Circ p} (hc : WF c) {K : Consts}
    (hA : K.A = 5 ∨ K.A = 11) (hg : Good p K) (hk : K.keyInjection.length = 2 * Rescue.rounds)
    (key s : Vec ℕ) :
    Spec (prp K key s) c (InS key c ∧ InS s c) (fun v c' => InS v c')
      (fun v w => Rescue.prp K (PRP.default K) (key.map w) (s.map w) = some (v.map w)) := by
  unfold prp
  refine Spec.bind (keySchedule_spec hc hA hg (PRP.default K)
    (by simpa [PRP.default] using hk) key) (fun h _ _ => h.1) hc ?_
  rintro vs c1 e1 ⟨hl, hvs⟩
  refine Spec.conseq e1.wf (prpWithRoundKeys_spec e1.wf hA hg (PRP.default K) vs hl s)
    (fun h _ _ => ⟨h.1.2.ext e1, hvs⟩) (fun _ _ _ h => h) ?_
  intro v w _ _ h1 h2
  simp only [Rescue.prp, h2, h1]

/-! ## fixed shape -/

theorem checkState_rel (s : Vec ℕ) : Rel (checkState s : Build p Unit) (checkState s) :=
  Rel.checkVars _

theorem addConstantState_rel (s : Vec ℕ) (k : Vec (ZMod p)) :
    Rel (addConstantState s k) (addConstantState s k) :=
  Rel.bind (checkState_rel _) (fun _ => Rel.bind (addConstant_rel _ _) (fun _ =>
    Rel.bind (addConstant_rel _ _) (fun _ => Rel.bind (addConstant_rel _ _) (fun _ =>
    Rel.bind (addConstant_rel _ _) (fun _ => Rel.pure _)))))

theorem addState_rel (s t : Vec ℕ) : Rel (addState s t : Build p (Vec ℕ)) (addState s t) :=
  Rel.bind (add_rel _ _) (fun _ => Rel.bind (add_rel _ _) (fun _ => Rel.bind (add_rel _ _) (fun _ =>
    Rel.bind (add_rel _ _) (fun _ => Rel.pure _))))

theorem stateRow_rel (s : Vec ℕ) (g : Sel p) (x y : ZMod p) :
    Rel (stateRow s g x) (stateRow s g y) :=
  Rel.bind (Rel.createVariable _ _) (fun _ => Rel.bind (Rel.insertGate _ _ _ _ _ _) (fun _ =>
    Rel.pure _))

theorem affineTransform_rel (s : Vec ℕ) (m : Mat (ZMod p)) (k : Vec (ZMod p)) :
    Rel (affineTransform s m k) (affineTransform s m k) := by
  unfold affineTransform
  refine Rel.bind (checkState_rel _) (fun _ => Rel.witness_bind (fun _ _ => Rel.witness_bind
    (fun _ _ => Rel.witness_bind (fun _ _ => Rel.witness_bind (fun _ _ => ?_)))))
  exact Rel.bind (stateRow_rel _ _ _ _) (fun _ => Rel.bind (stateRow_rel _ _ _ _) (fun _ =>
    Rel.bind (stateRow_rel _ _ _ _) (fun _ => Rel.bind (stateRow_rel _ _ _ _) (fun _ =>
    Rel.pure _))))

theorem power11Row_rel (x : ℕ) : Rel (power11Row x : Build p ℕ) (power11Row x) :=
  Rel.witness_bind (fun _ _ => Rel.bind (Rel.createVariable _ _) (fun _ =>
    Rel.bind (power11Gate_rel _ _) (fun _ => Rel.pure _)))

theorem nonLinearTransform_rel (K : Consts) (s : Vec ℕ) (m : Mat (ZMod p)) (k : Vec (ZMod p)) :
    Rel (nonLinearTransform K s m k) (nonLinearTransform K s m k) := by
  unfold nonLinearTransform
  refine Rel.bind (checkState_rel _) (fun _ => Rel.witness_bind (fun _ _ => Rel.witness_bind
    (fun _ _ => Rel.witness_bind (fun _ _ => Rel.witness_bind (fun _ _ => ?_)))))
  split
  · exact Rel.bind (stateRow_rel _ _ _ _) (fun _ => Rel.bind (stateRow_rel _ _ _ _) (fun _ =>
      Rel.bind (stateRow_rel _ _ _ _) (fun _ => Rel.bind (stateRow_rel _ _ _ _) (fun _ =>
      Rel.pure _))))
  · split
    · exact Rel.bind (power11Row_rel _) (fun _ => Rel.bind (power11Row_rel _) (fun _ =>
        Rel.bind (power11Row_rel _) (fun _ => Rel.bind (power11Row_rel _) (fun _ =>
        affineTransform_rel _ _ _))))
    · exact Rel.failL _ _

theorem powAlphaInv_rel (K : Consts) (x : ℕ) : Rel (powAlphaInv K x : Build p ℕ) (powAlphaInv K x) := by
  unfold powAlphaInv
  refine Rel.bind (Rel.checkVar _) (fun _ => Rel.witness_bind (fun _ _ =>
    Rel.bind (Rel.createVariable _ _) (fun _ => ?_)))
  split
  · exact Rel.bind (Rel.insertGate _ _ _ _ _ _) (fun _ => Rel.pure _)
  · split
    · exact Rel.bind (power11Gate_rel _ _) (fun _ => Rel.pure _)
    · exact Rel.failL _ _

theorem powAlphaInvState_rel (K : Consts) (s : Vec ℕ) :
    Rel (powAlphaInvState K s : Build p (Vec ℕ)) (powAlphaInvState K s) :=
  Rel.bind (checkState_rel _) (fun _ => Rel.bind (powAlphaInv_rel _ _) (fun _ =>
    Rel.bind (powAlphaInv_rel _ _) (fun _ => Rel.bind (powAlphaInv_rel _ _) (fun _ =>
    Rel.bind (powAlphaInv_rel _ _) (fun _ => Rel.pure _)))))

theorem roundConst_rel (K : Consts) (m : Mat (ZMod p)) (r : ℕ) (s : Vec ℕ) (k : Vec (ZMod p)) :
    Rel (roundConst K m r s k) (roundConst K m r s k) := by
  unfold roundConst
  split
  · exact Rel.bind (powAlphaInvState_rel _ _) (fun _ => affineTransform_rel _ _ _)
  · exact nonLinearTransform_rel _ _ _ _

theorem constKeysLoop_rel (K : Consts) (m : Mat (ZMod p)) (ks : List (Vec (ZMod p))) :
    ∀ r s, Rel (constKeysLoop K m r ks s) (constKeysLoop K m r ks s) := by
  induction ks with
  | nil => intro r s; exact Rel.pure _
  | cons k ks ih => intro r s; exact Rel.bind (roundConst_rel _ _ _ _ _) (fun _ => ih _ _)

theorem rescuePermutation_rel (K : Consts) (s : Vec ℕ) :
    Rel (rescuePermutation K s : Build p (Vec ℕ)) (rescuePermutation K s) := by
  unfold rescuePermutation permutationWithConstRoundKeys
  split
  · exact Rel.failL _ _
  · split
    · exact Rel.failL _ _
    · exact Rel.bind (addConstantState_rel _ _) (fun _ => constKeysLoop_rel _ _ _ _ _)

theorem varKeysLoop_rel (K : Consts) (m : Mat (ZMod p)) (ks : List (Vec ℕ)) :
    ∀ r s, Rel (varKeysLoop K m r ks s) (varKeysLoop K m r ks s) := by
  induction ks with
  | nil => intro r s; exact Rel.pure _
  | cons k ks ih =>
    intro r s
    exact Rel.bind (roundConst_rel _ _ _ _ _) (fun _ => Rel.bind (addState_rel _ _) (fun _ => ih _ _))

theorem keyScheduleLoop_rel (K : Consts) (m : Mat (ZMod p)) (ks : List (Vec (ZMod p))) :
    ∀ r s, Rel (keyScheduleLoop K m r ks s) (keyScheduleLoop K m r ks s) := by
  induction ks with
  | nil => intro r s; exact Rel.pure _
  | cons k ks ih =>
    intro r s
    exact Rel.bind (roundConst_rel _ _ _ _ _) (fun _ => Rel.bind (ih _ _) (fun _ => Rel.pure _))

theorem prp_rel (K : Consts) (key s : Vec ℕ) :
    Rel (prp K key s : Build p (Vec ℕ)) (prp K key s) := by
  unfold prp keySchedule
  refine Rel.bind (Rel.bind (addConstantState_rel _ _) (fun _ =>
    Rel.bind (keyScheduleLoop_rel _ _ _ _ _) (fun _ => Rel.pure _))) (fun ks => ?_)
  unfold prpWithRoundKeys
  split
  · exact Rel.failL _ _
  · split
    · exact Rel.failL _ _
    · exact Rel.bind (addState_rel _ _) (fun _ => varKeysLoop_rel _ _ _ _ _)

theorem spongeAbsorbLoop_rel (K : Consts) : ∀ (n : ℕ) (data : List ℕ), data.length ≤ n → ∀ s,
    Rel (spongeAbsorbLoop K data s : Build p (Vec ℕ)) (spongeAbsorbLoop K data s) := by
  intro n
  induction n with
  | zero =>
    intro data hd s
    have : data = [] := List.length_eq_zero_iff.1 (by omega)
    subst this
    exact Rel.pure _
  | succ n ih =>
    intro data hd s
    obtain _ | ⟨a, _ | ⟨b, _ | ⟨d, rest⟩⟩⟩ := data
    · exact Rel.pure _
    · exact Rel.pure _
    · exact Rel.pure _
    · simp only [List.length_cons] at hd
      exact Rel.bind (addState_rel _ _) (fun _ => Rel.bind (rescuePermutation_rel _ _) (fun _ =>
        ih _ (by omega) _))

theorem spongeSqueezeLoop_rel (K : Consts) : ∀ (fuel : ℕ) (s : Vec ℕ) (n : ℕ),
    Rel (spongeSqueezeLoop K fuel s n : Build p (List ℕ)) (spongeSqueezeLoop K fuel s n) := by
  intro fuel
  induction fuel with
  | zero => intro s n; exact Rel.pure _
  | succ fuel ih =>
    intro s n
    simp only [spongeSqueezeLoop]
    split
    · exact Rel.pure _
    · exact Rel.bind (rescuePermutation_rel _ _) (fun _ => Rel.bind (ih _ _) (fun _ => Rel.pure _))

theorem rescueSpongeNoPadding_rel (K : Consts) (data : List ℕ) (num : ℕ) :
    Rel (rescueSpongeNoPadding K data num : Build p (List ℕ)) (rescueSpongeNoPadding K data num) := by
  unfold rescueSpongeNoPadding
  split
  · split
    · exact Rel.failL _ _
    · exact Rel.bind (rescuePermutation_rel _ _) (fun _ =>
        Rel.bind (spongeAbsorbLoop_rel K _ _ (le_refl _) _) (fun _ => spongeSqueezeLoop_rel K _ _ _))
  · exact Rel.failL _ _

theorem rescueSpongeWithPadding_rel (K : Consts) (data : List ℕ) (num : ℕ) :
    Rel (rescueSpongeWithPadding K data num : Build p (List ℕ))
      (rescueSpongeWithPadding K data num) := by
  unfold rescueSpongeWithPadding
  split
  · exact Rel.failL _ _
  · exact rescueSpongeNoPadding_rel K _ _

theorem fsksLoop_rel (K : Consts) : ∀ (n : ℕ) (data : List ℕ), data.length ≤ n → ∀ s,
    Rel (fsksLoop K data s : Build p (Vec ℕ)) (fsksLoop K data s) := by
  intro n
  induction n with
  | zero =>
    intro data hd s
    have : data = [] := List.length_eq_zero_iff.1 (by omega)
    subst this
    exact Rel.pure _
  | succ n ih =>
    intro data hd s
    obtain _ | ⟨a, _ | ⟨b, _ | ⟨d, _ | ⟨e, rest⟩⟩⟩⟩ := data
    · exact Rel.pure _
    · exact Rel.pure _
    · exact Rel.pure _
    · exact Rel.pure _
    · simp only [List.length_cons] at hd
      exact Rel.bind (addState_rel _ _) (fun _ => Rel.bind (rescuePermutation_rel _ _) (fun _ =>
        ih _ (by omega) _))

theorem fsksNoPadding_rel (K : Consts) (key : ℕ) (data : List ℕ) :
    Rel (fsksNoPadding K key data : Build p ℕ) (fsksNoPadding K key data) := by
  unfold fsksNoPadding
  split
  · exact Rel.failL _ _
  · exact Rel.bind (fsksLoop_rel K _ _ (le_refl _) _) (fun _ => Rel.pure _)

theorem fsksZeroPadding_rel (K : Consts) (key : ℕ) (data : List ℕ) :
    Rel (fsksZeroPadding K key data : Build p ℕ) (fsksZeroPadding K key data) := by
  unfold fsksZeroPadding
  split
  · exact Rel.failL _ _
  · exact fsksNoPadding_rel K _ _

theorem rescueCommit_rel (K : Consts) (input : List ℕ) (r : ℕ) :
    Rel (rescueCommit K input r : Build p ℕ) (rescueCommit K input r) := by
  unfold rescueCommit
  refine Rel.bind (rescueSpongeNoPadding_rel K _ _) (fun res => ?_)
  split
  · exact Rel.failL _ _
  · exact Rel.pure _

/-! ## the hash functions -/

section hash
variable [Fact p.Prime] {K : Consts} {f : Vec (ZMod p) → Vec (ZMod p)}

/-- the conditions on the constants under which the gadgets compute the native functions; `f` is the
permutation -/
structure HashOk (K : Consts) (f : Vec (ZMod p) → Vec (ZMod p)) : Prop where
  alpha : K.A = 5 ∨ K.A = 11
  good : Good p K
  keys : K.permRoundKeys.length = 2 * Rescue.rounds + 1
  eval : ∀ s, (Rescue.Permutation.default K).eval K s = some (f s)

theorem perm_spec (h : HashOk K f) {c : Circ p} (hc : WF c) (s : Vec ℕ) :
    Spec (rescuePermutation K s) c (InS s c) (fun v c' => InS v c')
      (fun v w => v.map w = f (s.map w)) := by
  refine Spec.conseq hc (rescuePermutation_spec hc h.alpha h.good h.keys s) (fun h _ _ => h)
    (fun _ _ _ h => h) ?_
  intro v w _ _ h1
  rw [h.eval] at h1
  exact (Option.some.inj h1).symm

theorem spongeAbsorbLoop_spec (h : HashOk K f) : ∀ (n : ℕ) (data : List ℕ), data.length = n * 3 →
    ∀ {c : Circ p} (_ : WF c) (s : Vec ℕ),
    Spec (spongeAbsorbLoop K data s) c (InS s c ∧ ∀ v ∈ data, v < c.numVars)
      (fun v c' => InS s c → InS v c')
      (fun v w => v.map w = Rescue.absorb f 3 (s.map w) (data.map w)) := by
  intro n
  induction n with
  | zero =>
    intro data hd c hc s
    have : data = [] := List.length_eq_zero_iff.1 (by omega)
    subst this
    exact Spec.pure hc (fun h => h) (fun w _ _ => rfl)
  | succ n ih =>
    intro data hd c hc s
    obtain _ | ⟨a, _ | ⟨b, _ | ⟨d, rest⟩⟩⟩ := data <;> simp only [List.length_cons, List.length_nil] at hd
    · omega
    · omega
    · omega
    unfold spongeAbsorbLoop
    refine Spec.bind (addState_spec hc s ⟨a, b, d, 0⟩) (fun h _ _ => ⟨h.1, h.2 a (by simp),
      h.2 b (by simp), h.2 d (by simp), lt_of_lt_of_le (by norm_num) hc.two⟩) hc ?_
    rintro t c1 e1 ht
    refine Spec.bind (perm_spec h e1.wf t) (fun _ _ _ => ht) e1.wf ?_
    rintro u c2 e2 hu
    refine Spec.conseq e2.wf (ih rest (by omega) e2.wf u)
      (fun h _ _ => ⟨hu, fun v hv => (e1.trans e2).lt (h.1.1.2 v (by simp [hv]))⟩)
      (fun _ _ _ h _ => h hu) ?_
    intro v w h0 _ h1 h2 h3
    rw [h1, h2, h3, Rescue.absorb_step f (by norm_num) (s.map w) (by simp)]
    simp [Vec.map, Rescue.addVec, Vec.zipWith, Rescue.addElems, h0]

theorem spongeSqueezeLoop_spec (h : HashOk K f) : ∀ (fuel : ℕ) {c : Circ p} (_ : WF c) (s : Vec ℕ)
    (n : ℕ),
    Spec (spongeSqueezeLoop K fuel s n) c (InS s c) (fun vs c' => InS s c → ∀ v ∈ vs, v < c'.numVars)
      (fun vs w => vs.map w = (Rescue.squeezeAux f 3 fuel (s.map w) n).1) := by
  intro fuel
  induction fuel with
  | zero =>
    intro c hc s n
    exact Spec.pure hc (by simp) (fun w _ _ => rfl)
  | succ fuel ih =>
    intro c hc s n
    have hmem : ∀ (k : ℕ) {c : Circ p}, InS s c → ∀ v ∈ s.elems.take k, v < c.numVars := by
      intro k c hs v hv
      have := List.mem_of_mem_take hv
      simp only [Vec.elems, List.mem_cons, List.not_mem_nil, or_false] at this
      rcases this with rfl | rfl | rfl | rfl
      exacts [hs.1, hs.2.1, hs.2.2.1, hs.2.2.2]
    have helem : ∀ (k : ℕ) (w : ℕ → ZMod p), (s.elems.take k).map w = (s.map w).elems.take k := by
      intro k w
      rw [List.map_take]; rfl
    unfold spongeSqueezeLoop
    by_cases hn : n - min n 3 = 0
    · simp only [hn, if_true]
      refine Spec.pure hc (hmem _) (fun w _ _ => ?_)
      simp only [Rescue.squeezeAux, hn, if_true, helem]
    · simp only [hn, if_false]
      refine Spec.bind (perm_spec h hc s) (fun h _ _ => h) hc ?_
      rintro t c1 e1 ht
      refine Spec.bind (ih e1.wf t (n - min n 3)) (fun _ _ _ => ht) e1.wf ?_
      rintro vs c2 e2 hvs
      refine Spec.pure e2.wf (fun hs v hv => ?_) ?_
      · rcases List.mem_append.1 hv with hv | hv
        · exact hmem _ (hs.ext (e1.trans e2)) v hv
        · exact hvs ht v hv
      · intro w _ _ h1 h2
        rw [List.map_append, h1, h2]
        simp only [Rescue.squeezeAux, hn, if_false, helem]

theorem rescueSpongeNoPadding_spec (h : HashOk K f) {c : Circ p} (hc : WF c) (data : List ℕ)
    (num : ℕ) :
    Spec (rescueSpongeNoPadding K data num) c
      ((data ≠ [] ∧ data.length % 3 = 0) ∧ ∀ v ∈ data, v < c.numVars)
      (fun vs c' => ∀ v ∈ vs, v < c'.numVars)
      (fun vs w => Rescue.spongeNoPadding f (data.map w) num = .ok (vs.map w)) := by
  have hfail : data.length < 3 → Spec (Build.fail .parameter : Build p (List ℕ)) c
      ((data ≠ [] ∧ data.length % 3 = 0) ∧ ∀ v ∈ data, v < c.numVars)
      (fun vs c' => ∀ v ∈ vs, v < c'.numVars)
      (fun vs w => Rescue.spongeNoPadding f (data.map w) num = .ok (vs.map w)) := by
    intro hl
    refine Spec.fail (fun hC => ?_)
    have : 0 < data.length := List.length_pos_iff.2 hC.1.1
    have := hC.1.2
    omega
  obtain _ | ⟨a, _ | ⟨b, _ | ⟨d, rest⟩⟩⟩ := data
  · exact hfail (by simp)
  · exact hfail (by simp)
  · exact hfail (by simp)
  simp only [rescueSpongeNoPadding]
  by_cases hr : rest.length % 3 = 0
  · rw [if_neg (by simpa using hr)]
    refine Spec.bind (perm_spec h hc ⟨a, b, d, 0⟩) (fun h _ _ => ⟨h.2 a (by simp), h.2 b (by simp),
      h.2 d (by simp), lt_of_lt_of_le (by norm_num) hc.two⟩) hc ?_
    rintro t c1 e1 ht
    refine Spec.bind (spongeAbsorbLoop_spec h (rest.length / 3) rest (by omega) e1.wf t)
      (fun h _ _ => ⟨ht, fun v hv => e1.lt (h.1.2 v (by simp [hv]))⟩) e1.wf ?_
    rintro u c2 e2 hu
    refine Spec.conseq e2.wf (spongeSqueezeLoop_spec h (num + 1) e2.wf u num)
      (fun _ _ _ => hu ht) (fun _ _ _ h => h (hu ht)) ?_
    intro vs w h0 _ h1 h2 h3
    unfold Rescue.spongeNoPadding Rescue.squeeze Rescue.crhfRate
    rw [if_neg (by simp; omega), h1, h2, h3,
      Rescue.absorb_step f (by norm_num) Rescue.zeroVec (by simp)]
    simp [Vec.map, Rescue.addElems, h0, Rescue.zeroVec]
  · rw [if_pos hr]
    refine Spec.fail (fun hC => ?_)
    have := hC.1.2
    simp only [List.length_cons] at this
    omega

theorem rescueSpongeWithPadding_spec (h : HashOk K f) {c : Circ p} (hc : WF c) (data : List ℕ)
    (num : ℕ) :
    Spec (rescueSpongeWithPadding K data num) c (data ≠ [] ∧ ∀ v ∈ data, v < c.numVars)
      (fun vs c' => ∀ v ∈ vs, v < c'.numVars)
      (fun vs w => Rescue.spongeWithBitPadding f (data.map w) num = .ok (vs.map w)) := by
  unfold rescueSpongeWithPadding
  by_cases hd : data = []
  · rw [if_pos hd]
    exact Spec.fail (fun h => h.1 hd)
  rw [if_neg hd]
  have hlen := Rescue.lenToNextMultiple_mod (data.length + 1) 3 (by norm_num)
  have hle := Rescue.le_lenToNextMultiple (data.length + 1) 3 (by norm_num)
  refine Spec.conseq hc (rescueSpongeNoPadding_spec h hc _ num) (fun hC _ _ => ⟨⟨by simp, ?_⟩, ?_⟩)
    (fun _ _ _ h => h) ?_
  · simp only [List.length_append, List.length_cons, List.length_nil, List.length_replicate]
    omega
  · have h2 := hc.two
    intro v hv
    simp only [List.mem_append, List.mem_singleton, List.mem_replicate] at hv
    rcases hv with (hv | hv) | hv
    · exact hC.2 v hv
    · omega
    · omega
  · intro vs w h0 h1 h2
    have hpad : Rescue.bitPad (data.map w) = (data ++ [1] ++ List.replicate
        (Rescue.lenToNextMultiple (data.length + 1) 3 - data.length - 1) 0).map w := by
      rw [Rescue.bitPad, Rescue.padWithZeros_eq _ (by norm_num [Rescue.crhfRate])]
      simp [h0, h1, Rescue.crhfRate, Nat.sub_sub]
    rw [Rescue.spongeWithBitPadding, hpad, h2, Rescue.expect]

theorem fsksLoop_spec (h : HashOk K f) : ∀ (n : ℕ) (data : List ℕ), data.length = n * 4 →
    ∀ {c : Circ p} (_ : WF c) (s : Vec ℕ),
    Spec (fsksLoop K data s) c (InS s c ∧ ∀ v ∈ data, v < c.numVars)
      (fun v c' => InS s c → InS v c')
      (fun v w => v.map w = Rescue.absorb f 4 (s.map w) (data.map w)) := by
  intro n
  induction n with
  | zero =>
    intro data hd c hc s
    have : data = [] := List.length_eq_zero_iff.1 (by omega)
    subst this
    exact Spec.pure hc (fun h => h) (fun w _ _ => rfl)
  | succ n ih =>
    intro data hd c hc s
    obtain _ | ⟨a, _ | ⟨b, _ | ⟨d, _ | ⟨e, rest⟩⟩⟩⟩ := data <;>
      simp only [List.length_cons, List.length_nil] at hd
    · omega
    · omega
    · omega
    · omega
    unfold fsksLoop
    refine Spec.bind (addState_spec hc s ⟨a, b, d, e⟩) (fun h _ _ => ⟨h.1, h.2 a (by simp),
      h.2 b (by simp), h.2 d (by simp), h.2 e (by simp)⟩) hc ?_
    rintro t c1 e1 ht
    refine Spec.bind (perm_spec h e1.wf t) (fun _ _ _ => ht) e1.wf ?_
    rintro u c2 e2 hu
    refine Spec.conseq e2.wf (ih rest (by omega) e2.wf u)
      (fun h _ _ => ⟨hu, fun v hv => (e1.trans e2).lt (h.1.1.2 v (by simp [hv]))⟩)
      (fun _ _ _ h _ => h hu) ?_
    intro v w h0 _ h1 h2 h3
    rw [h1, h2, h3, Rescue.absorb_step f (by norm_num) (s.map w) (by simp)]
    simp [Vec.map, Rescue.addVec, Vec.zipWith, Rescue.addElems]

theorem fsksNoPadding_spec (h : HashOk K f) {c : Circ p} (hc : WF c) (key : ℕ) (data : List ℕ) :
    Spec (fsksNoPadding K key data) c
      (data.length % 4 = 0 ∧ key < c.numVars ∧ ∀ v ∈ data, v < c.numVars)
      (fun v c' => key < c.numVars → v < c'.numVars)
      (fun v w => Rescue.fsksNoPadding f (w key) (data.map w) 1 = .ok [w v]) := by
  unfold fsksNoPadding
  by_cases hd : data.length % 4 = 0
  · rw [if_neg (by simpa using hd)]
    have h0 : 0 < c.numVars := lt_of_lt_of_le (by norm_num) hc.two
    refine Spec.bind (fsksLoop_spec h (data.length / 4) data (by omega) hc ⟨0, 0, 0, key⟩)
      (fun h _ _ => ⟨⟨h0, h0, h0, h.2.1⟩, h.2.2⟩) hc ?_
    rintro t c1 e1 ht
    refine Spec.pure e1.wf (fun hk => (ht ⟨h0, h0, h0, hk⟩).1) ?_
    intro w hw0 _ h1
    unfold Rescue.fsksNoPadding Rescue.squeeze Rescue.stateSize
    rw [if_neg (by simpa using hd)]
    have h2 : Vec.map w ⟨0, 0, 0, key⟩ = ⟨0, 0, 0, w key⟩ := by simp [Vec.map, hw0]
    rw [h2] at h1
    rw [← h1]
    rfl
  · rw [if_pos hd]
    exact Spec.fail (fun hC => hd hC.1)

theorem fsksZeroPadding_spec (h : HashOk K f) {c : Circ p} (hc : WF c) (key : ℕ) (data : List ℕ) :
    Spec (fsksZeroPadding K key data) c
      (data ≠ [] ∧ key < c.numVars ∧ ∀ v ∈ data, v < c.numVars)
      (fun v c' => key < c.numVars → v < c'.numVars)
      (fun v w => Rescue.fsksZeroPadding f (w key) (data.map w) 1 = .ok [w v]) := by
  unfold fsksZeroPadding
  by_cases hd : data = []
  · rw [if_pos hd]
    exact Spec.fail (fun h => h.1 hd)
  rw [if_neg hd]
  have hlen := Rescue.lenToNextMultiple_mod data.length 4 (by norm_num)
  have hle := Rescue.le_lenToNextMultiple data.length 4 (by norm_num)
  refine Spec.conseq hc (fsksNoPadding_spec h hc key _) (fun hC _ _ => ⟨?_, hC.2.1, ?_⟩)
    (fun _ _ _ h => h) ?_
  · simp only [List.length_append, List.length_replicate]
    omega
  · have h2 := hc.two
    intro v hv
    rcases List.mem_append.1 hv with hv | hv
    · exact hC.2.2 v hv
    · have := (List.mem_replicate.1 hv).2
      omega
  · intro v w h0 _ h2
    rw [Rescue.fsksZeroPadding, Rescue.padWithZeros_eq _ (by norm_num [Rescue.stateSize])]
    simpa [h0, Rescue.stateSize] using h2

theorem padWith_eq (l : List ℕ) {m : ℕ} (hm : 0 < m) (v : ℕ) :
    padWith l m v = l ++ List.replicate (Rescue.lenToNextMultiple l.length m - l.length) v := by
  have : padWith l m v = Rescue.resize l (Rescue.lenToNextMultiple l.length m) v := rfl
  rw [this, Rescue.resize, List.take_of_length_le (Rescue.le_lenToNextMultiple _ _ hm)]

theorem spongeNoPadding_length {l res : List (ZMod p)} {n : ℕ}
    (h : Rescue.spongeNoPadding f l n = .ok res) : res.length = n := by
  unfold Rescue.spongeNoPadding at h
  split at h
  · cases h
  · cases h
    exact (Rescue.squeezeAux_spec f (by norm_num [Rescue.crhfRate]) (by norm_num [Rescue.crhfRate])
      (n + 1) _ n (by omega)).1

theorem rescueCommit_spec (h : HashOk K f) {c : Circ p} (hc : WF c) (input : List ℕ) (r : ℕ) :
    Spec (rescueCommit K input r) c (r < c.numVars ∧ ∀ v ∈ input, v < c.numVars)
      (fun v c' => v < c'.numVars)
      (fun v w => Rescue.commit f (input.length + 1) (input.map w) (some (w r)) = .ok (w v)) := by
  unfold rescueCommit
  have hlen := Rescue.lenToNextMultiple_mod (r :: input).length 3 (by norm_num)
  have hle := Rescue.le_lenToNextMultiple (r :: input).length 3 (by norm_num)
  have hpad := padWith_eq (r :: input) (m := 3) (by norm_num) 0
  have hres : ∀ (w : ℕ → ZMod p), w 0 = 0 → ∀ res, Rescue.spongeNoPadding f
      ((padWith (r :: input) 3 0).map w) 1 = .ok res →
      Rescue.fixedEvaluate f 1 ((r :: input).map w) = .ok res := by
    intro w h0 res hres
    have hone : res.length = 1 := spongeNoPadding_length hres
    have hp0 : (padWith (r :: input) 3 0).map w =
        Rescue.padWithZeros ((r :: input).map w) Rescue.crhfRate := by
      rw [Rescue.padWithZeros_eq _ (by norm_num [Rescue.crhfRate]), hpad]
      simp [h0, Rescue.crhfRate]
    rw [hp0] at hres
    unfold Rescue.fixedEvaluate
    by_cases hm : ((r :: input).map w).length % Rescue.crhfRate = 0
    · rw [if_pos hm]
      have : Rescue.padWithZeros ((r :: input).map w) Rescue.crhfRate = (r :: input).map w := by
        rw [Rescue.padWithZeros_eq _ (by norm_num [Rescue.crhfRate]), Rescue.lenToNextMultiple,
          if_pos hm]
        simp
      rw [this] at hres
      rw [hres]
      simp [Rescue.checkLen, hone]
    · rw [if_neg hm, Rescue.spongeWithZeroPadding, hres]
      simp [Rescue.checkLen, hone, Rescue.expect]
  refine Spec.bind (rescueSpongeNoPadding_spec h hc (padWith (r :: input) 3 0) 1)
    (fun hC _ _ => ⟨⟨?_, ?_⟩, ?_⟩) hc ?_
  · rw [hpad]; simp
  · rw [hpad]
    simp only [List.length_append, List.length_replicate]
    omega
  · have h2 := hc.two
    rw [hpad]
    intro v hv
    rcases List.mem_append.1 hv with hv | hv
    · rcases List.mem_cons.1 hv with rfl | hv
      · exact hC.1
      · exact hC.2 v hv
    · have := (List.mem_replicate.1 hv).2
      omega
  · rintro res c1 e1 hr
    cases res with
    | nil =>
      refine Spec.fail (fun hC => ?_)
      have := spongeNoPadding_length hC.2
      simp at this
    | cons v vs =>
      refine Spec.pure e1.wf (hr v (by simp)) (fun w h0 _ h1 => ?_)
      have := hres w h0 _ h1
      simp only [List.map_cons] at this
      simp [Rescue.commit, this]

end hash

end Verif.Circuit
