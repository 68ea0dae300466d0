import Verif.Circuit.TruncSpec

/-!
# The circuit does not depend on the witness

`Rel m m'`: two runs from circuits that differ only in the stored witness, if both
succeed, return the same value and circuits that differ only in the stored witness.
-/

namespace Verif.Circuit

variable {p : ℕ} {α β : Type}

/-- the circuit without its witness: what preprocessing sees -/
def Circ.shape (c : Circ p) : Circ p := { c with witness := [] }

/-- equality up to the witness -/
def Same (c d : Circ p) : Prop := c.shape = d.shape

theorem Same.refl (c : Circ p) : Same c c := rfl
theorem Same.symm {c d : Circ p} (h : Same c d) : Same d c := Eq.symm h
theorem Same.numVars {c d : Circ p} (h : Same c d) : c.numVars = d.numVars :=
  (congrArg Circ.numVars (show c.shape = d.shape from h) :)
theorem Same.rows {c d : Circ p} (h : Same c d) : c.rows = d.rows := (congrArg Circ.rows (show c.shape = d.shape from h) :)
theorem Same.rangeVars {c d : Circ p} (h : Same c d) : c.rangeVars = d.rangeVars :=
  (congrArg Circ.rangeVars (show c.shape = d.shape from h) :)
theorem Same.pubIds {c d : Circ p} (h : Same c d) : c.pubIds = d.pubIds := (congrArg Circ.pubIds (show c.shape = d.shape from h) :)
theorem Same.domSize {c d : Circ p} (h : Same c d) : c.domSize = d.domSize :=
  (congrArg Circ.domSize (show c.shape = d.shape from h) :)
theorem Same.ultra {c d : Circ p} (h : Same c d) : c.ultra = d.ultra := (congrArg Circ.ultra (show c.shape = d.shape from h) :)
theorem Same.nte {c d : Circ p} (h : Same c d) : c.numTableElems = d.numTableElems :=
  (congrArg Circ.numTableElems (show c.shape = d.shape from h) :)
theorem Same.tgi {c d : Circ p} (h : Same c d) : c.tableGateIds = d.tableGateIds :=
  (congrArg Circ.tableGateIds (show c.shape = d.shape from h) :)

theorem Same.sat {c d : Circ p} (h : Same c d) {pi w} (hs : Sat c pi w) : Sat d pi w := by
  have hk : d.keyValTable w = c.keyValTable w := by unfold Circ.keyValTable; rw [h.rows]
  refine ⟨by rw [← h.pubIds]; exact hs.len, ?_, ?_, ?_, ?_⟩
  · rw [← h.pubIds, ← h.rows]; exact hs.io
  · rw [← h.rows]; exact hs.plain
  · rw [← h.ultra, ← h.rangeVars]; exact hs.range
  · rw [← h.ultra, ← h.rows, hk]; exact hs.lookup

/-- See the file header. -/
def Rel (m m' : Build p α) : Prop :=
  ∀ c d, Same c d → ∀ v c' v' d', m c = .ok (v, c') → m' d = .ok (v', d') → v = v' ∧ Same c' d'

theorem Rel.pure (v : α) : Rel (pure v : Build p α) (pure v) := by
  intro c d h v1 c' v2 d' h1 h2
  cases h1; cases h2; exact ⟨rfl, h⟩

theorem Rel.failL (e : CErr) (m : Build p α) : Rel (Build.fail e) m := by
  intro c d h v1 c' v2 d' h1 h2; cases h1

theorem Rel.failR (e : CErr) (m : Build p α) : Rel m (Build.fail e) := by
  intro c d h v1 c' v2 d' h1 h2; cases h2

theorem Rel.guard {P Q : Prop} [Decidable P] [Decidable Q] {e e' : CErr} {m m' : Build p α}
    (h : Rel m m') : Rel (if P then Build.fail e else m) (if Q then Build.fail e' else m') := by
  by_cases hP : P
  · rw [if_pos hP]; exact Rel.failL _ _
  · rw [if_neg hP]
    by_cases hQ : Q
    · rw [if_pos hQ]; exact Rel.failR _ _
    · rw [if_neg hQ]; exact h

theorem Rel.bind {m m' : Build p α} {f f' : α → Build p β} (h : Rel m m')
    (hf : ∀ v, Rel (f v) (f' v)) : Rel (m >>= f) (m' >>= f') := by
  intro c d hs v1 c' v2 d' h1 h2
  obtain ⟨u, c1, a1, a2⟩ := bind_ok h1
  obtain ⟨u', d1, b1, b2⟩ := bind_ok h2
  obtain ⟨rfl, hs1⟩ := h c d hs _ _ _ _ a1 b1
  exact hf u c1 d1 hs1 _ _ _ _ a2 b2

theorem Rel.witness_bind {a a' : ℕ} {f f' : ZMod p → Build p β}
    (hf : ∀ x y, Rel (f x) (f' y)) : Rel (witness a >>= f) (witness a' >>= f') := by
  intro c d hs v1 c' v2 d' h1 h2
  obtain ⟨u, c1, a1, a2⟩ := bind_ok h1
  obtain ⟨u', d1, b1, b2⟩ := bind_ok h2
  unfold witness at a1 b1
  split at a1
  · cases a1
  split at b1
  · cases b1
  cases a1; cases b1
  exact hf _ _ c d hs _ _ _ _ a2 b2

theorem Rel.createVariable (x y : ZMod p) : Rel (createVariable x) (createVariable y) := by
  intro c d h v1 c' v2 d' h1 h2
  unfold Verif.Circuit.createVariable at h1 h2
  split at h1
  · cases h1
  split at h2
  · cases h2
  cases h1; cases h2
  refine ⟨h.numVars, ?_⟩
  unfold Same Circ.shape
  simp [h.numVars, h.rows, h.rangeVars, h.pubIds, h.domSize, h.ultra, h.nte, h.tgi]

theorem Rel.insertGate (w0 w1 w2 w3 w4 : ℕ) (g : Sel p) :
    Rel (insertGate w0 w1 w2 w3 w4 g) (insertGate w0 w1 w2 w3 w4 g) := by
  intro c d h v1 c' v2 d' h1 h2
  unfold Verif.Circuit.insertGate at h1 h2
  split at h1
  · cases h1
  split at h2
  · cases h2
  cases h1; cases h2
  refine ⟨rfl, ?_⟩
  unfold Same Circ.shape
  simp [h.numVars, h.rows, h.rangeVars, h.pubIds, h.domSize, h.ultra, h.nte, h.tgi]

theorem Rel.setVariablePublic (v : ℕ) :
    Rel (setVariablePublic v : Build p Unit) (setVariablePublic v) := by
  intro c d h v1 c' v2 d' h1 h2
  unfold Verif.Circuit.setVariablePublic at h1 h2
  split at h1
  · cases h1
  split at h2
  · cases h2
  cases h1; cases h2
  refine ⟨rfl, ?_⟩
  unfold Same Circ.shape
  simp [h.numVars, h.rows, h.rangeVars, h.pubIds, h.domSize, h.ultra, h.nte, h.tgi]

theorem Rel.addRangeCheckVariable (v : ℕ) :
    Rel (addRangeCheckVariable v : Build p Unit) (addRangeCheckVariable v) := by
  intro c d h v1 c' v2 d' h1 h2
  unfold Verif.Circuit.addRangeCheckVariable at h1 h2
  split at h1
  · cases h1
  split at h1
  · cases h1
  split at h1
  · cases h1
  split at h2
  · cases h2
  split at h2
  · cases h2
  split at h2
  · cases h2
  cases h1; cases h2
  refine ⟨rfl, ?_⟩
  unfold Same Circ.shape
  simp [h.numVars, h.rows, h.rangeVars, h.pubIds, h.domSize, h.ultra, h.nte, h.tgi]

theorem Rel.checkVar (v : ℕ) : Rel (checkVar v : Build p Unit) (checkVar v) := by
  intro c d h v1 c' v2 d' h1 h2
  unfold Verif.Circuit.checkVar at h1 h2
  split at h1
  · cases h1
  split at h2
  · cases h2
  cases h1; cases h2
  exact ⟨rfl, h⟩

theorem Rel.rangeBitLen : Rel (rangeBitLen : Build p ℕ) rangeBitLen := by
  intro c d h v1 c' v2 d' h1 h2
  unfold Verif.Circuit.rangeBitLen at h1 h2
  rw [← h.ultra] at h2
  split at h1
  · cases h1
  · rename_i k hk
    simp only [hk] at h2
    cases h1; cases h2
    exact ⟨rfl, h⟩

theorem Rel.supportLookup : Rel (supportLookup : Build p Bool) supportLookup := by
  intro c d h v1 c' v2 d' h1 h2
  unfold Verif.Circuit.supportLookup at h1 h2
  rw [← h.ultra] at h2
  cases h1; cases h2
  exact ⟨rfl, h⟩

theorem Rel.liftE (x : Except CErr α) : Rel (liftE x : Build p α) (liftE x) := by
  intro c d h v1 c' v2 d' h1 h2
  unfold Verif.Circuit.liftE at h1 h2
  cases x with
  | error e => cases h1
  | ok v => cases h1; cases h2; exact ⟨rfl, h⟩

theorem Rel.checkVars (vs : List ℕ) : Rel (checkVars vs : Build p Unit) (checkVars vs) := by
  induction vs with
  | nil => exact Rel.pure ()
  | cons v vs ih => exact Rel.bind (Rel.checkVar v) (fun _ => ih)

/-- decompose builder code -/
macro "rel" : tactic => `(tactic|
  repeat (first
    | assumption
    | apply_assumption
    | exact Rel.pure _
    | exact Rel.failL _ _
    | exact Rel.failR _ _
    | exact Rel.createVariable _ _
    | exact Rel.insertGate _ _ _ _ _ _
    | exact Rel.checkVar _
    | exact Rel.checkVars _
    | exact Rel.rangeBitLen
    | exact Rel.supportLookup
    | exact Rel.liftE _
    | exact Rel.addRangeCheckVariable _
    | exact Rel.setVariablePublic _
    | (apply Rel.witness_bind; intro _ _)
    | (refine Rel.bind ?_ ?_)
    | intro _
    | split))

theorem enforceConstant_rel (v : ℕ) (x : ZMod p) :
    Rel (enforceConstant v x) (enforceConstant v x) := by unfold enforceConstant; rel
theorem createConstantVariable_rel (x : ZMod p) :
    Rel (createConstantVariable x) (createConstantVariable x) := by
  unfold createConstantVariable enforceConstant; rel
theorem createPublicVariable_rel (x y : ZMod p) :
    Rel (createPublicVariable x) (createPublicVariable y) := by unfold createPublicVariable; rel
theorem enforceBool_rel (a : ℕ) : Rel (enforceBool a : Build p Unit) (enforceBool a) := by
  unfold enforceBool; rel
theorem createBooleanVariable_rel (x y : Bool) :
    Rel (createBooleanVariable x : Build p ℕ) (createBooleanVariable y) := by
  unfold createBooleanVariable enforceBool; rel
theorem createPublicBooleanVariable_rel (x y : Bool) :
    Rel (createPublicBooleanVariable x : Build p ℕ) (createPublicBooleanVariable y) := by
  unfold createPublicBooleanVariable createPublicVariable; rel
theorem enforceEqual_rel (a b : ℕ) : Rel (enforceEqual a b : Build p Unit) (enforceEqual a b) := by
  unfold enforceEqual; rel
theorem addGate_rel (a b y : ℕ) : Rel (addGate a b y : Build p Unit) (addGate a b y) := by
  unfold addGate; rel
theorem subGate_rel (a b y : ℕ) : Rel (subGate a b y : Build p Unit) (subGate a b y) := by
  unfold subGate; rel
theorem mulGate_rel (a b y : ℕ) : Rel (mulGate a b y : Build p Unit) (mulGate a b y) := by
  unfold mulGate; rel
theorem add_rel (a b : ℕ) : Rel (add a b : Build p ℕ) (add a b) := by
  unfold add addGate; rel
theorem sub_rel (a b : ℕ) : Rel (sub a b : Build p ℕ) (sub a b) := by
  unfold sub subGate; rel
theorem mul_rel (a b : ℕ) : Rel (mul a b : Build p ℕ) (mul a b) := by
  unfold mul mulGate; rel
theorem quadPolyGateB_rel (a0 a1 a2 a3 y : ℕ) (q0 q1 q2 q3 m0 m1 o k : ZMod p) :
    Rel (quadPolyGateB a0 a1 a2 a3 y q0 q1 q2 q3 m0 m1 o k)
      (quadPolyGateB a0 a1 a2 a3 y q0 q1 q2 q3 m0 m1 o k) := by unfold quadPolyGateB; rel
theorem genQuadPoly_rel (a0 a1 a2 a3 : ℕ) (q0 q1 q2 q3 m0 m1 k : ZMod p) :
    Rel (genQuadPoly a0 a1 a2 a3 q0 q1 q2 q3 m0 m1 k)
      (genQuadPoly a0 a1 a2 a3 q0 q1 q2 q3 m0 m1 k) := by unfold genQuadPoly; rel
theorem lcGate_rel (a0 a1 a2 a3 y : ℕ) (q0 q1 q2 q3 : ZMod p) :
    Rel (lcGate a0 a1 a2 a3 y q0 q1 q2 q3) (lcGate a0 a1 a2 a3 y q0 q1 q2 q3) := by
  unfold lcGate; rel
theorem lc_rel (a0 a1 a2 a3 : ℕ) (q0 q1 q2 q3 : ZMod p) :
    Rel (lc a0 a1 a2 a3 q0 q1 q2 q3) (lc a0 a1 a2 a3 q0 q1 q2 q3) := by
  unfold lc lcGate; rel
theorem mulAddGate_rel (a0 a1 a2 a3 y : ℕ) (m0 m1 : ZMod p) :
    Rel (mulAddGate a0 a1 a2 a3 y m0 m1) (mulAddGate a0 a1 a2 a3 y m0 m1) := by
  unfold mulAddGate; rel
theorem mulAdd_rel (a0 a1 a2 a3 : ℕ) (m0 m1 : ZMod p) :
    Rel (mulAdd a0 a1 a2 a3 m0 m1) (mulAdd a0 a1 a2 a3 m0 m1) := by
  unfold mulAdd mulAddGate; rel

theorem Rel.witnesses_bind {vs vs' : List ℕ} {f f' : List (ZMod p) → Build p β}
    (hf : ∀ x y, Rel (f x) (f' y)) : Rel (witnesses vs >>= f) (witnesses vs' >>= f') := by
  have key : ∀ (vs : List ℕ) (c : Circ p) xs c', witnesses vs c = .ok (xs, c') → c' = c := by
    intro vs
    induction vs with
    | nil => intro c xs c' h; cases h; rfl
    | cons v vs ih =>
      intro c xs c' h
      unfold witnesses at h
      obtain ⟨x, c1, h1, h2⟩ := bind_ok h
      obtain ⟨ys, c2, h3, h4⟩ := bind_ok h2
      have e1 : c1 = c := by
        unfold witness at h1
        split at h1
        · cases h1
        · cases h1; rfl
      have e2 := ih c1 ys c2 h3
      cases h4; rw [e2, e1]
  intro c d hs v1 c' v2 d' h1 h2
  obtain ⟨u, c1, a1, a2⟩ := bind_ok h1
  obtain ⟨u', d1, b1, b2⟩ := bind_ok h2
  have := key _ _ _ _ a1
  have := key _ _ _ _ b1
  subst c1 d1
  exact hf _ _ c d hs _ _ _ _ a2 b2

theorem sumLoop_rel (padded : List ℕ) (n : ℕ) : ∀ i acc,
    Rel (sumLoop padded n i acc : Build p ℕ) (sumLoop padded n i acc) := by
  induction n with
  | zero => intro i acc; exact Rel.pure _
  | succ n ih => intro i acc; exact Rel.bind (lc_rel _ _ _ _ _ _ _ _) (fun v => ih _ _)

theorem sum_rel (l : List ℕ) : Rel (sum l : Build p ℕ) (sum l) := by
  unfold sum
  split
  · exact Rel.failL _ _
  refine Rel.bind (Rel.checkVars _) (fun _ => ?_)
  apply Rel.witnesses_bind; intro xs ys
  refine Rel.bind (Rel.createVariable _ _) (fun v => ?_)
  refine Rel.bind (Rel.liftE _) (fun m => ?_)
  refine Rel.bind (sumLoop_rel _ _ _ _) (fun acc => ?_)
  refine Rel.bind (lcGate_rel _ _ _ _ _ _ _ _ _) (fun _ => Rel.pure _)

theorem addConstantGate_rel (x : ℕ) (k : ZMod p) (y : ℕ) :
    Rel (addConstantGate x k y) (addConstantGate x k y) := by unfold addConstantGate; rel
theorem addConstant_rel (x : ℕ) (k : ZMod p) : Rel (addConstant x k) (addConstant x k) := by
  unfold addConstant addConstantGate; rel
theorem mulConstantGate_rel (x : ℕ) (k : ZMod p) (y : ℕ) :
    Rel (mulConstantGate x k y) (mulConstantGate x k y) := by unfold mulConstantGate; rel
theorem mulConstant_rel (x : ℕ) (k : ZMod p) : Rel (mulConstant x k) (mulConstant x k) := by
  unfold mulConstant mulConstantGate; rel
theorem power11Gen_rel (x : ℕ) : Rel (power11Gen x : Build p ℕ) (power11Gen x) := by
  unfold power11Gen mul mulGate; rel
theorem power11Gate_rel (x y : ℕ) : Rel (power11Gate x y : Build p Unit) (power11Gate x y) := by
  unfold power11Gate mul mulGate; rel

theorem logicOrGate_rel (a b : ℕ) : Rel (logicOrGate a b : Build p Unit) (logicOrGate a b) := by
  unfold logicOrGate; rel
theorem isZero_rel (a : ℕ) : Rel (isZero a : Build p ℕ) (isZero a) := by
  unfold isZero createBooleanVariableUnchecked mulAddGate mulGate; rel
theorem isEqual_rel (a b : ℕ) : Rel (isEqual a b : Build p ℕ) (isEqual a b) := by
  unfold isEqual
  refine Rel.bind (Rel.checkVar _) (fun _ => Rel.bind (Rel.checkVar _) (fun _ =>
    Rel.bind (sub_rel _ _) (fun d => isZero_rel d)))
theorem nonZeroGate_rel (a : ℕ) : Rel (nonZeroGate a : Build p Unit) (nonZeroGate a) := by
  unfold nonZeroGate mulGate; rel
theorem logicNeg_rel (a : ℕ) : Rel (logicNeg a : Build p ℕ) (logicNeg a) := isZero_rel a
theorem logicAnd_rel (a b : ℕ) : Rel (logicAnd a b : Build p ℕ) (logicAnd a b) := by
  unfold logicAnd createBooleanVariableUnchecked mulGate; rel
theorem logicAndLoop_rel (vs : List ℕ) : ∀ r,
    Rel (logicAndLoop vs r : Build p ℕ) (logicAndLoop vs r) := by
  induction vs with
  | nil => intro r; exact Rel.pure _
  | cons v vs ih => intro r; exact Rel.bind (logicAnd_rel _ _) (fun _ => ih _)
theorem logicAndAll_rel (vs : List ℕ) : Rel (logicAndAll vs : Build p ℕ) (logicAndAll vs) := by
  cases vs with
  | nil => exact Rel.failL _ _
  | cons v vs => exact logicAndLoop_rel vs v
theorem logicOr_rel (a b : ℕ) : Rel (logicOr a b : Build p ℕ) (logicOr a b) := by
  unfold logicOr createBooleanVariableUnchecked; rel
theorem conditionalSelect_rel (b x y : ℕ) :
    Rel (conditionalSelect b x y : Build p ℕ) (conditionalSelect b x y) := by
  unfold conditionalSelect
  refine Rel.bind (Rel.checkVar _) (fun _ => Rel.bind (Rel.checkVar _) (fun _ =>
    Rel.bind (Rel.checkVar _) (fun _ => ?_)))
  apply Rel.witness_bind; intro s t
  refine Rel.bind ?_ (fun _ => Rel.bind (Rel.insertGate _ _ _ _ _ _) (fun _ => Rel.pure _))
  have key : ∀ a a' : ℕ, Rel (do let v ← witness a; createVariable v : Build p ℕ)
      (do let v ← witness a'; createVariable v) :=
    fun a a' => Rel.witness_bind (fun _ _ => Rel.createVariable _ _)
  by_cases h1 : s = 0 <;> by_cases h2 : s = 1 <;> by_cases h3 : t = 0 <;> by_cases h4 : t = 1 <;>
    simp only [h1, h2, h3, h4, if_true, if_false] <;>
    first
    | exact key _ _
    | exact Rel.failL _ _
    | exact Rel.failR _ _
    | (split <;> exact key _ _)

theorem decompLoop_rel (padded : List ℕ) (L : ℕ) (r : ZMod p) (n : ℕ) : ∀ i acc,
    Rel (decompLoop padded L r n i acc) (decompLoop padded L r n i acc) := by
  induction n with
  | zero => intro i acc; exact Rel.pure _
  | succ n ih => intro i acc; exact Rel.bind (lc_rel _ _ _ _ _ _ _ _) (fun v => ih _ _)

theorem decompositionGate_rel (chunks : List ℕ) (a : ℕ) (r : ZMod p) :
    Rel (decompositionGate chunks a r) (decompositionGate chunks a r) := by
  unfold decompositionGate
  split
  · exact Rel.failL _ _
  refine Rel.bind (Rel.liftE _) (fun m => ?_)
  exact Rel.bind (decompLoop_rel _ _ _ _ _ _) (fun acc => lcGate_rel _ _ _ _ _ _ _ _ _)

theorem createBits_rel (bs : List Bool) : ∀ bs' : List Bool, bs.length = bs'.length →
    Rel (createBits bs : Build p (List ℕ)) (createBits bs') := by
  induction bs with
  | nil =>
    intro bs' h
    have : bs' = [] := by simpa using h.symm
    subst this; exact Rel.pure _
  | cons b bs ih =>
    intro bs' h
    cases bs' with
    | nil => simp at h
    | cons b' bs' =>
      exact Rel.bind (createBooleanVariable_rel _ _) (fun v =>
        Rel.bind (ih bs' (by simpa using h)) (fun vs => Rel.pure _))

theorem canonLoop_rel (l : List (ℕ × Bool)) : ∀ cur,
    Rel (canonLoop l cur : Build p ℕ) (canonLoop l cur) := by
  induction l with
  | nil => intro r; exact Rel.pure _
  | cons x l ih =>
    intro r
    obtain ⟨a, b⟩ := x
    unfold canonLoop
    refine Rel.bind (logicNeg_rel _) (fun na => Rel.bind ?_ (fun _ => ih _))
    split
    · exact logicOr_rel _ _
    · exact logicAnd_rel _ _

theorem bdgCanonical_rel (bits : List ℕ) (a : ℕ) :
    Rel (binaryDecompositionGateCanonical bits a : Build p Unit)
      (binaryDecompositionGateCanonical bits a) := by
  unfold binaryDecompositionGateCanonical binaryDecompositionGate
  exact Rel.bind (decompositionGate_rel _ _ _) (fun _ => Rel.bind (canonLoop_rel _ _)
    (fun _ => enforceConstant_rel _ _))

theorem rangeGateInternal_rel (a n : ℕ) :
    Rel (rangeGateInternal a n : Build p (List ℕ)) (rangeGateInternal a n) := by
  unfold rangeGateInternal
  refine Rel.bind (Rel.checkVar _) (fun _ => ?_)
  split
  · exact Rel.failL _ _
  apply Rel.witness_bind; intro x y
  split
  · exact Rel.failL _ _
  refine Rel.bind (createBits_rel _ _ (by simp [bitsLE])) (fun bits => ?_)
  split
  · exact Rel.bind (bdgCanonical_rel _ _) (fun _ => Rel.pure _)
  · exact Rel.bind (decompositionGate_rel _ _ _) (fun _ => Rel.pure _)

theorem unpack_rel (a n : ℕ) : Rel (unpack a n : Build p (List ℕ)) (unpack a n) := by
  unfold unpack
  split
  · apply Rel.witness_bind; intro x y
    split
    · exact Rel.failL _ _
    split
    · exact Rel.failR _ _
    exact rangeGateInternal_rel _ _
  · exact rangeGateInternal_rel _ _

theorem isInRange_rel (a n : ℕ) : Rel (isInRange a n : Build p ℕ) (isInRange a n) := by
  unfold isInRange
  refine Rel.bind (unpack_rel _ _) (fun bits => ?_)
  split
  · exact Rel.failL _ _
  exact Rel.bind (sum_rel _) (fun s => isZero_rel s)

theorem createVars_rel (xs : List (ZMod p)) : ∀ ys : List (ZMod p), xs.length = ys.length →
    Rel (createVars xs) (createVars ys) := by
  induction xs with
  | nil =>
    intro bs' h
    have : bs' = [] := by simpa using h.symm
    subst this; exact Rel.pure _
  | cons b bs ih =>
    intro bs' h
    cases bs' with
    | nil => simp at h
    | cons b' bs' =>
      exact Rel.bind (Rel.createVariable _ _) (fun v =>
        Rel.bind (ih bs' (by simpa using h)) (fun vs => Rel.pure _))

theorem addRangeChecks_rel (vs : List ℕ) :
    Rel (addRangeChecks vs : Build p Unit) (addRangeChecks vs) := by
  induction vs with
  | nil => exact Rel.pure ()
  | cons v vs ih => exact Rel.bind (Rel.addRangeCheckVariable v) (fun _ => ih)

theorem rangeGateWithLookup_rel (a n : ℕ) :
    Rel (rangeGateWithLookup a n : Build p Unit) (rangeGateWithLookup a n) := by
  unfold rangeGateWithLookup
  refine Rel.bind Rel.rangeBitLen (fun k => ?_)
  split
  · exact Rel.failL _ _
  refine Rel.bind (Rel.checkVar _) (fun _ => ?_)
  split
  · exact Rel.failL _ _
  apply Rel.witness_bind; intro x y
  refine Rel.bind (createVars_rel _ _ (by simp [decomposeLE])) (fun vars => ?_)
  refine Rel.bind (addRangeChecks_rel _) (fun _ => ?_)
  split
  · exact Rel.bind (rangeGateInternal_rel _ _) (fun _ => decompositionGate_rel _ _ _)
  · exact decompositionGate_rel _ _ _

theorem enforceInRange_rel (a n : ℕ) :
    Rel (enforceInRange a n : Build p Unit) (enforceInRange a n) := by
  unfold enforceInRange
  refine Rel.bind Rel.supportLookup (fun l => ?_)
  split
  · exact rangeGateWithLookup_rel _ _
  · exact Rel.bind (rangeGateInternal_rel _ _) (fun _ => Rel.pure _)

theorem gtLoop_rel (l : List (Bool × ℕ)) : ∀ cur,
    Rel (gtLoop l cur : Build p ℕ) (gtLoop l cur) := by
  induction l with
  | nil => intro r; exact Rel.pure _
  | cons x l ih =>
    intro r
    obtain ⟨a, b⟩ := x
    unfold gtLoop
    refine Rel.bind ?_ (fun _ => ih _)
    split
    · exact logicAnd_rel _ _
    · exact logicOr_rel _ _

theorem isGtConstantInternal_rel (a : ℕ) (k : ZMod p) :
    Rel (isGtConstantInternal a k) (isGtConstantInternal a k) := by
  unfold isGtConstantInternal
  refine Rel.bind (unpack_rel _ _) (fun bits => ?_)
  dsimp only
  split
  · exact Rel.pure _
  · exact gtLoop_rel _ _

theorem msbCheckInternal_rel (a b : ℕ) :
    Rel (msbCheckInternal a b : Build p (ℕ × ℕ)) (msbCheckInternal a b) := by
  unfold msbCheckInternal
  exact Rel.bind (isGtConstantInternal_rel _ _) (fun _ => Rel.bind (isGtConstantInternal_rel _ _)
    (fun _ => Rel.bind (logicNeg_rel _) (fun _ => Rel.bind (logicAnd_rel _ _)
    (fun _ => Rel.bind (isEqual_rel _ _) (fun _ => Rel.pure _)))))

theorem isLtInternal_rel (a b : ℕ) : Rel (isLtInternal a b : Build p ℕ) (isLtInternal a b) := by
  unfold isLtInternal
  exact Rel.bind (msbCheckInternal_rel _ _) (fun x => Rel.bind (sub_rel _ _)
    (fun _ => Rel.bind (isGtConstantInternal_rel _ _) (fun _ => Rel.bind (logicAnd_rel _ _)
    (fun _ => logicOr_rel _ _))))

theorem enforceLtInternal_rel (a b : ℕ) :
    Rel (enforceLtInternal a b : Build p Unit) (enforceLtInternal a b) := by
  unfold enforceLtInternal
  exact Rel.bind (msbCheckInternal_rel _ _) (fun x => Rel.bind (sub_rel _ _)
    (fun _ => Rel.bind (isGtConstantInternal_rel _ _) (fun _ => Rel.bind (logicAnd_rel _ _)
    (fun _ => logicOrGate_rel _ _))))

theorem isLt_rel (a b : ℕ) : Rel (isLt a b : Build p ℕ) (isLt a b) := by
  unfold isLt
  exact Rel.bind (Rel.checkVar _) (fun _ => Rel.bind (Rel.checkVar _) (fun _ => isLtInternal_rel _ _))
theorem isGt_rel (a b : ℕ) : Rel (isGt a b : Build p ℕ) (isGt a b) := isLt_rel b a
theorem isLeq_rel (a b : ℕ) : Rel (isLeq a b : Build p ℕ) (isLeq a b) := by
  unfold isLeq
  exact Rel.bind (Rel.checkVar _) (fun _ => Rel.bind (Rel.checkVar _) (fun _ =>
    Rel.bind (isLtInternal_rel _ _) (fun _ => logicNeg_rel _)))
theorem isGeq_rel (a b : ℕ) : Rel (isGeq a b : Build p ℕ) (isGeq a b) := by
  unfold isGeq
  exact Rel.bind (Rel.checkVar _) (fun _ => Rel.bind (Rel.checkVar _) (fun _ =>
    Rel.bind (isLtInternal_rel _ _) (fun _ => logicNeg_rel _)))
theorem enforceLt_rel (a b : ℕ) : Rel (enforceLt a b : Build p Unit) (enforceLt a b) := by
  unfold enforceLt
  exact Rel.bind (Rel.checkVar _) (fun _ => Rel.bind (Rel.checkVar _)
    (fun _ => enforceLtInternal_rel _ _))
theorem enforceGt_rel (a b : ℕ) : Rel (enforceGt a b : Build p Unit) (enforceGt a b) :=
  enforceLt_rel b a
theorem enforceLeq_rel (a b : ℕ) : Rel (enforceLeq a b : Build p Unit) (enforceLeq a b) := by
  unfold enforceLeq
  exact Rel.bind (isLt_rel _ _) (fun _ => enforceConstant_rel _ _)
theorem enforceGeq_rel (a b : ℕ) : Rel (enforceGeq a b : Build p Unit) (enforceGeq a b) := by
  unfold enforceGeq
  exact Rel.bind (isLt_rel _ _) (fun _ => enforceConstant_rel _ _)

theorem const_rel {f : ℕ → Build p α} (hf : ∀ b, Rel (f b) (f b)) (a : ℕ) (k : ZMod p) :
    Rel (do checkVar a; let b ← createConstantVariable k; f b : Build p α)
      (do checkVar a; let b ← createConstantVariable k; f b) :=
  Rel.bind (Rel.checkVar _) (fun _ => Rel.bind (createConstantVariable_rel _) (fun _ => hf _))

theorem whenNonzero_rel {n : ℕ} {m m' : Build p Unit} (h : Rel m m') :
    Rel (whenNonzero n m) (whenNonzero n m') := by
  unfold whenNonzero
  split
  · exact h
  · exact Rel.pure _

theorem truncateGate_rel (a b l : ℕ) : Rel (truncateGate a b l : Build p Unit) (truncateGate a b l) := by
  unfold truncateGate
  refine Rel.bind Rel.supportLookup (fun _ => Rel.guard ?_)
  refine Rel.bind (Rel.checkVar _) (fun _ => Rel.bind (Rel.checkVar _) (fun _ => ?_))
  apply Rel.witness_bind; intro x y
  apply Rel.witness_bind; intro x' y'
  refine Rel.guard (Rel.guard (Rel.bind Rel.rangeBitLen (fun k => Rel.guard (Rel.guard ?_))))
  refine Rel.bind (Rel.createVariable _ _) (fun _ => Rel.bind (Rel.createVariable _ _)
    (fun _ => Rel.bind (Rel.createVariable _ _) (fun _ => Rel.bind (Rel.createVariable _ _)
    (fun _ => ?_))))
  unfold truncateConstraints
  refine Rel.bind (lcGate_rel _ _ _ _ _ _ _ _ _) (fun _ => Rel.bind (lcGate_rel _ _ _ _ _ _ _ _ _)
    (fun _ => Rel.bind (whenNonzero_rel (rangeGateWithLookup_rel _ _)) (fun _ =>
    Rel.bind (whenNonzero_rel (enforceInRange_rel _ _)) (fun _ =>
    Rel.bind (whenNonzero_rel (rangeGateWithLookup_rel _ _)) (fun _ =>
    whenNonzero_rel (enforceInRange_rel _ _))))))

theorem truncate_rel (a l : ℕ) : Rel (truncate a l : Build p ℕ) (truncate a l) := by
  unfold truncate
  refine Rel.bind (Rel.checkVar _) (fun _ => ?_)
  apply Rel.witness_bind; intro x y
  dsimp only
  exact Rel.bind (Rel.createVariable _ _) (fun _ => Rel.bind (truncateGate_rel _ _ _)
    (fun _ => Rel.pure _))

/-! ## Universal completeness -/

/-- replace the stored witness by an assignment -/
def Circ.assign (c : Circ p) (w : ℕ → ZMod p) : Circ p :=
  { c with witness := (List.range c.numVars).map w }

theorem assign_same (c : Circ p) (w : ℕ → ZMod p) : Same c (c.assign w) := rfl

theorem assign_val (c : Circ p) (w : ℕ → ZMod p) {i : ℕ} (hi : i < c.numVars) :
    (c.assign w).val i = w i := by
  simp [Circ.assign, Circ.val, hi]

theorem assign_wf {c : Circ p} (hc : WF c) (w : ℕ → ZMod p) : WF (c.assign w) :=
  ⟨by simp [Circ.assign], hc.opn, hc.two, hc.consts, hc.wires, hc.ranges, hc.pub⟩

theorem assign_sat {c : Circ p} (hc : WF c) {pi w} (h : Sat c pi w) :
    Sat (c.assign w) pi (c.assign w).val :=
  Sat.congr (assign_wf hc w) (fun _ hi => (assign_val c w hi).symm)
    ((assign_same c w).sat h)

/-- Any satisfying assignment of the circuit before a builder call, that meets the
precondition, extends to a satisfying assignment of the circuit after it. -/
theorem Spec.universal {m : Build p α} (hrel : Rel m m) {c : Circ p} (hc : WF c)
    {w : ℕ → ZMod p} {C : Prop} {B : α → Circ p → Prop} {R : α → (ℕ → ZMod p) → Prop}
    (hs : Spec m (c.assign w) C B R) (hC : C) {v : α} {c' : Circ p} (hm : m c = .ok (v, c'))
    {pi : List (ZMod p)} (hw : Sat c pi w) :
    ∃ w' : ℕ → ZMod p, (∀ i, i < c.numVars → w' i = w i) ∧ Sat c' pi w' := by
  obtain ⟨v', d', hd, hsat⟩ := hs.complete hC pi (assign_sat hc hw)
  obtain ⟨e, _, _⟩ := hs.sound v' d' hd
  obtain ⟨_, hsame⟩ := hrel c (c.assign w) (assign_same c w) _ _ _ _ hm hd
  exact ⟨d'.val, fun i hi => (e.val i hi).trans (assign_val c w hi), hsame.symm.sat hsat⟩

end Verif.Circuit
