import Verif.Circuit.RangeSpec

/-!
# Specifications of the comparison gadgets
-/

namespace Verif.Circuit

variable {p : ℕ}

/-- boolean reading of a wire value -/
def asBit (x : ZMod p) : Bool := decide (x = 1)

theorem boolF_asBit [Fact p.Prime] {x : ZMod p} (h : x = 0 ∨ x = 1) : boolF (asBit x) = x := by
  rcases h with rfl | rfl <;> simp [boolF, asBit]

theorem asBit_boolF [Fact p.Prime] (b : Bool) : asBit (boolF b : ZMod p) = b := by
  cases b <;> simp [boolF, asBit]

theorem gtLoop_spec [Fact p.Prime] (l : List (Bool × ℕ)) : ∀ (cur : ℕ) {c : Circ p} (_ : WF c),
    (∀ x ∈ l, x.2 < c.numVars) → cur < c.numVars →
    Spec (gtLoop l cur) c True (fun v c' => v < c'.numVars)
      (fun v w => (∀ x ∈ l, w x.2 = 0 ∨ w x.2 = 1) → (w cur = 0 ∨ w cur = 1) →
        w v = boolF (gtFold (l.map (fun x => (x.1, asBit (w x.2)))) (asBit (w cur)))) := by
  induction l with
  | nil =>
    intro cur c hc _ hcur
    exact Spec.pure hc hcur (fun w _ _ _ h => by simp [gtFold, boolF_asBit h])
  | cons x l ih =>
    intro cur c hc hl hcur
    obtain ⟨b, a⟩ := x
    unfold gtLoop
    have ha : a < c.numVars := hl (b, a) (by simp)
    have h1 : Spec (if b then logicAnd a cur else logicOr a cur) c True
        (fun v c' => v < c'.numVars)
        (fun v w => (w a = 0 ∨ w a = 1) → (w cur = 0 ∨ w cur = 1) →
          w v = boolF (if b then asBit (w a) && asBit (w cur) else asBit (w a) || asBit (w cur))) := by
      cases b
      · simp only [Bool.false_eq_true, if_false]
        refine Spec.conseq hc (logicOr_spec hc a cur) (fun _ _ _ => ⟨ha, hcur⟩) (fun _ _ _ h => h) ?_
        intro v w _ _ h h1 h2
        rw [h, ← boolF_or, boolF_asBit h1, boolF_asBit h2]
      · simp only [if_true]
        refine Spec.conseq hc (logicAnd_spec hc a cur) (fun _ _ _ => ⟨ha, hcur⟩) (fun _ _ _ h => h) ?_
        intro v w _ _ h h1 h2
        rw [h, ← boolF_and, boolF_asBit h1, boolF_asBit h2]
    refine Spec.bind h1 (fun _ _ _ => trivial) hc ?_
    intro cur' c1 e1 hcur'
    refine Spec.conseq e1.wf (ih cur' e1.wf (fun x hx => e1.lt (hl x (by simp [hx]))) hcur')
      (fun _ _ _ => trivial) (fun _ _ _ h => h) ?_
    intro v w _ _ h2 h3 h4 h5
    have h6 := h3 (h4 (b, a) (by simp)) h5
    rw [h2 (fun x hx => h4 x (by simp [hx])) (by rw [h6]; exact boolF_cases _), h6, asBit_boolF]
    simp [gtFold]

theorem isGtConstantInternal_spec [Fact p.Prime] (hp2 : p ≠ 2) {c : Circ p} (hc : WF c) (a : ℕ)
    (k : ZMod p) :
    Spec (isGtConstantInternal a k) c (a < c.numVars) (fun v c' => v < c'.numVars)
      (fun v w => w v = boolF (decide (k.val < (w a).val))) := by
  unfold isGtConstantInternal
  have hmpos : 0 < modulusBits p := Nat.size_pos.2 (Fact.out : p.Prime).pos
  refine Spec.bind (unpack_spec hp2 hc a (modulusBits p) (le_refl _)) ?_ hc ?_
  · rintro h1 - -
    exact ⟨h1, hmpos, lt_trans (ZMod.val_lt _) (Nat.lt_size_self p)⟩
  rintro bits c1 e1 ⟨hl, hv, _⟩
  have hfull : ∀ x : ZMod p, x.val < 2 ^ modulusBits p :=
    fun x => lt_trans (ZMod.val_lt x) (Nat.lt_size_self p)
  set zl := (bitsLE (modulusBits p) k.val).zip bits with hzl
  -- value of the whole fold
  have key : ∀ w : ℕ → ZMod p, bits.map w = (bitsLE (modulusBits p) (w a).val).map boolF →
      (∀ x ∈ zl, w x.2 = 0 ∨ w x.2 = 1) ∧
      gtFold (zl.map (fun x => (x.1, asBit (w x.2)))) false = decide (k.val < (w a).val) := by
    intro w hw
    have hbits : bits.map (fun v => asBit (w v)) = bitsLE (modulusBits p) (w a).val := by
      have := congrArg (List.map asBit) hw
      rw [List.map_map, List.map_map] at this
      rw [show (fun v => asBit (w v)) = asBit ∘ w from rfl, this]
      conv_rhs => rw [← List.map_id (bitsLE (modulusBits p) (w a).val)]
      apply List.map_congr_left
      intro b _
      exact asBit_boolF b
    constructor
    · intro x hx
      have hx2 : x.2 ∈ bits := (List.of_mem_zip (a := x.1) (b := x.2) (by simpa [hzl] using hx)).2
      have : w x.2 ∈ bits.map w := List.mem_map_of_mem hx2
      rw [hw] at this
      obtain ⟨b, _, hb⟩ := List.mem_map.1 this
      rw [← hb]; exact boolF_cases b
    · have hz : zl.map (fun x => (x.1, asBit (w x.2)))
          = (bitsLE (modulusBits p) k.val).zip (bitsLE (modulusBits p) (w a).val) := by
        rw [← hbits, hzl, List.zip_map_right]
        rfl
      have hfst : ((bitsLE (modulusBits p) k.val).zip (bitsLE (modulusBits p) (w a).val)).map Prod.fst
          = bitsLE (modulusBits p) k.val :=
        List.map_fst_zip (by rw [bitsLE_length, bitsLE_length])
      have hsnd : ((bitsLE (modulusBits p) k.val).zip (bitsLE (modulusBits p) (w a).val)).map Prod.snd
          = bitsLE (modulusBits p) (w a).val :=
        List.map_snd_zip (by rw [bitsLE_length, bitsLE_length])
      have := gtFold_iff ((bitsLE (modulusBits p) k.val).zip (bitsLE (modulusBits p) (w a).val)) false
      rw [hfst, hsnd, ofBits_bitsLE, ofBits_bitsLE,
        Nat.mod_eq_of_lt (hfull k), Nat.mod_eq_of_lt (hfull (w a))] at this
      rw [hz, Bool.eq_iff_iff, this]
      simp
  have hdw : ∀ w : ℕ → ZMod p, (zl.map (fun x => (x.1, asBit (w x.2)))).dropWhile (fun x => x.1)
      = (zl.dropWhile (fun x => x.1)).map (fun x => (x.1, asBit (w x.2))) := by
    intro w
    rw [List.dropWhile_map]; rfl
  have hsub : ∀ x ∈ zl.dropWhile (fun x => x.1), x ∈ zl :=
    fun x hx => (List.dropWhile_suffix _).subset hx
  have hlt : ∀ x ∈ zl, x.2 < c1.numVars := fun x hx =>
    hv _ (List.of_mem_zip (a := x.1) (b := x.2) (by simpa [hzl] using hx)).2
  dsimp only
  split
  · rename_i hz
    refine Spec.pure e1.wf e1.wf.z ?_
    rintro w h0 _ ⟨_, h2⟩
    obtain ⟨_, k2⟩ := key w h2
    rw [gtFold_dropWhile, hdw, hz] at k2
    simp only [List.map_nil] at k2
    rw [← k2, h0]; rfl
  · rename_i b v rest hz
    have hvm : ∀ x ∈ (b, v) :: rest, x ∈ zl := by rw [← hz]; exact hsub
    refine Spec.conseq e1.wf (gtLoop_spec rest v e1.wf
      (fun x hx => hlt x (hvm x (by simp [hx]))) (hlt (b, v) (hvm _ (by simp))))
      (fun _ _ _ => trivial) (fun _ _ _ h => h) ?_
    rintro u w _ _ h3 ⟨_, h2⟩
    obtain ⟨k1, k2⟩ := key w h2
    rw [gtFold_dropWhile, hdw, hz] at k2
    simp only [List.map_cons] at k2
    rw [h3 (fun x hx => k1 x (hvm x (by simp [hx]))) (k1 (b, v) (hvm _ (by simp))), k2]

theorem val_halfF [Fact p.Prime] : (halfF p).val = (p - 1) / 2 := by
  unfold halfF
  have := (Fact.out : p.Prime).two_le
  exact val_natCast_of_lt' (by omega)

/-- comparison by sign of the difference, for odd `p` -/
theorem val_sub_cases [Fact p.Prime] (x y : ZMod p) :
    (x - y).val = if y.val ≤ x.val then x.val - y.val else p + x.val - y.val := by
  split
  · rename_i h; exact ZMod.val_sub h
  · rename_i h
    have hx := ZMod.val_lt x
    have hy := ZMod.val_lt y
    have : x - y = ((p + x.val - y.val : ℕ) : ZMod p) := by
      rw [Nat.cast_sub (by omega)]
      simp [ZMod.natCast_val, ZMod.cast_id]
    rw [this, val_natCast_of_lt' (by omega)]

theorem lt_decomp [Fact p.Prime] (hp2 : p ≠ 2) (x y : ZMod p) :
    decide (x.val < y.val) =
      (((!decide ((halfF p).val < x.val)) && decide ((halfF p).val < y.val)) ||
       ((decide ((halfF p).val < x.val) == decide ((halfF p).val < y.val)) &&
        decide ((halfF p).val < (x - y).val))) := by
  have hodd := (Fact.out : p.Prime).eq_two_or_odd
  have hx := ZMod.val_lt x
  have hy := ZMod.val_lt y
  rw [val_halfF, val_sub_cases, Bool.eq_iff_iff]
  simp only [decide_eq_true_eq, Bool.or_eq_true, Bool.and_eq_true, Bool.not_eq_true',
    decide_eq_false_iff_not, beq_iff_eq, decide_eq_decide]
  split <;> omega

theorem msbCheckInternal_spec [Fact p.Prime] (hp2 : p ≠ 2) {c : Circ p} (hc : WF c) (a b : ℕ) :
    Spec (msbCheckInternal a b) c (a < c.numVars ∧ b < c.numVars)
      (fun v c' => v.1 < c'.numVars ∧ v.2 < c'.numVars)
      (fun v w => w v.1 = boolF ((!decide ((halfF p).val < (w a).val)) &&
          decide ((halfF p).val < (w b).val)) ∧
        w v.2 = boolF (decide ((halfF p).val < (w a).val) == decide ((halfF p).val < (w b).val))) := by
  unfold msbCheckInternal
  refine Spec.bind (isGtConstantInternal_spec hp2 hc a _) (fun h _ _ => h.1) hc ?_
  intro aGt c1 e1 h1
  refine Spec.bind (isGtConstantInternal_spec hp2 e1.wf b _) (fun h _ _ => e1.lt h.1.2) e1.wf ?_
  intro bGt c2 e2 h2
  refine Spec.bind (logicNeg_spec e2.wf aGt) (fun h _ _ => e2.lt h1) e2.wf ?_
  intro aLeq c3 e3 h3
  refine Spec.bind (logicAnd_spec e3.wf aLeq bGt) (fun h _ _ => ⟨h3, e3.lt h2⟩) e3.wf ?_
  intro m c4 e4 h4
  refine Spec.bind (isEqual_spec e4.wf aGt bGt)
    (fun h _ _ => ⟨(e2.trans (e3.trans e4)).lt h1, (e3.trans e4).lt h2⟩) e4.wf ?_
  intro q c5 e5 h5
  refine Spec.pure e5.wf ⟨e5.lt h4, h5⟩ ?_
  intro w _ _ r5 r4 r3 r2 r1
  refine ⟨?_, ?_⟩
  · rw [r4, r3, r2, r1, boolF_not, boolF_and]
  · rw [r5, r2, r1]
    by_cases hA : (halfF p).val < (w a).val <;> by_cases hB : (halfF p).val < (w b).val <;>
      simp [hA, hB, boolF]

theorem isLtInternal_spec [Fact p.Prime] (hp2 : p ≠ 2) {c : Circ p} (hc : WF c) (a b : ℕ) :
    Spec (isLtInternal a b) c (a < c.numVars ∧ b < c.numVars) (fun v c' => v < c'.numVars)
      (fun v w => w v = boolF (decide ((w a).val < (w b).val))) := by
  unfold isLtInternal
  refine Spec.bind (msbCheckInternal_spec hp2 hc a b) (fun h _ _ => h) hc ?_
  rintro ⟨mc, me⟩ c1 e1 ⟨h1, h1'⟩
  refine Spec.bind (sub_spec e1.wf a b) (fun h _ _ => ⟨e1.lt h.1.1, e1.lt h.1.2⟩) e1.wf ?_
  intro d c2 e2 h2
  refine Spec.bind (isGtConstantInternal_spec hp2 e2.wf d _) (fun _ _ _ => h2) e2.wf ?_
  intro r c3 e3 h3
  refine Spec.bind (logicAnd_spec e3.wf me r)
    (fun _ _ _ => ⟨(e2.trans e3).lt h1', h3⟩) e3.wf ?_
  intro r' c4 e4 h4
  refine Spec.conseq e4.wf (logicOr_spec e4.wf mc r')
    (fun _ _ _ => ⟨(e2.trans (e3.trans e4)).lt h1, h4⟩) (fun _ _ _ h => h) ?_
  rintro v w _ _ r5 r4 r3 r2 ⟨r1, r1'⟩
  simp only at r1 r1'
  rw [r5, r4, r3, r2, r1, r1', boolF_and, boolF_or, lt_decomp hp2 (w a) (w b)]

theorem enforceLtInternal_spec [Fact p.Prime] (hp2 : p ≠ 2) {c : Circ p} (hc : WF c) (a b : ℕ) :
    Spec (enforceLtInternal a b) c
      ((a < c.numVars ∧ b < c.numVars) ∧ (c.val a).val < (c.val b).val) (fun _ _ => True)
      (fun _ w => (w a).val < (w b).val) := by
  unfold enforceLtInternal
  refine Spec.bind (msbCheckInternal_spec hp2 hc a b) (fun h _ _ => h.1) hc ?_
  rintro ⟨mc, me⟩ c1 e1 ⟨h1, h1'⟩
  refine Spec.bind (sub_spec e1.wf a b) (fun h _ _ => ⟨e1.lt h.1.1.1, e1.lt h.1.1.2⟩) e1.wf ?_
  intro d c2 e2 h2
  refine Spec.bind (isGtConstantInternal_spec hp2 e2.wf d _) (fun _ _ _ => h2) e2.wf ?_
  intro r c3 e3 h3
  refine Spec.bind (logicAnd_spec e3.wf me r)
    (fun _ _ _ => ⟨(e2.trans e3).lt h1', h3⟩) e3.wf ?_
  intro r' c4 e4 h4
  have e14 := e2.trans (e3.trans e4)
  have hval : ∀ w : ℕ → ZMod p, (w mc = boolF ((!decide ((halfF p).val < (w a).val)) &&
          decide ((halfF p).val < (w b).val)) ∧
        w me = boolF (decide ((halfF p).val < (w a).val) == decide ((halfF p).val < (w b).val))) →
      w d = w a - w b → w r = boolF (decide ((halfF p).val < (w d).val)) → w r' = w me * w r →
      ((w mc = 1 ∨ w r' = 1) ↔ (w a).val < (w b).val) := by
    rintro w ⟨q1, q1'⟩ q2 q3 q4
    have h := lt_decomp hp2 (w a) (w b)
    rw [q4, q3, q2, q1, q1', boolF_and]
    rw [← decide_eq_true_iff (p := (w a).val < (w b).val), h, Bool.or_eq_true]
    have hone : ∀ b : Bool, (boolF b : ZMod p) = 1 ↔ b = true :=
      fun b => ⟨boolF_eq_one, fun h => by simp [h, boolF]⟩
    rw [hone, hone]
  refine Spec.conseq e4.wf (logicOrGate_spec e4.wf mc r') ?_ (fun _ _ _ h => h) ?_
  · rintro ⟨⟨⟨⟨⟨⟨ha, hb⟩, hlt⟩, q1⟩, q2⟩, q3⟩, q4⟩ - -
    refine ⟨⟨e14.lt h1, h4⟩, ?_⟩
    have ea := (e1.trans e14).val a ha
    have eb := (e1.trans e14).val b hb
    have emc := e14.val mc h1
    have eme := e14.val me h1'
    have ed := (e3.trans e4).val d h2
    have er := e4.val r h3
    have ea1 := e1.val a ha
    have eb1 := e1.val b hb
    have ea2 := (e1.trans e2).val a ha
    have eb2 := (e1.trans e2).val b hb
    have ed3 := e3.val d h2
    apply (hval c4.val ?_ ?_ ?_ q4).2
    · rw [ea, eb]; exact hlt
    · simp only at q1
      rw [emc, eme, ea, eb, ← ea1, ← eb1]; exact q1
    · rw [ed, ea, eb, ← ea2, ← eb2]; exact q2
    · rw [er, ed, ← ed3]; exact q3
  · rintro _ w _ _ r5 r4 r3 r2 r1
    exact (hval w r1 r2 r3 r4).1 r5

theorem isLt_spec [Fact p.Prime] (hp2 : p ≠ 2) {c : Circ p} (hc : WF c) (a b : ℕ) :
    Spec (isLt a b) c (a < c.numVars ∧ b < c.numVars) (fun v c' => v < c'.numVars)
      (fun v w => w v = boolF (decide ((w a).val < (w b).val))) := by
  unfold isLt
  apply Spec.checkVar_bind (fun h => h.1); intro _
  apply Spec.checkVar_bind (fun h => h.2); intro _
  exact isLtInternal_spec hp2 hc a b

theorem isGt_spec [Fact p.Prime] (hp2 : p ≠ 2) {c : Circ p} (hc : WF c) (a b : ℕ) :
    Spec (isGt a b) c (a < c.numVars ∧ b < c.numVars) (fun v c' => v < c'.numVars)
      (fun v w => w v = boolF (decide ((w b).val < (w a).val))) :=
  Spec.weaken (isLt_spec hp2 hc b a) (fun h => ⟨h.2, h.1⟩)

theorem isLeq_spec [Fact p.Prime] (hp2 : p ≠ 2) {c : Circ p} (hc : WF c) (a b : ℕ) :
    Spec (isLeq a b) c (a < c.numVars ∧ b < c.numVars) (fun v c' => v < c'.numVars)
      (fun v w => w v = boolF (decide ((w a).val ≤ (w b).val))) := by
  unfold isLeq
  apply Spec.checkVar_bind (fun h => h.1); intro ha
  apply Spec.checkVar_bind (fun h => h.2); intro hb
  refine Spec.bind (isLtInternal_spec hp2 hc b a) (fun _ _ _ => ⟨hb, ha⟩) hc ?_
  intro v c1 e1 h1
  refine Spec.conseq e1.wf (logicNeg_spec e1.wf v) (fun _ _ _ => h1) (fun _ _ _ h => h) ?_
  intro u w _ _ h2 h3
  rw [h2, h3, boolF_not]
  congr 1
  rw [Bool.eq_iff_iff]; simp

theorem isGeq_spec [Fact p.Prime] (hp2 : p ≠ 2) {c : Circ p} (hc : WF c) (a b : ℕ) :
    Spec (isGeq a b) c (a < c.numVars ∧ b < c.numVars) (fun v c' => v < c'.numVars)
      (fun v w => w v = boolF (decide ((w b).val ≤ (w a).val))) := by
  unfold isGeq
  apply Spec.checkVar_bind (fun h => h.1); intro ha
  apply Spec.checkVar_bind (fun h => h.2); intro hb
  refine Spec.bind (isLtInternal_spec hp2 hc a b) (fun _ _ _ => ⟨ha, hb⟩) hc ?_
  intro v c1 e1 h1
  refine Spec.conseq e1.wf (logicNeg_spec e1.wf v) (fun _ _ _ => h1) (fun _ _ _ h => h) ?_
  intro u w _ _ h2 h3
  rw [h2, h3, boolF_not]
  congr 1
  rw [Bool.eq_iff_iff]; simp

theorem enforceLt_spec [Fact p.Prime] (hp2 : p ≠ 2) {c : Circ p} (hc : WF c) (a b : ℕ) :
    Spec (enforceLt a b) c ((a < c.numVars ∧ b < c.numVars) ∧ (c.val a).val < (c.val b).val)
      (fun _ _ => True) (fun _ w => (w a).val < (w b).val) := by
  unfold enforceLt
  apply Spec.checkVar_bind (fun h => h.1.1); intro ha
  apply Spec.checkVar_bind (fun h => h.1.2); intro hb
  exact enforceLtInternal_spec hp2 hc a b

theorem enforceGt_spec [Fact p.Prime] (hp2 : p ≠ 2) {c : Circ p} (hc : WF c) (a b : ℕ) :
    Spec (enforceGt a b) c ((a < c.numVars ∧ b < c.numVars) ∧ (c.val b).val < (c.val a).val)
      (fun _ _ => True) (fun _ w => (w b).val < (w a).val) :=
  Spec.weaken (enforceLt_spec hp2 hc b a) (fun h => ⟨⟨h.1.2, h.1.1⟩, h.2⟩)

/-- `is_lt` followed by "enforce zero" -/
theorem notLt_spec [Fact p.Prime] (hp2 : p ≠ 2) {c : Circ p} (hc : WF c) (a b : ℕ) :
    Spec (do let v ← isLt a b; enforceConstant v 0 : Build p Unit) c
      ((a < c.numVars ∧ b < c.numVars) ∧ (c.val b).val ≤ (c.val a).val)
      (fun _ _ => True) (fun _ w => (w b).val ≤ (w a).val) := by
  refine Spec.bind (isLt_spec hp2 hc a b) (fun h _ _ => h.1) hc ?_
  intro v c1 e1 h1
  refine Spec.conseq e1.wf (enforceConstant_spec e1.wf v 0) ?_ (fun _ _ _ h => h) ?_
  · rintro ⟨⟨⟨ha, hb⟩, h2⟩, h3⟩ - -
    refine ⟨h1, ?_⟩
    rw [h3, e1.val a ha, e1.val b hb]
    simp [boolF]; omega
  · intro _ w _ _ h2 h3
    rw [h2] at h3
    by_contra hcon
    simp [boolF, hcon] at h3

theorem enforceLeq_spec [Fact p.Prime] (hp2 : p ≠ 2) {c : Circ p} (hc : WF c) (a b : ℕ) :
    Spec (enforceLeq a b) c ((a < c.numVars ∧ b < c.numVars) ∧ (c.val a).val ≤ (c.val b).val)
      (fun _ _ => True) (fun _ w => (w a).val ≤ (w b).val) :=
  Spec.weaken (notLt_spec hp2 hc b a) (fun h => ⟨⟨h.1.2, h.1.1⟩, h.2⟩)

theorem enforceGeq_spec [Fact p.Prime] (hp2 : p ≠ 2) {c : Circ p} (hc : WF c) (a b : ℕ) :
    Spec (enforceGeq a b) c ((a < c.numVars ∧ b < c.numVars) ∧ (c.val b).val ≤ (c.val a).val)
      (fun _ _ => True) (fun _ w => (w b).val ≤ (w a).val) := notLt_spec hp2 hc a b

/-! ### comparison with a constant -/

theorem constVar_spec {c : Circ p} (hc : WF c) (x : ZMod p) :
    Spec (createConstantVariable x) c True (fun v c' => v < c'.numVars) (fun v w => w v = x) :=
  createConstantVariable_spec hc x

theorem isConst_spec {f : ℕ → ℕ → Build p ℕ} {P : ZMod p → ZMod p → Bool}
    (hf : ∀ {c : Circ p}, WF c → ∀ a b, Spec (f a b) c (a < c.numVars ∧ b < c.numVars)
      (fun v c' => v < c'.numVars) (fun v w => w v = boolF (P (w a) (w b))))
    {c : Circ p} (hc : WF c) (a : ℕ) (k : ZMod p) :
    Spec (do checkVar a; let b ← createConstantVariable k; f a b : Build p ℕ) c (a < c.numVars)
      (fun v c' => v < c'.numVars) (fun v w => w v = boolF (P (w a) k)) := by
  apply Spec.checkVar_bind (fun h => h); intro ha
  refine Spec.bind (createConstantVariable_spec hc k) (fun _ _ _ => trivial) hc ?_
  intro b c1 e1 hb
  refine Spec.conseq e1.wf (hf e1.wf a b) (fun _ _ _ => ⟨e1.lt ha, hb⟩) (fun _ _ _ h => h) ?_
  intro v w _ _ h1 h2
  rw [h1, h2]

theorem enforceConst_spec {f : ℕ → ℕ → Build p Unit} {P : ZMod p → ZMod p → Prop}
    (hf : ∀ {c : Circ p}, WF c → ∀ a b,
      Spec (f a b) c ((a < c.numVars ∧ b < c.numVars) ∧ P (c.val a) (c.val b))
      (fun _ _ => True) (fun _ w => P (w a) (w b)))
    {c : Circ p} (hc : WF c) (a : ℕ) (k : ZMod p) :
    Spec (do checkVar a; let b ← createConstantVariable k; f a b : Build p Unit) c
      (a < c.numVars ∧ P (c.val a) k)
      (fun _ _ => True) (fun _ w => P (w a) k) := by
  apply Spec.checkVar_bind (fun h => h.1); intro ha
  refine Spec.bind (createConstantVariable_spec hc k) (fun _ _ _ => trivial) hc ?_
  intro b c1 e1 hb
  refine Spec.conseq e1.wf (hf e1.wf a b) ?_ (fun _ _ _ h => h) ?_
  · rintro ⟨⟨_, hP⟩, h2⟩ - -
    refine ⟨⟨e1.lt ha, hb⟩, ?_⟩
    rw [h2, e1.val a ha]; exact hP
  · intro _ w _ _ h1 h2
    rw [h2] at h1; exact h1

theorem isLtConstant_spec [Fact p.Prime] (hp2 : p ≠ 2) {c : Circ p} (hc : WF c) (a : ℕ)
    (k : ZMod p) : Spec (isLtConstant a k) c (a < c.numVars) (fun v c' => v < c'.numVars)
      (fun v w => w v = boolF (decide ((w a).val < k.val))) :=
  isConst_spec (P := fun x y => decide (x.val < y.val)) (isLt_spec hp2) hc a k

theorem isLeqConstant_spec [Fact p.Prime] (hp2 : p ≠ 2) {c : Circ p} (hc : WF c) (a : ℕ)
    (k : ZMod p) : Spec (isLeqConstant a k) c (a < c.numVars) (fun v c' => v < c'.numVars)
      (fun v w => w v = boolF (decide ((w a).val ≤ k.val))) :=
  isConst_spec (P := fun x y => decide (x.val ≤ y.val)) (isLeq_spec hp2) hc a k

theorem isGeqConstant_spec [Fact p.Prime] (hp2 : p ≠ 2) {c : Circ p} (hc : WF c) (a : ℕ)
    (k : ZMod p) : Spec (isGeqConstant a k) c (a < c.numVars) (fun v c' => v < c'.numVars)
      (fun v w => w v = boolF (decide (k.val ≤ (w a).val))) :=
  isConst_spec (P := fun x y => decide (y.val ≤ x.val)) (isGeq_spec hp2) hc a k

theorem isGtConstant_spec [Fact p.Prime] (hp2 : p ≠ 2) {c : Circ p} (hc : WF c) (a : ℕ)
    (k : ZMod p) : Spec (isGtConstant a k) c (a < c.numVars) (fun v c' => v < c'.numVars)
      (fun v w => w v = boolF (decide (k.val < (w a).val))) := by
  unfold isGtConstant
  apply Spec.checkVar_bind (fun h => h); intro _
  exact isGtConstantInternal_spec hp2 hc a k

theorem enforceLtConstant_spec [Fact p.Prime] (hp2 : p ≠ 2) {c : Circ p} (hc : WF c) (a : ℕ)
    (k : ZMod p) : Spec (enforceLtConstant a k) c (a < c.numVars ∧ (c.val a).val < k.val)
      (fun _ _ => True) (fun _ w => (w a).val < k.val) :=
  enforceConst_spec (P := fun x y => x.val < y.val) (enforceLt_spec hp2) hc a k

theorem enforceLeqConstant_spec [Fact p.Prime] (hp2 : p ≠ 2) {c : Circ p} (hc : WF c) (a : ℕ)
    (k : ZMod p) : Spec (enforceLeqConstant a k) c (a < c.numVars ∧ (c.val a).val ≤ k.val)
      (fun _ _ => True) (fun _ w => (w a).val ≤ k.val) :=
  enforceConst_spec (P := fun x y => x.val ≤ y.val) (enforceLeq_spec hp2) hc a k

theorem enforceGtConstant_spec [Fact p.Prime] (hp2 : p ≠ 2) {c : Circ p} (hc : WF c) (a : ℕ)
    (k : ZMod p) : Spec (enforceGtConstant a k) c (a < c.numVars ∧ k.val < (c.val a).val)
      (fun _ _ => True) (fun _ w => k.val < (w a).val) :=
  enforceConst_spec (P := fun x y => y.val < x.val) (enforceGt_spec hp2) hc a k

theorem enforceGeqConstant_spec [Fact p.Prime] (hp2 : p ≠ 2) {c : Circ p} (hc : WF c) (a : ℕ)
    (k : ZMod p) : Spec (enforceGeqConstant a k) c (a < c.numVars ∧ k.val ≤ (c.val a).val)
      (fun _ _ => True) (fun _ w => k.val ≤ (w a).val) :=
  enforceConst_spec (P := fun x y => y.val ≤ x.val) (enforceGeq_spec hp2) hc a k

end Verif.Circuit
