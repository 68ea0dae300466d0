import Verif.Circuit.ModArithSpec

/-! # Specifications of the addition and negation gadgets of `mod_arith.rs` -/

set_option linter.unusedSectionVars false

namespace Verif.Circuit

variable {p : ℕ} {α β : Type}

/-! ## Rules for one-sided hint computations -/

theorem Rel.witness_bindL {a : ℕ} {f : ZMod p → Build p β} {m : Build p β}
    (hf : ∀ v, Rel (f v) m) : Rel (witness a >>= f) m := by
  intro c d hs v1 c' v2 d' h1 h2
  obtain ⟨u, c1, a1, a2⟩ := bind_ok h1
  unfold witness at a1
  split at a1
  · cases a1
  · cases a1; exact hf _ c d hs _ _ _ _ a2 h2

theorem Rel.guardL {P : Prop} [Decidable P] {e : CErr} {m m' : Build p α} (h : Rel m m') :
    Rel (if P then Build.fail e else m) m' := by
  by_cases hP : P
  · rw [if_pos hP]; exact Rel.failL _ _
  · rw [if_neg hP]; exact h

theorem Rel.swap {m m' : Build p α} (h : Rel m m') : Rel m' m := by
  intro c d hs v c' v' d' h1 h2
  obtain ⟨a, b⟩ := h d c hs.symm v' d' v c' h2 h1
  exact ⟨a.symm, b.symm⟩

/-- guard with a decided condition -/
theorem Spec.guard {P : Prop} [Decidable P] {e : CErr} {m : Build p α} {c : Circ p} {C : Prop}
    {B : α → Circ p → Prop} {R : α → (ℕ → ZMod p) → Prop} (hC : C → ¬ P) (h : ¬ P → Spec m c C B R) :
    Spec (if P then Build.fail e else m) c C B R := by
  by_cases hP : P
  · rw [if_pos hP]; exact Spec.fail (fun g => hC g hP)
  · rw [if_neg hP]; exact h hP

/-- a computation that may fail -/
theorem Spec.liftE_bind' {x : Except CErr α} {f : α → Build p β} {c : Circ p} {C : Prop}
    {B : β → Circ p → Prop} {R : β → (ℕ → ZMod p) → Prop} (hC : C → ∃ v, x = .ok v)
    (h : ∀ v, x = .ok v → Spec (f v) c C B R) : Spec (liftE x >>= f) c C B R := by
  rcases hx : x with e | v
  · constructor
    · intro u c' hu
      obtain ⟨_, _, a, _⟩ := bind_ok hu
      cases a
    · intro g
      obtain ⟨v, hv⟩ := hC g
      rw [hx] at hv; cases hv
  · exact Spec.liftE_bind rfl (h v hx)

/-! ## Splitting -/

theorem splitWith_spec {c : Circ p} (hc : WF c) (var m : ℕ) (tpm e0 e1 : ZMod p) :
    Spec (splitWith var m tpm e0 e1) c (var < c.numVars ∧ e0 + tpm * e1 = c.val var)
      (fun v c' => v.In c' ∧ v.m = m ∧ v.tpm = tpm ∧ c'.val v.v0 = e0 ∧ c'.val v.v1 = e1)
      (fun v w => w v.v0 + tpm * w v.v1 = w var) := by
  unfold splitWith
  refine Spec.create_bind hc ?_
  intro v0 c1 x1 l1 h1
  refine Spec.create_bind x1.wf ?_
  intro v1 c2 x2 l2 h2
  have e := x1.trans x2
  refine Spec.bind (lcGate_spec x2.wf _ _ _ _ _ _ _ _ _) ?_ x2.wf ?_
  · rintro ⟨g1, g2⟩ h0 _
    refine ⟨five_mem (x2.lt l1) l2 x2.wf.z x2.wf.z (e.lt g1), ?_⟩
    rw [e.val _ g1, ← g2, x2.val _ l1, h1, h2, h0]; ring
  intro _ c3 x3 _
  refine Spec.pure x3.wf ⟨⟨x3.lt (x2.lt l1), x3.lt l2⟩, rfl, rfl, ?_, ?_⟩ ?_
  · show c3.val v0 = e0
    rw [x3.val _ (x2.lt l1), x2.val _ l1, h1]
  · show c3.val v1 = e1
    rw [x3.val _ l2, h2]
  · intro w h0 _ g
    rw [g, h0]; ring

theorem FpElem.new_eq {x : ZMod p} {m : ℕ} {tpm : Option (ZMod p)} {e : FpElem p}
    (h : FpElem.new x m tpm = .ok e) :
    e.m = m ∧ e.tpm = tpm.getD (2 ^ m) ∧ e.p0 + e.tpm * e.p1 = x := by
  unfold FpElem.new at h
  split at h
  · cases h
  · simp only [divRem, intDiv] at h
    split at h
    · cases h
    · cases h
      refine ⟨rfl, rfl, ?_⟩
      simp

theorem newUnchecked_spec {c : Circ p} (hc : WF c) (var m : ℕ) (tpm : Option (ZMod p)) :
    Spec (newUnchecked var m tpm) c (var < c.numVars ∧ ∃ e, FpElem.new (c.val var) m tpm = .ok e)
      (fun v c' => v.In c' ∧ v.m = m ∧ v.tpm = tpm.getD (2 ^ m) ∧
        ∃ e, FpElem.new (c.val var) m tpm = .ok e ∧ c'.val v.v0 = e.p0 ∧ c'.val v.v1 = e.p1)
      (fun v w => w v.v0 + tpm.getD (2 ^ m) * w v.v1 = w var) := by
  unfold newUnchecked
  apply Spec.witness_bind (fun g => g.1)
  intro hv
  refine Spec.liftE_bind' (fun g => g.2) ?_
  intro e he
  obtain ⟨h1, h2, h3⟩ := FpElem.new_eq he
  refine Spec.conseq hc (splitWith_spec hc var m e.tpm e.p0 e.p1) (fun _ _ _ => ⟨hv, h3⟩) ?_ ?_
  · rintro v c' _ ⟨g1, g2, g3, g4, g5⟩
    exact ⟨g1, g2, g3.trans h2, e, he, g4, g5⟩
  · intro v w _ _ g
    rw [← h2]; exact g

/-- the value of an element in an assignment, as a field element -/
def FpElemVar.felt (x : FpElemVar p) (w : ℕ → ZMod p) : ZMod p := w x.v0 + x.tpm * w x.v1

theorem FpElemVar.felt_ext {x : FpElemVar p} {c c' : Circ p} (h : x.In c) (e : Ext c c') :
    x.felt c'.val = x.felt c.val := by
  unfold FpElemVar.felt; rw [e.val _ h.1, e.val _ h.2]

theorem toVar_spec {c : Circ p} (hc : WF c) (x : FpElemVar p) :
    Spec x.toVar c (x.In c) (fun v c' => v < c'.numVars ∧ c'.val v = x.felt c.val)
      (fun v w => w v = x.felt w) := by
  unfold FpElemVar.toVar lc
  apply Spec.checkVars_bind (fun g => four_mem g.1 g.2 hc.z hc.z)
  intro hv
  simp only [List.mem_cons, List.not_mem_nil, or_false, forall_eq_or_imp, forall_eq] at hv
  obtain ⟨h0, h1, h2, h3⟩ := hv
  apply Spec.witness_bind (fun _ => h0); intro _
  apply Spec.witness_bind (fun _ => h1); intro _
  apply Spec.witness_bind (fun _ => h2); intro _
  apply Spec.witness_bind (fun _ => h3); intro _
  refine Spec.create_bind hc ?_
  intro v c1 e1 hv hx
  have hx' : c1.val v = x.felt c.val := by rw [hx]; unfold FpElemVar.felt; ring
  refine Spec.bind (lcGate_spec e1.wf _ _ _ _ v _ _ _ _) ?_ e1.wf ?_
  · intro _ _ _
    refine ⟨five_mem (e1.lt h0) (e1.lt h1) (e1.lt h2) (e1.lt h3) hv, ?_⟩
    rw [hx', e1.val _ h0, e1.val _ h1]; unfold FpElemVar.felt; ring
  intro _ c2 e2 _
  refine Spec.pure e2.wf ⟨e2.lt hv, by rw [e2.val _ hv, hx']⟩ ?_
  intro w _ _ h
  rw [h]; unfold FpElemVar.felt; ring

/-! ## Addition -/

theorem modAddLoop_spec (padded : List ℕ) (L1 n : ℕ) : ∀ (i acc : ℕ) {c : Circ p} (_ : WF c),
    (∀ v ∈ padded, v < c.numVars) → acc < c.numVars → 3 * (i + n) ≤ L1 + 3 →
    Spec (modAddLoop padded L1 n i acc) c True (fun v c' => v < c'.numVars)
      (fun v w => w v = w acc + ((List.range (3 * n)).map
        (fun j => w (padded.getD (L1 + 3 - 3 * (i + n) + j) 0))).sum) := by
  induction n with
  | zero =>
    intro i acc c hc hp ha _
    exact Spec.pure hc ha (fun w _ _ => by simp)
  | succ n ih =>
    intro i acc c hc hp ha hi
    unfold modAddLoop
    refine Spec.bind (lc_spec hc acc _ _ _ 1 1 1 1) ?_ hc ?_
    · intro _ _ _
      exact four_mem ha (getD_lt hc hp _) (getD_lt hc hp _) (getD_lt hc hp _)
    rintro v c1 e1 hv
    refine Spec.conseq e1.wf
      (ih (i + 1) v e1.wf (fun x hx => e1.lt (hp x hx)) hv (by omega)) (fun _ _ _ => trivial)
      (fun _ _ _ h => h) ?_
    intro u w _ _ h1 h2
    rw [h1, h2]
    have : 3 * (n + 1) = 3 * n + 3 := by ring
    rw [this, List.range_add, List.map_append, List.sum_append, List.map_map]
    have h3 : List.range 3 = [0, 1, 2] := rfl
    have a0 : L1 + 3 - 3 * (i + (n + 1)) + (3 * n + 0) = L1 - 3 * i := by omega
    have a1 : L1 + 3 - 3 * (i + (n + 1)) + (3 * n + 1) = L1 - 3 * i + 1 := by omega
    have a2 : L1 + 3 - 3 * (i + (n + 1)) + (3 * n + 2) = L1 - 3 * i + 2 := by omega
    have a3 : i + 1 + n = i + (n + 1) := by omega
    simp only [h3, List.map_cons, List.map_nil, List.sum_cons, List.sum_nil, add_zero, a1, a2, a3,
      Function.comp_def, one_mul]
    rw [add_zero] at a0
    rw [a0]
    ring

theorem modAddWith_spec [Fact p.Prime] {c : Circ p} (hc : WF c) (hr : RangeOK c) (vars : List ℕ)
    (hv : ∀ v ∈ vars, v < c.numVars) (q : ZMod p) (k lp : ℕ) (z y : ZMod p) :
    Spec (modAddWith vars q k lp z y) c
      (c.ultra.isSome = true ∧ 0 < k ∧ 0 < lp ∧ z.val < 2 ^ k ∧ y.val < 2 ^ (k * lp) ∧
        y = (vars.map c.val).sum - q * z)
      (fun v c' => v < c'.numVars ∧ c'.val v = y)
      (fun v w => (w v).val < 2 ^ (k * lp) ∧ ∃ z : ZMod p, z.val < 2 ^ k ∧
        w v = (vars.map w).sum - q * z) := by
  unfold modAddWith
  refine Spec.create_bind hc ?_
  intro zv c1 e1 l1 h1
  refine Spec.range_bind e1.wf (hr.ext e1) ?_ ?_
  · rintro ⟨g1, g2, g3, g4, g5, g6⟩
    exact ⟨by rw [e1.ultra]; exact g1, l1, g2, by rw [h1]; exact g4⟩
  intro c2 e2
  refine Spec.create_bind e2.wf ?_
  intro yv c3 e3 l3 h3
  refine Spec.range_bind e3.wf ((hr.ext e1).ext (e2.trans e3)) ?_ ?_
  · rintro ⟨g1, g2, g3, g4, g5, g6⟩
    exact ⟨by rw [e3.ultra, e2.ultra, e1.ultra]; exact g1, l3, Nat.mul_pos g2 g3, by rw [h3]; exact g5⟩
  intro c4 e4
  obtain ⟨j, hj, hj1, hj2⟩ := nextMultiple_three vars.length
  refine Spec.liftE_bind hj ?_
  simp only
  have e14 := e2.trans (e3.trans e4)
  have e04 := e1.trans e14
  have hzv : c4.val zv = z := by rw [e14.val _ l1, h1]
  have hyv : c4.val yv = y := by rw [e4.val _ l3, h3]
  have hp : ∀ v ∈ resizeZero (zv :: vars) (3 * j + 1), v < c4.numVars := by
    refine resizeZero_lt e4.wf ?_ _
    intro v hm
    rcases List.mem_cons.1 hm with rfl | hm
    · exact e14.lt l1
    · exact e04.lt (hv v hm)
  refine Spec.bind (modAddLoop_spec _ _ _ 1 _ e4.wf hp (getD_lt e4.wf hp _) (by omega))
    (fun _ _ _ => trivial) e4.wf ?_
  rintro acc c5 e5 hacc
  have hp5 : ∀ v ∈ resizeZero (zv :: vars) (3 * j + 1), v < c5.numVars := fun v h => e5.lt (hp v h)
  have halg : ∀ w : ℕ → ZMod p, w 0 = 0 →
      w acc = w ((resizeZero (zv :: vars) (3 * j + 1)).getD (3 * j + 1 - 1) 0)
        + ((List.range (3 * ((3 * j + 1) / 3 - 1))).map (fun t => w ((resizeZero (zv :: vars) (3 * j + 1)).getD
            (3 * j + 1 - 1 + 3 - 3 * (1 + ((3 * j + 1) / 3 - 1)) + t) 0))).sum →
      w acc + w ((resizeZero (zv :: vars) (3 * j + 1)).getD 2 0)
        + w ((resizeZero (zv :: vars) (3 * j + 1)).getD 1 0) = (vars.map w).sum := by
    intro w h0 hw
    rw [hw]
    simp only [resizeZero_getD]
    have := sum_range_getD (zv :: vars) w h0 (3 * j + 1) (by simp; omega)
    rw [List.map_cons, List.sum_cons] at this
    have hs : (vars.map w).sum = ((List.range (3 * j + 1)).map (fun j => w ((zv :: vars).getD j 0))).sum - w zv := by
      rw [this]; ring
    rw [hs]
    have hsplit : 3 * j + 1 = (3 + 3 * (j - 1)) + 1 := by omega
    have h3 : List.range 3 = [0, 1, 2] := rfl
    have h1 : List.range 1 = [0] := rfl
    have k1 : 3 * j + 1 - 1 = 3 + 3 * (j - 1) + 0 := by omega
    have k2 : (3 * j + 1) / 3 - 1 = j - 1 := by omega
    have k3 : 3 + 3 * (j - 1) + 0 + 3 - 3 * (1 + (j - 1)) = 3 := by omega
    rw [k1, k2, k3, show List.range (3 * j + 1) = List.range ((3 + 3 * (j - 1)) + 1) by rw [← hsplit],
      List.range_add, List.range_add, List.map_append, List.map_append, List.sum_append,
      List.sum_append, List.map_map, List.map_map, h3, h1]
    simp only [List.map_cons, List.map_nil, List.sum_cons, List.sum_nil, add_zero,
      Function.comp_def, List.getD_cons_zero]
    ring
  have h00 : (resizeZero (zv :: vars) (3 * j + 1)).getD 0 0 = zv := by rw [resizeZero_getD]; rfl
  refine Spec.bind (lcGate_spec e5.wf _ _ _ _ yv 1 1 1 (-q)) ?_ e5.wf ?_
  · rintro ⟨⟨g1, g2, g3, g4, g5, g6⟩, g7⟩ h0 -
    refine ⟨five_mem hacc (getD_lt e5.wf hp5 _) (getD_lt e5.wf hp5 _) (getD_lt e5.wf hp5 _)
      (e5.lt (e4.lt l3)), ?_⟩
    have := halg c5.val h0 g7
    rw [h00, e5.val _ (e14.lt l1), hzv, e5.val _ (e4.lt l3), hyv, g6]
    have hm : vars.map c5.val = vars.map c.val := by
      apply List.map_congr_left
      intro x hx
      rw [e5.val _ (e04.lt (hv x hx)), e04.val _ (hv x hx)]
    rw [← hm, ← this]; ring
  rintro _ c6 e6 -
  refine Spec.pure e6.wf ⟨e6.lt (e5.lt (e4.lt l3)), ?_⟩ ?_
  · rw [e6.val _ (e5.lt (e4.lt l3)), e5.val _ (e4.lt l3), hyv]
  intro w h0 _ g1 g2 g3 g4
  refine ⟨g3, w zv, g4, ?_⟩
  rw [g1, ← halg w h0 g2, h00]; ring

theorem intDiv_ok {a b : ZMod p} (h : b.val ≠ 0) : intDiv a b = .ok ((a.val / b.val : ℕ) : ZMod p) := by
  unfold intDiv; rw [if_neg h]

theorem divRem_ok {a b : ZMod p} (h : b.val ≠ 0) :
    divRem a b = .ok (((a.val / b.val : ℕ) : ZMod p), a - b * ((a.val / b.val : ℕ) : ZMod p)) := by
  unfold divRem; rw [intDiv_ok h]; rfl

theorem sub_mul_div [NeZero p] (a b : ZMod p) :
    a - b * ((a.val / b.val : ℕ) : ZMod p) = ((a.val % b.val : ℕ) : ZMod p) := by
  have h := Nat.div_add_mod a.val b.val
  have h1 : ((b.val * (a.val / b.val) + a.val % b.val : ℕ) : ZMod p) = a := by
    rw [h, ZMod.natCast_val, ZMod.cast_id]
  push_cast at h1
  rw [ZMod.natCast_val b, ZMod.cast_id] at h1
  linear_combination -h1

theorem divRem_eq [NeZero p] {a b : ZMod p} (h : b.val ≠ 0) :
    divRem a b = .ok (((a.val / b.val : ℕ) : ZMod p), ((a.val % b.val : ℕ) : ZMod p)) := by
  rw [divRem_ok h, sub_mul_div]

theorem val_div [NeZero p] (a b : ZMod p) : ((a.val / b.val : ℕ) : ZMod p).val = a.val / b.val :=
  ZMod.val_natCast_of_lt (lt_of_le_of_lt (Nat.div_le_self _ _) (ZMod.val_lt a))

theorem val_mod [NeZero p] (a b : ZMod p) : ((a.val % b.val : ℕ) : ZMod p).val = a.val % b.val :=
  ZMod.val_natCast_of_lt (lt_of_le_of_lt (Nat.mod_le _ _) (ZMod.val_lt a))

theorem rangeBitLen_eq {c : Circ p} {k : ℕ} (hk : c.ultra = some k) :
    (rangeBitLen : Build p ℕ) c = .ok (k, c) := by
  unfold rangeBitLen; rw [hk]

theorem modAddInternal_spec [Fact p.Prime] {c : Circ p} (hc : WF c) (hr : RangeOK c) {k : ℕ}
    (hk : c.ultra = some k) (vars : List ℕ) (hv : ∀ v ∈ vars, v < c.numVars) (q : ZMod p) (hq : q.val ≠ 0)
    (lp : ℕ) :
    Spec (modAddInternal vars q lp) c
      (0 < lp ∧ (vars.map c.val).sum.val / q.val < 2 ^ k ∧ (vars.map c.val).sum.val % q.val < 2 ^ (k * lp))
      (fun v c' => v < c'.numVars ∧ c'.val v = (((vars.map c.val).sum.val % q.val : ℕ) : ZMod p) ∧
        (vars.map c.val).sum.val / q.val < 2 ^ k)
      (fun v w => (w v).val < 2 ^ (k * lp) ∧ ∃ z : ZMod p, z.val < 2 ^ k ∧
        w v = (vars.map w).sum - q * z) := by
  obtain ⟨k0, k1, k2⟩ := hr k hk
  unfold modAddInternal
  refine Spec.of_eq (rangeBitLen_eq hk) (Spec.of_eq (witnesses_eq vars hv) (Spec.liftE_bind (divRem_eq hq) ?_))
  simp only [val_div, rangeBound_eq k1 k2]
  refine Spec.guard (fun g => by omega) ?_
  intro hz
  refine Spec.conseq hc (modAddWith_spec hc hr vars hv q k lp _ _) ?_ (fun v c' _ h => ⟨h.1, h.2, by omega⟩)
    (fun _ _ _ _ h => h)
  rintro ⟨g1, g2, g3⟩ _ _
  refine ⟨by rw [hk]; rfl, k0, g1, by rw [val_div]; exact g2, by rw [val_mod]; exact g3, ?_⟩
  rw [sub_mul_div]

/-- every field element passes the range check that `mod_add` puts on its result -/
theorem lt_numRangeBlocks {k : ℕ} (hk : 0 < k) (x : ZMod p) [NeZero p] :
    x.val < 2 ^ (k * numRangeBlocks p k) := by
  have h1 : x.val < 2 ^ modulusBits p := (ZMod.val_lt x).trans (Nat.lt_size_self p)
  refine h1.trans_le (Nat.pow_le_pow_right (by norm_num) ?_)
  unfold numRangeBlocks
  have := Nat.div_add_mod (modulusBits p) k
  have := Nat.mod_lt (modulusBits p) hk
  rw [mul_add, mul_one]
  omega

theorem toVars_spec (xs : List (FpElemVar p)) : ∀ {c : Circ p} (_ : WF c), (∀ x ∈ xs, x.In c) →
    Spec (toVars xs) c True (fun vs c' => (∀ v ∈ vs, v < c'.numVars) ∧
        vs.map c'.val = xs.map (fun x => x.felt c.val))
      (fun vs w => vs.map w = xs.map (fun x => x.felt w)) := by
  induction xs with
  | nil =>
    intro c hc _
    exact Spec.pure hc ⟨by simp, rfl⟩ (fun w _ _ => rfl)
  | cons x xs ih =>
    intro c hc hx
    unfold toVars
    refine Spec.bind (toVar_spec hc x) (fun _ _ _ => hx x (by simp)) hc ?_
    rintro v c1 e1 ⟨hv, hx1⟩
    refine Spec.bind (ih e1.wf (fun y hy => (hx y (by simp [hy])).ext e1)) (fun _ _ _ => trivial) e1.wf ?_
    rintro vs c2 e2 ⟨hvs, hx2⟩
    refine Spec.pure e2.wf ⟨?_, ?_⟩ ?_
    · intro u hu
      rcases List.mem_cons.1 hu with rfl | hu
      · exact e2.lt hv
      · exact hvs u hu
    · rw [List.map_cons, List.map_cons, hx2, e2.val _ hv, hx1]
      congr 1
      apply List.map_congr_left
      intro y hy
      exact FpElemVar.felt_ext (hx y (by simp [hy])) e1
    · intro w _ _ h1 h2
      rw [List.map_cons, List.map_cons, h1, h2]

/-- the arguments of a gadget match its modulus -/
def FpElemVar.Match (x : FpElemVar p) (q : FpElem p) : Prop := x.m = q.m ∧ x.tpm = q.tpm

/-- parameters under which the additions run -/
structure AddParams (q : FpElem p) (k : ℕ) : Prop where
  dvd : q.m % k = 0
  half : q.m ≤ modulusBits p / 2
  tpm : q.tpm.val ≠ 0
  pos : q.fieldElem.val ≠ 0

theorem FpElem.new_ok [NeZero p] {q : FpElem p} {k : ℕ} (hq : AddParams q k) (x : ZMod p) :
    FpElem.new x q.m (some q.tpm) =
      .ok ⟨((x.val % q.tpm.val : ℕ) : ZMod p), ((x.val / q.tpm.val : ℕ) : ZMod p), q.m, q.tpm⟩ := by
  unfold FpElem.new
  rw [if_neg (by have := hq.half; omega)]
  simp only [Option.getD_some]
  rw [divRem_eq hq.tpm]
  rfl

/-- what the builder of an addition stores: the remainder, split -/
def AddOut (q : FpElem p) (s : ZMod p) (v : FpElemVar p) (w : ℕ → ZMod p) : Prop :=
  w v.v0 = ((s.val % q.fieldElem.val % q.tpm.val : ℕ) : ZMod p) ∧
    w v.v1 = ((s.val % q.fieldElem.val / q.tpm.val : ℕ) : ZMod p)

theorem addFinish_spec [Fact p.Prime] {c : Circ p} (hc : WF c) {q : FpElem p} {k : ℕ} (hq : AddParams q k)
    (m : ℕ) (hm : m = q.m) (s : ZMod p) (res : ℕ) (hl : res < c.numVars)
    (hres : c.val res = ((s.val % q.fieldElem.val : ℕ) : ZMod p)) :
    Spec (newUnchecked res m (some q.tpm)) c True
      (fun v c' => v.In c' ∧ v.m = q.m ∧ v.tpm = q.tpm ∧ AddOut q s v c'.val)
      (fun v w => w v.v0 + q.tpm * w v.v1 = w res) := by
  subst hm
  refine Spec.conseq hc (newUnchecked_spec hc res q.m (some q.tpm))
    (fun _ _ _ => ⟨hl, _, FpElem.new_ok hq _⟩) ?_ (fun _ _ _ _ h => h)
  rintro v c' _ ⟨h1, h2, h3, e, he, h4, h5⟩
  rw [FpElem.new_ok hq] at he
  cases he
  refine ⟨h1, h2, h3, ?_, ?_⟩
  · rw [h4, hres, val_mod]
  · rw [h5, hres, val_mod]

/-- the last two steps of the additions -/
theorem addTail_spec [Fact p.Prime] {c : Circ p} (hc : WF c) (hr : RangeOK c) {k : ℕ}
    (hk : c.ultra = some k) (vs : List ℕ) (hv : ∀ v ∈ vs, v < c.numVars) (q : FpElem p)
    (hq : AddParams q k) (m : ℕ) (hm : m = q.m) :
    Spec (modAddInternal vs q.fieldElem (numRangeBlocks p k) >>= fun res => newUnchecked res m (some q.tpm)) c
      ((vs.map c.val).sum.val / q.fieldElem.val < 2 ^ k)
      (fun v c' => v.In c' ∧ v.m = q.m ∧ v.tpm = q.tpm ∧ AddOut q (vs.map c.val).sum v c'.val ∧
        (vs.map c.val).sum.val / q.fieldElem.val < 2 ^ k)
      (fun v w => ∃ z : ZMod p, z.val < 2 ^ k ∧
        w v.v0 + q.tpm * w v.v1 = (vs.map w).sum - q.fieldElem * z) := by
  obtain ⟨k0, k1, k2⟩ := hr k hk
  refine Spec.bind (modAddInternal_spec hc hr hk vs hv _ hq.pos _) ?_ hc ?_
  · intro g _ _
    refine ⟨Nat.succ_pos _, g, ?_⟩
    have := lt_numRangeBlocks k0 (((vs.map c.val).sum.val % q.fieldElem.val : ℕ) : ZMod p)
    rwa [val_mod] at this
  rintro res c1 e1 ⟨hl, hres, hz⟩
  refine Spec.conseq e1.wf (addFinish_spec e1.wf hq m hm _ res hl hres) (fun _ _ _ => trivial) ?_ ?_
  · rintro v c' _ ⟨h1, h2, h3, h4⟩
    exact ⟨h1, h2, h3, h4, hz⟩
  · rintro v w _ _ h ⟨_, z, g1, g2⟩
    exact ⟨z, g1, by rw [h, g2]⟩

theorem modAddVec_spec [Fact p.Prime] {c : Circ p} (hc : WF c) (hr : RangeOK c) {k : ℕ}
    (hk : c.ultra = some k) (xs : List (FpElemVar p)) (hx : ∀ x ∈ xs, x.In c) (q : FpElem p)
    (hm : ∀ x ∈ xs, x.Match q) (hq : AddParams q k) :
    Spec (modAddVec xs q) c
      ((xs.map (fun x => FpElemVar.felt x c.val)).sum.val / q.fieldElem.val < 2 ^ k)
      (fun v c' => v.In c' ∧ v.m = q.m ∧ v.tpm = q.tpm ∧
        AddOut q (xs.map (fun x => FpElemVar.felt x c.val)).sum v c'.val ∧
        (xs.map (fun x => FpElemVar.felt x c.val)).sum.val / q.fieldElem.val < 2 ^ k)
      (fun v w => ∃ z : ZMod p, z.val < 2 ^ k ∧
        w v.v0 + q.tpm * w v.v1 = (xs.map (fun x => FpElemVar.felt x w)).sum - q.fieldElem * z) := by
  obtain ⟨k0, k1, k2⟩ := hr k hk
  unfold modAddVec
  refine Spec.of_eq (rangeBitLen_eq hk) ?_
  rw [if_neg (by
    rintro ⟨e, he, h | h⟩
    · exact h (hm e he).1
    · exact h (hm e he).2), if_neg (by omega), if_neg (by simp [hq.dvd])]
  refine Spec.bind (toVars_spec xs hc hx) (fun _ _ _ => trivial) hc ?_
  rintro vs c1 e1 ⟨h1, h2⟩
  refine Spec.conseq e1.wf (addTail_spec e1.wf (hr.ext e1) (by rw [e1.ultra, hk]) vs h1 q hq q.m rfl) ?_ ?_ ?_
  · rintro ⟨g, _⟩ _ _
    rw [h2]; exact g
  · rintro v c' _ h
    rw [h2] at h; exact h
  · rintro v w _ _ h g
    rw [g] at h; exact h

theorem modAdd_spec [Fact p.Prime] {c : Circ p} (hc : WF c) (hr : RangeOK c) {k : ℕ}
    (hk : c.ultra = some k) (x y : FpElemVar p) (hx : x.In c) (hy : y.In c) (q : FpElem p)
    (mx : x.Match q) (my : y.Match q) (hq : AddParams q k) :
    Spec (modAdd x y q) c
      ((x.felt c.val + y.felt c.val).val / q.fieldElem.val < 2 ^ k)
      (fun v c' => v.In c' ∧ v.m = q.m ∧ v.tpm = q.tpm ∧ AddOut q (x.felt c.val + y.felt c.val) v c'.val ∧
        (x.felt c.val + y.felt c.val).val / q.fieldElem.val < 2 ^ k)
      (fun v w => ∃ z : ZMod p, z.val < 2 ^ k ∧
        w v.v0 + q.tpm * w v.v1 = x.felt w + y.felt w - q.fieldElem * z) := by
  obtain ⟨k0, k1, k2⟩ := hr k hk
  unfold modAdd
  refine Spec.of_eq (rangeBitLen_eq hk) ?_
  refine Spec.of_eq (checkVars_eq (four_mem hx.1 hx.2 hy.1 hy.2)) ?_
  rw [if_neg (by rw [mx.1, my.1]; simp), if_neg (by rw [mx.2, my.2]; simp), if_neg (by omega),
    if_neg (by simp [hq.dvd])]
  refine Spec.bind (toVar_spec hc x) (fun _ _ _ => hx) hc ?_
  rintro xv c1 e1 ⟨h1, h2⟩
  refine Spec.bind (toVar_spec e1.wf y) (fun _ _ _ => hy.ext e1) e1.wf ?_
  rintro yv c2 e2 ⟨h3, h4⟩
  have hs : (([xv, yv].map c2.val).sum : ZMod p) = x.felt c.val + y.felt c.val := by
    simp only [List.map_cons, List.map_nil, List.sum_cons, List.sum_nil, add_zero]
    rw [e2.val _ h1, h2, h4, FpElemVar.felt_ext hy e1]
  refine Spec.conseq e2.wf (addTail_spec e2.wf ((hr.ext e1).ext e2) (by rw [e2.ultra, e1.ultra, hk]) [xv, yv]
    ?_ q hq x.m mx.1) ?_ ?_ ?_
  · intro v hv
    simp only [List.mem_cons, List.not_mem_nil, or_false] at hv
    rcases hv with rfl | rfl
    · exact e2.lt h1
    · exact h3
  · rintro ⟨⟨g, _⟩, _⟩ _ _
    rw [hs]; exact g
  · rintro v c' _ h
    rw [hs] at h; exact h
  · rintro v w _ _ ⟨z, g1, g2⟩ g3 g4
    refine ⟨z, g1, ?_⟩
    rw [g2]
    simp only [List.map_cons, List.map_nil, List.sum_cons, List.sum_nil, add_zero, g3, g4]

theorem modAddConstWith_spec [Fact p.Prime] {c : Circ p} (hc : WF c) (hr : RangeOK c) (xv : ℕ)
    (hx : xv < c.numVars) (yf q : ZMod p) (k : ℕ) (d r : ZMod p) :
    Spec (modAddConstWith xv yf q k d r) c
      (c.ultra = some k ∧ d.val < 2 ^ k ∧ r = c.val xv + yf - q * d)
      (fun v c' => v < c'.numVars ∧ c'.val v = r)
      (fun v w => ∃ z : ZMod p, z.val < 2 ^ k ∧ w v = w xv + yf - q * z) := by
  unfold modAddConstWith
  refine Spec.create_bind hc ?_
  intro dv c1 e1 l1 h1
  refine Spec.range_bind e1.wf (hr.ext e1) ?_ ?_
  · rintro ⟨g1, g2, g3⟩
    exact ⟨by rw [e1.ultra, g1]; rfl, l1, (hr k g1).1, by rw [h1]; exact g2⟩
  intro c2 e2
  refine Spec.create_bind e2.wf ?_
  intro rv c3 e3 l3 h3
  refine Spec.range_bind e3.wf ((hr.ext e1).ext (e2.trans e3)) ?_ ?_
  · rintro ⟨g1, g2, g3⟩
    exact ⟨by rw [e3.ultra, e2.ultra, e1.ultra, g1]; rfl, l3,
      Nat.mul_pos (hr k g1).1 (Nat.succ_pos _), lt_numRangeBlocks (hr k g1).1 _⟩
  intro c4 e4
  have e14 := e2.trans (e3.trans e4)
  have e04 := e1.trans e14
  refine Spec.bind (quadPolyGate_spec e4.wf _ _ _ _ _ _ _ _ _ _ _ _ _) ?_ e4.wf ?_
  · rintro ⟨g1, g2, g3⟩ _ _
    refine ⟨five_mem (e04.lt hx) (e4.lt l3) (e14.lt l1) e4.wf.z e4.wf.z, ?_⟩
    rw [e04.val _ hx, e4.val _ l3, e14.val _ l1, h1, h3, g3]; ring
  intro _ c5 e5 _
  refine Spec.pure e5.wf ⟨e5.lt (e4.lt l3), ?_⟩ ?_
  · rw [e5.val _ (e4.lt l3), e4.val _ l3, h3]
  intro w _ _ g1 g2 g3
  exact ⟨w dv, g3, by linear_combination g1⟩

theorem modAddConstant_spec [Fact p.Prime] {c : Circ p} (hc : WF c) (hr : RangeOK c) {k : ℕ}
    (hk : c.ultra = some k) (x : FpElemVar p) (hx : x.In c) (y q : FpElem p)
    (mx : x.Match q) (my : y.m = q.m ∧ y.tpm = q.tpm) (hq : AddParams q k) :
    Spec (modAddConstant x y q) c
      ((x.felt c.val + y.fieldElem).val / q.fieldElem.val < 2 ^ k)
      (fun v c' => v.In c' ∧ v.m = q.m ∧ v.tpm = q.tpm ∧ AddOut q (x.felt c.val + y.fieldElem) v c'.val ∧
        (x.felt c.val + y.fieldElem).val / q.fieldElem.val < 2 ^ k)
      (fun v w => ∃ z : ZMod p, z.val < 2 ^ k ∧
        w v.v0 + q.tpm * w v.v1 = x.felt w + y.fieldElem - q.fieldElem * z) := by
  obtain ⟨k0, k1, k2⟩ := hr k hk
  unfold modAddConstant
  refine Spec.of_eq (rangeBitLen_eq hk) ?_
  refine Spec.of_eq (checkVars_eq (by
    intro v hv
    simp only [List.mem_cons, List.not_mem_nil, or_false] at hv
    rcases hv with rfl | rfl
    · exact hx.1
    · exact hx.2)) ?_
  rw [if_neg (by rw [mx.1, my.1]; simp), if_neg (by rw [mx.2, my.2]; simp), if_neg (by omega),
    if_neg (by simp [hq.dvd])]
  refine Spec.bind (toVar_spec hc x) (fun _ _ _ => hx) hc ?_
  rintro xv c1 e1 ⟨h1, h2⟩
  apply Spec.witness_bind (fun _ => h1)
  intro _
  rw [h2]
  refine Spec.liftE_bind (divRem_eq hq.pos) ?_
  simp only [val_div, rangeBound_eq k1 k2]
  refine Spec.guard (fun g => by omega) ?_
  intro hz
  refine Spec.bind (modAddConstWith_spec e1.wf (hr.ext e1) xv h1 _ _ k _ _) ?_ e1.wf ?_
  · rintro ⟨g, _⟩ _ _
    refine ⟨by rw [e1.ultra, hk], by rw [val_div]; exact g, ?_⟩
    rw [h2, sub_mul_div]
  rintro rv c2 e2 ⟨h3, h4⟩
  refine Spec.conseq e2.wf (addFinish_spec e2.wf hq x.m mx.1 _ rv h3 h4) (fun _ _ _ => trivial) ?_ ?_
  · rintro v c' _ ⟨g1, g2, g3, g4⟩
    exact ⟨g1, g2, g3, g4, by omega⟩
  · rintro v w _ _ h ⟨z, g1, g2⟩ g3
    exact ⟨z, g1, by rw [h, g2, g3]⟩

/-! ## Negation -/

theorem modNegate_spec [Fact p.Prime] {c : Circ p} (hc : WF c) {k : ℕ}
    (hk : c.ultra = some k) (k0 : 0 < k) (x : FpElemVar p) (hx : x.In c) (q : ZMod p)
    (hd : x.m % k = 0) (hm : x.m ≤ modulusBits p / 2) (ht : x.tpm.val ≠ 0) :
    Spec (modNegate x q) c ((c.val x.v0).val + x.tpm.val * (c.val x.v1).val < q.val)
      (fun v c' => v.In c' ∧ v.m = x.m ∧ v.tpm = x.tpm ∧
        (c.val x.v0).val + x.tpm.val * (c.val x.v1).val < q.val ∧
        c'.val v.v0 = (((q.val - ((c.val x.v0).val + x.tpm.val * (c.val x.v1).val)) % x.tpm.val : ℕ) : ZMod p) ∧
        c'.val v.v1 = (((q.val - ((c.val x.v0).val + x.tpm.val * (c.val x.v1).val)) / x.tpm.val : ℕ) : ZMod p))
      (fun v w => w v.v0 + x.tpm * w v.v1 = q - x.felt w) := by
  unfold modNegate
  refine Spec.of_eq (rangeBitLen_eq hk) ?_
  rw [if_neg (by omega), if_neg (by simp [hd])]
  apply Spec.witness_bind (fun _ => hx.1)
  intro _
  apply Spec.witness_bind (fun _ => hx.2)
  intro _
  simp only
  refine Spec.guard (fun g => by omega) ?_
  intro hlt
  refine Spec.bind (toVar_spec hc x) (fun _ _ _ => hx) hc ?_
  rintro xv c1 e1 ⟨h1, h2⟩
  refine Spec.create_bind e1.wf ?_
  intro nv c2 e2 h3 h4
  have hcast : (((q.val - ((c.val x.v0).val + x.tpm.val * (c.val x.v1).val) : ℕ)) : ZMod p)
      = q - x.felt c.val := by
    rw [Nat.cast_sub (by omega)]
    push_cast
    simp only [ZMod.natCast_val, ZMod.cast_id', id_eq]
    rfl
  refine Spec.bind (lcGate_spec e2.wf _ _ _ _ _ _ _ _ _) ?_ e2.wf ?_
  · rintro - h0 h1'
    refine ⟨five_mem (e2.lt h1) h3 e2.wf.o e2.wf.z e2.wf.z, ?_⟩
    rw [e2.val _ h1, h2, h4, h0, h1', hcast]; ring
  intro _ c3 e3 _
  have hv : (c3.val nv).val = q.val - ((c.val x.v0).val + x.tpm.val * (c.val x.v1).val) := by
    rw [e3.val _ h3, h4]
    apply ZMod.val_natCast_of_lt
    have := ZMod.val_lt q
    omega
  have hnew : FpElem.new (c3.val nv) x.m (some x.tpm) =
      .ok ⟨(((c3.val nv).val % x.tpm.val : ℕ) : ZMod p), (((c3.val nv).val / x.tpm.val : ℕ) : ZMod p), x.m, x.tpm⟩ := by
    unfold FpElem.new
    rw [if_neg (by omega)]
    simp only [Option.getD_some]
    rw [divRem_eq ht]
    rfl
  refine Spec.conseq e3.wf (newUnchecked_spec e3.wf nv x.m (some x.tpm))
    (fun _ _ _ => ⟨e3.lt h3, _, hnew⟩) ?_ ?_
  · rintro v c' _ ⟨g1, g2, g3, e, he, g4, g5⟩
    rw [hnew] at he
    cases he
    refine ⟨g1, g2, g3, by omega, ?_, ?_⟩
    · rw [g4, hv]
    · rw [g5, hv]
  · rintro v w h0 h1 g g1 g2
    rw [h0, h1, g2] at g1
    rw [Option.getD_some] at g
    rw [g]
    linear_combination -g1

/-! ## The gates do not depend on the hints -/

theorem splitWith_rel (var m : ℕ) (tpm a b a' b' : ZMod p) :
    Rel (splitWith var m tpm a b) (splitWith var m tpm a' b') := by
  unfold splitWith
  refine Rel.bind (Rel.createVariable _ _) (fun v => Rel.bind (Rel.createVariable _ _) (fun v' =>
    Rel.bind (lcGate_rel _ _ _ _ _ _ _ _ _) (fun _ => Rel.pure _)))

theorem newUnchecked_rel' (var m : ℕ) (tpm a b : ZMod p) :
    Rel (newUnchecked var m (some tpm)) (splitWith var m tpm a b) := by
  unfold newUnchecked
  refine Rel.witness_bindL (fun x => Rel.liftE_bindL ?_)
  intro e he
  rw [(FpElem.new_eq he).2.1]
  exact splitWith_rel _ _ _ _ _ _ _

theorem newUnchecked_rel (var m : ℕ) (tpm : ZMod p) :
    Rel (newUnchecked var m (some tpm)) (newUnchecked var m (some tpm)) := by
  conv => enter [2]; unfold newUnchecked
  refine Rel.swap (Rel.witness_bindL (fun x => Rel.liftE_bindL ?_))
  intro e he
  rw [(FpElem.new_eq he).2.1]
  exact (newUnchecked_rel' _ _ _ _ _).swap

theorem toVar_rel (x : FpElemVar p) : Rel x.toVar x.toVar := lc_rel _ _ _ _ _ _ _ _

theorem toVars_rel (xs : List (FpElemVar p)) : Rel (toVars xs) (toVars xs) := by
  induction xs with
  | nil => exact Rel.pure _
  | cons x xs ih => exact Rel.bind (toVar_rel x) (fun v => Rel.bind ih (fun vs => Rel.pure _))

theorem modAddLoop_rel (padded : List ℕ) (L n : ℕ) : ∀ i acc,
    Rel (modAddLoop padded L n i acc : Build p ℕ) (modAddLoop padded L n i acc) := by
  induction n with
  | zero => intro i acc; exact Rel.pure _
  | succ n ih => intro i acc; exact Rel.bind (lc_rel _ _ _ _ _ _ _ _) (fun v => ih _ _)

theorem modAddWith_rel (vs : List ℕ) (q : ZMod p) (k lp : ℕ) (z y z' y' : ZMod p) :
    Rel (modAddWith vs q k lp z y) (modAddWith vs q k lp z' y') := by
  unfold modAddWith
  refine Rel.bind (Rel.createVariable _ _) (fun zv => Rel.bind (rangeGateWithLookup_rel _ _) (fun _ =>
    Rel.bind (Rel.createVariable _ _) (fun yv => Rel.bind (rangeGateWithLookup_rel _ _) (fun _ =>
    Rel.bind (Rel.liftE _) (fun n => Rel.bind (modAddLoop_rel _ _ _ _ _) (fun acc =>
    Rel.bind (lcGate_rel _ _ _ _ _ _ _ _ _) (fun _ => Rel.pure _)))))))

/-- `mod_add_internal` with other hints -/
def modAddAdv (vs : List ℕ) (q : ZMod p) (lp : ℕ) (z y : ZMod p) : Build p ℕ := do
  let k ← rangeBitLen
  modAddWith vs q k lp z y

theorem modAddInternal_rel' (vs : List ℕ) (q : ZMod p) (lp : ℕ) (z y : ZMod p) :
    Rel (modAddInternal vs q lp) (modAddAdv vs q lp z y) := by
  unfold modAddInternal modAddAdv
  refine Rel.bind Rel.rangeBitLen (fun k => Rel.witnesses_bindL (fun xs _ => Rel.liftE_bindL (fun zy _ => Rel.guardL ?_)))
  exact modAddWith_rel _ _ _ _ _ _ _ _

theorem modAddAdv_rel (vs : List ℕ) (q : ZMod p) (lp : ℕ) (z y z' y' : ZMod p) :
    Rel (modAddAdv vs q lp z y) (modAddAdv vs q lp z' y') :=
  Rel.bind Rel.rangeBitLen (fun _ => modAddWith_rel _ _ _ _ _ _ _ _)

theorem modAddInternal_rel (vs : List ℕ) (q : ZMod p) (lp : ℕ) :
    Rel (modAddInternal vs q lp) (modAddInternal vs q lp) := by
  unfold modAddInternal
  refine Rel.bind Rel.rangeBitLen (fun k => Rel.witnesses_bind (fun xs ys => ?_))
  refine Rel.liftE_bindL (fun zy _ => Rel.swap (Rel.liftE_bindL (fun zy' _ => Rel.guard ?_)))
  exact modAddWith_rel _ _ _ _ _ _ _ _

theorem Rel.guardR {P : Prop} [Decidable P] {e : CErr} {m m' : Build p α} (h : Rel m m') :
    Rel m (if P then Build.fail e else m') := (Rel.guardL h.swap).swap

/-- `mod_add_vec` with other hints -/
def modAddVecAdv (xs : List (FpElemVar p)) (q : FpElem p) (z y r0 r1 : ZMod p) : Build p (FpElemVar p) := do
  let k ← rangeBitLen
  let vs ← toVars xs
  let res ← modAddAdv vs q.fieldElem (numRangeBlocks p k) z y
  splitWith res q.m q.tpm r0 r1

theorem modAddVec_rel' (xs : List (FpElemVar p)) (q : FpElem p) (z y r0 r1 : ZMod p) :
    Rel (modAddVec xs q) (modAddVecAdv xs q z y r0 r1) := by
  unfold modAddVec modAddVecAdv
  refine Rel.bind Rel.rangeBitLen (fun k => Rel.guardL (Rel.guardL (Rel.guardL ?_)))
  exact Rel.bind (toVars_rel _) (fun vs => Rel.bind (modAddInternal_rel' _ _ _ _ _) (fun res =>
    newUnchecked_rel' _ _ _ _ _))

theorem modAddVec_rel (xs : List (FpElemVar p)) (q : FpElem p) : Rel (modAddVec xs q) (modAddVec xs q) := by
  unfold modAddVec
  refine Rel.bind Rel.rangeBitLen (fun k => Rel.guard (Rel.guard (Rel.guard ?_)))
  exact Rel.bind (toVars_rel _) (fun vs => Rel.bind (modAddInternal_rel _ _ _) (fun res => newUnchecked_rel _ _ _))

/-- `mod_add` with other hints -/
def modAdd2Adv (x y : FpElemVar p) (q : FpElem p) (z s r0 r1 : ZMod p) : Build p (FpElemVar p) := do
  let k ← rangeBitLen
  let xv ← x.toVar
  let yv ← y.toVar
  let res ← modAddAdv [xv, yv] q.fieldElem (numRangeBlocks p k) z s
  splitWith res x.m q.tpm r0 r1

theorem modAdd_rel' (x y : FpElemVar p) (q : FpElem p) (z s r0 r1 : ZMod p) :
    Rel (modAdd x y q) (modAdd2Adv x y q z s r0 r1) := by
  unfold modAdd modAdd2Adv
  refine Rel.bind Rel.rangeBitLen (fun k => Rel.checkVars_bindL
    (Rel.guardL (Rel.guardL (Rel.guardL (Rel.guardL ?_)))))
  exact Rel.bind (toVar_rel _) (fun xv => Rel.bind (toVar_rel _) (fun yv =>
    Rel.bind (modAddInternal_rel' _ _ _ _ _) (fun res => newUnchecked_rel' _ _ _ _ _)))

theorem modAdd_rel (x y : FpElemVar p) (q : FpElem p) : Rel (modAdd x y q) (modAdd x y q) := by
  unfold modAdd
  refine Rel.bind Rel.rangeBitLen (fun k => Rel.bind (Rel.checkVars _) (fun _ =>
    (Rel.guard (Rel.guard (Rel.guard (Rel.guard ?_))))))
  exact Rel.bind (toVar_rel _) (fun xv => Rel.bind (toVar_rel _) (fun yv =>
    Rel.bind (modAddInternal_rel _ _ _) (fun res => newUnchecked_rel _ _ _)))

theorem modAddConstWith_rel (xv : ℕ) (yf q : ZMod p) (k : ℕ) (d r d' r' : ZMod p) :
    Rel (modAddConstWith xv yf q k d r) (modAddConstWith xv yf q k d' r') := by
  unfold modAddConstWith
  exact Rel.bind (Rel.createVariable _ _) (fun zv => Rel.bind (rangeGateWithLookup_rel _ _) (fun _ =>
    Rel.bind (Rel.createVariable _ _) (fun yv => Rel.bind (rangeGateWithLookup_rel _ _) (fun _ =>
    Rel.bind (quadPolyGateB_rel _ _ _ _ _ _ _ _ _ _ _ _ _) (fun _ => Rel.pure _)))))

/-- `mod_add_constant` with other hints -/
def modAddConstAdv (x : FpElemVar p) (y q : FpElem p) (d r r0 r1 : ZMod p) : Build p (FpElemVar p) := do
  let k ← rangeBitLen
  let xv ← x.toVar
  let rv ← modAddConstWith xv y.fieldElem q.fieldElem k d r
  splitWith rv x.m q.tpm r0 r1

theorem modAddConstant_rel' (x : FpElemVar p) (y q : FpElem p) (d r r0 r1 : ZMod p) :
    Rel (modAddConstant x y q) (modAddConstAdv x y q d r r0 r1) := by
  unfold modAddConstant modAddConstAdv
  refine Rel.bind Rel.rangeBitLen (fun k => Rel.checkVars_bindL
    (Rel.guardL (Rel.guardL (Rel.guardL (Rel.guardL ?_)))))
  refine Rel.bind (toVar_rel _) (fun xv => Rel.witness_bindL (fun w => Rel.liftE_bindL (fun dr _ => Rel.guardL ?_)))
  exact Rel.bind (modAddConstWith_rel _ _ _ _ _ _ _ _) (fun rv => newUnchecked_rel' _ _ _ _ _)

theorem modAddConstant_rel (x : FpElemVar p) (y q : FpElem p) :
    Rel (modAddConstant x y q) (modAddConstant x y q) := by
  unfold modAddConstant
  refine Rel.bind Rel.rangeBitLen (fun k => Rel.bind (Rel.checkVars _) (fun _ =>
    (Rel.guard (Rel.guard (Rel.guard (Rel.guard ?_))))))
  refine Rel.bind (toVar_rel _) (fun xv => Rel.witness_bind (fun w w' => ?_))
  refine Rel.liftE_bindL (fun dr _ => Rel.swap (Rel.liftE_bindL (fun dr' _ => Rel.guard ?_)))
  exact Rel.bind (modAddConstWith_rel _ _ _ _ _ _ _ _) (fun rv => newUnchecked_rel _ _ _)

/-- `mod_negate` with other hints -/
def modNegAdv (x : FpElemVar p) (q n r0 r1 : ZMod p) : Build p (FpElemVar p) := do
  let xv ← x.toVar
  let nv ← createVariable n
  lcGate xv nv 1 0 0 1 1 (-q) 0
  splitWith nv x.m x.tpm r0 r1

theorem Rel.rangeBitLen_bindL {f : ℕ → Build p β} {m : Build p β} (hf : ∀ k, Rel (f k) m) :
    Rel (Verif.Circuit.rangeBitLen >>= f) m := by
  intro c d hs v1 c' v2 d' h1 h2
  obtain ⟨u, c1, a1, a2⟩ := bind_ok h1
  unfold Verif.Circuit.rangeBitLen at a1
  split at a1
  · cases a1
  · cases a1; exact hf _ c d hs _ _ _ _ a2 h2

theorem modNegate_rel' (x : FpElemVar p) (q n r0 r1 : ZMod p) :
    Rel (modNegate x q) (modNegAdv x q n r0 r1) := by
  unfold modNegate modNegAdv
  refine Rel.rangeBitLen_bindL (fun k => Rel.guardL (Rel.guardL (Rel.witness_bindL (fun _ =>
    Rel.witness_bindL (fun _ => Rel.guardL ?_)))))
  exact Rel.bind (toVar_rel _) (fun xv => Rel.bind (Rel.createVariable _ _) (fun nv =>
    Rel.bind (lcGate_rel _ _ _ _ _ _ _ _ _) (fun _ => newUnchecked_rel' _ _ _ _ _)))

theorem modNegate_rel (x : FpElemVar p) (q : ZMod p) : Rel (modNegate x q) (modNegate x q) := by
  unfold modNegate
  refine Rel.bind Rel.rangeBitLen (fun k => Rel.guard (Rel.guard (Rel.witness_bind (fun _ _ =>
    Rel.witness_bind (fun _ _ => Rel.guard ?_)))))
  exact Rel.bind (toVar_rel _) (fun xv => Rel.bind (Rel.createVariable _ _) (fun nv =>
    Rel.bind (lcGate_rel _ _ _ _ _ _ _ _ _) (fun _ => newUnchecked_rel _ _ _)))

theorem mulVars_rel (m k : ℕ) (h h' : MulHints p) : Rel (mulVars m k h) (mulVars m k h') := by
  unfold mulVars
  exact Rel.bind (Rel.createVariable _ _) (fun _ => Rel.bind (Rel.createVariable _ _) (fun _ =>
    Rel.bind (Rel.createVariable _ _) (fun _ => Rel.bind (Rel.createVariable _ _) (fun _ =>
    Rel.bind (Rel.createVariable _ _) (fun _ => Rel.bind (Rel.createVariable _ _) (fun _ =>
    Rel.bind (rangeGateWithLookup_rel _ _) (fun _ => Rel.bind (rangeGateWithLookup_rel _ _) (fun _ =>
    Rel.bind (rangeGateWithLookup_rel _ _) (fun _ => Rel.bind (rangeGateWithLookup_rel _ _) (fun _ =>
    Rel.bind (rangeGateWithLookup_rel _ _) (fun _ => Rel.bind (rangeGateWithLookup_rel _ _) (fun _ =>
    Rel.pure _))))))))))))

theorem modMulWith_rel (x y : FpElemVar p) (q : FpElem p) (k : ℕ) (h h' : MulHints p) :
    Rel (modMulWith x y q k h) (modMulWith x y q k h') := by
  unfold modMulWith
  refine Rel.bind (mulVars_rel _ _ _ _) ?_
  rintro ⟨w0, w1, z0, z1, c0, c1⟩
  exact Rel.bind (quadPolyGateB_rel _ _ _ _ _ _ _ _ _ _ _ _ _) (fun _ => Rel.bind (mulAdd_rel _ _ _ _ _ _) (fun _ =>
    Rel.bind (lc_rel _ _ _ _ _ _ _ _) (fun _ => Rel.bind (quadPolyGateB_rel _ _ _ _ _ _ _ _ _ _ _ _ _) (fun _ =>
    Rel.bind (quadPolyGateB_rel _ _ _ _ _ _ _ _ _ _ _ _ _) (fun _ => Rel.pure _)))))

theorem modMulConstWith_rel (x : FpElemVar p) (y q : FpElem p) (k : ℕ) (h h' : MulHints p) :
    Rel (modMulConstWith x y q k h) (modMulConstWith x y q k h') := by
  unfold modMulConstWith
  refine Rel.bind (mulVars_rel _ _ _ _) ?_
  rintro ⟨w0, w1, z0, z1, c0, c1⟩
  exact Rel.bind (quadPolyGateB_rel _ _ _ _ _ _ _ _ _ _ _ _ _) (fun _ =>
    Rel.bind (lc_rel _ _ _ _ _ _ _ _) (fun _ => Rel.bind (quadPolyGateB_rel _ _ _ _ _ _ _ _ _ _ _ _ _) (fun _ =>
    Rel.bind (quadPolyGateB_rel _ _ _ _ _ _ _ _ _ _ _ _ _) (fun _ => Rel.pure _))))

/-- `mod_mul` with other hints -/
def modMulAdv (x y : FpElemVar p) (q : FpElem p) (h : MulHints p) : Build p (FpElemVar p) := do
  let k ← rangeBitLen
  modMulWith x y q k h

/-- `mod_mul_constant` with other hints -/
def modMulConstAdv (x : FpElemVar p) (y q : FpElem p) (h : MulHints p) : Build p (FpElemVar p) := do
  let k ← rangeBitLen
  modMulConstWith x y q k h

theorem modMul_rel' (x y : FpElemVar p) (q : FpElem p) (h : MulHints p) :
    Rel (modMul x y q) (modMulAdv x y q h) := by
  unfold modMul modMulAdv
  refine Rel.bind Rel.rangeBitLen (fun k => Rel.guardL (Rel.guardL (Rel.guardL (Rel.guardL ?_))))
  exact Rel.witness_bindL (fun _ => Rel.witness_bindL (fun _ => Rel.witness_bindL (fun _ => Rel.witness_bindL (fun _ =>
    Rel.liftE_bindL (fun _ _ => modMulWith_rel _ _ _ _ _ _)))))

theorem modMul_rel (x y : FpElemVar p) (q : FpElem p) : Rel (modMul x y q) (modMul x y q) := by
  unfold modMul
  refine Rel.bind Rel.rangeBitLen (fun k => Rel.guard (Rel.guard (Rel.guard (Rel.guard ?_))))
  exact Rel.witness_bind (fun _ _ => Rel.witness_bind (fun _ _ => Rel.witness_bind (fun _ _ =>
    Rel.witness_bind (fun _ _ => Rel.liftE_bindL (fun _ _ => Rel.swap (Rel.liftE_bindL (fun _ _ =>
      modMulWith_rel _ _ _ _ _ _)))))))

theorem modMulConstant_rel' (x : FpElemVar p) (y q : FpElem p) (h : MulHints p) :
    Rel (modMulConstant x y q) (modMulConstAdv x y q h) := by
  unfold modMulConstant modMulConstAdv
  refine Rel.bind Rel.rangeBitLen (fun k => Rel.guardL (Rel.guardL (Rel.guardL (Rel.guardL ?_))))
  exact Rel.witness_bindL (fun _ => Rel.witness_bindL (fun _ =>
    Rel.liftE_bindL (fun _ _ => modMulConstWith_rel _ _ _ _ _ _)))

theorem modMulConstant_rel (x : FpElemVar p) (y q : FpElem p) :
    Rel (modMulConstant x y q) (modMulConstant x y q) := by
  unfold modMulConstant
  refine Rel.bind Rel.rangeBitLen (fun k => Rel.guard (Rel.guard (Rel.guard (Rel.guard ?_))))
  exact Rel.witness_bind (fun _ _ => Rel.witness_bind (fun _ _ => Rel.liftE_bindL (fun _ _ => Rel.swap
    (Rel.liftE_bindL (fun _ _ => modMulConstWith_rel _ _ _ _ _ _)))))

end Verif.Circuit
