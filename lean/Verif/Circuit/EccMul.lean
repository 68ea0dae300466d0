import Verif.Circuit.EccSpec
import Mathlib.Tactic.Abel
import Mathlib.Tactic.NormNum

/-!
# Specifications of the scalar multiplication gadgets
-/

set_option linter.unusedSectionVars false

namespace Verif.Circuit

variable {p : ℕ} [Fact p.Prime]

/-- the group belongs to the curve -/
def OnTE (K : TE p) (E : EdGroup (ZMod p)) : Prop := E.a = K.a ∧ E.d = K.d

theorem eccAdd_group {c : Circ p} (hc : WF c) {K : TE p} {E : EdGroup (ZMod p)} (hE : OnTE K E) (A B : ℕ × ℕ) :
    Spec (eccAdd K A B) c ((PIn c A ∧ PIn c B) ∧ ∃ P Q : E.Pt, ptAt c.val A = P.1 ∧ ptAt c.val B = Q.1)
      (fun v c' => PIn c' v)
      (fun v w => ∀ P Q : E.Pt, ptAt w A = P.1 → ptAt w B = Q.1 → ptAt w v = (P + Q).1) := by
  refine Spec.conseq hc (eccAdd_spec hc K A B) ?_ (fun _ _ _ h => h) ?_
  · rintro ⟨h, P, Q, hP, hQ⟩ - -
    refine ⟨h, ?_⟩
    rw [hP, hQ, ← hE.2]
    exact E.defd P.2 Q.2
  · intro v w _ _ h P Q hP hQ
    rw [hP, hQ] at h
    have hd : EdDef K.d P.1 Q.1 := by rw [← hE.2]; exact E.defd P.2 Q.2
    rw [(addEqs_iff hd).1 h, E.add_val, hE.1, hE.2]

/-! ## Variable base, double and add -/

/-- double and add, most significant bit first -/
def binFold {G : Type} [AddCommGroup G] (P : G) : List Bool → G → G
  | [], q => q
  | b :: bs, q => binFold P bs (q + q + if b then P else 0)

theorem binFold_eq {G : Type} [AddCommGroup G] (P : G) (bs : List Bool) (q : G) :
    binFold P bs q = 2 ^ bs.length • q + ofBits bs.reverse • P := by
  induction bs generalizing q with
  | nil => simp [binFold, ofBits]
  | cons b bs ih =>
    rw [binFold, ih, List.reverse_cons, ofBits_append, List.length_reverse, List.length_cons]
    have : (if b then P else 0) = b.toNat • P := by cases b <;> simp
    rw [this]
    simp only [ofBits, mul_zero, add_zero, pow_succ, mul_smul, add_smul, smul_add]
    simp only [two_nsmul, nsmul_add]
    abel

theorem binMulLoop_spec {K : TE p} {E : EdGroup (ZMod p)} (hE : OnTE K E) (base : ℕ × ℕ) (bits : List ℕ) :
    ∀ (acc : ℕ × ℕ) {c : Circ p} (_ : WF c),
    Spec (binMulLoop K base bits acc) c
      (((∀ v ∈ bits, v < c.numVars) ∧ PIn c base ∧ PIn c acc) ∧ ∃ (P Q : E.Pt) (bs : List Bool),
        ptAt c.val base = P.1 ∧ ptAt c.val acc = Q.1 ∧ bits.map c.val = bs.map boolF)
      (fun v c' => PIn c acc → PIn c' v)
      (fun v w => ∀ (P Q : E.Pt) (bs : List Bool), ptAt w base = P.1 → ptAt w acc = Q.1 →
        bits.map w = bs.map boolF → ptAt w v = (binFold P bs Q).1) := by
  induction bits with
  | nil =>
    intro acc c hc
    refine Spec.pure hc (fun h => h) ?_
    intro w _ _ P Q bs _ hQ hb
    have : bs = [] := by simpa using hb.symm
    subst this
    exact hQ
  | cons b bits ih =>
    intro acc c hc
    rw [binMulLoop]
    refine Spec.bind (binaryPointVarsSelect_spec hc b neutralPoint base) ?_ hc ?_
    · rintro ⟨⟨h1, h2, h3⟩, P, Q, bs, hP, hQ, hb⟩ - -
      refine ⟨⟨h1 b (by simp), PIn.neutral hc, h2⟩, ?_⟩
      cases bs with
      | nil => simp at hb
      | cons x bs => exact ⟨x, (List.cons.inj hb).1⟩
    rintro z c1 e1 hz
    refine Spec.bind (eccAdd_group e1.wf hE acc acc) ?_ e1.wf ?_
    · rintro ⟨⟨⟨h1, h2, h3⟩, P, Q, bs, hP, hQ, hb⟩, _⟩ - -
      exact ⟨⟨h3.ext e1, h3.ext e1⟩, Q, Q, by rw [ptAt_ext e1 h3, hQ], by rw [ptAt_ext e1 h3, hQ]⟩
    rintro a1 c2 e2 ha1
    refine Spec.bind (eccAdd_group e2.wf hE a1 z) ?_ e2.wf ?_
    · rintro ⟨⟨⟨⟨h1, h2, h3⟩, P, Q, bs, hP, hQ, hb⟩, g1⟩, g2⟩ z0 z1
      refine ⟨⟨ha1, hz.ext e2⟩, ?_⟩
      have z0' : c1.val 0 = 0 := by rw [← e2.val 0 e1.wf.z]; exact z0
      have z1' : c1.val 1 = 1 := by rw [← e2.val 1 e1.wf.o]; exact z1
      cases bs with
      | nil => simp at hb
      | cons x bs =>
        have hb' := (List.cons.inj hb).1
        have e := g1 x (by rw [e1.val b (h1 b (by simp))]; exact hb')
        have hacc := ptAt_ext (e1.trans e2) h3
        refine ⟨Q + Q, if x then P else 0, g2 Q Q (hacc.trans hQ) (hacc.trans hQ), ?_⟩
        rw [ptAt_ext e2 hz, e, ptAt_ext e1 h2, hP, ptAt_neutral z0' z1']
        cases x <;> rfl
    rintro a2 c3 e3 ha2
    have e := (e1.trans e2).trans e3
    refine Spec.conseq e3.wf (ih a2 e3.wf) ?_ ?_ ?_
    · rintro ⟨⟨⟨⟨⟨h1, h2, h3⟩, P, Q, bs, hP, hQ, hb⟩, g1⟩, g2⟩, g3⟩ z0 z1
      refine ⟨⟨fun v hv => e.lt (h1 v (by simp [hv])), h2.ext e, ha2⟩, ?_⟩
      have z0' : c1.val 0 = 0 := by rw [← e2.val 0 e1.wf.z, ← e3.val 0 e2.wf.z]; exact z0
      have z1' : c1.val 1 = 1 := by rw [← e2.val 1 e1.wf.o, ← e3.val 1 e2.wf.o]; exact z1
      cases bs with
      | nil => simp at hb
      | cons x bs =>
        have hb' := (List.cons.inj hb).1
        have e4 := g1 x (by rw [e1.val b (h1 b (by simp))]; exact hb')
        have hacc := ptAt_ext (e1.trans e2) h3
        have ga := g2 Q Q (hacc.trans hQ) (hacc.trans hQ)
        have gz : ptAt c3.val z = (if x then P else (0 : E.Pt)).1 := by
          rw [ptAt_ext (e2.trans e3) hz, e4, ptAt_ext e1 h2, hP, ptAt_neutral z0' z1']
          cases x <;> rfl
        refine ⟨P, _, bs, by rw [ptAt_ext e h2, hP], g3 (Q + Q) _ (by rw [ptAt_ext e3 ha1]; exact ga) gz, ?_⟩
        rw [← (List.cons.inj hb).2]
        apply List.map_congr_left
        intro v hv
        exact e.val v (h1 v (by simp [hv]))
    · intro v c' _ h _
      exact h ha2
    · intro v w z0 z1 h g3 g2 g1 P Q bs hP hQ hb
      cases bs with
      | nil => simp at hb
      | cons x bs =>
        obtain ⟨hb1, hb2⟩ := List.cons.inj hb
        have gz : ptAt w z = (if x then P else (0 : E.Pt)).1 := by
          rw [g1 x hb1, hP, ptAt_neutral z0 z1]
          cases x <;> rfl
        exact h P _ bs hP (g3 (Q + Q) _ (g2 Q Q hQ hQ) gz) hb2

theorem binMulLoop_rel (K : TE p) (base : ℕ × ℕ) (bits : List ℕ) : ∀ acc,
    Rel (binMulLoop K base bits acc) (binMulLoop K base bits acc) := by
  induction bits with
  | nil => intro acc; exact Rel.pure _
  | cons b bits ih =>
    intro acc
    exact Rel.bind (binaryPointVarsSelect_rel _ _ _) fun _ => Rel.bind (eccAdd_rel _ _ _) fun _ =>
      Rel.bind (eccAdd_rel _ _ _) fun _ => ih _

theorem variableBaseBinaryScalarMul_spec {c : Circ p} (hc : WF c) {K : TE p} {E : EdGroup (ZMod p)} (hE : OnTE K E)
    (bits : List ℕ) (base : ℕ × ℕ) :
    Spec (variableBaseBinaryScalarMul K bits base) c
      (((∀ v ∈ bits, v < c.numVars) ∧ PIn c base) ∧ (∃ P : E.Pt, ptAt c.val base = P.1) ∧
        ∃ bs : List Bool, bits.map c.val = bs.map boolF)
      (fun v c' => PIn c' v)
      (fun v w => ∀ (P : E.Pt) (bs : List Bool), ptAt w base = P.1 → bits.map w = bs.map boolF →
        ptAt w v = (ofBits bs • P).1) := by
  unfold variableBaseBinaryScalarMul
  apply Spec.checkVars_bind (fun h => h.1.1); intro h1
  apply Spec.checkPoint_bind (fun h => h.1.2); intro h2
  refine Spec.conseq hc (binMulLoop_spec hE base bits.reverse neutralPoint hc) ?_
    (fun _ _ _ h => h (PIn.neutral hc)) ?_
  · rintro ⟨_, ⟨P, hP⟩, bs, hb⟩ z0 z1
    refine ⟨⟨fun v hv => h1 v (by simpa using hv), h2, PIn.neutral hc⟩, P, 0, bs.reverse, hP, ptAt_neutral z0 z1, ?_⟩
    rw [List.map_reverse, hb, List.map_reverse]
  · intro v w z0 z1 h P bs hP hb
    rw [h P 0 bs.reverse hP (ptAt_neutral z0 z1) (by rw [List.map_reverse, hb, List.map_reverse]), binFold_eq]
    simp

theorem variableBaseBinaryScalarMul_rel (K : TE p) (bits : List ℕ) (base : ℕ × ℕ) :
    Rel (variableBaseBinaryScalarMul K bits base) (variableBaseBinaryScalarMul K bits base) := by
  unfold variableBaseBinaryScalarMul
  exact Rel.bind (Rel.checkVars _) fun _ => Rel.bind (checkPoint_rel _) fun _ => binMulLoop_rel _ _ _ _

/-! ## Fixed base -/

theorem nextBase_val {K : TE p} {E : EdGroup (ZMod p)} (hE : OnTE K E) (P : E.Pt) :
    nextBase K P.1 = (4 • P).1 := by
  have h4 : 4 • P = P + P + (P + P) := by abel
  unfold nextBase
  rw [h4, E.add_val, E.add_val, hE.1, hE.2]

theorem fillBases_eq {K : TE p} {E : EdGroup (ZMod p)} (hE : OnTE K E) (P : E.Pt) (n m : ℕ) :
    fillBases K n ((List.range (m + 1)).map fun i => (4 ^ i • P).1) =
      (List.range (m + 1 + n)).map fun i => (4 ^ i • P).1 := by
  induction n generalizing m with
  | zero => rfl
  | succ n ih =>
    have hl : ((List.range (m + 1)).map fun i => (4 ^ i • P).1).getLast? = some (4 ^ m • P).1 := by
      simp [List.range_succ]
    rw [fillBases, hl]
    simp only
    have : ((List.range (m + 1)).map fun i => (4 ^ i • P).1) ++ [nextBase K (4 ^ m • P).1] =
        (List.range (m + 1 + 1)).map fun i => (4 ^ i • P).1 := by
      rw [List.range_succ (n := m + 1), List.map_append, nextBase_val hE, ← mul_smul, ← pow_succ']
      rfl
    rw [this, ih, show m + 1 + 1 + n = m + 1 + (n + 1) by omega]

theorem computeBasePoints_eq {K : TE p} {E : EdGroup (ZMod p)} (hE : OnTE K E) (P : E.Pt) {len : ℕ} (hl : 0 < len) :
    computeBasePoints K P.1 len = .ok ((List.range len).map (fun i => (4 ^ i • P).1),
      (List.range len).map (fun i => (4 ^ i • (2 • P)).1), (List.range len).map (fun i => (4 ^ i • (3 • P)).1)) := by
  have h2 : edAdd K.a K.d P.1 P.1 = (2 • P).1 := by
    rw [two_nsmul, E.add_val, hE.1, hE.2]
  have h3 : edAdd K.a K.d (2 • P).1 P.1 = (3 • P).1 := by
    rw [show 3 • P = 2 • P + P by abel, E.add_val, hE.1, hE.2]
  have f : ∀ Q : E.Pt, fillBases K (len - 1) [Q.1] = (List.range len).map fun i => (4 ^ i • Q).1 := by
    intro Q
    have := fillBases_eq hE Q (len - 1) 0
    simp only [zero_add, List.range_one, List.map_cons, List.map_nil, pow_zero, one_smul] at this
    rw [this, show 1 + (len - 1) = len by omega]
  unfold computeBasePoints
  rw [if_neg (by omega)]
  simp only
  rw [h2, h3, f, f, f]

theorem digit4 (s i : ℕ) : s / 4 ^ i % 4 = (s.testBit (2 * i)).toNat + 2 * (s.testBit (2 * i + 1)).toNat := by
  have h1 : (4 : ℕ) ^ i = 2 ^ (2 * i) := by rw [pow_mul]; norm_num
  rw [Nat.testBit_eq_decide_div_mod_eq, Nat.testBit_eq_decide_div_mod_eq, h1, pow_succ, ← Nat.div_div_eq_div_mul]
  generalize s / 2 ^ (2 * i) = x
  have a := Nat.mod_two_eq_zero_or_one x
  have b := Nat.mod_two_eq_zero_or_one (x / 2)
  rcases a with a | a <;> rcases b with b | b <;> simp [a, b] <;> omega

theorem digits_step (s i n : ℕ) :
    s / 4 ^ i % 4 * 4 ^ i + s / 4 ^ (i + 1) % 4 ^ n * 4 ^ (i + 1) = s / 4 ^ i % 4 ^ (n + 1) * 4 ^ i := by
  rw [pow_succ 4 i, ← Nat.div_div_eq_div_mul, pow_succ 4 n, Nat.mul_comm (4 ^ n) 4, Nat.mod_mul]
  ring

theorem quatSel_smul {G : Type} [AddCommGroup G] (P : G) (b0 b1 : Bool) (i : ℕ) :
    quatSel b0 b1 0 (4 ^ i • P) (4 ^ i • (2 • P)) (4 ^ i • (3 • P)) = ((b0.toNat + 2 * b1.toNat) * 4 ^ i) • P := by
  rw [Nat.mul_comm, mul_smul]
  cases b0 <;> cases b1 <;> simp [quatSel]

theorem fixedLoop_spec {K : TE p} {E : EdGroup (ZMod p)} (hE : OnTE K E) (P : E.Pt) (bits : List ℕ) (N : ℕ)
    (hbl : bits.length = 2 * N) (n : ℕ) :
    ∀ (i : ℕ) (acc : ℕ × ℕ) {c : Circ p} (_ : WF c) (_ : i + n = N),
    Spec (fixedLoop K bits ((List.range N).map fun i => (4 ^ i • P).1) ((List.range N).map fun i => (4 ^ i • (2 • P)).1)
        ((List.range N).map fun i => (4 ^ i • (3 • P)).1) n i acc) c
      (((∀ v ∈ bits, v < c.numVars) ∧ PIn c acc) ∧ (∃ Q : E.Pt, ptAt c.val acc = Q.1) ∧
        ∃ s : ℕ, bits.map c.val = (bitsLE (2 * N) s).map boolF)
      (fun v c' => PIn c acc → PIn c' v)
      (fun v w => ∀ (Q : E.Pt) (s : ℕ), ptAt w acc = Q.1 → bits.map w = (bitsLE (2 * N) s).map boolF →
        ptAt w v = (Q + (s / 4 ^ i % 4 ^ n * 4 ^ i) • P).1) := by
  induction n with
  | zero =>
    intro i acc c hc _
    refine Spec.pure hc (fun h => h) ?_
    intro w _ _ Q s hQ _
    simpa [Nat.mod_one] using hQ
  | succ n ih =>
    intro i acc c hc hi
    have g0 : bits[2 * i]? = some (bits[2 * i]'(by omega)) := List.getElem?_eq_getElem _
    have g1 : bits[2 * i + 1]? = some (bits[2 * i + 1]'(by omega)) := List.getElem?_eq_getElem _
    have hiN : i < N := by omega
    have f : ∀ Q : E.Pt, ((List.range N).map fun i => (4 ^ i • Q).1)[i]? = some (4 ^ i • Q).1 := by
      intro Q; simp [hiN]
    have hbit : ∀ (w : ℕ → ZMod p) (s : ℕ), bits.map w = (bitsLE (2 * N) s).map boolF →
        ∀ j (hj : j < bits.length), w bits[j] = boolF (s.testBit j) := by
      intro w s h j hj
      have := congrArg (fun l => l[j]?) h
      simp only [List.getElem?_map, List.getElem?_eq_getElem hj, Option.map_some, bitsLE] at this
      rw [List.getElem?_range (by omega)] at this
      simpa using this
    generalize hb0 : bits[2 * i]'(by omega) = b0 at g0
    generalize hb1 : bits[2 * i + 1]'(by omega) = b1 at g1
    have m0 : b0 ∈ bits := by rw [← hb0]; exact List.getElem_mem _
    have m1 : b1 ∈ bits := by rw [← hb1]; exact List.getElem_mem _
    have t0 : ∀ (w : ℕ → ZMod p) (s : ℕ), bits.map w = (bitsLE (2 * N) s).map boolF → w b0 = boolF (s.testBit (2 * i)) := by
      intro w s h; rw [← hb0]; exact hbit w s h _ _
    have t1 : ∀ (w : ℕ → ZMod p) (s : ℕ), bits.map w = (bitsLE (2 * N) s).map boolF → w b1 = boolF (s.testBit (2 * i + 1)) := by
      intro w s h; rw [← hb1]; exact hbit w s h _ _
    have hsel : ∀ (w : ℕ → ZMod p) (S : ℕ × ℕ) (s : ℕ), bits.map w = (bitsLE (2 * N) s).map boolF →
        (∀ x y : Bool, w b0 = boolF x → w b1 = boolF y →
          ptAt w S = quatSel x y (0, 1) (4 ^ i • P).1 (4 ^ i • (2 • P)).1 (4 ^ i • (3 • P)).1) →
        ptAt w S = ((s / 4 ^ i % 4 * 4 ^ i) • P).1 := by
      intro w S s h hq
      rw [hq _ _ (t0 w s h) (t1 w s h), digit4, ← quatSel_smul]
      unfold quatSel
      cases s.testBit (2 * i) <;> cases s.testBit (2 * i + 1) <;> rfl
    rw [fixedLoop, g0, g1, f P, f (2 • P), f (3 • P)]
    simp only
    refine Spec.bind (quaternaryPointSelect_spec hc b0 b1 _ _ _) ?_ hc ?_
    · rintro ⟨⟨h1, h2⟩, _, s, hs⟩ - -
      exact ⟨⟨h1 b0 m0, h1 b1 m1⟩, _, _, t0 c.val s hs, t1 c.val s hs⟩
    rintro S c1 e1 hS
    have hmap : (∀ v ∈ bits, v < c.numVars) → ∀ {c'}, Ext c c' → bits.map c'.val = bits.map c.val := by
      intro h c' e
      exact List.map_congr_left fun v hv => e.val v (h v hv)
    refine Spec.bind (eccAdd_group e1.wf hE acc S) ?_ e1.wf ?_
    · rintro ⟨⟨⟨h1, h2⟩, ⟨Q, hQ⟩, s, hs⟩, g⟩ - -
      refine ⟨⟨h2.ext e1, hS⟩, Q, _, by rw [ptAt_ext e1 h2, hQ], hsel c1.val S s (by rw [hmap h1 e1, hs]) g⟩
    rintro a1 c2 e2 ha1
    have e := e1.trans e2
    refine Spec.conseq e2.wf (ih (i + 1) a1 e2.wf (by omega)) ?_ (fun _ _ _ h _ => h ha1) ?_
    · rintro ⟨⟨⟨⟨h1, h2⟩, ⟨Q, hQ⟩, s, hs⟩, g⟩, g'⟩ - -
      refine ⟨⟨fun v hv => e.lt (h1 v hv), ha1⟩, ⟨_, g' Q ((s / 4 ^ i % 4 * 4 ^ i) • P) (by rw [ptAt_ext e h2, hQ]) ?_⟩, s,
        by rw [hmap h1 e, hs]⟩
      rw [ptAt_ext e2 hS]; exact hsel c1.val S s (by rw [hmap h1 e1, hs]) g
    · intro v w _ _ h g2 g1 Q s hQ hs
      rw [h _ s (g2 Q _ hQ (hsel w S s hs g1)) hs, add_assoc, ← add_smul, digits_step]

theorem fixedLoop_rel (K : TE p) (bits : List ℕ) (f1 f2 f3 : List (ZMod p × ZMod p)) (n : ℕ) : ∀ i acc,
    Rel (fixedLoop K bits f1 f2 f3 n i acc) (fixedLoop K bits f1 f2 f3 n i acc) := by
  induction n with
  | zero => intro i acc; exact Rel.pure _
  | succ n ih =>
    intro i acc
    rw [fixedLoop]
    split
    · exact Rel.bind (quaternaryPointSelect_rel _ _ _ _ _) fun _ => Rel.bind (eccAdd_rel _ _ _) fun _ => ih _ _
    · exact Rel.failL _ _

theorem fixedBits_even (K : TE p) : 2 * (fixedBits K / 2) = fixedBits K := by unfold fixedBits; omega

theorem fixedBaseScalarMul_spec (hp : p ≠ 2) {c : Circ p} (hc : WF c) {K : TE p} {E : EdGroup (ZMod p)} (hE : OnTE K E)
    (hb : fixedBits K ≤ modulusBits p) (s : ℕ) (P : E.Pt) :
    Spec (fixedBaseScalarMul K s P.1) c (s < c.numVars ∧ 0 < fixedBits K ∧ (c.val s).val < 2 ^ fixedBits K)
      (fun v c' => PIn c' v)
      (fun v w => (w s).val < 2 ^ fixedBits K ∧ ptAt w v = ((w s).val • P).1) := by
  unfold fixedBaseScalarMul
  apply Spec.checkVar_bind (fun h => h.1); intro hs
  refine Spec.bind (unpack_spec hp hc s (fixedBits K) hb) (fun h _ _ => h) hc ?_
  rintro bits c1 e1 ⟨hl, hbits, h0⟩
  have he := fixedBits_even K
  apply Spec.liftE_bind (computeBasePoints_eq hE P (by omega : 0 < fixedBits K / 2))
  refine Spec.conseq e1.wf (fixedLoop_spec hE P bits (fixedBits K / 2) (by omega) (fixedBits K / 2) 0 neutralPoint
    e1.wf (by omega)) ?_ (fun _ _ _ h => h (PIn.neutral e1.wf)) ?_
  · rintro ⟨_, _, h2⟩ z0 z1
    exact ⟨⟨hbits, PIn.neutral e1.wf⟩, ⟨0, ptAt_neutral z0 z1⟩, _, by rw [h2, he]⟩
  · rintro v w z0 z1 h ⟨h1, h2⟩
    refine ⟨h1, ?_⟩
    rw [h 0 _ (ptAt_neutral z0 z1) (by rw [h2, he])]
    have h4 : (4 : ℕ) ^ (fixedBits K / 2) = 2 ^ fixedBits K := by
      conv_rhs => rw [← he, pow_mul]
      norm_num
    simp [h4, Nat.mod_eq_of_lt h1]

theorem fixedBaseScalarMul_rel (K : TE p) (s : ℕ) (P : ZMod p × ZMod p) :
    Rel (fixedBaseScalarMul K s P) (fixedBaseScalarMul K s P) := by
  unfold fixedBaseScalarMul
  exact Rel.bind (Rel.checkVar _) fun _ => Rel.bind (unpack_rel _ _) fun _ => Rel.bind (Rel.liftE _) fun _ =>
    fixedLoop_rel _ _ _ _ _ _ _ _

end Verif.Circuit
