import Verif.Circuit.EccMul
import Verif.Circuit.Curves
import Verif.Circuit.ModArithAdd
import Verif.Props.CircuitSpec
import Verif.Props.ExactSpec

/-!
# Twisted Edwards curve gadgets (C31, C32, C33)

The group law is the one of `Verif/Util/Edwards.lean`: the curve `a x² + y² = 1 + d x² y²`
(`EdOn`), the affine addition law (`edAdd`), and `EdGroup`, a set of curve points closed under
addition and negation on which the denominators never vanish; its points form an
`AddCommGroup`. For `a` a square and `d` not a square all curve points are such a set
(`EdGroup.complete`).

* C31: the addition gadget and the curve equation gadget.
* C32: selection, equality, neutrality, negation.
* C33: scalar multiplication.
-/

set_option linter.unusedSectionVars false

namespace Verif.Props.Ecc

open Verif.Circuit Verif.Props.Circuit Verif.Curves

variable {p : ℕ} [Fact p.Prime]

/-- the point variables exist -/
def Dom (vs : List ℕ) (Ps : List (ℕ × ℕ)) (c : Circ p) : Prop :=
  (∀ v ∈ vs, v < c.numVars) ∧ ∀ P ∈ Ps, P.1 < c.numVars ∧ P.2 < c.numVars

/-- the coordinates of a point variable in an assignment -/
def pt (w : ℕ → ZMod p) (P : ℕ × ℕ) : ZMod p × ZMod p := (w P.1, w P.2)

/-- the truth value of a boolean variable -/
def bit (b : Bool) : ZMod p := if b then 1 else 0

omit [Fact p.Prime] in
theorem pt_congr {c : Circ p} {vs : List ℕ} {Ps : List (ℕ × ℕ)} (hd : Dom vs Ps c) {w w' : ℕ → ZMod p}
    (h : ∀ i, i < c.numVars → w' i = w i) {P : ℕ × ℕ} (hP : P ∈ Ps) : pt w' P = pt w P := by
  unfold pt; rw [h _ (hd.2 P hP).1, h _ (hd.2 P hP).2]

theorem correct_of {α : Type} {m : Build p α} {dom : Circ p → Prop} {pre : (ℕ → ZMod p) → Prop}
    {post : α → (ℕ → ZMod p) → Prop} (hrel : Rel m m) (hdom : ∀ c w, dom c → dom (Circ.assign c w))
    (hpre : ∀ c w w', dom c → (∀ i, i < c.numVars → w' i = w i) → pre w → pre w')
    (hs : ∀ c, WF c → dom c → ∃ B, Spec m c (pre c.val) B post) : Correct m dom pre post := by
  refine Correct.of_spec (B := fun _ _ _ => True) hrel hdom hpre fun c hc hd => ?_
  obtain ⟨B, h⟩ := hs c hc hd
  exact Spec.conseq hc h (fun h _ _ => h) (fun _ _ _ _ => trivial) (fun _ _ _ _ h => h)

/-! ## C31: addition -/

/-- **C31, addition in a group.** The inputs are in the group `E`: the output is their sum. -/
theorem C31_add_group (K : TE p) (E : EdGroup (ZMod p)) (ha : E.a = K.a) (hd : E.d = K.d) (A B : ℕ × ℕ) :
    Correct (eccAdd K A B) (Dom [] [A, B]) (fun w => E.mem (pt w A) ∧ E.mem (pt w B))
      (fun v w => ∀ P Q : E.Pt, pt w A = P.1 → pt w B = Q.1 → pt w v = (P + Q).1) := by
  refine correct_of (eccAdd_rel K A B) (fun _ _ h => h) ?_ (fun c hc hd' => ?_)
  · intro c w w' hd' h ⟨h1, h2⟩
    rw [pt_congr hd' h (by simp : A ∈ [A, B]), pt_congr hd' h (by simp : B ∈ [A, B])]
    exact ⟨h1, h2⟩
  · refine ⟨_, (eccAdd_group hc ⟨ha, hd⟩ A B).weaken ?_⟩
    rintro ⟨h1, h2⟩
    exact ⟨⟨hd'.2 A (by simp), hd'.2 B (by simp)⟩, ⟨_, h1⟩, ⟨_, h2⟩, rfl, rfl⟩

/-- **C31, complete curves.** If `a` is a square and `d` is not, then for all curve points the
output is the sum of the inputs and on the curve. -/
theorem C31_add_complete (K : TE p) (h2 : (2 : ZMod p) ≠ 0) (ha : IsSquare K.a) (hd : ¬ IsSquare K.d) (A B : ℕ × ℕ) :
    Correct (eccAdd K A B) (Dom [] [A, B]) (fun w => EdOn K.a K.d (pt w A) ∧ EdOn K.a K.d (pt w B))
      (fun v w => EdOn K.a K.d (pt w A) → EdOn K.a K.d (pt w B) →
        EdOn K.a K.d (pt w v) ∧ pt w v = edAdd K.a K.d (pt w A) (pt w B)) := by
  have h := C31_add_group K (EdGroup.complete K.a K.d h2 ha hd) rfl rfl A B
  refine ⟨h.wf, fun c hc hdm v c' hm pi w hs => ?_, h.complete, h.honest, h.shape⟩
  obtain ⟨g1, g2⟩ := h.sound c hc hdm v c' hm pi w hs
  refine ⟨g1, fun hA hB => ?_⟩
  have e := g2 ⟨_, hA⟩ ⟨_, hB⟩ rfl rfl
  have e : pt w v = edAdd K.a K.d (pt w A) (pt w B) := e
  have hv : EdOn K.a K.d (pt w v) := by
    rw [e]
    exact (EdGroup.complete K.a K.d h2 ha hd).add hA hB
  exact ⟨hv, e⟩

/-- **C31, ed_on_bn254.** -/
theorem C31_add_edBn254 (A B : ℕ × ℕ) :
    Correct (eccAdd edBn254 A B) (Dom [] [A, B])
      (fun w => EdOn edBn254.a edBn254.d (pt w A) ∧ EdOn edBn254.a edBn254.d (pt w B))
      (fun v w => EdOn edBn254.a edBn254.d (pt w A) → EdOn edBn254.a edBn254.d (pt w B) →
        EdOn edBn254.a edBn254.d (pt w v) ∧ pt w v = edAdd edBn254.a edBn254.d (pt w A) (pt w B)) :=
  C31_add_complete edBn254 two_254 edBn254_a edBn254_d A B

/-- **C31, ed_on_bls12_377.** -/
theorem C31_add_edBls377 (A B : ℕ × ℕ) :
    Correct (eccAdd edBls377 A B) (Dom [] [A, B])
      (fun w => EdOn edBls377.a edBls377.d (pt w A) ∧ EdOn edBls377.a edBls377.d (pt w B))
      (fun v w => EdOn edBls377.a edBls377.d (pt w A) → EdOn edBls377.a edBls377.d (pt w B) →
        EdOn edBls377.a edBls377.d (pt w v) ∧ pt w v = edAdd edBls377.a edBls377.d (pt w A) (pt w B)) :=
  C31_add_complete edBls377 two_377 edBls377_a edBls377_d A B

/-- **C31, ed_on_bls12_381.** -/
theorem C31_add_edBls381 (A B : ℕ × ℕ) :
    Correct (eccAdd edBls381 A B) (Dom [] [A, B])
      (fun w => EdOn edBls381.a edBls381.d (pt w A) ∧ EdOn edBls381.a edBls381.d (pt w B))
      (fun v w => EdOn edBls381.a edBls381.d (pt w A) → EdOn edBls381.a edBls381.d (pt w B) →
        EdOn edBls381.a edBls381.d (pt w v) ∧ pt w v = edAdd edBls381.a edBls381.d (pt w A) (pt w B)) :=
  C31_add_complete edBls381 two_381 edBls381_a edBls381_d A B

/-- **C31, Bandersnatch.** Neither `a` nor `d` is a square. On the points with `1 - d x²` a square
the gadget adds. -/
theorem C31_add_bandersnatch (A B : ℕ × ℕ) :
    Correct (eccAdd bandersnatch A B) (Dom [] [A, B])
      (fun w => (EdOn bandersnatch.a bandersnatch.d (pt w A) ∧ IsSquare (1 - bandersnatch.d * (pt w A).1 ^ 2)) ∧
        (EdOn bandersnatch.a bandersnatch.d (pt w B) ∧ IsSquare (1 - bandersnatch.d * (pt w B).1 ^ 2)))
      (fun v w => ∀ P Q : bandersnatchG.Pt, pt w A = P.1 → pt w B = Q.1 → pt w v = (P + Q).1) :=
  C31_add_group bandersnatch bandersnatchG rfl rfl A B

/-- **C31, the addition gadget exactly**, for arbitrary inputs. The constraints are the two
equations without division; the call succeeds if and only if both denominators are non-zero, and
then the stored result is the affine sum. -/
theorem C31_add_exact (K : TE p) (A B : ℕ × ℕ) :
    Exact (eccAdd K A B) (Dom [] [A, B]) (fun _ => True) (fun w v => pt w v)
      (fun w S => (1 + K.d * w A.1 * w B.1 * w A.2 * w B.2) * S.1 = w A.1 * w B.2 + w B.1 * w A.2 ∧
        (1 - K.d * w A.1 * w B.1 * w A.2 * w B.2) * S.2 = w A.2 * w B.2 - K.a * w A.1 * w B.1)
      (fun _ => True)
      (fun w => 1 + K.d * w A.1 * w B.1 * w A.2 * w B.2 ≠ 0 ∧ 1 - K.d * w A.1 * w B.1 * w A.2 * w B.2 ≠ 0)
      (fun w => edAdd K.a K.d (pt w A) (pt w B))
      (fun v c' => v.1 < c'.numVars ∧ v.2 < c'.numVars) := by
  have hrelw : ∀ (c : Circ p) (w w' : ℕ → ZMod p), Dom [] [A, B] c → (∀ i, i < c.numVars → w' i = w i) →
      w' A.1 = w A.1 ∧ w' A.2 = w A.2 ∧ w' B.1 = w B.1 ∧ w' B.2 = w B.2 := by
    intro c w w' hd h
    have hA := hd.2 A (by simp)
    have hB := hd.2 B (by simp)
    exact ⟨h _ hA.1, h _ hA.2, h _ hB.1, h _ hB.2⟩
  have hok : ∀ (c : Circ p) (v : ℕ × ℕ) (c' : Circ p), Dom [] [A, B] c → eccAdd K A B c = .ok (v, c') →
      EdDef K.d (ptAt c.val A) (ptAt c.val B) := by
    intro c v c' hd hm
    have hA := hd.2 A (by simp)
    have hB := hd.2 B (by simp)
    have g : ∀ i, i < c.numVars → (witness i : Build p _) c = .ok (c.val i, c) := by
      intro i hi; unfold witness; rw [if_neg (by omega)]
    unfold eccAdd at hm
    rw [bind_of_ok (g _ hA.1), bind_of_ok (g _ hA.2), bind_of_ok (g _ hB.1), bind_of_ok (g _ hB.2)] at hm
    have hz : K.d * c.val A.1 * c.val A.2 * c.val B.1 * c.val B.2 = edZ K.d (ptAt c.val A) (ptAt c.val B) := by
      unfold edZ ptAt; ring
    rw [hz] at hm
    split at hm
    · cases hm
    · rename_i h
      push Not at h
      exact h
  refine Exact.of_spec (eccAdd_rel K A B) (fun _ _ h => h) (fun _ _ _ _ _ _ => trivial) ?_ ?_ ?_ ?_
  · intro c w w' y hd h hr
    obtain ⟨h1, h2, h3, h4⟩ := hrelw c w w' hd h
    rw [h1, h2, h3, h4]; exact hr
  · intro c hc hd
    have hA := hd.2 A (by simp)
    have hB := hd.2 B (by simp)
    have hs := eccAdd_spec hc K A B
    constructor
    · intro v c' hm
      obtain ⟨e, b, r⟩ := hs.sound v c' hm
      refine ⟨e, ⟨b, fun h0 h1 _ => ?_⟩, fun pi w hw _ => r pi w hw⟩
      have hdef := hok c v c' hd hm
      obtain ⟨e1, b1, hval⟩ : Ext c c' ∧ True ∧ ptAt c'.val v = edAdd K.a K.d (ptAt c.val A) (ptAt c.val B) := by
        have g : ∀ i, i < c.numVars → (witness i : Build p _) c = .ok (c.val i, c) := by
          intro i hi; unfold witness; rw [if_neg (by omega)]
        unfold eccAdd at hm
        rw [bind_of_ok (g _ hA.1), bind_of_ok (g _ hA.2), bind_of_ok (g _ hB.1), bind_of_ok (g _ hB.2)] at hm
        have hz : K.d * c.val A.1 * c.val A.2 * c.val B.1 * c.val B.2 = edZ K.d (ptAt c.val A) (ptAt c.val B) := by
          unfold edZ ptAt; ring
        rw [hz, if_neg (by push Not; exact hdef)] at hm
        obtain ⟨S, c1, m1, m2⟩ := bind_ok hm
        obtain ⟨u, c2, m3, m4⟩ := bind_ok m2
        obtain ⟨e1, ⟨hS, hSv⟩, _⟩ := (createPointVariable_spec hc _ True).sound S c1 m1
        obtain ⟨e2, _, _⟩ := (eccAddGate_spec e1.wf K A B S).sound u _ m3
        cases m4
        refine ⟨e1.trans e2, trivial, ?_⟩
        rw [ptAt_ext e2 hS, hSv]
        unfold edAdd
        refine Prod.ext ?_ ?_
        · simp only [ptAt]; rw [div_eq_mul_inv]
        · simp only [ptAt]; rw [div_eq_mul_inv]; ring
      exact hval
    · rintro ⟨_, h1, h2⟩
      exact hs.complete ⟨⟨hA, hB⟩, h1, h2⟩
  · intro c y hc hd _ hr
    have hA : PIn c A := hd.2 A (by simp)
    have hB : PIn c B := hd.2 B (by simp)
    refine ⟨(do let S ← createPointVariable y; eccAddGate K A B S; pure S), ?_, ?_⟩
    · unfold eccAdd
      refine Rel.witness_bindL fun _ => Rel.witness_bindL fun _ => Rel.witness_bindL fun _ => Rel.witness_bindL fun _ => ?_
      refine Rel.guardL ?_
      exact Rel.bind (createPointVariable_rel _ _) fun _ => Rel.bind (eccAddGate_rel _ _ _ _) fun _ => Rel.pure _
    · refine Spec.bind (createPointVariable_spec hc y True) (fun _ _ _ => trivial) hc ?_
      rintro S c1 e1 ⟨hS, hSv⟩
      refine Spec.bind (eccAddGate_spec e1.wf K A B S) ?_ e1.wf ?_
      · rintro - - -
        refine ⟨⟨hA.ext e1, hB.ext e1, hS⟩, ?_⟩
        rw [ptAt_ext e1 hA, ptAt_ext e1 hB, hSv]
        exact hr
      rintro _ c2 e2 -
      refine Spec.pure e2.wf ?_ (fun _ _ _ _ _ => trivial)
      have := ptAt_ext e2 hS
      unfold ptAt at this
      unfold pt
      rw [this]
      exact hSv
  · intro c hc hd _ v c' hm _ _
    exact hok c v c' hd hm

/-- **C31, the curve equation gadget** accepts exactly the points of the curve. -/
theorem C31_on_curve (K : TE p) (P : ℕ × ℕ) :
    Correct (enforceOnCurve K P) (Dom [] [P])
      (fun w => K.a * w P.1 ^ 2 + w P.2 ^ 2 = 1 + K.d * w P.1 ^ 2 * w P.2 ^ 2)
      (fun _ w => K.a * w P.1 ^ 2 + w P.2 ^ 2 = 1 + K.d * w P.1 ^ 2 * w P.2 ^ 2) := by
  refine correct_of (enforceOnCurve_rel K P) (fun _ _ h => h) ?_ (fun c hc hd => ?_)
  · intro c w w' hd h hp
    have hP := hd.2 P (by simp)
    rw [h _ hP.1, h _ hP.2]; exact hp
  · exact ⟨_, (enforceOnCurve_spec hc K P).weaken fun h => ⟨hd.2 P (by simp), h⟩⟩

/-- On a circuit whose gates were built with any other points (the gates do not depend on the
values): if `1 - z = 0` for the two input points and the numerator of `y` is zero, the
constraints leave the `y` coordinate of the output free. -/
theorem add_free_y (K : TE p) (A B : ℕ × ℕ) (P Q : ZMod p × ZMod p) (x : ZMod p)
    (h1 : 1 - K.d * P.1 * Q.1 * P.2 * Q.2 = 0) (h2 : P.2 * Q.2 - K.a * P.1 * Q.1 = 0)
    (hx : (1 + K.d * P.1 * Q.1 * P.2 * Q.2) * x = P.1 * Q.2 + Q.1 * P.2)
    {c : Circ p} (hc : WF c) (hd : Dom [] [A, B] c) {v : ℕ × ℕ} {c' : Circ p} (hm : eccAdd K A B c = .ok (v, c'))
    {pi : List (ZMod p)} {w : ℕ → ZMod p} (hw : Sat c pi w) (hA : pt w A = P) (hB : pt w B = Q) (y : ZMod p) :
    ∃ w' : ℕ → ZMod p, (∀ i, i < c.numVars → w' i = w i) ∧ Sat c' pi w' ∧ pt w' v = (x, y) := by
  refine ((C31_add_exact K A B).exact c hc hd v c' hm pi w hw trivial (x, y)).2 ?_
  subst hA hB
  refine ⟨hx, ?_⟩
  have h1' : 1 - K.d * w A.1 * w B.1 * w A.2 * w B.2 = 0 := h1
  have h2' : w A.2 * w B.2 - K.a * w A.1 * w B.1 = 0 := h2
  rw [h1', h2', zero_mul]

/-- the generator of Bandersnatch in `ecc/glv.rs` -/
def bandG : ZMod Rescue.p_ed381 × ZMod Rescue.p_ed381 :=
  (18886178867200960497001835917649091219057080094937609519140440539760939937304,
   19188667384257783945677642223292697773471335439753913231509108946878080696678)

/-- a point of Bandersnatch outside the prime order subgroup -/
def bandQ : ZMod Rescue.p_ed381 × ZMod Rescue.p_ed381 :=
  (36073403901733791628036538608855607833048265717419279894770207984109002359124,
   18601349792348393412566423773165753240775915717680753940450614659073776275971)

/-- **C31 fails for Bandersnatch on the whole curve.** Two points of the curve (both accepted by
the curve equation gadget) for which the addition constraints accept every `y` coordinate of the
sum, in every circuit. -/
theorem C31_bandersnatch_counterexample :
    EdOn bandersnatch.a bandersnatch.d bandG ∧ EdOn bandersnatch.a bandersnatch.d bandQ ∧
    ∃ x : ZMod Rescue.p_ed381, ∀ (A B : ℕ × ℕ) (c : Circ Rescue.p_ed381), WF c → Dom [] [A, B] c →
      ∀ v c', eccAdd bandersnatch A B c = .ok (v, c') → ∀ pi w, Sat c pi w → pt w A = bandG → pt w B = bandQ →
      ∀ y, ∃ w' : ℕ → ZMod Rescue.p_ed381, (∀ i, i < c.numVars → w' i = w i) ∧ Sat c' pi w' ∧ pt w' v = (x, y) := by
  refine ⟨by unfold EdOn; decide +kernel, by unfold EdOn; decide +kernel,
    12242643152096106584403085430462480794809032123727769068840991462427329322784, ?_⟩
  intro A B c hc hd v c' hm pi w hw hA hB y
  exact add_free_y bandersnatch A B bandG bandQ _ (by decide +kernel) (by decide +kernel) (by decide +kernel)
    hc hd hm hw hA hB y

/-- the generator of the BLS12-377 group `G1`, twisted Edwards form -/
def g1G : ZMod Rescue.p_fq377 × ZMod Rescue.p_fq377 :=
  (71222569531709137229370268896323705690285216175189308202338047559628438110820800641278662592954630774340654489393,
   6177051365529633638563236407038680211609544222665285371549726196884440490905471891908272386851767077598415378235)

/-- a point of the curve outside the prime order subgroup -/
def g1Q : ZMod Rescue.p_fq377 × ZMod Rescue.p_fq377 :=
  (198310107987664221521768060693274511635866696223533615989688263169766679796292237364329719174038206259364865319353,
   49774890469843540629974405260526240430356369085293423250965965480242427181982814668039635401245742917769353276179)

/-- **C31 fails for BLS12-377 on the whole curve.** Two points of the curve for which the addition
constraints accept every `x` coordinate of the sum. -/
theorem C31_bls377_counterexample :
    EdOn g1Bls377.a g1Bls377.d g1G ∧ EdOn g1Bls377.a g1Bls377.d g1Q ∧
    ∃ y : ZMod Rescue.p_fq377, ∀ (A B : ℕ × ℕ) (c : Circ Rescue.p_fq377), WF c → Dom [] [A, B] c →
      ∀ v c', eccAdd g1Bls377 A B c = .ok (v, c') → ∀ pi w, Sat c pi w → pt w A = g1G → pt w B = g1Q →
      ∀ x, ∃ w' : ℕ → ZMod Rescue.p_fq377, (∀ i, i < c.numVars → w' i = w i) ∧ Sat c' pi w' ∧ pt w' v = (x, y) := by
  refine ⟨by unfold EdOn; decide +kernel, by unfold EdOn; decide +kernel,
    236738256167843002194935432367235899230012909701187494357766705074425568376941963344603496784012404337231593587842, ?_⟩
  intro A B c hc hd v c' hm pi w hw hA hB x
  refine ((C31_add_exact g1Bls377 A B).exact c hc hd v c' hm pi w hw trivial (x, _)).2 ?_
  have a1 : w A.1 = g1G.1 := congrArg Prod.fst hA
  have a2 : w A.2 = g1G.2 := congrArg Prod.snd hA
  have b1 : w B.1 = g1Q.1 := congrArg Prod.fst hB
  have b2 : w B.2 = g1Q.2 := congrArg Prod.snd hB
  rw [a1, a2, b1, b2]
  have h1 : 1 + g1Bls377.d * g1G.1 * g1Q.1 * g1G.2 * g1Q.2 = 0 := by decide +kernel
  have h2 : g1G.1 * g1Q.2 + g1Q.1 * g1G.2 = 0 := by decide +kernel
  refine ⟨by rw [h1, h2, zero_mul], ?_⟩
  show (1 - g1Bls377.d * g1G.1 * g1Q.1 * g1G.2 * g1Q.2) * 236738256167843002194935432367235899230012909701187494357766705074425568376941963344603496784012404337231593587842 =
    g1G.2 * g1Q.2 - g1Bls377.a * g1G.1 * g1Q.1
  decide +kernel

/-! ## C32: selection and equality -/

/-- **C32, selection of one of four points** by two boolean variables; the constants are `P1`,
`P2`, `P3` and the neutral point `(0, 1)`. -/
theorem C32_quaternary_select (b0 b1 : ℕ) (P1 P2 P3 : ZMod p × ZMod p) :
    Correct (quaternaryPointSelect b0 b1 P1 P2 P3) (Dom [b0, b1] [])
      (fun w => ∃ x y : Bool, w b0 = bit x ∧ w b1 = bit y)
      (fun v w => (w b0 = 0 → w b1 = 0 → pt w v = (0, 1)) ∧ (w b0 = 1 → w b1 = 0 → pt w v = P1) ∧
        (w b0 = 0 → w b1 = 1 → pt w v = P2) ∧ (w b0 = 1 → w b1 = 1 → pt w v = P3)) := by
  refine correct_of (quaternaryPointSelect_rel b0 b1 P1 P2 P3) (fun _ _ h => h) ?_ (fun c hc hd => ?_)
  · rintro c w w' hd h ⟨x, y, hx, hy⟩
    exact ⟨x, y, by rw [h _ (hd.1 b0 (by simp)), hx], by rw [h _ (hd.1 b1 (by simp)), hy]⟩
  · refine ⟨_, Spec.conseq hc (quaternaryPointSelect_spec hc b0 b1 P1 P2 P3) (fun h _ _ => ?_) (fun _ _ _ h => h) ?_⟩
    · exact ⟨⟨hd.1 b0 (by simp), hd.1 b1 (by simp)⟩, h⟩
    · intro v w _ _ h
      exact ⟨h false false, h true false, h false true, h true true⟩

/-- **C32, selection of one of two point variables** -/
theorem C32_binary_select (b : ℕ) (P0 P1 : ℕ × ℕ) :
    Correct (binaryPointVarsSelect b P0 P1 : Build p (ℕ × ℕ)) (Dom [b] [P0, P1]) (fun w => ∃ x : Bool, w b = bit x)
      (fun v w => (w b = 0 → pt w v = pt w P0) ∧ (w b = 1 → pt w v = pt w P1)) := by
  refine correct_of (binaryPointVarsSelect_rel b P0 P1) (fun _ _ h => h) ?_ (fun c hc hd => ?_)
  · rintro c w w' hd h ⟨x, hx⟩
    exact ⟨x, by rw [h _ (hd.1 b (by simp)), hx]⟩
  · refine ⟨_, Spec.conseq hc (binaryPointVarsSelect_spec hc b P0 P1) (fun h _ _ => ?_) (fun _ _ _ h => h) ?_⟩
    · exact ⟨⟨hd.1 b (by simp), hd.2 P0 (by simp), hd.2 P1 (by simp)⟩, h⟩
    · intro v w _ _ h
      exact ⟨fun h0 => h false h0, fun h1 => h true h1⟩

/-- **C32, enforced equality of points** -/
theorem C32_enforce_equal (P0 P1 : ℕ × ℕ) :
    Correct (enforcePointEqual P0 P1 : Build p Unit) (Dom [] [P0, P1]) (fun w => pt w P0 = pt w P1)
      (fun _ w => pt w P0 = pt w P1) := by
  refine correct_of (enforcePointEqual_rel P0 P1) (fun _ _ h => h) ?_ (fun c hc hd => ?_)
  · intro c w w' hd h hp
    rw [pt_congr hd h (by simp : P0 ∈ [P0, P1]), pt_congr hd h (by simp : P1 ∈ [P0, P1]), hp]
  · exact ⟨_, (enforcePointEqual_spec hc P0 P1).weaken fun h => ⟨⟨hd.2 P0 (by simp), hd.2 P1 (by simp)⟩, h⟩⟩

/-- **C32, equality test of points** -/
theorem C32_is_equal (P0 P1 : ℕ × ℕ) :
    Correct (isPointEqual P0 P1 : Build p ℕ) (Dom [] [P0, P1]) (fun _ => True)
      (fun v w => (pt w P0 = pt w P1 ∧ w v = 1) ∨ (pt w P0 ≠ pt w P1 ∧ w v = 0)) := by
  refine correct_of (isPointEqual_rel P0 P1) (fun _ _ h => h) (fun _ _ _ _ _ _ => trivial) (fun c hc hd => ?_)
  refine ⟨_, Spec.conseq hc (isPointEqual_spec hc P0 P1) (fun _ _ _ => ?_) (fun _ _ _ h => h) ?_⟩
  · exact ⟨hd.2 P0 (by simp), hd.2 P1 (by simp)⟩
  · intro v w _ _ h
    by_cases hq : ptAt w P0 = ptAt w P1
    · exact Or.inl ⟨hq, by rw [h, if_pos hq]⟩
    · exact Or.inr ⟨hq, by rw [h, if_neg hq]⟩

/-- **C32, test for the neutral point** -/
theorem C32_is_neutral (P : ℕ × ℕ) :
    Correct (isNeutralPoint P : Build p ℕ) (Dom [] [P]) (fun _ => True)
      (fun v w => (pt w P = (0, 1) ∧ w v = 1) ∨ (pt w P ≠ (0, 1) ∧ w v = 0)) := by
  refine correct_of (isNeutralPoint_rel P) (fun _ _ h => h) (fun _ _ _ _ _ _ => trivial) (fun c hc hd => ?_)
  refine ⟨_, Spec.conseq hc (isNeutralPoint_spec hc P) (fun _ _ _ => hd.2 P (by simp)) (fun _ _ _ h => h) ?_⟩
  intro v w _ _ h
  by_cases hq : ptAt w P = (0, 1)
  · exact Or.inl ⟨hq, by rw [h, if_pos hq]⟩
  · exact Or.inr ⟨hq, by rw [h, if_neg hq]⟩

/-- **C32, negation**: the inverse in the group -/
theorem C32_inverse (E : EdGroup (ZMod p)) (P : ℕ × ℕ) :
    Correct (inversePoint P : Build p (ℕ × ℕ)) (Dom [] [P]) (fun _ => True)
      (fun v w => ∀ Q : E.Pt, pt w P = Q.1 → pt w v = (-Q).1) := by
  refine correct_of (inversePoint_rel P) (fun _ _ h => h) (fun _ _ _ _ _ _ => trivial) (fun c hc hd => ?_)
  refine ⟨_, Spec.conseq hc (inversePoint_spec hc P) (fun _ _ _ => hd.2 P (by simp)) (fun _ _ _ h => h) ?_⟩
  intro v w _ _ h Q hQ
  rw [E.neg_val, ← hQ]
  exact h

/-- **C32, constants** -/
theorem C32_constant (P : ZMod p × ZMod p) :
    Correct (createConstantPointVariable P) (Dom [] []) (fun _ => True) (fun v w => pt w v = P) := by
  refine correct_of (createConstantPointVariable_rel P) (fun _ _ h => h) (fun _ _ _ _ _ _ => trivial)
    (fun c hc hd => ?_)
  exact ⟨_, createConstantPointVariable_spec hc P⟩

/-! ## C33: scalar multiplication -/

/-- the number with the given bits, least significant first -/
def fromBits : List Bool → ℕ
  | [] => 0
  | b :: bs => (if b then 1 else 0) + 2 * fromBits bs

theorem fromBits_eq (bs : List Bool) : fromBits bs = ofBits bs := by
  induction bs with
  | nil => rfl
  | cons b bs ih => rw [fromBits, ofBits, ih]; cases b <;> rfl

/-- **C33, variable base (double and add)**: the output is the number given by the bits times the
base, for every number of bits. -/
theorem C33_variable_base (K : TE p) (E : EdGroup (ZMod p)) (ha : E.a = K.a) (hd : E.d = K.d) (bits : List ℕ)
    (base : ℕ × ℕ) :
    Correct (variableBaseBinaryScalarMul K bits base) (Dom bits [base])
      (fun w => E.mem (pt w base) ∧ ∀ b ∈ bits, w b = 0 ∨ w b = 1)
      (fun v w => ∀ (P : E.Pt) (bs : List Bool), pt w base = P.1 → bits.map w = bs.map bit →
        pt w v = (fromBits bs • P).1) := by
  refine correct_of (variableBaseBinaryScalarMul_rel K bits base) (fun _ _ h => h) ?_ (fun c hc hdm => ?_)
  · rintro c w w' hdm h ⟨h1, h2⟩
    rw [pt_congr hdm h (by simp : base ∈ [base])]
    exact ⟨h1, fun b hb => by rw [h _ (hdm.1 b hb)]; exact h2 b hb⟩
  · refine ⟨_, Spec.conseq hc (variableBaseBinaryScalarMul_spec hc (E := E) ⟨ha, hd⟩ bits base) ?_ (fun _ _ _ h => h) ?_⟩
    · rintro ⟨h1, h2⟩ - -
      exact ⟨⟨hdm.1, hdm.2 base (by simp)⟩, ⟨⟨_, h1⟩, rfl⟩, exists_bits h2⟩
    · intro v w _ _ h P bs hP hb
      rw [fromBits_eq]
      exact h P bs hP hb

/-- **C33, fixed base**: the output is the canonical integer of the scalar variable times the
base; the scalar is forced to be below `2 ^ n`, `n` the bit size of the scalar field rounded up to
an even number. -/
theorem C33_fixed_base (hp : p ≠ 2) (K : TE p) (E : EdGroup (ZMod p)) (ha : E.a = K.a) (hd : E.d = K.d)
    (hr : 0 < K.r) (hb : fixedBits K ≤ Nat.size p) (s : ℕ) (P : E.Pt) :
    Correct (fixedBaseScalarMul K s P.1) (Dom [s] []) (fun w => (w s).val < 2 ^ fixedBits K)
      (fun v w => (w s).val < 2 ^ fixedBits K ∧ pt w v = ((w s).val • P).1) := by
  refine correct_of (fixedBaseScalarMul_rel K s P.1) (fun _ _ h => h) ?_ (fun c hc hdm => ?_)
  · intro c w w' hdm h h1
    rw [h _ (hdm.1 s (by simp))]; exact h1
  · refine ⟨_, (fixedBaseScalarMul_spec hp hc ⟨ha, hd⟩ hb s P).weaken fun h => ⟨hdm.1 s (by simp), ?_, h⟩⟩
    have := Nat.size_pos.2 hr
    unfold fixedBits; omega

/-- **C33, fixed base, ed_on_bn254** -/
theorem C33_fixed_base_edBn254 (s : ℕ) (P : edBn254G.Pt) :
    Correct (fixedBaseScalarMul edBn254 s P.1) (Dom [s] []) (fun w => (w s).val < 2 ^ 252)
      (fun v w => (w s).val < 2 ^ 252 ∧ pt w v = ((w s).val • P).1) := by
  have e : fixedBits edBn254 = 252 := by decide +kernel
  have := C33_fixed_base (by decide +kernel) edBn254 edBn254G rfl rfl (by decide +kernel)
    (by rw [e]; decide +kernel) s P
  rwa [e] at this

/-- **C33, fixed base, ed_on_bls12_377** -/
theorem C33_fixed_base_edBls377 (s : ℕ) (P : edBls377G.Pt) :
    Correct (fixedBaseScalarMul edBls377 s P.1) (Dom [s] []) (fun w => (w s).val < 2 ^ 252)
      (fun v w => (w s).val < 2 ^ 252 ∧ pt w v = ((w s).val • P).1) := by
  have e : fixedBits edBls377 = 252 := by decide +kernel
  have := C33_fixed_base (by decide +kernel) edBls377 edBls377G rfl rfl (by decide +kernel)
    (by rw [e]; decide +kernel) s P
  rwa [e] at this

/-- **C33, fixed base, ed_on_bls12_381** -/
theorem C33_fixed_base_edBls381 (s : ℕ) (P : edBls381G.Pt) :
    Correct (fixedBaseScalarMul edBls381 s P.1) (Dom [s] []) (fun w => (w s).val < 2 ^ 252)
      (fun v w => (w s).val < 2 ^ 252 ∧ pt w v = ((w s).val • P).1) := by
  have e : fixedBits edBls381 = 252 := by decide +kernel
  have := C33_fixed_base (by decide +kernel) edBls381 edBls381G rfl rfl (by decide +kernel)
    (by rw [e]; decide +kernel) s P
  rwa [e] at this

/-- **C33, fixed base, Bandersnatch** -/
theorem C33_fixed_base_bandersnatch (s : ℕ) (P : bandersnatchG.Pt) :
    Correct (fixedBaseScalarMul bandersnatch s P.1) (Dom [s] []) (fun w => (w s).val < 2 ^ 254)
      (fun v w => (w s).val < 2 ^ 254 ∧ pt w v = ((w s).val • P).1) := by
  have e : fixedBits bandersnatch = 254 := by decide +kernel
  have := C33_fixed_base (by decide +kernel) bandersnatch bandersnatchG rfl rfl (by decide +kernel)
    (by rw [e]; decide +kernel) s P
  rwa [e] at this

/-! ## Examples -/

instance fact13 : Fact (Nat.Prime 13) := ⟨by norm_num⟩

/-- the curve `x² + y² = 1 + 2 x² y²` over 13 elements, with 8 points; 2 is not a square -/
def K13 : TE 13 := ⟨1, 2, 8⟩

theorem K13_a : IsSquare K13.a := ⟨1, by decide⟩
theorem K13_d : ¬ IsSquare K13.d := by unfold K13 IsSquare; decide

/-- the group of the small curve -/
def E13 : EdGroup (ZMod 13) := EdGroup.complete K13.a K13.d (by decide) K13_a K13_d

/-- variables `2,3`: the point `(4, 4)`; `4,5`: the point `(1, 0)`; `6`: zero; `7`: one; `8`: five -/
def demo13 : Circ 13 := { Circ.new 13 none with numVars := 9, witness := [0, 1, 4, 4, 1, 0, 0, 1, 5] }

theorem demo13_wf : WF demo13 := by
  refine ⟨rfl, rfl, by decide, ⟨[], rfl⟩, ?_, by simp [demo13, Circ.new], by simp [demo13, Circ.new]⟩
  intro r hr
  simp [demo13, Circ.new] at hr
  rcases hr with rfl | rfl <;> simp [demo13]

theorem demo13_check : checkSat demo13 [] = .ok () := by decide +kernel

/-- call and check succeed and the point returned has the value `S` -/
def Returns (m : Build 13 (ℕ × ℕ)) (S : ZMod 13 × ZMod 13) : Prop :=
  ∃ v c', m demo13 = .ok (v, c') ∧ checkSat c' [] = .ok () ∧ pt c'.val v = S

theorem returns_of {m : Build 13 (ℕ × ℕ)} {dom : Circ 13 → Prop} {pre : (ℕ → ZMod 13) → Prop}
    {post : ℕ × ℕ → (ℕ → ZMod 13) → Prop} (h : Correct m dom pre post) (hd : dom demo13) (hp : pre demo13.val)
    {S : ZMod 13 × ZMod 13}
    (hS : ∀ (v : ℕ × ℕ) (w : ℕ → ZMod 13), (∀ i, i < 9 → w i = demo13.val i) → post v w → pt w v = S) :
    Returns m S := by
  obtain ⟨v, c', hm, hs⟩ := h.honest demo13 demo13_wf hd [] demo13_check hp
  obtain ⟨w1, _, w3, _⟩ := h.wf demo13 demo13_wf hd v c' hm
  exact ⟨v, c', hm, hs, hS v _ w3 (h.sound demo13 demo13_wf hd v c' hm [] c'.val ((checkSat_ok w1 []).1 hs)).2⟩

/-- `(4, 4) + (1, 0) = (4, 9)` -/
theorem add13 : edAdd K13.a K13.d (4, 4) (1, 0) = (4, 9) :=
  ((addEqs_iff (K := K13) (by unfold EdDef edZ K13; decide)).1 (by unfold AddEqs edZ K13; decide)).symm

example : Returns (eccAdd K13 (2, 3) (4, 5)) (4, 9) := by
  refine returns_of (C31_add_complete K13 (by decide) K13_a K13_d (2, 3) (4, 5)) ⟨by simp, by decide⟩
    ⟨by unfold EdOn; decide, by unfold EdOn; decide⟩ ?_
  intro v w hw h
  have e1 : pt w (2, 3) = (4, 4) := by unfold pt; rw [hw 2 (by omega), hw 3 (by omega)]; rfl
  have e2 : pt w (4, 5) = (1, 0) := by unfold pt; rw [hw 4 (by omega), hw 5 (by omega)]; rfl
  rw [e1, e2] at h
  rw [(h (by unfold EdOn; decide) (by unfold EdOn; decide)).2]
  exact add13

-- the curve gadget accepts the point of variables 2, 3 and rejects the pair of variables 2, 7
example : runOk (enforceOnCurve K13 (2, 3)) demo13 = true ∧ runOk (enforceOnCurve K13 (2, 7)) demo13 = false := by
  decide +kernel

-- the generators of the four curves are in the groups of the theorems
example : edBn254G.mem
    (19698561148652590122159747500897617769866003486955115824547446575314762165298,
     19298250018296453272277890825869354524455968081175474282777126169995084727839) := by
  show EdOn _ _ _
  unfold EdOn; decide +kernel

example : edBls377G.mem
    (4497879464030519973909970603271755437257548612157028181994697785683032656389,
     4357141146396347889246900916607623952598927460421559113092863576544024487809) := by
  show EdOn _ _ _
  unfold EdOn; decide +kernel

example : edBls381G.mem
    (8076246640662884909881801758704306714034609987455869804520522091855516602923,
     13262374693698910701929044844600465831413122818447359594527400194675274060458) := by
  show EdOn _ _ _
  unfold EdOn; decide +kernel

/-- the Bandersnatch generator as a member of the group -/
def bandPt : bandersnatchG.Pt := ⟨bandG, by
  refine ⟨?_, 20033430707949087492960199553355301243618912741067873765526468738450908000701, ?_⟩
  · unfold EdOn; decide +kernel
  · decide +kernel⟩

-- selection: the variables 7, 6 hold (1, 0)
example : Returns (quaternaryPointSelect 7 6 (4, 4) (1, 0) (4, 9)) (4, 4) := by
  refine returns_of (C32_quaternary_select 7 6 (4, 4) (1, 0) (4, 9)) ⟨by decide, by simp⟩
    ⟨true, false, by decide, by decide⟩ ?_
  intro v w hw h
  exact h.2.1 (by rw [hw 7 (by omega)]; decide) (by rw [hw 6 (by omega)]; decide)

example : Returns (binaryPointVarsSelect 7 (2, 3) (4, 5)) (1, 0) := by
  refine returns_of (C32_binary_select 7 (2, 3) (4, 5)) ⟨by decide, by decide⟩ ⟨true, by decide⟩ ?_
  intro v w hw h
  rw [h.2 (by rw [hw 7 (by omega)]; decide)]
  unfold pt; rw [hw 4 (by omega), hw 5 (by omega)]; decide

-- equality and neutrality tests: (2,3) = (4,4), (6,7) = (0,1)
example : runOk (enforcePointEqual (2, 3) (2, 3)) demo13 = true ∧ runOk (enforcePointEqual (2, 3) (2, 5)) demo13 = false := by
  decide +kernel

example : ∃ v c', (isPointEqual (2, 3) (2, 5)) demo13 = .ok (v, c') ∧ c'.val v = 0 := by
  obtain ⟨v, c', hm, hs⟩ := (C32_is_equal (p := 13) (2, 3) (2, 5)).honest demo13 demo13_wf ⟨by simp, by decide⟩ []
    demo13_check trivial
  obtain ⟨w1, _, w3, _⟩ := (C32_is_equal (p := 13) (2, 3) (2, 5)).wf demo13 demo13_wf ⟨by simp, by decide⟩ v c' hm
  have := ((C32_is_equal (p := 13) (2, 3) (2, 5)).sound demo13 demo13_wf ⟨by simp, by decide⟩ v c' hm [] c'.val
    ((checkSat_ok w1 []).1 hs)).2
  refine ⟨v, c', hm, ?_⟩
  rcases this with ⟨h, _⟩ | ⟨_, h⟩
  · exfalso
    have h3 : c'.val 3 = c'.val 5 := congrArg Prod.snd h
    rw [w3 3 (by decide), w3 5 (by decide)] at h3
    exact absurd h3 (by decide)
  · exact h

example : ∃ v c', (isNeutralPoint (6, 7)) demo13 = .ok (v, c') ∧ c'.val v = 1 := by
  obtain ⟨v, c', hm, hs⟩ := (C32_is_neutral (p := 13) (6, 7)).honest demo13 demo13_wf ⟨by simp, by decide⟩ []
    demo13_check trivial
  obtain ⟨w1, _, w3, _⟩ := (C32_is_neutral (p := 13) (6, 7)).wf demo13 demo13_wf ⟨by simp, by decide⟩ v c' hm
  have := ((C32_is_neutral (p := 13) (6, 7)).sound demo13 demo13_wf ⟨by simp, by decide⟩ v c' hm [] c'.val
    ((checkSat_ok w1 []).1 hs)).2
  refine ⟨v, c', hm, ?_⟩
  rcases this with ⟨_, h⟩ | ⟨h, _⟩
  · exact h
  · exact absurd (by unfold pt; rw [w3 6 (by decide), w3 7 (by decide)]; decide) h

/-- `(4, 4)` in the group -/
def P13 : E13.Pt := ⟨(4, 4), by show EdOn _ _ _; unfold EdOn; decide⟩

theorem dbl13 {S : ZMod 13 × ZMod 13} {P Q : E13.Pt} (hd : EdDef K13.d P.1 Q.1) (h : AddEqs K13 P.1 Q.1 S) :
    (P + Q).1 = S := ((addEqs_iff (K := K13) hd).1 h).symm

/-- five times `(4, 4)` is `(9, 9)` -/
theorem five13 : ((5 : ℕ) • P13).1 = (9, 9) := by
  have h2 : (P13 + P13).1 = (1, 0) := dbl13 (by unfold EdDef edZ; decide) (by unfold AddEqs edZ; decide)
  have h4 : ((P13 + P13) + (P13 + P13)).1 = (0, 12) :=
    dbl13 (by rw [h2]; unfold EdDef edZ; decide) (by rw [h2]; unfold AddEqs edZ; decide)
  have e : (5 : ℕ) • P13 = ((P13 + P13) + (P13 + P13)) + P13 := by
    rw [show (5 : ℕ) = 2 * 2 + 1 from rfl, add_nsmul, mul_nsmul, one_nsmul, two_nsmul, two_nsmul]
  rw [e]
  exact dbl13 (by rw [h4]; unfold EdDef edZ; decide) (by rw [h4]; unfold AddEqs edZ; decide)

-- fixed base: variable 8 holds 5
example : Returns (fixedBaseScalarMul K13 8 (4, 4)) (9, 9) := by
  refine returns_of (C33_fixed_base (by decide) K13 E13 rfl rfl (by decide) (by decide +kernel) 8 P13)
    ⟨by decide, by simp⟩ (by decide +kernel) ?_
  intro v w hw h
  rw [h.2, hw 8 (by omega)]
  exact five13

-- variable base: bits 1, 0, 1 and the point of variables 2, 3
example : Returns (variableBaseBinaryScalarMul K13 [7, 6, 7] (2, 3)) (9, 9) := by
  refine returns_of (C33_variable_base K13 E13 rfl rfl [7, 6, 7] (2, 3)) ⟨by decide, by decide⟩
    ⟨by show EdOn _ _ _; unfold EdOn; decide, by decide⟩ ?_
  intro v w hw h
  rw [h P13 [true, false, true] (by unfold pt; rw [hw 2 (by omega), hw 3 (by omega)]; decide)
    (by simp only [List.map]; rw [hw 7 (by omega), hw 6 (by omega)]; decide)]
  exact five13

end Verif.Props.Ecc
