import Verif.Circuit.GlvNum
import Verif.Props.Msm

/-!
# Specification of `glv_mul`
-/

set_option linter.unusedSectionVars false

namespace Verif.Props

open Verif.Circuit Verif.Props.Ecc

/-- `TableExact` as a rule for sequencing -/
theorem TableExact.tspec {p k : ℕ} {α β : Type} {m : Build p α} {dom : Circ p → Prop} {pre : (ℕ → ZMod p) → Prop}
    {out : (ℕ → ZMod p) → α → β} {rel : (ℕ → ZMod p) → β → Prop} {hon : (ℕ → ZMod p) → Prop}
    {res : (ℕ → ZMod p) → β → Prop} (h : TableExact k m dom pre out rel hon res) {c : Circ p} (hc : TWF k c)
    (hd : dom c) :
    TSpec k m c (pre c.val ∧ hon c.val) (fun _ _ => True) (fun v w => pre w → rel w (out w v)) := by
  constructor
  · intro v c' hm
    obtain ⟨a1, a2, a3, a4, a5, a6⟩ := h.wf c hc.wf hc.tables hc.room hd v c' hm
    obtain ⟨b1, b2, b3⟩ := h.frame c hc.wf hc.tables hc.room hd v c' hm
    exact ⟨⟨a1, a3, a4, a5, h.old c hc.wf hc.tables hc.room hd v c' hm, fun _ => a2, a6, b1, b2, b3⟩, trivial,
      fun pi w hs hp => h.sound hc.wf hc.tables hc.room hd hm hs hp⟩
  · rintro ⟨hp, hh⟩ pi hs
    obtain ⟨v, c', hm, hck⟩ :=
      ((h.honest c hc.wf hc.tables hc.room hd pi ((checkSat_ok hc.wf pi).2 hs) hp).1).2 hh
    exact ⟨v, c', hm, (checkSat_ok (h.wf c hc.wf hc.tables hc.room hd v c' hm).1 pi).1 hck⟩

end Verif.Props

namespace Verif.Props.Glv

open Verif.Circuit Verif.Circuit.Glv Verif.Props.Ecc Verif.Props.Msm Verif.Conv

variable {p : ℕ} [Fact p.Prime]

/-- the group element computed from the halves -/
noncomputable def comb {E : EdGroup (ZMod p)} (x : Wit p) (P Q : E.Pt) : E.Pt :=
  x.k1.val • P + x.k2.val • (if x.pos then -Q else Q)

theorem multiScalarMulCircuit_tspec {K : TE p} {E : EdGroup (ZMod p)} (ha : E.a = K.a) (hd : E.d = K.d)
    (hr : 16 ≤ K.r) (hp : 2 ^ 128 < p) {c : Circ p} (hc : TWF 2 c) {base endo : ℕ × ℕ} {s1 s2 sign : ℕ}
    (hb : PIn c base) (he : PIn c endo) (h1 : s1 < c.numVars) (h2 : s2 < c.numVars) (hs : sign < c.numVars) :
    TSpec 2 (multiScalarMulCircuit K base s1 endo s2 sign) c
      ((E.mem (pt c.val base) ∧ E.mem (pt c.val endo)) ∧ (c.val s1).val < 2 ^ 128 ∧ (c.val s2).val < 2 ^ 128 ∧
        (c.val sign = 0 ∨ c.val sign = 1))
      (fun v c' => PIn c' v)
      (fun v w => ∀ (P Q : E.Pt) (b : Bool), pt w base = P.1 → pt w endo = Q.1 → w sign = boolF b →
        pt w v = ((w s1).val • P + (w s2).val • (if b then -Q else Q)).1) := by
  unfold multiScalarMulCircuit
  have hw : windowBits 128 = 128 := by decide +kernel
  refine TSpec.bind0 (inversePoint_spec hc.wf endo) (fun _ _ _ => he) hc.wf ?_
  rintro neg c1 e1 ⟨hn1, hn2⟩
  have hneg : PIn c1 neg := ⟨hn1, by rw [hn2]; exact e1.lt he.2⟩
  refine TSpec.bind0 (binaryPointVarsSelect_spec e1.wf sign endo neg) ?_ e1.wf ?_
  · rintro ⟨⟨-, -, -, hg⟩, -⟩ - -
    refine ⟨⟨e1.lt hs, he.ext e1, hneg⟩, ?_⟩
    rw [e1.val _ hs]
    rcases hg with h | h
    · exact ⟨false, h⟩
    · exact ⟨true, h⟩
  rintro e c2 e2 hep
  have e02 := e1.trans e2
  have hT := C34_lookup_sound K E ha hd [base, e] [s1, s2] 128 (by norm_num) rfl (by simp)
    (by rw [show msmWindow 128 = 4 by decide +kernel]; exact hr) (by rw [hw]; exact hp)
  have hdom : LDom [base, e] [s1, s2] c2 := by
    refine ⟨⟨?_, ?_⟩, by rw [e02.ultra]; exact hc.ultra⟩
    · intro x hx
      simp only [List.mem_cons, List.not_mem_nil, or_false] at hx
      rcases hx with rfl | rfl
      · exact e02.lt h1
      · exact e02.lt h2
    · intro x hx
      simp only [List.mem_cons, List.not_mem_nil, or_false] at hx
      rcases hx with rfl | rfl
      · exact hb.ext e02
      · exact hep
  have hc2 : TWF 2 c2 := e02.text.twf (by simpa using hc)
  have hsp : TSpec 2 _ c2 _ (fun v c' => PIn c' v) _ :=
    ⟨fun v c' hm => ⟨((hT.tspec hc2 hdom).sound v c' hm).1,
      msm_lookup_in (bases := [base, e]) ⟨ha, hd⟩ (by norm_num) rfl (by simp) (lt_of_le_of_lt (by decide +kernel) hp)
        (by rw [show msmWindow 128 = 4 by decide +kernel]; exact hr) hc2 hdom hm,
      ((hT.tspec hc2 hdom).sound v c' hm).2.2⟩, (hT.tspec hc2 hdom).complete⟩
  refine TSpec.conseq e2.wf hsp ?_ (fun _ _ _ h => h) ?_
  · rintro ⟨⟨⟨⟨m1, m2⟩, v1, v2, hg⟩, q1⟩, q2⟩ - -
    have vb : pt c2.val base = pt c.val base := ptAt_ext e02 hb
    have ve : pt c2.val endo = pt c.val endo := ptAt_ext e02 he
    obtain ⟨P, hP⟩ : ∃ P : E.Pt, pt c2.val base = P.1 := ⟨⟨_, m1⟩, vb⟩
    obtain ⟨Q, hQ⟩ : ∃ Q : E.Pt, pt c2.val endo = Q.1 := ⟨⟨_, m2⟩, ve⟩
    have vn : ptAt c2.val neg = (-Q).1 := by
      rw [ptAt_ext e2 hneg, q1, E.neg_val, ← hQ]
      refine Prod.ext ?_ ?_
      · show -c1.val endo.1 = -c2.val endo.1
        rw [e2.val _ (e1.lt he.1)]
      · show c1.val endo.2 = c2.val endo.2
        rw [e2.val _ (e1.lt he.2)]
    refine ⟨?_, ?_⟩
    · intro x hx
      simp only [List.mem_cons, List.not_mem_nil, or_false] at hx
      rcases hx with rfl | rfl
      · rw [hP]; exact P.2
      · have hgb : ∃ b : Bool, c2.val sign = boolF b := by
          rw [e02.val _ hs]
          rcases hg with h | h
          · exact ⟨false, h⟩
          · exact ⟨true, h⟩
        obtain ⟨b, hb'⟩ := hgb
        have := q2 b hb'
        show E.mem (ptAt c2.val x)
        rw [this]
        split
        · rw [vn]; exact (-Q).2
        · show E.mem (pt c2.val endo)
          rw [hQ]; exact Q.2
    · intro x hx
      simp only [List.mem_cons, List.not_mem_nil, or_false] at hx
      rw [hw]
      rcases hx with rfl | rfl
      · rw [e02.val _ h1]; exact v1
      · rw [e02.val _ h2]; exact v2
  · rintro v w - - q3 q2 q1 P Q b hP hQ hbw
    have he' : pt w e = (if b then -Q else Q : E.Pt).1 := by
      have := q2 b hbw
      show ptAt w e = _
      rw [this, q1]
      cases b
      · exact hQ
      · simp only [if_true]
        rw [E.neg_val, ← hQ]; rfl
    obtain ⟨-, Ps, hPs, hS⟩ := q3 (by
      intro x hx
      simp only [List.mem_cons, List.not_mem_nil, or_false] at hx
      rcases hx with rfl | rfl
      · rw [hP]; exact P.2
      · rw [he']; exact (if b then -Q else Q : E.Pt).2)
    have hPs' : Ps = [P, if b then -Q else Q] := by
      rcases Ps with _ | ⟨A, _ | ⟨B, _ | ⟨C, Ds⟩⟩⟩
      · simp at hPs
      · simp at hPs
      · have h := hPs
        simp only [List.map_cons, List.map_nil, List.cons.injEq, and_true] at h
        have hA : A = P := Subtype.ext (by rw [← hP, ← h.1])
        have hB : B = if b then -Q else Q := Subtype.ext (by rw [← he', ← h.2])
        rw [hA, hB]
      · simp at hPs
    rw [hS, hPs']
    simp

/-- the specification of `glv_mul` -/
theorem glvFull_tspec {K : TE p} {E : EdGroup (ZMod p)} (ha : E.a = K.a) (hd : E.d = K.d)
    (hr : 16 ≤ K.r) (hp : 2 ^ 128 < p) (f : ZMod p → Except CErr (Wit p))
    (g : ZMod p × ZMod p → Except CErr (ZMod p × ZMod p)) {c : Circ p} (hc : TWF 2 c) (hR : RangeOK c)
    {s : ℕ} {base : ℕ × ℕ} (hs : s < c.numVars) (hb : PIn c base) :
    TSpec 2 (glvFull K f g s base) c
      (E.mem (pt c.val base) ∧ Good f (c.val s) ∧
        ∃ Q, g (pt c.val base) = .ok Q ∧ EndoEq (pt c.val base) Q ∧ E.mem Q)
      (fun v c' => f (c.val s) = .ok (witAt c'.val v.1) ∧ g (pt c.val base) = .ok (pt c'.val v.2.1) ∧ PIn c' v.2.2)
      (fun v w => DecOK (w s) (witAt w v.1) ∧ EndoEq (pt w base) (pt w v.2.1) ∧
        ∀ P Q : E.Pt, pt w base = P.1 → pt w v.2.1 = Q.1 → pt w v.2.2 = (comb (witAt w v.1) P Q).1) := by
  unfold glvFull
  refine TSpec.of_eq (v := ()) (by unfold checkVar; rw [if_neg (by omega)]) ?_
  refine TSpec.of_eq (v := ()) (by
    have h1 : ¬ c.numVars ≤ base.1 := by have := hb.1; omega
    have h2 : ¬ c.numVars ≤ base.2 := by have := hb.2; omega
    simp [checkPoint, bind_eq, checkVar, h1, h2]) ?_
  refine TSpec.bind0 (scalarFull_spec hc.wf hR (fun h => absurd h hc.ultra) hs f) (fun h _ _ => h.2.1) hc.wf ?_
  rintro v c1 e1 ⟨⟨g1, g2, g3⟩, g4, g5, g6, hf⟩
  have hb1 := hb.ext e1
  have vb1 : pt c1.val base = pt c.val base := ptAt_ext e1 hb
  refine TSpec.bind0 (endomorphismCircuit_spec e1.wf hb1 g) ?_ e1.wf ?_
  · rintro ⟨⟨-, -, Q, hQ, hQe, -⟩, -⟩ - -
    refine ⟨Q, ?_, ?_⟩
    · show g (pt c1.val base) = _
      rw [vb1]; exact hQ
    · show EndoEq (pt c1.val base) _
      rw [vb1]; exact hQe
  rintro endo c2 e2 ⟨hE, hg⟩
  have hg : g (pt c1.val base) = .ok (pt c2.val endo) := hg
  rw [vb1] at hg
  have e02 := e1.trans e2
  have vb2 : pt c2.val base = pt c.val base := ptAt_ext e02 hb
  have hc2 : TWF 2 c2 := e02.text.twf (by simpa using hc)
  refine TSpec.bind (k' := 0) (multiScalarMulCircuit_tspec ha hd hr hp hc2 (hb1.ext e2) hE (e2.lt g1) (e2.lt g2)
    (e2.lt g3)) ?_ e2.wf ?_
  · rintro ⟨⟨⟨m1, -, Q, hQ, -, hQm⟩, q1, q1'⟩, q2⟩ - -
    rw [hg] at hQ
    cases hQ
    refine ⟨⟨by rw [vb2]; exact m1, hQm⟩, ?_, ?_, ?_⟩
    · rw [e2.val _ g1]; exact q1'.1
    · rw [e2.val _ g2]; exact q1'.2.1
    · rw [e2.val _ g3]; exact q1
  rintro S c3 e3 hS
  refine TSpec.pure e3.wf ⟨?_, ?_, hS⟩ ?_
  · rw [hf]
    unfold witAt
    simp only []
    rw [e3.val _ (e2.lt g1), e3.val _ (e2.lt g2), e3.val _ (e2.lt g3), e3.val _ (e2.lt g4), e3.val _ (e2.lt g5),
      e3.val _ (e2.lt g6), e2.val _ g1, e2.val _ g2, e2.val _ g3, e2.val _ g4, e2.val _ g5, e2.val _ g6]
  · rw [hg]
    show _ = Except.ok (ptAt c3.val endo)
    rw [ptAt_text e3 hE]; rfl
  · rintro w - - q3 q2 ⟨q1, q1'⟩
    refine ⟨q1', q2, ?_⟩
    intro P Q hP hQ
    exact q3 P Q (asBit (w v.2.2.1)) hP hQ (boolF_asBit q1).symm

theorem glvMulOf_rel (K : TE p) (f f' : ZMod p → Except CErr (Wit p))
    (g g' : ZMod p × ZMod p → Except CErr (ZMod p × ZMod p)) (s : ℕ) (base : ℕ × ℕ) :
    Rel (glvMulOf K f g s base) (glvMulOf K f' g' s base) := by
  unfold glvMulOf multiScalarMulCircuit
  refine Rel.bind (Rel.checkVar _) fun _ => Rel.bind (checkPoint_rel _) fun _ =>
    Rel.bind (scalarDecompositionGate_rel _ _ _) fun v => Rel.bind (endomorphismCircuit_rel _ _ _) fun _ =>
    Rel.bind (inversePoint_rel _) fun _ => Rel.bind (binaryPointVarsSelect_rel _ _ _) fun e => ?_
  exact msmWithLength_rel K (by norm_num) rfl

end Verif.Props.Glv
