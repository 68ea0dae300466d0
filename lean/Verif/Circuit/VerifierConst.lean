import Verif.Circuit.VerifierPi

/-! # The constant term of the linearization polynomial in the verifier circuit -/

set_option linter.unusedSectionVars false

namespace Verif.Circuit.VerifierPoly

open Verif.Circuit Verif.Conv

variable {p : ℕ} [hp : Fact p.Prime] {Q : ℕ} [hQ : Fact Q.Prime] {I : Info p} {k : ℕ} {H : Prop}

/-- the product over the wires -/
def permVal (β γ : ZMod Q) (l : List (ZMod Q × ZMod Q)) : ZMod Q := (l.map fun x => x.1 + β * x.2 + γ).prod

/-- sums with stored values -/
def Sums (H : Prop) (Q : ℕ) (q : FpElem p) (l : List (FpElemVar p)) (c : Circ p) : Prop :=
  ∀ s ∈ l, ∃ z : ZMod Q, Hol H q z s c

theorem Sums.ext {q : FpElem p} {l : List (FpElemVar p)} {c c' : Circ p} (h : Sums H Q q l c) (e : Ext c c') :
    Sums H Q q l c' := fun s hs => by
  obtain ⟨z, hz⟩ := h s hs
  exact ⟨z, hz.ext e⟩

theorem Sums.cons {q : FpElem p} {l : List (FpElemVar p)} {c : Circ p} {x : FpElemVar p} {z : ZMod Q}
    (hx : Hol H q z x c) (h : Sums H Q q l c) : Sums H Q q (x :: l) c := by
  intro s hs
  rcases List.mem_cons.1 hs with rfl | hs
  · exact ⟨z, hx⟩
  · exact h s hs

theorem Sums.append {q : FpElem p} {l l' : List (FpElemVar p)} {c : Circ p} (h : Sums H Q q l c) (h' : Sums H Q q l' c) :
    Sums H Q q (l ++ l') c := by
  intro s hs
  rcases List.mem_append.1 hs with hs | hs
  · exact h s hs
  · exact h' s hs

theorem permLoop_spec (h : Par I Q k) {β γ : FpElemVar p} {b g : ZMod Q} (l : List (FpElemVar p × FpElemVar p)) :
    ∀ {c : Circ p} (_ : Ctx H k c) {vs : List (ZMod Q × ZMod Q)} {prod : FpElemVar p} {a : ZMod Q},
    Hol H I.mod b β c → Hol H I.mod g γ c → Hol H I.mod a prod c →
    List.Forall₂ (fun x z => Hol H I.mod z.1 x.1 c ∧ Hol H I.mod z.2 x.2 c) l vs →
    Spec (permLoop I.mod β γ l prod) c H
      (fun r c' => Hol H I.mod (a * permVal b g vs) r.1 c' ∧ Sums H Q I.mod r.2 c')
      (fun r w => β.Small I.mod w → γ.Small I.mod w → prod.Small I.mod w →
        (∀ x ∈ l, x.1.Small I.mod w ∧ x.2.Small I.mod w) → (∀ s ∈ r.2, s.Small I.mod w) →
        r.1.Small I.mod w ∧ El Q I.mod w r.1 = El Q I.mod w prod *
          permVal (El Q I.mod w β) (El Q I.mod w γ) (l.map fun x => (El Q I.mod w x.1, El Q I.mod w x.2))) := by
  induction l with
  | nil =>
    intro c hc vs prod a hβ hγ hp hl
    cases hl
    exact Spec.pure hc.wf ⟨by simpa [permVal] using hp, fun s hs => by simp at hs⟩ (fun w _ _ _ _ sp _ _ => ⟨sp, by simp [permVal]⟩)
  | cons x l ih =>
    intro c hc vs prod a hβ hγ hp hl
    obtain ⟨x, σ⟩ := x
    cases hl with
    | cons hx hl =>
    rename_i z vs
    obtain ⟨hx, hσ⟩ := hx
    rw [permLoop]
    refine hbind hc.wf (mul_spec h hc hβ hσ) ?_
    intro bs c1 e1 hbs
    have hc1 := hc.ext e1
    have h4 := two_pow_k h
    refine hbind e1.wf (addVec_spec h hc1 (xs := [x, bs, γ]) (as := [z.1, b * z.2, g])
      (List.Forall₂.cons (hx.ext e1) (List.Forall₂.cons hbs (List.Forall₂.cons (hγ.ext e1) List.Forall₂.nil)))
      (by simp only [List.length_cons, List.length_nil]; omega)) ?_
    intro sum c2 e2 hsum
    have hc2 := hc1.ext e2
    have e12 := e1.trans e2
    refine hbind e2.wf (mul_spec h hc2 (hp.ext e12) hsum) ?_
    intro pr c3 e3 hpr
    have hc3 := hc2.ext e3
    have e13 := e12.trans e3
    refine hbind e3.wf (ih hc3 (hβ.ext e13) (hγ.ext e13) hpr
      (hl.imp fun _ _ g => ⟨g.1.ext e13, g.2.ext e13⟩)) ?_
    rintro r c4 e4 ⟨hr, hrs⟩
    refine Spec.pure e4.wf ⟨?_, Sums.cons (hsum.ext (e3.trans e4)) hrs⟩ ?_
    · have : a * permVal b g (z :: vs) = a * [z.1, b * z.2, g].sum * permVal b g vs := by
        simp only [permVal, List.map_cons, List.prod_cons, List.sum_cons, List.sum_nil]; ring
      rw [this]
      exact hr
    · intro w _ _ q1 q2 q3 q4 sβ sγ sp sl ss
      obtain ⟨sx, sσ⟩ := sl (x, σ) (by simp)
      obtain ⟨s1, v1⟩ := q4 sβ sσ
      have ssum := ss sum (by simp)
      have v2 := (loose_sum h (xs := [x, bs, γ]) (by simp only [List.length_cons, List.length_nil]; omega)
        (by
          intro y hy
          simp only [List.mem_cons, List.not_mem_nil, or_false] at hy
          rcases hy with rfl | rfl | rfl
          exacts [sx, s1, sγ]) q3).el h ssum
      obtain ⟨s3, v3⟩ := q2 sp ssum
      obtain ⟨s4, v4⟩ := q1 sβ sγ s3 (fun y hy => sl y (by simp [hy])) (fun s hs => ss s (by simp [hs]))
      refine ⟨s4, ?_⟩
      rw [v4, v3, v2]
      simp only [permVal, List.map_cons, List.map_nil, List.prod_cons, List.sum_cons, List.sum_nil, v1]
      ring

/-- the evaluations of a proof -/
structure EvalsVal (Q : ℕ) where
  wires : List (ZMod Q)
  sigmas : List (ZMod Q)
  permNext : ZMod Q

/-- the evaluations an assignment gives -/
def EvalsVar.el (Q : ℕ) (q : FpElem p) (w : ℕ → ZMod p) (e : EvalsVar p) : EvalsVal Q :=
  ⟨e.wires.map (El Q q w), e.sigmas.map (El Q q w), El Q q w e.permNext⟩

def EvalsVar.Small (q : FpElem p) (w : ℕ → ZMod p) (e : EvalsVar p) : Prop :=
  (∀ x ∈ e.wires, x.Small q w) ∧ (∀ x ∈ e.sigmas, x.Small q w) ∧ e.permNext.Small q w

def HolE (H : Prop) (q : FpElem p) (a : EvalsVal Q) (e : EvalsVar p) (c : Circ p) : Prop :=
  List.Forall₂ (fun x z => Hol H q z x c) e.wires a.wires ∧ List.Forall₂ (fun x z => Hol H q z x c) e.sigmas a.sigmas ∧
    Hol H q a.permNext e.permNext c

theorem HolE.ext {q : FpElem p} {a : EvalsVal Q} {e : EvalsVar p} {c c' : Circ p} (h : HolE H q a e c) (x : Ext c c') :
    HolE H q a e c' :=
  ⟨h.1.imp fun _ _ g => g.ext x, h.2.1.imp fun _ _ g => g.ext x, h.2.2.ext x⟩

/-- the permutation term of an instance -/
def permTerm (α β γ : ZMod Q) (e : EvalsVal Q) : ZMod Q :=
  (e.wires.getD 4 0 + γ) * e.permNext * α * permVal β γ ((e.wires.take 4).zip e.sigmas)

/-- the wires and sigmas of an instance, as pairs -/
theorem zip_hol {q : FpElem p} {a : EvalsVal Q} {e : EvalsVar p} {c : Circ p} (h : HolE H q a e c) :
    List.Forall₂ (fun x z => Hol H q z.1 x.1 c ∧ Hol H q z.2 x.2 c) ((e.wires.take 4).zip e.sigmas)
      ((a.wires.take 4).zip a.sigmas) :=
  forall₂_zip (List.forall₂_take _ h.1) h.2.1

theorem getD_hol {q : FpElem p} {xs : List (FpElemVar p)} {as : List (ZMod Q)} {c : Circ p}
    (he : List.Forall₂ (fun x z => Hol H q z x c) xs as) (hw : 5 ≤ xs.length) {w4 : FpElemVar p}
    (hw4 : xs[4]? = some w4) : Hol H q (as.getD 4 0) w4 c := by
  have hlen := he.length_eq
  have hh := (List.forall₂_iff_get.1 he).2 4 (by omega) (by omega)
  have h1 : w4 = xs.get ⟨4, by omega⟩ := by
    rw [List.getElem?_eq_getElem (by omega)] at hw4
    exact (Option.some.inj hw4).symm
  have h2 : as.getD 4 0 = as.get ⟨4, by omega⟩ := by
    rw [List.getD_eq_getElem?_getD, List.getElem?_eq_getElem (by omega)]; rfl
  rw [h1, h2]
  exact hh

theorem one_hol (h : Par I Q k) {c : Circ p} (hc : Ctx H k c) : Hol H I.mod (1 : ZMod Q) (oneElem I) c := by
  haveI : Fact (1 < p) := ⟨hp.out.one_lt⟩
  have h1 : 1 < 2 ^ I.mod.m := by
    by_contra hcon
    have hm : I.mod.m = 0 := by
      by_contra hne
      exact hcon (Nat.one_lt_two_pow hne)
    have := h.q_lt
    rw [hm] at this
    have := hQ.out.one_lt
    omega
  refine ⟨⟨hc.wf.o, hc.wf.z⟩, ⟨h.m, by unfold oneElem; rw [h.tpm]; rfl⟩, fun hH => ?_⟩
  obtain ⟨z, o⟩ := hc.zo hH
  constructor
  · change (c.val 1).val = _
    rw [o, ZMod.val_one, val_one', Nat.mod_eq_of_lt h1]
  · change (c.val 0).val = _
    rw [z, ZMod.val_zero, val_one', Nat.div_eq_of_lt h1]

theorem one_el (h : Par I Q k) {w : ℕ → ZMod p} (hz : w 0 = 0) (ho : w 1 = 1) :
    (oneElem I).Small I.mod w ∧ El Q I.mod w (oneElem I) = 1 := by
  haveI : Fact (1 < p) := ⟨hp.out.one_lt⟩
  have h1 : 1 < 2 ^ I.mod.m := by
    by_contra hcon
    have hm : I.mod.m = 0 := by
      by_contra hne
      exact hcon (Nat.one_lt_two_pow hne)
    have := h.q_lt
    rw [hm] at this
    have := hQ.out.one_lt
    omega
  unfold FpElemVar.Small El FpElemVar.num oneElem
  simp only [hz, ho, ZMod.val_one, ZMod.val_zero]
  refine ⟨⟨h1, by omega⟩, by simp⟩

/-- `r_plonk_j` of `compute_lin_poly_constant_term_circuit` -/
theorem constInstance_spec (h : Par I Q k) {c : Circ p} (hc : Ctx H k c) {ch : ChalVar p} {α β γ : ZMod Q}
    (hα : Hol H I.mod α ch.α c) (hβ : Hol H I.mod β ch.β c) (hγ : Hol H I.mod γ ch.γ c)
    {e : EvalsVar p} {a : EvalsVal Q} (he : HolE H I.mod a e c) (hw : 5 ≤ e.wires.length)
    {pv l1a2 : FpElemVar p} {pz lz : ZMod Q} (hpv : Hol H I.mod pz pv c) (hl : Hol H I.mod lz l1a2 c) {pr lr : ZMod Q}
    (hpr : H → pr = pz) (hlr : H → lr = lz) :
    Spec (constInstance I ch e pv l1a2 pr lr) c H
      (fun r c' => Hol H I.mod (pz - lz - permTerm α β γ a) r.1 c' ∧ Sums H Q I.mod r.2 c')
      (fun r w => ch.α.Small I.mod w → ch.β.Small I.mod w → ch.γ.Small I.mod w →
        e.Small I.mod w → l1a2.Small I.mod w → (∀ s ∈ r.2, s.Small I.mod w) → ∀ V, Loose I Q k w pv V →
        r.1.Small I.mod w ∧ El Q I.mod w r.1 = V - El Q I.mod w l1a2 -
          permTerm (El Q I.mod w ch.α) (El Q I.mod w ch.β) (El Q I.mod w ch.γ) (e.el Q I.mod w)) := by
  have h4 := two_pow_k h
  obtain ⟨w4, hw4⟩ : ∃ w4, e.wires[4]? = some w4 := ⟨e.wires[4], List.getElem?_eq_getElem (by omega)⟩
  have hw4' := getD_hol he.1 hw hw4
  unfold constInstance
  rw [hw4]
  simp only
  refine hbind hc.wf (permLoop_spec h _ hc hβ hγ (one_hol h hc) (zip_hol he)) ?_
  rintro r c1 e1 ⟨hr, hrs⟩
  have hc1 := hc.ext e1
  refine hbind e1.wf (add_spec h hc1 (hw4'.ext e1) (hγ.ext e1)) ?_
  intro s c2 e2 hs
  have hc2 := hc1.ext e2
  have e12 := e1.trans e2
  refine hbind e2.wf (mul_spec h hc2 hs (he.2.2.ext e12)) ?_
  intro t1 c3 e3 ht1
  have hc3 := hc2.ext e3
  have e13 := e12.trans e3
  refine hbind e3.wf (mul_spec h hc3 ht1 (hα.ext e13)) ?_
  intro t2 c4 e4 ht2
  have hc4 := hc3.ext e4
  have e14 := e13.trans e4
  refine hbind e4.wf (mul_spec h hc4 ht2 (hr.ext (e2.trans (e3.trans e4)))) ?_
  intro t3 c5 e5 ht3
  have hc5 := hc4.ext e5
  have e15 := e14.trans e5
  have hval : (a.wires.getD 4 0 + γ) * a.permNext * α * (1 * permVal β γ ((a.wires.take 4).zip a.sigmas)) =
      permTerm α β γ a := by unfold permTerm; ring
  rw [hval] at ht3
  refine read_bind h ht3 ?_
  intro tr htr
  refine hbind e5.wf (newElem_spec h hc5 (a := pz - lz - permTerm α β γ a)
    (fun hH => by rw [hpr hH, hlr hH, htr hH])) ?_
  intro rv c6 e6 hrv
  have hc6 := hc5.ext e6
  have e16 := e15.trans e6
  refine hbind e6.wf (add_spec h hc6 hrv (hl.ext e16)) ?_
  intro left c7 e7 hleft
  have hc7 := hc6.ext e7
  refine hbind e7.wf (add_spec h hc7 hleft (ht3.ext (e6.trans e7))) ?_
  intro left2 c8 e8 hleft2
  have hc8 := hc7.ext e8
  refine hbind e8.wf (eq_spec hc8 hleft2 (hpv.ext (e16.trans (e7.trans e8))) (fun _ => by ring)) ?_
  intro _ c9 e9 _
  have e3' := e3.trans (e4.trans (e5.trans (e6.trans (e7.trans (e8.trans e9)))))
  refine Spec.pure e9.wf ⟨hrv.ext (e7.trans (e8.trans e9)), Sums.cons (hs.ext e3') (hrs.ext (e2.trans e3'))⟩ ?_
  intro w hz ho q1 q2 q3 q4 q5 q6 q7 q8 q9 sα sβ sγ se sl ss V hV
  obtain ⟨sone, vone⟩ := one_el (Q := Q) h hz ho
  have hm4 : w4 ∈ e.wires := List.mem_of_getElem? hw4
  have hv4 : (e.el Q I.mod w).wires.getD 4 0 = El Q I.mod w w4 := by
    unfold EvalsVar.el
    rw [List.getD_eq_getElem?_getD, List.getElem?_map, hw4]; rfl
  obtain ⟨s1, v1⟩ := q9 sβ sγ sone (fun x hx => by
    obtain ⟨m1, m2⟩ := List.of_mem_zip (show (x.1, x.2) ∈ _ from hx)
    exact ⟨se.1 _ (List.mem_of_mem_take m1), se.2.1 _ m2⟩) (fun y hy => ss y (by simp [hy]))
  have ssum := ss s (by simp)
  obtain ⟨d, hd, hh⟩ := q8
  have v2 := (loose_sum h (xs := [w4, ch.γ]) (v := s) (by simp only [List.length_cons, List.length_nil]; omega)
    (by
      intro y hy
      simp only [List.mem_cons, List.not_mem_nil, or_false] at hy
      rcases hy with rfl | rfl
      exacts [se.1 _ hm4, sγ]) ⟨d, hd, by simpa using hh⟩).el h ssum
  obtain ⟨s3, v3⟩ := q7 ssum se.2.2
  obtain ⟨s4, v4⟩ := q6 s3 sα
  obtain ⟨s5, v5⟩ := q5 s4 s1
  refine ⟨q4, ?_⟩
  have hzip : ((e.wires.take 4).zip e.sigmas).map (fun x => (El Q I.mod w x.1, El Q I.mod w x.2)) =
      ((e.el Q I.mod w).wires.take 4).zip (e.el Q I.mod w).sigmas := by
    unfold EvalsVar.el
    simp only [← List.map_take]
    rw [List.zip_map]
    rfl
  rw [hzip, vone, one_mul] at v1
  have v6 : El Q I.mod w t3 = permTerm (El Q I.mod w ch.α) (El Q I.mod w ch.β) (El Q I.mod w ch.γ) (e.el Q I.mod w) := by
    unfold permTerm
    rw [v5, v4, v3, v2, v1, hv4]
    simp only [List.map_cons, List.map_nil, List.sum_cons, List.sum_nil, add_zero]
    rfl
  rw [← v6]
  obtain ⟨d1, hd1, hh1⟩ := q3
  obtain ⟨d2, hd2, hh2⟩ := q2
  obtain ⟨d3, hd3, V', hV', hh3, hh4⟩ := hV
  rw [num_congr q1] at hh2
  have l1 := num_lt q4
  have l2 := num_lt sl
  have l3 := num_lt s5
  have key := sum_eq h (A := rv.num I.mod w + l1a2.num I.mod w + t3.num I.mod w) (B := V') (d := d3) (e := d1 + d2)
    (by nlinarith) hV' (by omega) (by omega) (by
      push_cast at hh1 hh2 hh3 ⊢
      linear_combination hh3 - hh1 - hh2)
  rw [← hh4, ← key]
  unfold El
  push_cast
  ring

/-- the terms of the sum over the instances -/
def constTerms (r : EvalsVal Q → ZMod Q) (es : List (EvalsVal Q)) (bs : List (ZMod Q)) : List (ZMod Q) :=
  List.zipWith (fun b e => b * r e) bs es

theorem constLoop_spec (h : Par I Q k) {ch : ChalVar p} {α β γ : ZMod Q} {pv l1a2 : FpElemVar p} {pz lz : ZMod Q}
    {pr lr : ZMod Q} (hpr : H → pr = pz) (hlr : H → lr = lz) (es : List (EvalsVar p)) :
    ∀ {c : Circ p} (_ : Ctx H k c) (bases : List (FpElemVar p)) (as : List (EvalsVal Q)) (bs : List (ZMod Q)),
    Hol H I.mod α ch.α c → Hol H I.mod β ch.β c → Hol H I.mod γ ch.γ c → Hol H I.mod pz pv c → Hol H I.mod lz l1a2 c →
    List.Forall₂ (fun e a => HolE H I.mod a e c) es as → (∀ e ∈ es, 5 ≤ e.wires.length) →
    List.Forall₂ (fun x z => Hol H I.mod z x c) bases bs → (H → es.length = bases.length) →
    Spec (constLoop I ch pv l1a2 pr lr es bases) c H
      (fun r c' => r.1.length = es.length ∧ bases.length = es.length ∧
        List.Forall₂ (fun x z => Hol H I.mod z x c') r.1
        (constTerms (fun a => pz - lz - permTerm α β γ a) as bs) ∧ Sums H Q I.mod r.2 c')
      (fun r w => ch.α.Small I.mod w → ch.β.Small I.mod w → ch.γ.Small I.mod w →
        (∀ e ∈ es, e.Small I.mod w) → (∀ b ∈ bases, b.Small I.mod w) → l1a2.Small I.mod w →
        (∀ s ∈ r.2, s.Small I.mod w) → ∀ V, Loose I Q k w pv V →
        (∀ x ∈ r.1, x.Small I.mod w) ∧ r.1.map (El Q I.mod w) =
          constTerms (fun a => V - El Q I.mod w l1a2 - permTerm (El Q I.mod w ch.α) (El Q I.mod w ch.β)
            (El Q I.mod w ch.γ) a) (es.map (EvalsVar.el Q I.mod w)) (bases.map (El Q I.mod w))) := by
  induction es with
  | nil =>
    intro c hc bases as bs hα hβ hγ hpv hl he hw hb hlen
    cases he
    cases hb with
    | nil => exact Spec.pure hc.wf ⟨rfl, rfl, by simp [constTerms], fun s hs => by simp at hs⟩ (fun w _ _ _ _ _ _ _ _ _ _ _ => by simp [constTerms])
    | cons h1 h2 =>
      rw [constLoop]
      exact Spec.fail (fun hH => by have := hlen hH; simp at this)
  | cons e es ih =>
    intro c hc bases as bs hα hβ hγ hpv hl he hw hb hlen
    cases he with
    | cons he1 he2 =>
    rename_i a as
    rw [constLoop]
    refine hbind hc.wf (constInstance_spec h hc hα hβ hγ he1 (hw e (by simp)) hpv hl hpr hlr) ?_
    rintro r c1 e1 ⟨hr, hrs⟩
    have hc1 := hc.ext e1
    cases hb with
    | nil => exact Spec.fail (fun hH => by have := hlen hH; simp at this)
    | cons h1 h2 =>
    rename_i b z bases bs
    simp only
    refine hbind e1.wf (mul_spec h hc1 (h1.ext e1) hr) ?_
    intro t c2 e2 ht
    have hc2 := hc1.ext e2
    have e12 := e1.trans e2
    refine hbind e2.wf (ih hc2 bases as bs (hα.ext e12) (hβ.ext e12) (hγ.ext e12) (hpv.ext e12) (hl.ext e12)
      (he2.imp fun _ _ g => g.ext e12) (fun e' he' => hw e' (by simp [he'])) (h2.imp fun _ _ g => g.ext e12)
      (fun hH => by have := hlen hH; simpa using this)) ?_
    intro rest c3 e3 hrest
    refine Spec.pure e3.wf ⟨by simp [hrest.1], by simp [hrest.2.1], List.Forall₂.cons (ht.ext e3) hrest.2.2.1,
      (hrs.ext (e2.trans e3)).append hrest.2.2.2⟩ ?_
    intro w _ _ q1 q2 q3 sα sβ sγ se sb sl ss V hV
    obtain ⟨s1, v1⟩ := q3 sα sβ sγ (se e (by simp)) sl (fun y hy => ss y (by simp [hy])) V hV
    obtain ⟨s2, v2⟩ := q2 (sb b (by simp)) s1
    obtain ⟨s3, v3⟩ := q1 sα sβ sγ (fun y hy => se y (by simp [hy])) (fun y hy => sb y (by simp [hy])) sl
      (fun y hy => ss y (by simp [hy])) V hV
    refine ⟨?_, ?_⟩
    · intro x hx
      rcases List.mem_cons.1 hx with rfl | hx
      · exact s2
      · exact s3 x hx
    · simp only [List.map_cons, constTerms, List.zipWith_cons_cons, v2, v1, v3]

/-- `compute_lin_poly_constant_term_circuit` -/
theorem linConst_spec (h : Par I Q k) {n : ℕ} (hn0 : (n : ZMod Q) ≠ 0) (g : ZMod Q) {pis : List (FpElemVar p)}
    {ps : List (ZMod Q)} (hl : pis.length ≤ 2 ^ k) (hln : pis.length / 2 ≤ n)
    {c : Circ p} (hc : Ctx H k c) {ch : ChalVar p} {α α2 β γ ζ : ZMod Q} {van l1 : FpElemVar p} {b l : ZMod Q}
    (hα : Hol H I.mod α ch.α c) (hα2 : Hol H I.mod α2 ch.α2 c) (hβ : Hol H I.mod β ch.β c) (hγ : Hol H I.mod γ ch.γ c)
    (hζ : Hol H I.mod ζ ch.ζ c) (hv : Hol H I.mod b van c) (hl1 : Hol H I.mod l l1 c)
    (hpi : List.Forall₂ (fun v z => Hol H I.mod z v c) pis ps)
    (hg : H → ∀ i ∈ piIdx n (pis.length / 2), ζ ≠ g ^ i)
    {es : List (EvalsVar p)} {as : List (EvalsVal Q)} {bases : List (FpElemVar p)} {bs : List (ZMod Q)}
    (he : List.Forall₂ (fun e a => HolE H I.mod a e c) es as) (hw : ∀ e ∈ es, 5 ≤ e.wires.length)
    (hb : List.Forall₂ (fun x z => Hol H I.mod z x c) bases bs) (hlen : H → es.length = bases.length)
    (hel : es.length ≤ 2 ^ k) {nk np nb : ℕ} (hnk : H → nk = nb ∧ nk = np ∧ np ≠ 0) :
    Spec (linConst I n g ch nk np nb pis es van l1 bases) c H
      (fun r c' => Hol H I.mod (constTerms (fun a => (prods (piPairs ((piIdx n (pis.length / 2)).map (lagVal n g ζ b)) ps)).sum -
        l * α2 - permTerm α β γ a) as bs).sum r.1 c' ∧ Sums H Q I.mod r.2 c')
      (fun r w => ch.α.Small I.mod w → ch.α2.Small I.mod w → ch.β.Small I.mod w → ch.γ.Small I.mod w →
        ch.ζ.Small I.mod w → van.Small I.mod w → l1.Small I.mod w → (∀ x ∈ pis, x.Small I.mod w) →
        (∀ e ∈ es, e.Small I.mod w) → (∀ b ∈ bases, b.Small I.mod w) → (∀ s ∈ r.2, s.Small I.mod w) →
        ∃ V, PiRel n g (El Q I.mod w ch.ζ) (El Q I.mod w van) (pis.map (El Q I.mod w)) V ∧
          Loose I Q k w r.1 (constTerms (fun a => V - El Q I.mod w l1 * El Q I.mod w ch.α2 - permTerm (El Q I.mod w ch.α)
            (El Q I.mod w ch.β) (El Q I.mod w ch.γ) a) (es.map (EvalsVar.el Q I.mod w)) (bases.map (El Q I.mod w))).sum) := by
  unfold linConst
  split
  · rename_i hne
    refine Spec.fail (fun hH => ?_)
    obtain ⟨g1, g2, _⟩ := hnk hH
    rcases hne with g | g
    · exact g g1
    · exact g g2
  split
  · rename_i hne
    exact Spec.fail (fun hH => (hnk hH).2.2 hne)
  refine hbind hc.wf (evalPi_spec h hn0 g hl hln hc hζ hv hpi hg) ?_
  intro pv c1 e1 hpv
  have hc1 := hc.ext e1
  refine read_bind h hpv ?_
  intro pr hpr
  refine hbind e1.wf (mul_spec h hc1 (hl1.ext e1) (hα2.ext e1)) ?_
  intro l1a2 c2 e2 hla
  have hc2 := hc1.ext e2
  have e12 := e1.trans e2
  refine read_bind h hla ?_
  intro lr hlr
  refine hbind e2.wf (constLoop_spec h hpr hlr es hc2 bases as bs (hα.ext e12) (hβ.ext e12) (hγ.ext e12) (hpv.ext e2) hla
    (he.imp fun _ _ g => g.ext e12) hw (hb.imp fun _ _ g => g.ext e12) hlen) ?_
  intro cs c3 e3 hcs
  have hc3 := hc2.ext e3
  obtain ⟨hcl, _, hcs, hss⟩ := hcs
  refine hbind e3.wf (addVec_spec h hc3 hcs (by rw [← hcs.length_eq, hcl]; exact hel)) ?_
  intro r c4 e4 hr
  refine Spec.pure e4.wf ⟨hr, hss.ext e4⟩ ?_
  intro w _ _ q1 q2 q3 q4 sα sα2 sβ sγ sζ sv sl1 sp se sb ss
  obtain ⟨V, hV, hL⟩ := q4 sζ sv sp
  obtain ⟨s1, v1⟩ := q3 sl1 sα2
  obtain ⟨s2, v2⟩ := q2 sα sβ sγ se sb s1 ss V hL
  refine ⟨V, hV, ?_⟩
  have := loose_sum h (by rw [hcl]; exact hel) s2 q1
  rw [v2, v1] at this
  exact this

end Verif.Circuit.VerifierPoly
