import Verif.Circuit.VerifierAggSpec
import Verif.Circuit.VerifierEval

/-!
# Evaluations and commitments of the verifier circuit

`Acc`: the builder stores a number that stands for `a` and is at most `Q` (`mod_negate` of `0` stores `Q`). `Lin`: in an
assignment the element plus a bounded number is a bounded number of the right class, without assuming that its limbs are in
range.
-/

set_option linter.unusedSectionVars false

namespace Verif.Circuit.VerifierAgg

open Verif.Circuit Verif.Circuit.VerifierPoly Verif.Circuit.TranscriptVar Verif.Conv

variable {p : ℕ} [hp : Fact p.Prime] {Q : ℕ} [hQ : Fact Q.Prime] {I : Info p} {k : ℕ} {H : Prop}

def Acc (H : Prop) (q : FpElem p) (a : ZMod Q) (x : FpElemVar p) (c : Circ p) : Prop :=
  x.In c ∧ x.Match q ∧ (H → ∃ A ≤ Q, x.felt c.val = ((A : ℕ) : ZMod p) ∧ ((A : ℕ) : ZMod Q) = a)

theorem Acc.ext {q : FpElem p} {a : ZMod Q} {x : FpElemVar p} {c c' : Circ p} (h : Acc H q a x c) (e : Ext c c') :
    Acc H q a x c' := ⟨h.1.ext e, h.2.1, fun hH => by rw [FpElemVar.felt_ext h.1 e]; exact h.2.2 hH⟩

theorem acc_of_hol (h : Par I Q k) {a : ZMod Q} {x : FpElemVar p} {c : Circ p} (hx : Hol H I.mod a x c) :
    Acc H I.mod a x c :=
  ⟨hx.1, hx.2.1, fun hH => ⟨a.val, (ZMod.val_lt a).le, St.felt h hx.2.1 (hx.2.2 hH), by rw [ZMod.natCast_val, ZMod.cast_id]⟩⟩

/-- see the file header -/
def Lin (I : Info p) (Q k N : ℕ) (w : ℕ → ZMod p) (a : ZMod Q) (x : FpElemVar p) : Prop :=
  ∃ A ≤ N * (2 ^ k * 2 ^ (2 * I.mod.m)), ∃ B ≤ N * (2 ^ k * 2 ^ (2 * I.mod.m)),
    w x.v0 + I.mod.tpm * w x.v1 + ((A : ℕ) : ZMod p) = ((B : ℕ) : ZMod p) ∧ ((B : ℕ) : ZMod Q) = a + ((A : ℕ) : ZMod Q)

theorem accAdd_spec (h : Par I Q k) {c : Circ p} (hc : Ctx H k c) {x y : FpElemVar p} {a b : ZMod Q}
    (hx : Acc H I.mod a x c) (hy : Hol H I.mod b y c) :
    Spec (modAdd x y I.mod) c H (fun v c' => Acc H I.mod (a + b) v c')
      (fun v w => ∀ (a b : ZMod Q) (N : ℕ), Lin I Q k N w a x → Ew I.mod w b y → Lin I Q k (N + 1) w (a + b) v) := by
  have hb := ZMod.val_lt b
  have hqp : Q * 2 ^ k < p := by
    have := h.mul.pow_lt
    rw [pow_add] at this
    exact (Nat.mul_le_mul_right _ h.q_lt.le).trans_lt this
  have h4 := two_pow_k h
  have key : H → ∃ A ≤ Q, (x.felt c.val + y.felt c.val).val = A + b.val ∧ ((A : ℕ) : ZMod Q) = a := fun hH => by
    obtain ⟨A, hA, e1, e2⟩ := hx.2.2 hH
    have hsum : A + b.val < p := by nlinarith
    refine ⟨A, hA, ?_, e2⟩
    rw [e1, St.felt h hy.2.1 (hy.2.2 hH), ← Nat.cast_add, ZMod.val_natCast_of_lt hsum]
  refine Spec.conseq hc.wf (modAdd_spec hc.wf hc.rng hc.ultra x y hx.1 hy.1 I.mod hx.2.1 hy.2.1 h.add) ?_ ?_ ?_
  · intro hH _ _
    obtain ⟨A, hA, e1, _⟩ := key hH
    rw [e1, h.fieldElem_val]
    refine Nat.div_lt_of_lt_mul ?_
    nlinarith
  · rintro v c' e ⟨g1, g2, g3, g4, -⟩
    refine acc_of_hol h ⟨g1, ⟨g2, g3⟩, fun hH => ?_⟩
    obtain ⟨A, hA, e1, e2⟩ := key hH
    refine addOut_st h ?_ g4
    rw [e1]
    push_cast
    rw [e2, ZMod.natCast_val, ZMod.cast_id]
  · rintro v w _ _ ⟨z, g1, g2⟩ a b N ⟨A, hA, B, hB, e1, e2⟩ ⟨sy, ey⟩
    have hny := num_lt sy
    have hq := h.q_lt
    have ez : ((z.val : ℕ) : ZMod p) = z := by rw [ZMod.natCast_val, ZMod.cast_id]
    refine ⟨A + z.val * Q, ?_, B + y.num I.mod w, ?_, ?_, ?_⟩
    · have : z.val * Q ≤ 2 ^ k * 2 ^ (2 * I.mod.m) := Nat.mul_le_mul g1.le hq.le
      rw [add_mul, one_mul]; omega
    · have : y.num I.mod w ≤ 2 ^ k * 2 ^ (2 * I.mod.m) := by nlinarith
      rw [add_mul, one_mul]; omega
    · have ev : x.felt w = w x.v0 + I.mod.tpm * w x.v1 := by rw [← hx.2.1.2]; rfl
      rw [felt_num h hy.2.1, h.fieldElem, ev] at g2
      push_cast
      rw [g2, ez, ← e1]
      ring
    · push_cast
      rw [e2, CharP.cast_eq_zero (ZMod Q) Q]
      unfold El at ey
      rw [ey]
      ring

theorem negate_spec (h : Par I Q k) (hF : I.modF = ((Q : ℕ) : ZMod p)) {c : Circ p} (hc : Ctx H k c) {x : FpElemVar p}
    {a : ZMod Q} (hx : Hol H I.mod a x c) :
    Spec (modNegate x I.modF) c H (fun v c' => Acc H I.mod (-a) v c')
      (fun v w => ∀ a : ZMod Q, Loose I Q k w x a → Lin I Q k 1 w (-a) v) := by
  have hFv : I.modF.val = Q := by rw [hF, ZMod.val_natCast_of_lt h.q_lt_p]
  have ha := ZMod.val_lt a
  have hm : x.tpm.val = 2 ^ I.mod.m := by rw [hx.2.1.2, h.mul.tpm_val]
  have hst : H → (c.val x.v0).val + x.tpm.val * (c.val x.v1).val = a.val := fun hH => by
    rw [hm]
    exact (hx.2.2 hH).num
  obtain ⟨k0, k1, k2⟩ := hc.rng k hc.ultra
  refine Spec.conseq hc.wf (modNegate_spec hc.wf hc.ultra (by omega) x hx.1 I.modF
    (by rw [hx.2.1.1]; exact h.mul.dvd) (by rw [hx.2.1.1]; exact h.mul.half) (by rw [hm]; positivity)) ?_ ?_ ?_
  · intro hH _ _
    rw [hst hH, hFv]
    exact ha
  · rintro v c' e ⟨g1, g2, g3, -, g4, g5⟩
    refine ⟨g1, ⟨g2.trans hx.2.1.1, g3.trans hx.2.1.2⟩, fun hH => ⟨Q - a.val, Nat.sub_le _ _, ?_, ?_⟩⟩
    · rw [hst hH, hFv] at g4 g5
      unfold FpElemVar.felt
      rw [g4, g5, g3]
      have ht : x.tpm = ((x.tpm.val : ℕ) : ZMod p) := by rw [ZMod.natCast_val, ZMod.cast_id]
      conv_lhs => rw [ht]
      rw [ZMod.val_natCast_of_lt (ZMod.val_lt _), ← Nat.cast_mul, ← Nat.cast_add, Nat.mod_add_div]
    · rw [Nat.cast_sub ha.le, CharP.cast_eq_zero (ZMod Q) Q, ZMod.natCast_val, ZMod.cast_id, zero_sub]
  · rintro v w _ _ g a ⟨d, hd, V, hV, e1, e2⟩
    have hq := h.q_lt
    refine ⟨V, by omega, (d + 1) * Q, ?_, ?_, ?_⟩
    · rw [one_mul]
      exact Nat.mul_le_mul hd hq.le
    · rw [felt_num h hx.2.1, hx.2.1.2, hF] at g
      rw [g, ← e1]
      push_cast
      ring
    · push_cast
      rw [e2, CharP.cast_eq_zero (ZMod Q) Q]
      ring

/-- the sum of the products -/
def dot (bs es : List (ZMod Q)) : ZMod Q := (List.zipWith (fun b e => b * e) bs es).sum

theorem addEvals_spec (h : Par I Q k) (es : List (FpElemVar p)) :
    ∀ {c : Circ p} (_ : Ctx H k c) {bs : List (FpElemVar p)} {ev bv : List (ZMod Q)} {r : FpElemVar p} {a : ZMod Q},
    List.Forall₂ (fun x z => Hol H I.mod z x c) es ev → List.Forall₂ (fun x z => Hol H I.mod z x c) bs bv →
    Acc H I.mod a r c → (H → es.length = bs.length) →
    Spec (addEvals I.mod es bs r) c H (fun v c' => Acc H I.mod (a + dot bv ev) v c')
      (fun v w => ∀ (ev bv : List (ZMod Q)) (a : ZMod Q) (N : ℕ), List.Forall₂ (fun x z => Ew I.mod w z x) es ev →
        List.Forall₂ (fun x z => Ew I.mod w z x) bs bv → Lin I Q k N w a r →
        es.length = bs.length ∧ Lin I Q k (N + es.length) w (a + dot bv ev) v) := by
  induction es with
  | nil =>
    intro c hc bs ev bv r a he hb hr hl
    cases he
    cases hb with
    | nil =>
      refine Spec.pure hc.wf (by simpa [dot] using hr) ?_
      intro w _ _ ev bv a N h1 h2 h3
      cases h1
      cases h2
      exact ⟨rfl, by simpa [dot] using h3⟩
    | cons _ _ => exact Spec.fail fun hH => by simpa using hl hH
  | cons e es ih =>
    intro c hc bs ev bv r a he hb hr hl
    cases he with
    | cons he hes =>
    cases hb with
    | nil => exact Spec.fail fun hH => by simpa using hl hH
    | cons hb hbs =>
    rename_i e' ev b bs b' bv
    rw [addEvals]
    refine hbind hc.wf (mul_ew h hc hb he) ?_
    intro t c1 e1 ht
    have hc1 := hc.ext e1
    refine hbind e1.wf (accAdd_spec h hc1 (hr.ext e1) ht) ?_
    intro r' c2 e2 hr'
    have hc2 := hc1.ext e2
    have x2 := e1.trans e2
    have ee : ∀ (a b e : ZMod Q) (bv ev : List (ZMod Q)), a + dot (b :: bv) (e :: ev) = a + b * e + dot bv ev := by
      intro a b e bv ev
      simp only [dot, List.zipWith_cons_cons, List.sum_cons]
      ring
    refine Spec.conseq e2.wf (ih hc2 (hes.imp fun _ _ g => g.ext x2) (hbs.imp fun _ _ g => g.ext x2) hr'
      (fun hH => by simpa using hl hH)) (fun h _ _ => h) ?_ ?_
    · intro v c' _ hv
      rw [ee]
      exact hv
    · intro v w _ _ q1 q2 q3 ev bv a N k1 k2 k3
      cases k1 with
      | cons k1 k1s =>
      cases k2 with
      | cons k2 k2s =>
      obtain ⟨g1, g2⟩ := q1 _ _ _ _ k1s k2s (q2 _ _ _ k3 (q3 _ _ k2 k1))
      refine ⟨by simp [g1], ?_⟩
      rw [ee, List.length_cons, show N + (es.length + 1) = N + 1 + es.length by ring]
      exact g2

/-- the evaluations in the order of the loop -/
def flatVals (as : List (EvalsVal Q)) : List (ZMod Q) := as.flatMap fun e => e.wires ++ e.sigmas ++ [e.permNext]

theorem flat_rel {R : FpElemVar p → ZMod Q → Prop} {es : List (EvalsVar p)} {as : List (EvalsVal Q)}
    (h : List.Forall₂ (fun e a => List.Forall₂ R e.wires a.wires ∧ List.Forall₂ R e.sigmas a.sigmas ∧ R e.permNext a.permNext)
      es as) : List.Forall₂ R (flatEvals es) (flatVals as) := by
  induction h with
  | nil => exact List.Forall₂.nil
  | cons h1 _ ih =>
    simp only [flatEvals, flatVals, List.flatMap_cons]
    exact List.rel_append (List.rel_append (List.rel_append h1.1 h1.2.1) (.cons h1.2.2 .nil)) ih

theorem aggEvals_spec (h : Par I Q k) (hF : I.modF = ((Q : ℕ) : ZMod p)) {c : Circ p} (hc : Ctx H k c) {x : FpElemVar p}
    {C : ZMod Q} {es : List (EvalsVar p)} {as : List (EvalsVal Q)} {buf : List (FpElemVar p)} {bv : List (ZMod Q)}
    (hx : Hol H I.mod C x c) (he : List.Forall₂ (fun e a => HolE H I.mod a e c) es as)
    (hb : List.Forall₂ (fun x z => Hol H I.mod z x c) buf bv) (hl : H → (flatEvals es).length = buf.length) :
    Spec (aggEvals I x es buf) c H (fun v c' => Acc H I.mod (-C + dot bv (flatVals as)) v c')
      (fun v w => ∀ (C : ZMod Q) (as : List (EvalsVal Q)) (bv : List (ZMod Q)), Loose I Q k w x C →
        List.Forall₂ (fun e a => EvalsW I.mod w a e) es as → List.Forall₂ (fun x z => Ew I.mod w z x) buf bv →
        (flatEvals es).length = buf.length ∧
          Lin I Q k (1 + (flatEvals es).length) w (-C + dot bv (flatVals as)) v) := by
  unfold aggEvals
  refine hbind hc.wf (negate_spec h hF hc hx) ?_
  intro r c1 e1 hr
  have hc1 := hc.ext e1
  refine Spec.conseq e1.wf (addEvals_spec h _ hc1 (flat_rel (he.imp fun _ _ g => g.ext e1)) (hb.imp fun _ _ g => g.ext e1)
    hr hl) (fun h _ _ => h) (fun _ _ _ h => h) ?_
  intro v w _ _ q1 q2 C as bv k1 k2 k3
  exact q1 _ _ _ _ (flat_rel (k2.imp fun _ _ g => ⟨g.wires, g.sigmas, g.permNext⟩)) k3 (q2 _ k1)

section

variable {G : Type} [AddCommGroup G] {te : G → ZMod p × ZMod p}

theorem aggComms_spec (hte : ∀ g, te (-g) = negPt (te g)) (h : Par I Q k) {c : Circ p} (hc : Ctx H k c) {ch : ChalVar p}
    {y : Six (ZMod Q)} {ev : FpElemVar p × FpElemVar p × FpElemVar p} {zn van l1 : ZMod Q} {vks : List (VkVar Q)}
    {b : ProofVar p} {bases : List (FpElemVar p)} {Xs : List (InstVal Q G)} {bs : List (ZMod Q)} {gs : List G}
    (hch : ChalHol H I.mod y ch c) (hzn : Hol H I.mod zn ev.1 c) (hvan : Hol H I.mod van ev.2.1 c)
    (hl1 : Hol H I.mod l1 ev.2.2 c) (hb : List.Forall₂ (fun x z => Hol H I.mod z x c) bases bs)
    (hX : List.Forall₂ (fun x X => HolI H te I.mod X x c) (zipInst vks b.evals b.prodPerm b.wires) Xs)
    (hq : List.Forall₂ (fun P g => HolP H te g P c) b.quot gs)
    (hsh : ∀ x ∈ zipInst vks b.evals b.prodPerm b.wires, Shape H x)
    (hlen : H → (zipInst vks b.evals b.prodPerm b.wires).length = bases.length) (hq0 : H → b.quot ≠ [])
    (hn : H → vks.length = b.prodPerm.length ∧ vks.length ≤ b.evals.length ∧ vks.length ≤ b.wires.length) :
    Spec (aggComms I ch ev vks b bases) c H
      (fun r c' => (List.Forall₂ (fun e v => EntH H te I.mod v e c') r.1.1 (sbVals y zn van l1 Xs gs bs) ∧
        Sums H Q I.mod r.1.2 c') ∧ List.Forall₂ (fun e v => EntH H te I.mod v e c') r.2 (aggVals y.v Xs y.v y.u))
      (fun r w => ∀ (y : Six (ZMod Q)) (zn van l1 : ZMod Q) (bs : List (ZMod Q)) (Xs : List (InstVal Q G)) (gs : List G),
        ChalEw I.mod w y ch → Ew I.mod w zn ev.1 → Ew I.mod w van ev.2.1 → Ew I.mod w l1 ev.2.2 →
        List.Forall₂ (fun x z => Ew I.mod w z x) bases bs →
        List.Forall₂ (fun x X => InstW te I.mod w X x) (zipInst vks b.evals b.prodPerm b.wires) Xs →
        List.Forall₂ (fun P g => ptAt w P = te g) b.quot gs → (∀ s ∈ r.1.2, s.Small I.mod w) →
        List.Forall₂ (fun e v => EntW te I.mod w v e) r.1.1 (sbVals y zn van l1 Xs gs bs) ∧
        List.Forall₂ (fun e v => EntW te I.mod w v e) r.2 (aggVals y.v Xs y.v y.u)) := by
  unfold aggComms
  split
  · rename_i h0
    exact Spec.fail fun hH => h0 (hn hH).1
  split
  · rename_i h0
    exact Spec.fail fun hH => by have := hn hH; omega
  refine hbind hc.wf (linSB_spec hte h hc hch hzn hvan hl1 hb hX hq hsh hlen hq0) ?_
  rintro r c1 e1 ⟨hr, hs⟩
  have hc1 := hc.ext e1
  refine hbind e1.wf (aggLoop_spec h _ hc1 (hch.v.ext e1) (hch.v.ext e1) (hch.u.ext e1) (hX.imp fun _ _ g => g.ext e1) hsh) ?_
  intro l c2 e2 hl
  refine Spec.pure e2.wf ⟨⟨hr.imp fun _ _ g => g.ext e2, hs.ext e2⟩, hl⟩ ?_
  intro w _ _ q1 q2 y zn van l1 bs Xs gs kch kzn kvan kl1 kb kX kq ss
  exact ⟨q2 _ _ _ _ _ _ _ kch kzn kvan kl1 kb kX kq ss, q1 _ _ _ _ kch.v kch.v kch.u kX⟩

/-- `prepare_pcs_info_var` behind the challenges, `gadgets.rs:327-391` -/
def prepareRest (I : Info p) (d : Pcs.Domain (ZMod Q)) (vks : List (VkVar Q)) (pi : List (FpElemVar p)) (b : ProofVar p)
    (ch : ChalVar p × Draws) : Build p (PcsVar p) := do
  let ab ← alphaBasis I ch.1.α3 vks.length
  let ev ← evalHelper Q I ch.1.ζ d.size
  let c ← linConst I d.size d.gen ch.1 vks.length vks.length b.prodPerm.length pi b.evals ev.2.1 ev.2.2 ab
  let sb ← aggComms I ch.1 ev vks b ab
  let eval ← aggEvals I c.1 b.evals (sb.2.map Prod.fst)
  let gp ← switch p d.gen
  let gE ← const I gp
  let next ← modMulConstant ch.1.ζ gE I.mod
  pure ⟨ch.1, ch.2, next, eval, sb.1.1 ++ sb.2, c.2 ++ sb.1.2⟩

theorem preparePcs_eq (K : Rescue.Consts) (I : Info p) (d : Pcs.Domain (ZMod Q)) (vks : List (VkVar Q))
    (pi : List (FpElemVar p)) (b : ProofVar p) (extra : Option (List ℕ)) (h1 : vks.length = b.prodPerm.length)
    (h2 : checkKeys d.size (vks.zip (List.replicate vks.length pi)) = true) :
    preparePcs K I d vks pi b extra =
      challengesVars K I vks (List.replicate vks.length pi) b extra >>= prepareRest I d vks pi b := by
  unfold preparePcs
  simp only []
  rw [if_neg (by simp [h1]), if_neg (by rw [h2]; decide)]
  rfl

/-- the constant term with public input term `V` and first Lagrange polynomial `l1` -/
def constVal (y : Six (ZMod Q)) (V l1 : ZMod Q) (as : List (EvalsVal Q)) (bs : List (ZMod Q)) : ZMod Q :=
  (constTerms (fun a => V - l1 * (y.α * y.α) - permTerm y.α y.β y.γ a) as bs).sum

/-- the combined evaluation -/
def evalVal (y : Six (ZMod Q)) (V l1 : ZMod Q) (as : List (EvalsVal Q)) (bs : List (ZMod Q)) (Xs : List (InstVal Q G)) :
    ZMod Q := -constVal y V l1 as bs + dot ((aggVals y.v Xs y.v y.u).map Prod.fst) (flatVals as)

/-- all scalars and bases -/
def commVals' (y : Six (ZMod Q)) (n : ℕ) (l1 : ZMod Q) (Xs : List (InstVal Q G)) (gs : List G) (bs : List (ZMod Q)) :
    List (ZMod Q × G) := sbVals y (y.ζ ^ n) (y.ζ ^ n - 1) l1 Xs gs bs ++ aggVals y.v Xs y.v y.u

/-- the alpha bases -/
def abVals (y : Six (ZMod Q)) (n : ℕ) : List (ZMod Q) := (List.range n).map fun j => (y.α * y.α * y.α) ^ j

/-- the term of the public inputs -/
def piVal (n : ℕ) (g ζ : ZMod Q) (ps : List (ZMod Q)) : ZMod Q :=
  (prods (piPairs ((piIdx n (ps.length / 2)).map (lagVal n g ζ (ζ ^ n - 1))) ps)).sum

def l1Val (n : ℕ) (ζ : ZMod Q) : ZMod Q := (ζ ^ n - 1) * ((n : ZMod Q) * (ζ - 1))⁻¹

theorem evals_map {q : FpElem p} {w : ℕ → ZMod p} {es : List (EvalsVar p)} {as : List (EvalsVal Q)}
    (hx : List.Forall₂ (fun x a => EvalsW q w a x) es as) :
    (∀ x ∈ es, x.Small q w) ∧ es.map (EvalsVar.el Q q w) = as := by
  induction hx with
  | nil => exact ⟨by simp, rfl⟩
  | cons h1 _ ih =>
    obtain ⟨s1, m1⟩ := el_map h1.wires
    obtain ⟨s2, m2⟩ := el_map h1.sigmas
    refine ⟨?_, ?_⟩
    · intro x hx
      rcases List.mem_cons.1 hx with rfl | hx
      · exact ⟨s1, s2, h1.permNext.1⟩
      · exact ih.1 x hx
    · rw [List.map_cons, ih.2]
      unfold EvalsVar.el
      rw [m1, m2, h1.permNext.2]

theorem map_fst_rel {A B C D : Type} {R : A → C → Prop} {S : A × B → C × D → Prop} {l : List (A × B)} {m : List (C × D)}
    (hS : ∀ x y, S x y → R x.1 y.1) (h : List.Forall₂ S l m) : List.Forall₂ R (l.map Prod.fst) (m.map Prod.fst) := by
  induction h with
  | nil => exact List.Forall₂.nil
  | cons h1 _ ih => exact List.Forall₂.cons (hS _ _ h1) ih

theorem prepareRest_spec (hte : ∀ g, te (-g) = negPt (te g)) (h : Par I Q k) (hF : I.modF = ((Q : ℕ) : ZMod p))
    {d : Pcs.Domain (ZMod Q)} {j : ℕ} (hn : d.size = 2 ^ j) (hnQ : d.size < Q) {pi : List (FpElemVar p)} {ps : List (ZMod Q)}
    (hl : pi.length ≤ 2 ^ k) (hln : pi.length / 2 ≤ d.size) {c : Circ p} (hc : Ctx H k c) {vks : List (VkVar Q)}
    {b : ProofVar p} {ch : ChalVar p × Draws} {y : Six (ZMod Q)} {Xs : List (InstVal Q G)} {gs : List G}
    {as : List (EvalsVal Q)} (hch : ChalHol H I.mod y ch.1 c)
    (hpi : List.Forall₂ (fun v z => Hol H I.mod z v c) pi ps)
    (hζ : H → y.ζ ^ d.size ≠ 1) (hgen : d.gen ^ d.size = 1)
    (he : List.Forall₂ (fun e a => HolE H I.mod a e c) b.evals as) (hw : ∀ e ∈ b.evals, 5 ≤ e.wires.length)
    (hel : b.evals.length ≤ 2 ^ k)
    (hX : List.Forall₂ (fun x X => HolI H te I.mod X x c) (zipInst vks b.evals b.prodPerm b.wires) Xs)
    (hq : List.Forall₂ (fun P g => HolP H te g P c) b.quot gs)
    (hsh : ∀ x ∈ zipInst vks b.evals b.prodPerm b.wires, Shape H x) (hq0 : H → b.quot ≠ [])
    (hnum : H → vks.length = b.prodPerm.length ∧ vks.length = b.evals.length ∧ vks.length ≤ b.wires.length ∧ vks.length ≠ 0)
    (hflat : H → (flatEvals b.evals).length = (aggVals y.v Xs y.v y.u).length) :
    Spec (prepareRest I d vks pi b ch) c H
      (fun r c' => r.ch = ch.1 ∧ r.draws = ch.2 ∧
        Hol H I.mod (y.ζ * d.gen) r.nextPoint c' ∧
        Acc H I.mod (evalVal y (piVal d.size d.gen y.ζ ps) (l1Val d.size y.ζ) as (abVals y vks.length) Xs) r.eval c' ∧
        List.Forall₂ (fun e v => EntH H te I.mod v e c') r.comm
          (commVals' y d.size (l1Val d.size y.ζ) Xs gs (abVals y vks.length)) ∧ Sums H Q I.mod r.sums c')
      (fun r w => ∀ (y : Six (ZMod Q)) (ps : List (ZMod Q)) (as : List (EvalsVal Q)) (Xs : List (InstVal Q G)) (gs : List G),
        ChalEw I.mod w y ch.1 → List.Forall₂ (fun v z => Ew I.mod w z v) pi ps →
        List.Forall₂ (fun e a => EvalsW I.mod w a e) b.evals as →
        List.Forall₂ (fun x X => InstW te I.mod w X x) (zipInst vks b.evals b.prodPerm b.wires) Xs →
        List.Forall₂ (fun P g => ptAt w P = te g) b.quot gs → (∀ s ∈ r.sums, s.Small I.mod w) →
        ∃ V l1, PiRel d.size d.gen y.ζ (y.ζ ^ d.size - 1) ps V ∧ (d.size : ZMod Q) * l1 * (y.ζ - 1) = y.ζ ^ d.size - 1 ∧
          Ew I.mod w (y.ζ * d.gen) r.nextPoint ∧
          Lin I Q k (1 + (flatEvals b.evals).length) w (evalVal y V l1 as (abVals y vks.length) Xs) r.eval ∧
          List.Forall₂ (fun e v => EntW te I.mod w v e) r.comm (commVals' y d.size l1 Xs gs (abVals y vks.length))) := by
  have hn0 : ((d.size : ℕ) : ZMod Q) ≠ 0 := by
    intro h0
    have : d.size = 0 := by
      have := congrArg ZMod.val h0
      rwa [ZMod.val_natCast_of_lt hnQ, ZMod.val_zero] at this
    rw [hn] at this
    exact absurd this (by positivity)
  have h1 : H → y.ζ ≠ 1 := fun hH h1 => hζ hH (by rw [h1, one_pow])
  have hg : H → ∀ i ∈ piIdx d.size (pi.length / 2), y.ζ ≠ d.gen ^ i := fun hH i _ hi =>
    hζ hH (by rw [hi, ← pow_mul, mul_comm, pow_mul, hgen, one_pow])
  have hab : (abVals y vks.length).length = vks.length := by simp [abVals]
  unfold prepareRest
  refine hbind hc.wf (alphaBasis_spec h hc hch.α3 (fun hH => (hnum hH).2.2.2)) ?_
  intro ab c1 e1 hab1
  have habl : ab.length = vks.length := by rw [hab1.length_eq]; simp
  have hc1 := hc.ext e1
  refine hbind e1.wf (evalHelper_spec h hc1 (hch.ζ.ext e1) hn hnQ h1) ?_
  rintro ev c2 e2 ⟨hev1, hev2, hev3⟩
  have hc2 := hc1.ext e2
  have x2 := e1.trans e2
  have hch2 := hch.ext x2
  refine hbind e2.wf (linConst_spec h hn0 d.gen hl hln hc2 hch2.α hch2.α2 hch2.β hch2.γ hch2.ζ hev2 hev3
    (hpi.imp fun _ _ g => g.ext x2) hg (he.imp fun _ _ g => g.ext x2) hw (hab1.imp fun _ _ g => g.ext e2)
    (fun hH => by rw [habl]; exact (hnum hH).2.1.symm) hel
    (fun hH => ⟨(hnum hH).1, rfl, (hnum hH).2.2.2⟩)) ?_
  rintro cc c3 e3 ⟨hcc, hccs⟩
  have hc3 := hc2.ext e3
  have x3 := x2.trans e3
  have hzl : ∀ (vks : List (VkVar Q)) (es : List (EvalsVar p)) (zs : List (ℕ × ℕ)) (ws : List (List (ℕ × ℕ))),
      vks.length = zs.length → vks.length = es.length → vks.length ≤ ws.length →
      (zipInst vks es zs ws).length = vks.length := by
    intro vks
    induction vks with
    | nil => intro es zs ws _ _ _; simp [zipInst]
    | cons vk vks ih =>
      intro es zs ws h1 h2 h3
      match es, zs, ws with
      | e :: es, z :: zs, w :: ws =>
        simp only [zipInst, List.length_cons] at *
        rw [ih es zs ws (by omega) (by omega) (by omega)]
      | [], _, _ => simp at h2
      | _ :: _, [], _ => simp at h1
      | _ :: _, _ :: _, [] => simp at h3
  refine hbind e3.wf (aggComms_spec hte h hc3 (hch.ext x3) (hev1.ext e3) (hev2.ext e3) (hev3.ext e3)
    (hab1.imp fun _ _ g => g.ext (e2.trans e3)) (hX.imp fun _ _ g => g.ext x3) (hq.imp fun _ _ g => g.ext x3) hsh
    (fun hH => by
      obtain ⟨n1, n2, n3, n4⟩ := hnum hH
      rw [habl, hzl _ _ _ _ n1 n2 n3]) hq0
    (fun hH => by
      obtain ⟨n1, n2, n3, n4⟩ := hnum hH
      exact ⟨n1, n2.le, n3⟩)) ?_
  rintro sb c4 e4 ⟨⟨hsb1, hsbs⟩, hsb2⟩
  have hc4 := hc3.ext e4
  have x4 := x3.trans e4
  have hbuf := map_fst_rel (R := fun x z => Hol H I.mod z x c4) (fun x y g => g.1) hsb2
  refine hbind e4.wf (aggEvals_spec h hF hc4 (hcc.ext e4) (he.imp fun _ _ g => g.ext x4) hbuf
    (fun hH => by rw [hflat hH, List.length_map, hsb2.length_eq])) ?_
  intro evl c5 e5 hevl
  have hc5 := hc4.ext e5
  have x5 := x4.trans e5
  refine constQ_bind h ?_
  intro gE hgE
  refine hbind e5.wf (mulConst_ew h hc5 (hch.ζ.ext x5) hgE) ?_
  intro nx c6 e6 hnx
  have y5 := e5.trans e6
  have y4 := e4.trans y5
  refine Spec.pure e6.wf ⟨rfl, rfl, hnx, ?_, List.rel_append (hsb1.imp fun _ _ g => g.ext y5) (hsb2.imp fun _ _ g => g.ext y5),
    (hccs.ext y4).append (hsbs.ext y5)⟩ ?_
  · have hpl := hpi.length_eq
    rw [hpl] at hevl
    exact hevl.ext e6
  · intro w hz ho q6 q5 q4 q3 q2 q1 y ps as Xs gs kch kpi ke kX kq ss
    have kab := q1 _ kch.α3
    obtain ⟨sab, mab⟩ := el_map kab
    obtain ⟨s1, s2, s3, v1, v2, v3⟩ := q2 kch.ζ.1
    rw [kch.ζ.2] at v1 v2 v3
    obtain ⟨spi, mpi⟩ := el_map kpi
    obtain ⟨se, me⟩ := evals_map ke
    obtain ⟨V, hV, hL⟩ := q3 kch.α.1 kch.α2.1 kch.β.1 kch.γ.1 kch.ζ.1 s2 s3 spi se sab (fun s hs => ss s (by simp [hs]))
    rw [kch.α.2, kch.α2.2, kch.β.2, kch.γ.2, me, mab] at hL
    rw [kch.ζ.2, v2, mpi] at hV
    have kab' : List.Forall₂ (fun x z => Ew I.mod w z x) ab (abVals y vks.length) := kab
    obtain ⟨g1, g2⟩ := q4 y _ _ _ _ Xs gs kch ⟨s1, v1⟩ ⟨s2, v2⟩ ⟨s3, rfl⟩ kab' kX kq (fun s hs => ss s (by simp [hs]))
    refine ⟨V, El Q I.mod w ev.2.2, hV, v3, q6 _ kch.ζ, ?_, List.rel_append g1 g2⟩
    exact (q5 _ as _ hL ke (map_fst_rel (R := fun x z => Ew I.mod w z x) (fun x y g => g.1) g2)).2

end

end Verif.Circuit.VerifierAgg
