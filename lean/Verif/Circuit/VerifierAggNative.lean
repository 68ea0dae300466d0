import Verif.Circuit.VerifierCombine
import Verif.Circuit.VerifierNative
import Verif.Plonk.VerifierLemmas

/-! # The points of the verifier circuit against the native verifier -/

set_option linter.unusedSectionVars false

namespace Verif.Circuit.VerifierAgg

open Verif.Circuit Verif.Circuit.VerifierPoly Verif.Circuit.TranscriptVar Verif.Pcs Verif.Plonk

variable {Q : ℕ} [hQ : Fact Q.Prime] {G G2 : Type} [AddCommGroup G] [Module (ZMod Q) G] [DecidableEq G]
  {d : Domain (ZMod Q)}

/-- the instances of a batch -/
def instsOf : List (VKey (ZMod Q) G G2) → List (Evals (ZMod Q)) → List G → List (List G) → List (InstVal Q G)
  | vk :: vks, e :: es, z :: zs, w :: ws => ⟨evalsVal e, z, w, vk.sigmas, vk.selectors, vk.k⟩ :: instsOf vks es zs ws
  | _, _, _, _ => []

/-- the six challenges -/
def sixOf (ch : Chal (ZMod Q)) : Six (ZMod Q) := ⟨ch.β, ch.γ, ch.α, ch.ζ, ch.v, ch.u⟩

def negAt : ℕ → List (ZMod Q) → List (ZMod Q)
  | _, [] => []
  | i, s :: l => (if i = 10 then -s else s) :: negAt (i + 1) l

theorem sel_sum (base : ZMod Q) : ∀ (l : List (ZMod Q)) (gs : List G) (i : ℕ),
    dotG (selVals base i (l.zip gs)) = (((negAt i l).zip gs).map fun x => (x.1 * base) • x.2).sum
  | [], _, _ => by simp [selVals, dotG, negAt]
  | _ :: _, [], _ => by simp [selVals, dotG]
  | s :: l, g :: gs, i => by
    have ih := sel_sum base l gs (i + 1)
    unfold dotG at ih ⊢
    simp only [List.zip_cons_cons, selVals, negAt, List.map_cons, List.sum_cons, ih]
    by_cases hi : i = 10
    · simp [hi]
    · simp [hi]

theorem qScalars_eq {w : List (ZMod Q)} (h : 5 ≤ w.length) : qScalars w = .ok (negAt 0 (qVals w)) := by
  match w, h with
  | _ :: _ :: _ :: _ :: _ :: _, _ => rfl

theorem linInstance_native (ch : Chal (ZMod Q)) (l1 ln : ZMod Q) (ap : List (ZMod Q)) (b : BProof (ZMod Q) G) (i : ℕ)
    (vk : VKey (ZMod Q) G G2) (base : ZMod Q) (sb : SB (ZMod Q) G) {e : Evals (ZMod Q)} {z : G} {ws : List G}
    (h1 : b.evals[i]? = some e) (h2 : b.prodPerm[i]? = some z) (h3 : b.wires[i]? = some ws) (h4 : b.lookups[i]? = some none)
    (hw : ws.length ≠ 0) (hs : vk.sigmas ≠ []) (he : 5 ≤ e.wires.length) :
    ∃ sb', linInstance d ch l1 ln (ch.α ^ 2 :: ap) b i vk base sb = .ok sb' ∧
      sb'.msm = sb.msm + dotG (instVals (sixOf ch) l1 ⟨evalsVal e, z, ws, vk.sigmas, vk.selectors, vk.k⟩ base) := by
  unfold linInstance
  rw [h1, h2, h3]
  simp only [List.getElem?_cons_zero, if_neg hw, List.getLast?_eq_some_getLast hs, qScalars_eq he, h4]
  refine ⟨_, rfl, ?_⟩
  rw [pushSelectors_msm, sb_push, sb_push]
  unfold instVals
  simp only [evalsVal]
  have := sel_sum base (qVals e.wires) vk.selectors 0
  unfold dotG at this ⊢
  rw [List.map_cons, List.map_cons, List.sum_cons, List.sum_cons, this]
  have e1 : vk.sigmas.getLastD 0 = vk.sigmas.getLast hs := by
    rw [List.getLastD_eq_getLast?, List.getLast?_eq_some_getLast hs]; rfl
  have e2 : (e.wires.zip vk.k).foldl (fun acc x => acc * (ch.β * x.2 * ch.ζ + ch.γ + x.1)) ch.α =
      coeffVal (ch.β * ch.ζ) ch.γ (e.wires.zip vk.k) ch.α := by
    unfold coeffVal
    congr 1
    funext acc x
    ring
  simp only [e1, e2, sixOf, sigmaVal, smul_neg, neg_smul, pow_two]
  abel

theorem linLoop_native (ch : Chal (ZMod Q)) (l1 ln : ZMod Q) (ap : List (ZMod Q)) (b : BProof (ZMod Q) G) :
    ∀ (vks : List (VKey (ZMod Q) G G2)) (bs : List (ZMod Q)) (es : List (Evals (ZMod Q))) (zs : List G)
      (ws : List (List G)) (ls : List (Option (LkProof (ZMod Q) G))) (i : ℕ) (sb : SB (ZMod Q) G),
    b.evals.drop i = es → b.prodPerm.drop i = zs → b.wires.drop i = ws → b.lookups.drop i = ls →
    bs.length = vks.length → es.length = vks.length → zs.length = vks.length → ws.length = vks.length →
    ls.length = vks.length → (∀ l ∈ ls, l = none) → (∀ w ∈ ws, w.length ≠ 0) → (∀ vk ∈ vks, vk.sigmas ≠ []) →
    (∀ e ∈ es, 5 ≤ e.wires.length) →
    ∃ sb', Plonk.linLoop d ch l1 ln (ch.α ^ 2 :: ap) b i (vks.zip bs) sb = .ok sb' ∧
      sb'.msm = sb.msm + dotG (linVals (sixOf ch) l1 (instsOf vks es zs ws) bs)
  | [], bs, es, zs, ws, ls, i, sb, _, _, _, _, _, _, _, _, _, _, _, _, _ =>
    ⟨sb, by simp [Plonk.linLoop], by simp [instsOf, linVals, dotG]⟩
  | vk :: vks, x :: bs, e :: es, z :: zs, w :: ws, l :: ls, i, sb, h1, h2, h3, h4, l1', l2, l3, l4, l5, hn, hw, hs, he => by
    have g : ∀ {α : Type} {a : List α} {x : α} {l : List α}, a.drop i = x :: l → a[i]? = some x ∧ a.drop (i + 1) = l := by
      intro α a x l h
      constructor
      · rw [← List.head?_drop, h]; rfl
      · rw [← List.drop_drop, h]; rfl
    have hl := hn l (by simp)
    subst hl
    obtain ⟨sb1, r1, m1⟩ := linInstance_native (d := d) ch l1 ln ap b i vk x sb (g h1).1 (g h2).1 (g h3).1 (g h4).1
      (hw w (by simp)) (hs vk (by simp)) (he e (by simp))
    obtain ⟨sb2, r2, m2⟩ := linLoop_native ch l1 ln ap b vks bs es zs ws ls (i + 1) sb1 (g h1).2 (g h2).2 (g h3).2 (g h4).2
      (by simpa using l1') (by simpa using l2) (by simpa using l3) (by simpa using l4) (by simpa using l5)
      (fun a ha => hn a (by simp [ha])) (fun a ha => hw a (by simp [ha])) (fun a ha => hs a (by simp [ha]))
      (fun a ha => he a (by simp [ha]))
    refine ⟨sb2, ?_, ?_⟩
    · rw [List.zip_cons_cons, Plonk.linLoop, r1]
      exact r2
    · rw [m2, m1, instsOf, linVals, dotG_append, add_assoc]

theorem pushQuot_native (step : ZMod Q) : ∀ (l : List G) (c : ZMod Q) (sb : SB (ZMod Q) G),
    (pushQuot step (-c) l sb).msm = sb.msm + dotG (quotVals step l c)
  | [], c, sb => by simp [pushQuot, quotVals, dotG]
  | P :: l, c, sb => by
    rw [pushQuot, neg_mul, pushQuot_native step l (c * step), sb_push, quotVals]
    unfold dotG
    rw [List.map_cons, List.sum_cons, add_assoc, smul_neg, neg_smul]

theorem addV_native (v : ZMod Q) : ∀ (cs : List G) (s : AggState (ZMod Q) G),
    (addV v s cs).sb.msm = s.sb.msm + dotG (commVals v cs s.vBase) ∧ (addV v s cs).vBase = s.vBase * v ^ cs.length ∧
      (addV v s cs).uvBase = s.uvBase ∧ (addV v s cs).buf = s.buf ++ (commVals v cs s.vBase).map Prod.fst
  | [], s => by simp [addV, commVals, dotG]
  | P :: cs, s => by
    obtain ⟨h1, h2, h3, h4⟩ := addV_native v cs
      { s with sb := s.sb.push s.vBase P, vBase := s.vBase * v, buf := s.buf ++ [s.vBase] }
    have e : addV v s (P :: cs) = addV v
      { s with sb := s.sb.push s.vBase P, vBase := s.vBase * v, buf := s.buf ++ [s.vBase] } cs := rfl
    rw [e]
    refine ⟨?_, ?_, h3, ?_⟩
    · rw [h1, sb_push, commVals]; unfold dotG; rw [List.map_cons, List.sum_cons, add_assoc]
    · rw [h2, List.length_cons, pow_succ]; ring
    · rw [h4, commVals, List.map_cons, List.append_assoc]; rfl

theorem addUV_native (v : ZMod Q) (P : G) (s : AggState (ZMod Q) G) :
    (addUV v s [P]).sb.msm = s.sb.msm + dotG (commVals v [P] s.uvBase) ∧ (addUV v s [P]).vBase = s.vBase ∧
      (addUV v s [P]).uvBase = s.uvBase * v ^ 1 ∧ (addUV v s [P]).buf = s.buf ++ (commVals v [P] s.uvBase).map Prod.fst := by
  simp [addUV, commVals, dotG, sb_push]

theorem aggLoop_native (ch : Chal (ZMod Q)) (b : BProof (ZMod Q) G) :
    ∀ (vks : List (VKey (ZMod Q) G G2)) (es : List (Evals (ZMod Q))) (zs : List G)
      (ws : List (List G)) (ls : List (Option (LkProof (ZMod Q) G))) (i : ℕ) (s : AggState (ZMod Q) G),
    b.prodPerm.drop i = zs → b.wires.drop i = ws → b.lookups.drop i = ls →
    es.length = vks.length → zs.length = vks.length → ws.length = vks.length →
    ls.length = vks.length → (∀ l ∈ ls, l = none) → (∀ w ∈ ws, w.length ≠ 0) →
    ∃ s', Plonk.aggLoop ch b i vks s = .ok s' ∧ s'.sb.msm = s.sb.msm + dotG (aggVals ch.v (instsOf vks es zs ws) s.vBase s.uvBase) ∧
      s'.buf = s.buf ++ (aggVals ch.v (instsOf vks es zs ws) s.vBase s.uvBase).map Prod.fst
  | [], es, zs, ws, ls, i, s, _, _, _, _, _, _, _, _, _ =>
    ⟨s, by simp [Plonk.aggLoop], by simp [instsOf, aggVals, dotG], by simp [instsOf, aggVals]⟩
  | vk :: vks, e :: es, z :: zs, w :: ws, l :: ls, i, s, h2, h3, h4, l2, l3, l4, l5, hn, hw => by
    have g : ∀ {α : Type} {a : List α} {x : α} {l : List α}, a.drop i = x :: l → a[i]? = some x ∧ a.drop (i + 1) = l := by
      intro α a x l h
      constructor
      · rw [← List.head?_drop, h]; rfl
      · rw [← List.drop_drop, h]; rfl
    have hl := hn l (by simp)
    subst hl
    obtain ⟨a1, a2, a3, a4⟩ := addV_native ch.v w s
    obtain ⟨b1, b2, b3, b4⟩ := addV_native ch.v (vk.sigmas.take (w.length - 1)) (addV ch.v s w)
    obtain ⟨c1, c2, c3, c4⟩ := addUV_native ch.v z (addV ch.v (addV ch.v s w) (vk.sigmas.take (w.length - 1)))
    obtain ⟨s2, r2, m2, u2⟩ := aggLoop_native ch b vks es zs ws ls (i + 1)
      (addUV ch.v (addV ch.v (addV ch.v s w) (vk.sigmas.take (w.length - 1))) [z]) (g h2).2 (g h3).2 (g h4).2
      (by simpa using l2) (by simpa using l3) (by simpa using l4) (by simpa using l5)
      (fun a ha => hn a (by simp [ha])) (fun a ha => hw a (by simp [ha]))
    refine ⟨s2, ?_, ?_, ?_⟩
    · rw [Plonk.aggLoop, aggInstance, (g h2).1, (g h3).1, (g h4).1]
      simp only [if_neg (hw w (by simp))]
      exact r2
    · rw [m2, c1, b1, a1, c2, c3, b2, b3, a2, a3, instsOf, aggVals]
      simp only [dotG_append]
      abel
    · rw [u2, c4, b4, a4, c2, c3, b2, b3, a2, a3, instsOf, aggVals]
      simp only [List.map_append, List.append_assoc]

theorem addEvals_native : ∀ (es bs : List (ZMod Q)) (r : ZMod Q), bs.length = es.length →
    Verif.Plonk.addEvals es (r, bs) = .ok (r + dot bs es, [])
  | [], [], r, _ => by simp [Verif.Plonk.addEvals, dot]
  | e :: es, b :: bs, r, h => by
    rw [Verif.Plonk.addEvals, addEvals_native es bs _ (by simpa using h)]
    unfold dot
    rw [List.zipWith_cons_cons, List.sum_cons, mul_comm e b, add_assoc]

theorem evalLoop_native : ∀ (es : List (Evals (ZMod Q))) (s : ZMod Q × List (ZMod Q)),
    evalLoop (es.zip (es.map fun _ => (none : Option (LkProof (ZMod Q) G)))) s =
      Verif.Plonk.addEvals (flatVals (es.map evalsVal)) s
  | [], s => rfl
  | e :: es, s => by
    rw [List.map_cons, List.zip_cons_cons, evalLoop_cons, List.map_cons]
    have : flatVals (evalsVal e :: es.map evalsVal) = entry e (none : Option (LkProof (ZMod Q) G)) ++ flatVals (es.map evalsVal) := by
      simp [flatVals, entry, evalsVal]
    rw [this, addEvals_append]
    congr 1
    funext s
    exact evalLoop_native es s

/-- keys and a proof without lookups as the native verifier expects them: merged keys and the numbers of commitments and
evaluations of a TurboPlonk proof -/
structure Turbo (d : Domain (ZMod Q)) (l : ℕ) (VK : List (VKey (ZMod Q) G G2)) (B : BProof (ZMod Q) G) : Prop where
  pos : VK ≠ []
  prodPerm : B.prodPerm.length = VK.length
  evals : B.evals.length = VK.length
  wires : B.wires.length = VK.length
  lookups : B.lookups = B.evals.map fun _ => none
  wiresLen : ∀ w ∈ B.wires, w.length = 5
  evalsLen : ∀ e ∈ B.evals, e.wires.length = 5 ∧ e.sigmas.length = 4
  sigmasLen : ∀ vk ∈ VK, vk.sigmas.length = 5
  quot : B.quot ≠ []
  merged : ∀ vk ∈ VK, vk.merged = true
  noLookup : ∀ vk ∈ VK, vk.lookup = none
  inputs : ∀ vk ∈ VK, vk.numInputs = l
  dom : ∀ vk ∈ VK, vk.domSize = d.size

/-- the instances of keys and a proof -/
def insts (VK : List (VKey (ZMod Q) G G2)) (B : BProof (ZMod Q) G) : List (InstVal Q G) :=
  instsOf VK B.evals B.prodPerm B.wires

theorem commVals_length (v : ZMod Q) : ∀ (l : List G) (b : ZMod Q), (commVals v l b).length = l.length
  | [], _ => rfl
  | _ :: l, b => by rw [commVals, List.length_cons, commVals_length v l, List.length_cons]

theorem selVals_length (b : ZMod Q) : ∀ (l : List (ZMod Q × G)) (i : ℕ), (selVals b i l).length = l.length
  | [], _ => rfl
  | _ :: l, i => by rw [selVals, List.length_cons, selVals_length b l, List.length_cons]

theorem quotVals_length (s : ZMod Q) : ∀ (l : List G) (b : ZMod Q), (quotVals s l b).length = l.length
  | [], _ => rfl
  | _ :: l, b => by rw [quotVals, List.length_cons, quotVals_length s l, List.length_cons]

theorem qVals_length (w : List (ZMod Q)) : (qVals w).length ≤ 13 := by
  unfold qVals
  split <;> simp

theorem aggVals_length (v : ZMod Q) : ∀ (VK : List (VKey (ZMod Q) G G2)) (es : List (Evals (ZMod Q))) (zs : List G)
    (ws : List (List G)) (vb ub : ZMod Q), es.length = VK.length → zs.length = VK.length → ws.length = VK.length →
    (∀ w ∈ ws, w.length = 5) → (∀ vk ∈ VK, vk.sigmas.length = 5) →
    (aggVals v (instsOf VK es zs ws) vb ub).length = 10 * VK.length
  | [], _, _, _, _, _, _, _, _, _, _ => by simp [instsOf, aggVals]
  | vk :: VK, e :: es, z :: zs, w :: ws, vb, ub, h1, h2, h3, hw, hs => by
    rw [instsOf, aggVals]
    simp only [List.length_append, commVals_length, List.length_take, hw w (by simp), hs vk (by simp), List.length_cons,
      List.length_nil]
    rw [aggVals_length v VK es zs ws _ _ (by simpa using h1) (by simpa using h2) (by simpa using h3)
      (fun a ha => hw a (by simp [ha])) (fun a ha => hs a (by simp [ha]))]
    omega

theorem flatVals_length : ∀ (es : List (Evals (ZMod Q))), (∀ e ∈ es, e.wires.length = 5 ∧ e.sigmas.length = 4) →
    (flatVals (es.map evalsVal)).length = 10 * es.length
  | [], _ => rfl
  | e :: es, h => by
    have ih := flatVals_length es fun a ha => h a (by simp [ha])
    have h1 := h e (by simp)
    unfold flatVals at ih ⊢
    simp only [List.map_cons, List.flatMap_cons, List.length_append, ih, evalsVal, h1.1, h1.2, List.length_cons, List.length_nil]
    omega

theorem linVals_length (y : Six (ZMod Q)) (l1 : ZMod Q) : ∀ (Xs : List (InstVal Q G)) (bs : List (ZMod Q)),
    (linVals y l1 Xs bs).length ≤ 15 * Xs.length
  | [], _ => by simp [linVals]
  | _ :: _, [] => by simp [linVals]
  | X :: Xs, b :: bs => by
    have ih := linVals_length y l1 Xs bs
    have h := qVals_length X.evals.wires
    rw [linVals, List.length_append, instVals]
    simp only [List.length_cons, selVals_length, List.length_zip]
    omega

theorem instsOf_length : ∀ (VK : List (VKey (ZMod Q) G G2)) (es : List (Evals (ZMod Q))) (zs : List G)
    (ws : List (List G)), es.length = VK.length → zs.length = VK.length → ws.length = VK.length →
    (instsOf VK es zs ws).length = VK.length
  | [], _, _, _, _, _, _ => by simp [instsOf]
  | vk :: VK, e :: es, z :: zs, w :: ws, h1, h2, h3 => by
    rw [instsOf, List.length_cons, instsOf_length VK es zs ws (by simpa using h1) (by simpa using h2) (by simpa using h3),
      List.length_cons]

theorem commVals'_length {l : ℕ} {VK : List (VKey (ZMod Q) G G2)} {B : BProof (ZMod Q) G} (hT : Turbo d l VK B)
    (y : Six (ZMod Q)) (n : ℕ) (l1 : ZMod Q) (bs : List (ZMod Q)) :
    (commVals' y n l1 (insts VK B) B.quot bs).length ≤ 25 * VK.length + B.quot.length := by
  have h1 := linVals_length y l1 (insts VK B) bs
  have h2 : (aggVals y.v (insts VK B) y.v y.u).length = 10 * VK.length :=
    aggVals_length y.v VK B.evals B.prodPerm B.wires y.v y.u hT.evals hT.prodPerm hT.wires hT.wiresLen hT.sigmasLen
  have h3 : (insts VK B).length = VK.length := instsOf_length VK B.evals B.prodPerm B.wires hT.evals hT.prodPerm hT.wires
  have h4 : B.quot.length ≠ 0 := by simpa using hT.quot
  unfold commVals' sbVals
  simp only [List.length_append, List.length_cons, quotVals_length, h2, List.length_tail]
  omega

theorem checkInstances_ok {l : ℕ} {lks : List (Option (LkProof (ZMod Q) G))} (hl : ∀ x ∈ lks, x = none) :
    ∀ (xs : List (List (ZMod Q) × VKey (ZMod Q) G G2)) (i : ℕ), (∀ x ∈ xs, x.1.length = l) →
      (∀ x ∈ xs, x.2.numInputs = l) → (∀ x ∈ xs, x.2.lookup = none) → (∀ x ∈ xs, x.2.domSize = d.size) →
      i + xs.length ≤ lks.length → checkInstances d lks i xs = .ok ()
  | [], _, _, _, _, _, _ => rfl
  | (pi, vk) :: xs, i, h1, h2, h3, h4, h5 => by
    have hi : i < lks.length := by simp only [List.length_cons] at h5; omega
    rw [checkInstances]
    have a1 := h1 (pi, vk) (by simp)
    have a2 := h2 (pi, vk) (by simp)
    have a3 := h3 (pi, vk) (by simp)
    have a4 := h4 (pi, vk) (by simp)
    simp only at a1 a2 a3 a4
    rw [if_neg (by rw [a1, a2]; simp), List.getElem?_eq_getElem hi, hl _ (List.getElem_mem hi)]
    simp only [a3, a4, Option.isSome_none, ne_eq, not_true_eq_false, if_false]
    exact checkInstances_ok hl xs (i + 1) (fun x hx => h1 x (by simp [hx])) (fun x hx => h2 x (by simp [hx]))
      (fun x hx => h3 x (by simp [hx])) (fun x hx => h4 x (by simp [hx])) (by simp only [List.length_cons] at h5; omega)

/-- outside of the domain -/
theorem firstAndLast_native (h : Good d) (ho : d.offset = 1) {a l : ZMod Q} (hz : vanishing d a ≠ 0)
    (hl : (d.size : ZMod Q) * l * (a - 1) = a ^ d.size - 1) : ∃ ln, firstAndLast d a = .ok (l, ln) := by
  have hs := h.size_ne
  have hg := h.gen_ne
  have hpos := size_pos d
  have ha : a ≠ 1 := by
    have := ne_of_vanishing h ho hz hpos
    rwa [pow_zero] at this
  have hl' : a ≠ d.gen⁻¹ := by
    have h1 := ne_of_vanishing h ho hz (show d.size - 1 < d.size by omega)
    have h2 : d.gen ^ (d.size - 1) = d.gen⁻¹ := by
      refine eq_inv_of_mul_eq_one_left ?_
      rw [← pow_succ, Nat.sub_add_cancel hpos, h.prim.pow_eq_one]
    rwa [h2] at h1
  have ha' : a - 1 ≠ 0 := sub_ne_zero.2 ha
  have hl'' : a - d.gen⁻¹ ≠ 0 := sub_ne_zero.2 hl'
  unfold firstAndLast
  rw [ho, mul_one, if_neg ha, if_neg hl', if_neg hz, one_pow]
  unfold divP
  rw [if_neg one_ne_zero]
  simp only [div_one, mul_one, one_mul]
  rw [if_neg (mul_ne_zero hs ha'), if_neg (mul_ne_zero hs hl'')]
  rw [show vanishing d a / ((d.size : ZMod Q) * (a - 1)) = l by rw [van_eq ho, ← hl]; field_simp]
  exact ⟨_, rfl⟩

/-- the result of the native verifier in terms of the values of the circuit -/
theorem prepare_native (h : Good d) (ho : d.offset = 1) {ps : List (ZMod Q)} {VK : List (VKey (ZMod Q) G G2)}
    {B : BProof (ZMod Q) G} (hT : Turbo d ps.length VK B) {ch : Chal (ZMod Q)} (hz : vanishing d ch.ζ ≠ 0) {V l1 : ZMod Q}
    (hV : evaluatePi d ps ch.ζ true = .ok V) (hl : (d.size : ZMod Q) * l1 * (ch.ζ - 1) = ch.ζ ^ d.size - 1) :
    ∃ info, prepare d VK (List.replicate VK.length ps) B ch = .ok info ∧ info.u = ch.u ∧ info.point = ch.ζ ∧
      info.nextPoint = ch.ζ * d.gen ∧
      info.eval = evalVal (sixOf ch) V l1 (B.evals.map evalsVal) (abVals (sixOf ch) VK.length) (insts VK B) ∧
      info.comm.msm = dotG (commVals' (sixOf ch) d.size l1 (insts VK B) B.quot (abVals (sixOf ch) VK.length)) ∧
      info.opening = B.opening ∧ info.shifted = B.shifted := by
  obtain ⟨ln, hln⟩ := firstAndLast_native h ho hz hl
  obtain ⟨vk, vks, hvk⟩ : ∃ vk vks, VK = vk :: vks := List.exists_cons_of_ne_nil hT.pos
  have hlk : ∀ l ∈ B.lookups, l = none := by
    rw [hT.lookups]; intro l hl; obtain ⟨_, _, rfl⟩ := List.mem_map.1 hl; rfl
  have hlkl : B.lookups.length = VK.length := by rw [hT.lookups, List.length_map, hT.evals]
  have hn0 : VK.length ≠ 0 := by rw [hvk]; simp
  have h1 : checkNumbers VK (List.replicate VK.length ps) B = true := by
    unfold checkNumbers BProof.len
    rw [hT.prodPerm]
    simp [hT.pos]
  have h2 : checkInstances d B.lookups 0 ((List.replicate VK.length ps).zip VK) = .ok () := by
    refine checkInstances_ok (l := ps.length) hlk _ 0 ?_ ?_ ?_ ?_ ?_
    · rintro ⟨a, b⟩ hx
      have := (List.of_mem_zip hx).1
      rw [List.mem_replicate] at this
      rw [this.2]
    · exact fun x hx => hT.inputs _ (List.of_mem_zip hx).2
    · exact fun x hx => hT.noLookup _ (List.of_mem_zip hx).2
    · exact fun x hx => hT.dom _ (List.of_mem_zip hx).2
    · rw [List.length_zip, List.length_replicate, hlkl]; omega
  have hab : alphaBases ch.α vk.lookup.isSome VK.length = abVals (sixOf ch) VK.length := by
    rw [alphaBases_eq _ _ hn0, hT.noLookup vk (by rw [hvk]; simp)]
    unfold abVals sixOf
    refine List.map_congr_left fun j _ => ?_
    congr 1
    simp only [Option.isSome_none, Bool.false_eq_true, if_false]
    ring
  have habl : (abVals (sixOf ch) VK.length).length = VK.length := by simp [abVals]
  have hev5 : ∀ e ∈ B.evals, 5 ≤ e.wires.length := fun e he => (hT.evalsLen e he).1.ge
  have h3 := linConst_native ch l1 ln (ch.α ^ 2) (ch.α ^ 3) [ch.α ^ 4, ch.α ^ 5, ch.α ^ 6] ps hV B VK (abVals (sixOf ch) VK.length)
    hT.lookups (by unfold BProof.len; rw [hT.prodPerm, hT.evals]) hT.evals.symm (by rw [habl, hT.evals]) hev5 hT.merged
  rw [hT.evals] at h3
  obtain ⟨sb1, r1, m1⟩ := linLoop_native (d := d) ch l1 ln [ch.α ^ 3, ch.α ^ 4, ch.α ^ 5, ch.α ^ 6] B VK
    (abVals (sixOf ch) VK.length) _ _ _ _ 0 [] rfl rfl rfl rfl habl (by rw [List.drop_zero, hT.evals])
    (by rw [List.drop_zero, hT.prodPerm]) (by rw [List.drop_zero, hT.wires]) (by rw [List.drop_zero, hlkl])
    (by rw [List.drop_zero]; exact hlk) (by rw [List.drop_zero]; intro w hw; rw [hT.wiresLen w hw]; omega)
    (by intro vk hvk h; have := hT.sigmasLen vk hvk; rw [h] at this; simp at this) (by rw [List.drop_zero]; exact hev5)
  simp only [List.drop_zero] at m1
  obtain ⟨q, qs, hq⟩ := List.exists_cons_of_ne_nil hT.quot
  have h4 : linScalarsAndBases d VK ch (vanishing d ch.ζ) l1 ln B (alphaPowers ch.α) (abVals (sixOf ch) VK.length) =
      .ok (pushQuot ((1 + vanishing d ch.ζ) * ch.ζ * ch.ζ) (-vanishing d ch.ζ) qs (sb1.push (-vanishing d ch.ζ) q)) := by
    unfold linScalarsAndBases BProof.len
    rw [if_neg (by rw [hT.prodPerm, habl]; simp), alphaPowers_eq, r1, hq]
  obtain ⟨s2, r2, m2, u2⟩ := aggLoop_native ch B VK B.evals _ _ _ 0
    ⟨pushQuot ((1 + vanishing d ch.ζ) * ch.ζ * ch.ζ) (-vanishing d ch.ζ) qs (sb1.push (-vanishing d ch.ζ) q), ch.v, ch.u, []⟩
    rfl rfl rfl hT.evals (by rw [List.drop_zero, hT.prodPerm]) (by rw [List.drop_zero, hT.wires]) (by rw [List.drop_zero, hlkl])
    (by rw [List.drop_zero]; exact hlk) (by rw [List.drop_zero]; intro w hw; rw [hT.wiresLen w hw]; omega)
  simp only [List.drop_zero, List.nil_append] at m2 u2
  have h5 : aggregateComms d VK ch (vanishing d ch.ζ) l1 ln B (alphaPowers ch.α) (abVals (sixOf ch) VK.length) =
      .ok (s2.sb, s2.buf) := by
    unfold aggregateComms BProof.len
    rw [if_neg (by rw [hT.prodPerm]; simp), h4]
    simp only
    rw [r2]
  have h6 : ∀ C, aggregateEvals C B.evals B.lookups s2.buf =
      .ok (-C + dot ((aggVals ch.v (insts VK B) ch.v ch.u).map Prod.fst) (flatVals (B.evals.map evalsVal))) := by
    intro C
    unfold aggregateEvals
    rw [if_neg (by rw [hT.lookups, List.length_map]; simp), hT.lookups, evalLoop_native, addEvals_native _ _ _ ?_, u2]
    · rfl
    · rw [u2, List.length_map, flatVals_length _ hT.evalsLen, hT.evals]
      exact aggVals_length _ _ _ _ _ _ _ hT.evals hT.prodPerm hT.wires hT.wiresLen hT.sigmasLen
  refine ⟨⟨ch.u, ch.ζ, ch.ζ * d.gen, _, s2.sb, B.opening, B.shifted⟩, ?_, rfl, rfl, rfl, rfl, ?_, rfl, rfl⟩
  · unfold prepare
    rw [if_neg (by rw [h1]; simp), h2]
    rw [hvk]
    simp only
    rw [← hvk, hab, hln]
    simp only
    rw [alphaPowers_eq, h3]
    simp only
    rw [← alphaPowers_eq, h5]
    simp only
    rw [h6]
    simp only [constVal, sixOf, pow_two]
  · simp only
    rw [m2, pushQuot_native, sb_push, m1, sb_msm_nil]
    unfold commVals' sbVals
    rw [dotG_append, dotG_append, hq]
    unfold dotG insts
    simp only [List.map_cons, List.sum_cons, List.headD_cons, List.tail_cons, sixOf, zero_add, van_eq ho, neg_smul, smul_neg]
    have e : (1 + (ch.ζ ^ d.size - 1)) * ch.ζ * ch.ζ = ch.ζ * ch.ζ * ch.ζ ^ d.size := by ring
    rw [e]
    abel

end Verif.Circuit.VerifierAgg
