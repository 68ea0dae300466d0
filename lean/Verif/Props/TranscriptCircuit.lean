import Verif.Circuit.TranscriptSpec
import Verif.Props.VerifierCircuit
import Verif.Props.RescueCircuit
import Verif.Props.RescueSponge

/-!
# C81: the transcript circuit and the native Rescue transcript
-/

set_option linter.unusedSectionVars false

namespace Verif.Props.TranscriptCircuit

open Verif.Circuit Verif.Circuit.VerifierPoly Verif.Circuit.TranscriptVar Verif.Props.VerifierCircuit Verif.Plonk Verif.Conv
open Verif.Rescue (Vec Consts)

variable {p Q k : ℕ} {G G2 : Type}

/-! ## The values of an assignment -/

/-- the coordinates of the points are those of the commitments -/
def Shows (te : G → Option (ZMod p × ZMod p)) (w : ℕ → ZMod p) (ps : List (ℕ × ℕ)) (gs : List G) : Prop :=
  List.Forall₂ (fun P g => te g = some (w P.1, w P.2)) ps gs

/-- the limbs are those of a number that is `a` in the native field -/
def Enc (w : ℕ → ZMod p) (x : FpElemVar p) (a : ZMod Q) : Prop := w x.v0 + x.tpm * w x.v1 = ((a.val : ℕ) : ZMod p)

/-- a key -/
def ShowsVk (te : G → Option (ZMod p × ZMod p)) (w : ℕ → ZMod p) (x : VkVar Q) (y : VKey (ZMod Q) G G2) : Prop :=
  Shows te w x.selectors y.selectors ∧ Shows te w x.sigmas y.sigmas

/-- the evaluations -/
def EncE (w : ℕ → ZMod p) (x : EvalsVar p) (e : Evals (ZMod Q)) : Prop :=
  List.Forall₂ (Enc w) x.wires e.wires ∧ List.Forall₂ (Enc w) x.sigmas e.sigmas ∧ Enc w x.permNext e.permNext

/-- a proof -/
structure ShowsProof (te : G → Option (ZMod p × ZMod p)) (w : ℕ → ZMod p) (b : ProofVar p) (B : BProof (ZMod Q) G) : Prop where
  wires : List.Forall₂ (Shows te w) b.wires B.wires
  prodPerm : Shows te w b.prodPerm B.prodPerm
  evals : List.Forall₂ (EncE w) b.evals B.evals
  quot : Shows te w b.quot B.quot
  opening : te B.opening = some (w b.opening.1, w b.opening.2)
  shifted : te B.shifted = some (w b.shifted.1, w b.shifted.2)

/-- keys, public inputs and a proof without lookups, as many as the variables, and with the values of the assignment -/
structure Input (te : G → Option (ZMod p × ZMod p)) (w : ℕ → ZMod p) (vks : List (VkVar Q)) (pis : List (List (FpElemVar p)))
    (b : ProofVar p) (VK : List (VKey (ZMod Q) G G2)) (PI : List (List (ZMod Q))) (B : BProof (ZMod Q) G) : Prop where
  keys : List.Forall₂ (ShowsVk te w) vks VK
  inputs : List.Forall₂ (List.Forall₂ (Enc w)) pis PI
  proof : ShowsProof te w b B
  lookups : ∀ l ∈ B.lookups, l = none
  noLookup : ∀ vk ∈ VK, vk.lookup = none
  lenKeys : VK.length = B.prodPerm.length
  lenInputs : VK.length = PI.length

/-- the variables exist -/
structure Exist (I : Info p) (c : Circ p) (vks : List (VkVar Q)) (pis : List (List (FpElemVar p))) (b : ProofVar p) : Prop where
  keys : ∀ x ∈ vks, PtsIn x.selectors c ∧ PtsIn x.sigmas c
  inputs : ∀ l ∈ pis, ∀ x ∈ l, Var I c x
  wires : ∀ l ∈ b.wires, PtsIn l c
  prodPerm : PtsIn b.prodPerm c
  evals : ∀ e ∈ b.evals, VarE I c e
  quot : PtsIn b.quot c
  opens : PtsIn [b.opening, b.shifted] c

theorem Exist.vkIn {I : Info p} {c : Circ p} {vks : List (VkVar Q)} {pis : List (List (FpElemVar p))} {b : ProofVar p}
    (h : Exist I c vks pis b) : ∀ x ∈ vks.zip pis, VkIn x c := by
  rintro ⟨x, y⟩ hx
  have h1 := h.keys x (List.of_mem_zip hx).1
  exact ⟨h1.1, h1.2, fun z hz => (h.inputs y (List.of_mem_zip hx).2 z hz).1⟩

theorem Exist.proofIn {I : Info p} {c : Circ p} {vks : List (VkVar Q)} {pis : List (List (FpElemVar p))} {b : ProofVar p}
    (h : Exist I c vks pis b) : ProofIn b c := by
  refine ⟨?_, h.prodPerm, ?_, h.quot, h.opens⟩
  · intro P hP
    obtain ⟨l, hl, hP⟩ := List.mem_flatten.1 hP
    exact h.wires l hl P hP
  · intro e he y hy
    obtain ⟨h1, h2, h3⟩ := h.evals e he
    simp only [List.mem_append, List.mem_cons, List.not_mem_nil, or_false] at hy
    rcases hy with (hy | hy) | rfl
    · exact (h1 y hy).1
    · exact (h2 y hy).1
    · exact h3.1

/-! ## The native transcript -/

section

variable [hp : Fact p.Prime] [hQ : Fact Q.Prime] {f : Vec (ZMod p) → Vec (ZMod p)} {te : G → Option (ZMod p × ZMod p)}

/-- the challenge of a hash -/
def low (Q : ℕ) (x : ZMod p) : ZMod Q := ((x.val % 2 ^ 248 : ℕ) : ZMod Q)

/-- the assignment has the limbs of `a` -/
def Limbs (I : Info p) (w : ℕ → ZMod p) (x : FpElemVar p) (a : ZMod Q) : Prop :=
  (w x.v0).val = a.val % 2 ^ I.mod.m ∧ (w x.v1).val = a.val / 2 ^ I.mod.m

/-- the elements of the challenges have the limbs of the native challenges -/
structure LimbsC (I : Info p) (w : ℕ → ZMod p) (ch : ChalVar p) (a : Chal (ZMod Q)) : Prop where
  α : Limbs I w ch.α a.α
  α2 : Limbs I w ch.α2 (a.α * a.α)
  α3 : Limbs I w ch.α3 (a.α * a.α * a.α)
  β : Limbs I w ch.β a.β
  γ : Limbs I w ch.γ a.γ
  ζ : Limbs I w ch.ζ a.ζ
  v : Limbs I w ch.v a.v
  u : Limbs I w ch.u a.u

/-- the elements of the challenges -/
def six (ch : ChalVar p) : Six (FpElemVar p) := ⟨ch.β, ch.γ, ch.α, ch.ζ, ch.v, ch.u⟩

/-- the challenges -/
def chal (x : Six (ZMod Q)) : Chal (ZMod Q) := ⟨none, x.α, x.β, x.γ, x.ζ, x.v, x.u⟩

theorem calls_append (s : List (ZMod Q) × RTr p) (l l' : List (Call (ZMod Q) G G2)) :
    RTr.calls te f s (l ++ l') = match RTr.calls te f s l with
      | .error e => .error e
      | .ok s => RTr.calls te f s l' := by
  induction l generalizing s with
  | nil => rfl
  | cons c l ih =>
    simp only [List.cons_append, RTr.calls]
    cases RTr.call te f s c with
    | error e => rfl
    | ok s' => exact ih s'

/-- the calls absorb the elements `L` -/
def Absorbs (te : G → Option (ZMod p × ZMod p)) (f : Vec (ZMod p) → Vec (ZMod p)) (l : List (Call (ZMod Q) G G2))
    (L : List (ZMod p)) : Prop := ∀ out t, RTr.calls te f (out, t) l = .ok (out, t.push L)

theorem push_push (t : RTr p) (l l' : List (ZMod p)) : (t.push l).push l' = t.push (l ++ l') := by
  simp [RTr.push]

theorem push_nil (t : RTr p) : t.push [] = t := by simp [RTr.push]

theorem Absorbs.nil : Absorbs te f ([] : List (Call (ZMod Q) G G2)) [] := fun out t => by rw [push_nil]; rfl

theorem Absorbs.append {l l' : List (Call (ZMod Q) G G2)} {L L' : List (ZMod p)} (h : Absorbs te f l L)
    (h' : Absorbs te f l' L') : Absorbs te f (l ++ l') (L ++ L') := fun out t => by
  rw [calls_append, h out t]
  show RTr.calls te f _ _ = _
  rw [h' out _, push_push]

theorem Absorbs.single {c : Call (ZMod Q) G G2} {L : List (ZMod p)}
    (h : ∀ out t, RTr.call te f (out, t) c = .ok (out, t.push L)) : Absorbs te f [c] L := fun out t => by
  simp only [RTr.calls, h out t]

theorem Absorbs.list {α β : Type} {R : α → β → Prop} {F : β → Call (ZMod Q) G G2} {g : α → List (ZMod p)}
    (h : ∀ a b, R a b → Absorbs te f [F b] (g a)) {as : List α} {bs : List β} (hab : List.Forall₂ R as bs) :
    Absorbs te f (bs.map F) (as.flatMap g) := by
  induction hab with
  | nil => exact Absorbs.nil
  | cons h1 _ ih => exact (h _ _ h1).append ih

theorem commitments_shows {w : ℕ → ZMod p} {ps : List (ℕ × ℕ)} {gs : List G} (h : Shows te w ps gs) (t : RTr p) :
    t.commitments te gs = .ok (t.push (ptVals w ps)) := by
  unfold Shows at h
  induction h generalizing t with
  | nil => rw [show ptVals w [] = [] from rfl, push_nil]; rfl
  | @cons P g ps gs h1 _ ih =>
    unfold RTr.commitments RTr.commitment
    rw [h1]
    show RTr.commitments te (t.push [w P.1, w P.2]) gs = _
    rw [ih, push_push]
    rfl

theorem switching (hpo : Odd p) (hQp : Q ≤ p) (x : ZMod Q) : fieldSwitching p x = .ok ((x.val : ℕ) : ZMod p) := by
  have hx := ZMod.val_lt x
  obtain ⟨y, h1, h2⟩ := (Props.Conv.C45_switch_partial Q p hpo (hQp.trans (Nat.le_mul_of_pos_right _ (by positivity))) x).1
    (by omega)
  rw [h1, ← h2, ZMod.natCast_val, ZMod.cast_id]

theorem scalars_enc (hpo : Odd p) (hQp : Q ≤ p) {w : ℕ → ZMod p} {xs : List (FpElemVar p)} {as : List (ZMod Q)}
    (h : List.Forall₂ (Enc w) xs as) (t : RTr p) : t.scalars as = .ok (t.push (xs.map (·.felt w))) := by
  induction h generalizing t with
  | nil => rw [List.map_nil, push_nil]; rfl
  | @cons x a xs as h1 _ ih =>
    unfold RTr.scalars
    rw [switching hpo hQp]
    show (t.push [((a.val : ℕ) : ZMod p)]).scalars as = _
    rw [ih, push_push, ← h1]
    rfl

theorem variableEvaluate_four (f : Vec (ZMod p) → Vec (ZMod p)) (l : List (ZMod p)) :
    ∃ s : Vec (ZMod p), Rescue.variableEvaluate f 4 l = .ok s.elems := by
  obtain ⟨out, ho, hl, -⟩ := Verif.Rescue.C40_variable_total f 4 l
  match out, hl with
  | [a, b, c, d], _ => exact ⟨⟨a, b, c, d⟩, ho⟩

theorem challenge_low (hbp : modulusBits p = 377) (hbQ : modulusBits Q = 253) (t : RTr p) :
    t.challenge f Q = .ok (low Q (nextState f t.state t.elems).a, ⟨[], nextState f t.state t.elems⟩) := by
  obtain ⟨s, hs⟩ := variableEvaluate_four f (t.state.elems ++ t.elems)
  have h1 : nextState f t.state t.elems = s := by
    unfold nextState; rw [hs]; rfl
  have b1 : bits p = 377 := hbp
  have b2 : bits Q = 253 := hbQ
  obtain ⟨y, h2, h3⟩ := Props.Conv.C45_mask_partial p Q (by omega) (by omega) s.a
  rw [b2] at h3
  have h4 : y = low Q s.a := by
    unfold low
    rw [show (2 : ℕ) ^ 248 = 2 ^ (8 * (253 / 8)) from rfl, ← h3, ZMod.natCast_val, ZMod.cast_id]
  rw [h1]
  unfold RTr.challenge
  rw [hs]
  simp only [Vec.elems]
  rw [h2, h4]

/-- the calls so far ended with a challenge -/
def Runs (te : G → Option (ZMod p × ZMod p)) (f : Vec (ZMod p) → Vec (ZMod p)) (l : List (Call (ZMod Q) G G2))
    (s : Vec (ZMod p)) : Prop := ∃ out, RTr.calls te f ([], RTr.new p) l = .ok (out, ⟨[], s⟩)

theorem ask_step (hbp : modulusBits p = 377) (hbQ : modulusBits Q = 253) {l cs : List (Call (ZMod Q) G G2)} {s : Vec (ZMod p)}
    {L : List (ZMod p)} (h : Runs te f l s) (ha : Absorbs te f cs L) (lbl : String) :
    rescueOracle te f ((l ++ cs) ++ [.challenge lbl]) = low Q (nextState f s L).a ∧
      Runs te f ((l ++ cs) ++ [.challenge lbl]) (nextState f s L) := by
  obtain ⟨out, hr⟩ := h
  have : RTr.calls te f ([], RTr.new p) ((l ++ cs) ++ [.challenge lbl]) =
      .ok (out ++ [low Q (nextState f s L).a], ⟨[], nextState f s L⟩) := by
    rw [calls_append, calls_append, hr]
    simp only
    rw [ha]
    show RTr.calls te f (out, RTr.push ⟨[], s⟩ L) [.challenge lbl] = _
    simp only [RTr.calls, RTr.call]
    rw [challenge_low hbp hbQ]
    rfl
  refine ⟨?_, _, this⟩
  unfold rescueOracle
  rw [this]
  simp

theorem zip_forall₂ {α β γ δ : Type} {R : α → β → Prop} {S : γ → δ → Prop} {as : List α} {bs : List β}
    (h1 : List.Forall₂ R as bs) : ∀ {cs : List γ} {ds : List δ}, List.Forall₂ S cs ds →
    List.Forall₂ (fun x y => R x.1 y.1 ∧ S x.2 y.2) (as.zip cs) (bs.zip ds) := by
  induction h1 with
  | nil => intro cs ds _; exact List.Forall₂.nil
  | cons r _ ih =>
    intro cs ds h2
    cases h2 with
    | nil => exact List.Forall₂.nil
    | cons s t => exact List.Forall₂.cons ⟨r, s⟩ (ih t)

theorem ptVals_flatten (w : ℕ → ZMod p) (ls : List (List (ℕ × ℕ))) : ptVals w ls.flatten = ls.flatMap (ptVals w) := by
  induction ls with
  | nil => rfl
  | cons l ls ih =>
    rw [List.flatten_cons, List.flatMap_cons, ← ih]
    unfold ptVals
    rw [List.flatMap_append]

/-- The native challenges are the truncated hashes of the values of the assignment. -/
theorem native_challenges (hbp : modulusBits p = 377) (hbQ : modulusBits Q = 253) {w : ℕ → ZMod p}
    {vks : List (VkVar Q)} {pis : List (List (FpElemVar p))} {b : ProofVar p} {VK : List (VKey (ZMod Q) G G2)}
    {PI : List (List (ZMod Q))} {B : BProof (ZMod Q) G} (h : Input te w vks pis b VK PI B) {extra : Option (List ℕ)}
    {msg : List (ZMod p)} (hm : msgElems p extra = .ok msg) :
    challenges (rescueOracle te f) extra VK PI B = chal ((hashes f (dataOf w msg vks pis b)).map (low Q)) := by
  have bp := two_pow_le_of_bits hbp (by norm_num)
  have bQ := two_pow_le_of_bits hbQ (by norm_num)
  have hQp : Q ≤ p := by
    have : (2 : ℕ) ^ 253 ≤ 2 ^ (377 - 1) := Nat.pow_le_pow_right (by norm_num) (by norm_num)
    omega
  have hpo : Odd p := hp.out.odd_of_ne_two (by rintro rfl; revert hbp; decide)
  have hmsg : Absorbs te f (extraMsg extra : List (Call (ZMod Q) G G2)) msg := by
    cases extra with
    | none => cases hm; exact Absorbs.nil
    | some m =>
      refine Absorbs.single fun out t => ?_
      rw [show msgElems p (some m) = messageElems p m from rfl] at hm
      simp only [RTr.call, RTr.message, hm]
      rfl
  have hvk : Absorbs te f ((VK.zip PI).map fun x => .vkAndInput x.1 x.2) ((vks.zip pis).flatMap (vkVals w)) := by
    refine Absorbs.list (R := fun x y => ShowsVk te w x.1 y.1 ∧ List.Forall₂ (Enc w) x.2 y.2) ?_ (zip_forall₂ h.keys h.inputs)
    rintro x y ⟨⟨h1, h2⟩, h3⟩
    refine Absorbs.single fun out t => ?_
    simp only [RTr.call, RTr.vkAndInput]
    rw [commitments_shows h1]
    simp only
    rw [commitments_shows h2]
    simp only
    rw [scalars_enc hpo hQp h3, push_push, push_push]
    simp only [vkVals, List.append_assoc]
    rfl
  have hcs : ∀ {ps : List (ℕ × ℕ)} {gs : List G} (lbl : String), Shows te w ps gs →
      Absorbs te f [(.commitments lbl gs : Call (ZMod Q) G G2)] (ptVals w ps) := by
    intro ps gs lbl hs
    refine Absorbs.single fun out t => ?_
    simp only [RTr.call, commitments_shows hs]
    rfl
  have hcm : ∀ {P : ℕ × ℕ} {g : G} (lbl : String), te g = some (w P.1, w P.2) →
      Absorbs te f [(.commitment lbl g : Call (ZMod Q) G G2)] [w P.1, w P.2] := by
    intro P g lbl hs
    refine Absorbs.single fun out t => ?_
    simp only [RTr.call, RTr.commitment, hs]
    rfl
  have hw : Absorbs te f (B.wires.map fun x => (.commitments "witness_poly_comms" x : Call (ZMod Q) G G2))
      (ptVals w b.wires.flatten) := by
    rw [ptVals_flatten]
    exact Absorbs.list (fun _ _ hs => hcs _ hs) h.proof.wires
  have hpp : Absorbs te f (B.prodPerm.map fun x => (.commitment "perm_poly_comms" x : Call (ZMod Q) G G2))
      (ptVals w b.prodPerm) := Absorbs.list (fun _ _ hs => hcm _ hs) h.proof.prodPerm
  have hev : Absorbs te f (B.evals.map fun x => (.evals x : Call (ZMod Q) G G2)) (b.evals.flatMap (evalVals w)) := by
    refine Absorbs.list ?_ h.proof.evals
    rintro x e ⟨h1, h2, h3⟩
    refine Absorbs.single fun out t => ?_
    simp only [RTr.call, RTr.evals]
    rw [scalars_enc hpo hQp (xs := x.wires ++ x.sigmas ++ [x.permNext])
      ((List.rel_append h1 h2 |> fun h => List.rel_append h (List.Forall₂.cons h3 List.Forall₂.nil)))]
    rfl
  have hop : Absorbs te f [(.commitment "open_proof" B.opening : Call (ZMod Q) G G2), .commitment "shifted_open_proof" B.shifted]
      (ptVals w [b.opening, b.shifted]) := (hcm "open_proof" h.proof.opening).append (hcm "shifted_open_proof" h.proof.shifted)
  have hf : ∀ {γ : Type} (F : LkProof (ZMod Q) G → γ), B.lookups.filterMap (·.map F) = [] := by
    intro γ F
    rw [List.filterMap_eq_nil_iff]
    intro l hl
    rw [h.lookups l hl]
    rfl
  have htau : VK.any (·.lookup.isSome) = false := by
    rw [List.any_eq_false]
    intro vk hvk
    rw [h.noLookup vk hvk]
    simp
  have h0 : Runs te f ([] : List (Call (ZMod Q) G G2)) Rescue.zeroVec := ⟨[], rfl⟩
  have s1 := ask_step hbp hbQ h0 ((hmsg.append hvk).append hw) "beta"
  have s2 := ask_step hbp hbQ s1.2 Absorbs.nil "gamma"
  have s3 := ask_step hbp hbQ s2.2 hpp "alpha"
  have s4 := ask_step hbp hbQ s3.2 (hcs "quot_poly_comms" h.proof.quot) "zeta"
  have s5 := ask_step hbp hbQ s4.2 hev "v"
  have s6 := ask_step hbp hbQ s5.2 hop "u"
  simp only [List.nil_append, List.append_nil] at s1 s2 s3 s4 s5 s6
  simp only [challenges, ask, askTau, htau, hf, List.append_nil, Bool.false_eq_true, if_false]
  simp only [List.append_assoc] at s1 s2 s3 s4 s5 s6 ⊢
  rw [s1.1, s2.1, s3.1, s4.1, s5.1, s6.1]
  simp only [chal, Six.map, hashes, dataOf, List.append_assoc]

/-! ## Other truncations and other messages -/

variable {I : Info p} {K : Consts} {c : Circ p} {vks : List (VkVar Q)} {pis : List (List (FpElemVar p))} {b : ProofVar p}
  {VK : List (VKey (ZMod Q) G G2)} {PI : List (List (ZMod Q))} {B : BProof (ZMod Q) G}

theorem Input.lens {w : ℕ → ZMod p} (h : Input te w vks pis b VK PI B) :
    vks.length = b.prodPerm.length ∧ vks.length = pis.length :=
  ⟨by rw [h.keys.length_eq, h.lenKeys]; exact h.proof.prodPerm.length_eq.symm,
    by rw [h.keys.length_eq, h.lenInputs, h.inputs.length_eq]⟩

theorem limbs_of_hol {c : Circ p} {x : FpElemVar p} {a : ZMod Q} (h : Hol True I.mod a x c) : Limbs I c.val x a :=
  h.2.2 trivial

/-- what the proofs below choose for each challenge: the challenge and the rest, as functions of the hash -/
structure Pick (p : ℕ) where
  B : ZMod p → ℕ
  Z : ZMod p → ℕ

/-- the choice is possible for a hash -/
def Pick.Ok (k : ℕ) (P : Pick p) (x : ZMod p) : Prop :=
  ((P.B x + 2 ^ 248 * P.Z x : ℕ) : ZMod p) = x ∧ P.Z x < 2 ^ 129 ∧ (248 % k ≠ 0 → P.B x < 2 ^ 248)

/-- The circuit the code builds is satisfied with other truncations and another message. -/
theorem other (hP : Params I Q k) (h : HashOk K f) (hbp : modulusBits p = 377) (hbQ : modulusBits Q = 253)
    (hc : Ready k c) {pi : List (ZMod p)} (hs : Sat c pi c.val) (hE : Exist I c vks pis b)
    (hl : vks.length = b.prodPerm.length ∧ vks.length = pis.length)
    {e e' : Option (List ℕ)} {l l' : List (ZMod p)} (he : msgElems p e = .ok l) (he' : msgElems p e' = .ok l')
    (hll : l.length = l'.length) (hee : e.isSome = e'.isSome) (P : Six (Pick p)) (hPQ : P.All fun P => ∀ x, P.B x < Q)
    (hok : Six.All₂ (Pick.Ok k) P (hashes f (dataOf c.val l' vks pis b))) :
    ∃ r c' w, challengesVars K I vks pis b e c = .ok (r, c') ∧ Sat c' pi c'.val ∧ Sat c' pi w ∧
      (∀ v < c.numVars, w v = c.val v) ∧ r.2.msg.map w = l' ∧
      LimbsC I w r.1 (chal (Q := Q) ⟨(P.β.B (hashes f (dataOf c.val l' vks pis b)).β : ℕ),
        (P.γ.B (hashes f (dataOf c.val l' vks pis b)).γ : ℕ), (P.α.B (hashes f (dataOf c.val l' vks pis b)).α : ℕ),
        (P.ζ.B (hashes f (dataOf c.val l' vks pis b)).ζ : ℕ), (P.v.B (hashes f (dataOf c.val l' vks pis b)).v : ℕ),
        (P.u.B (hashes f (dataOf c.val l' vks pis b)).u : ℕ)⟩) := by
  have bp := two_pow_le_of_bits hbp (by norm_num)
  have bQ := two_pow_le_of_bits hbQ (by norm_num)
  have hQp : Q ≤ p := by
    have : (2 : ℕ) ^ 253 ≤ 2 ^ (377 - 1) := Nat.pow_le_pow_right (by norm_num) (by norm_num)
    omega
  have tc := truncate_ok (p := p) (k := k) hbp hbQ
  have sp := challengesW_spec (H := True) (tr := codeTr) (P := ⟨_, _, _, _, _, _⟩) (g := ⟨_, _, _, _, _, _⟩) hP.par h hbp hbQ ⟨tc, tc, tc, tc, tc, tc⟩ he (hc.ctx hs) hE.vkIn hE.proofIn
  obtain ⟨r, c', hrun, hsat⟩ := sp.complete ⟨hl, trivial, trivial, trivial, trivial, trivial, trivial, trivial⟩ pi hs
  obtain ⟨p1, p2, p3, p4, p5, p6⟩ := hPQ
  have tw := fun (P : Pick p) (hP : ∀ x, P.B x < Q) => truncateWith_ok (k := k) (Q := Q) hbp hQp (Z := P.Z) hP
  have sp' := challengesW_spec (H := True)
    (tr := ⟨truncateWith P.β.B P.β.Z, truncateWith P.γ.B P.γ.Z, truncateWith P.α.B P.α.Z, truncateWith P.ζ.B P.ζ.Z,
      truncateWith P.v.B P.v.Z, truncateWith P.u.B P.u.Z⟩) (P := ⟨_, _, _, _, _, _⟩) (g := ⟨_, _, _, _, _, _⟩) hP.par h hbp hbQ
    ⟨tw _ p1, tw _ p2, tw _ p3, tw _ p4, tw _ p5, tw _ p6⟩ he' (hc.ctx hs) hE.vkIn hE.proofIn
  obtain ⟨o1, o2, o3, o4, o5, o6⟩ := hok
  obtain ⟨r', d, hrun', hsat'⟩ := sp'.complete ⟨hl, trivial, o1, o2, o3, o4, o5, o6⟩ pi hs
  have rel := challengesW_rel (K := K) hP.par (tr := codeTr) (tr' := ⟨truncateWith P.β.B P.β.Z, truncateWith P.γ.B P.γ.Z, truncateWith P.α.B P.α.Z, truncateWith P.ζ.B P.ζ.Z,
      truncateWith P.v.B P.v.Z, truncateWith P.u.B P.u.Z⟩) ⟨truncateWith_rel _ _, truncateWith_rel _ _,
        truncateWith_rel _ _, truncateWith_rel _ _, truncateWith_rel _ _, truncateWith_rel _ _⟩ vks pis b he he' hll hee
  obtain ⟨rfl, hsame⟩ := rel c c (Same.refl c) _ _ _ _ hrun hrun'
  obtain ⟨ed, ⟨b1, b2, b3, b4, ⟨g1, g2, g3, g4, g5, g6⟩, b6⟩, R⟩ := sp'.sound _ _ hrun'
  obtain ⟨q1, -, -⟩ := R pi d.val hsat'
  rw [b4, dataOf_ext hE.vkIn hE.proofIn ed] at q1
  refine ⟨r, c', d.val, hrun, hsat, hsame.symm.sat hsat', fun v hv => ed.val v hv, b4, ?_⟩
  set hs := hashes f (dataOf c.val l' vks pis b) with hhs
  have q : ∀ {F : Six ℕ → ℕ} {F' : Six (ZMod p) → ZMod p}, F' (r.2.hash.map d.val) = d.val (F r.2.hash) → d.val (F r.2.hash) = F' hs := by
    intro F F' hF
    rw [← hF, q1]
  simp only at g1 g2 g3 g4 g5 g6
  rw [q (F := (·.β)) (F' := (·.β)) rfl] at g1
  rw [q (F := (·.γ)) (F' := (·.γ)) rfl] at g2
  rw [q (F := (·.α)) (F' := (·.α)) rfl] at g3
  rw [q (F := (·.ζ)) (F' := (·.ζ)) rfl] at g4
  rw [q (F := (·.v)) (F' := (·.v)) rfl] at g5
  rw [q (F := (·.u)) (F' := (·.u)) rfl] at g6
  simp only [Six.map, g1, g2, g3, g4, g5, g6] at b6
  exact ⟨limbs_of_hol b6.α, limbs_of_hol b6.α2, limbs_of_hol b6.α3, limbs_of_hol b6.β, limbs_of_hol b6.γ, limbs_of_hol b6.ζ,
    limbs_of_hol b6.v, limbs_of_hol b6.u⟩

/-! ## The theorems -/

/-- the number a truncation of `x + p` gives, if `s`, or of `x` -/
def cut (s : Bool) (x : ZMod p) : ℕ := (x.val + if s then p else 0) % 2 ^ 248

def pick (s : Bool) : Pick p := ⟨cut s, fun x => (x.val + if s then p else 0) / 2 ^ 248⟩

theorem pick_lt (hbQ : modulusBits Q = 253) (s : Bool) (x : ZMod p) : (pick s).B x < Q := by
  have bQ := (two_pow_le_of_bits hbQ (by norm_num)).1
  have : (x.val + if s then p else 0) % 2 ^ 248 < 2 ^ 248 := Nat.mod_lt _ (by positivity)
  have h2 : (2 : ℕ) ^ 248 ≤ 2 ^ (253 - 1) := Nat.pow_le_pow_right (by norm_num) (by norm_num)
  exact (this.trans_le h2).trans_le bQ

theorem pick_ok (hbp : modulusBits p = 377) (s : Bool) (x : ZMod p) (h : s = true → x.val + p < 2 ^ 377) :
    (pick s).Ok k x := by
  have bp := (two_pow_le_of_bits hbp (by norm_num)).2
  have hx := ZMod.val_lt x
  have hlt : (x.val + if s then p else 0) < 2 ^ 377 := by
    cases s with
    | true => simpa using h rfl
    | false => simp only [Bool.false_eq_true, if_false]; omega
  refine ⟨?_, ?_, fun _ => Nat.mod_lt _ (by positivity)⟩
  · show (((x.val + if s then p else 0) % 2 ^ 248 + 2 ^ 248 * ((x.val + if s then p else 0) / 2 ^ 248) : ℕ) : ZMod p) = x
    rw [Nat.mod_add_div]
    cases s <;> simp
  · apply Nat.div_lt_of_lt_mul
    rw [← pow_add]
    exact hlt

/-- **C81**, honest values: if the builder stores the coordinates of the commitments and the limbs of the public inputs
and evaluations of native keys and a native proof without lookups, the circuit is built and satisfied, and stores the
challenges of the native verifier with the Rescue transcript. -/
theorem C81_honest (hP : Params I Q k) (h : HashOk K f) (hbp : modulusBits p = 377) (hbQ : modulusBits Q = 253)
    (hc : Ready k c) {pi : List (ZMod p)} (hs : checkSat c pi = .ok ()) (hE : Exist I c vks pis b)
    (hin : Input te c.val vks pis b VK PI B) {e : Option (List ℕ)} {l : List (ZMod p)} (he : msgElems p e = .ok l) :
    ∃ r c', challengesVars K I vks pis b e c = .ok (r, c') ∧ checkSat c' pi = .ok () ∧ Ready k c' ∧
      Stores I c' r.1.α (challenges (rescueOracle te f) e VK PI B).α ∧
      Stores I c' r.1.α2 ((challenges (rescueOracle te f) e VK PI B).α ^ 2) ∧
      Stores I c' r.1.α3 ((challenges (rescueOracle te f) e VK PI B).α ^ 3) ∧
      Stores I c' r.1.β (challenges (rescueOracle te f) e VK PI B).β ∧
      Stores I c' r.1.γ (challenges (rescueOracle te f) e VK PI B).γ ∧
      Stores I c' r.1.ζ (challenges (rescueOracle te f) e VK PI B).ζ ∧
      Stores I c' r.1.v (challenges (rescueOracle te f) e VK PI B).v ∧
      Stores I c' r.1.u (challenges (rescueOracle te f) e VK PI B).u := by
  have hs' := (checkSat_ok hc.1 pi).1 hs
  have tc := truncate_ok (p := p) (k := k) hbp hbQ
  have sp := challengesW_spec (H := True) (tr := codeTr) (P := ⟨_, _, _, _, _, _⟩) (g := ⟨_, _, _, _, _, _⟩) hP.par h hbp hbQ ⟨tc, tc, tc, tc, tc, tc⟩ he (hc.ctx hs') hE.vkIn hE.proofIn
  obtain ⟨r, c', hrun, hsat⟩ := sp.complete ⟨hin.lens, trivial, trivial, trivial, trivial, trivial, trivial, trivial⟩ pi hs'
  obtain ⟨ed, ⟨b1, b2, b3, b4, ⟨g1, g2, g3, g4, g5, g6⟩, b6⟩, R⟩ := sp.sound _ _ hrun
  obtain ⟨q1, -, -⟩ := R pi c'.val hsat
  rw [b4, dataOf_ext hE.vkIn hE.proofIn ed] at q1
  refine ⟨r, c', hrun, (checkSat_ok ed.wf pi).2 hsat, ⟨ed.wf, hc.2.1.ext ed, by rw [ed.ultra, hc.2.2]⟩, ?_⟩
  rw [native_challenges hbp hbQ hin he]
  set hs := hashes f (dataOf c.val l vks pis b) with hhs
  have q : ∀ {F : Six ℕ → ℕ} {F' : Six (ZMod p) → ZMod p}, F' (r.2.hash.map c'.val) = c'.val (F r.2.hash) → c'.val (F r.2.hash) = F' hs := by
    intro F F' hF
    rw [← hF, q1]
  simp only at g1 g2 g3 g4 g5 g6
  rw [q (F := (·.β)) (F' := (·.β)) rfl] at g1
  rw [q (F := (·.γ)) (F' := (·.γ)) rfl] at g2
  rw [q (F := (·.α)) (F' := (·.α)) rfl] at g3
  rw [q (F := (·.ζ)) (F' := (·.ζ)) rfl] at g4
  rw [q (F := (·.v)) (F' := (·.v)) rfl] at g5
  rw [q (F := (·.u)) (F' := (·.u)) rfl] at g6
  simp only [Six.map, g1, g2, g3, g4, g5, g6] at b6
  simp only [chal, Six.map, low]
  have a2 := stores_of_hol b6.α2
  have a3 := stores_of_hol b6.α3
  refine ⟨stores_of_hol b6.α, ?_, ?_, stores_of_hol b6.β, stores_of_hol b6.γ, stores_of_hol b6.ζ,
    stores_of_hol b6.v, stores_of_hol b6.u⟩
  · rw [sq]; exact a2
  · rw [pow_succ, sq]; exact a3

/-- `n` is the truncated hash or the truncation of the other number below `2^377` the hash stands for -/
def Cut (x : ZMod p) (n : ℕ) : Prop := n = x.val % 2 ^ 248 ∨ (x.val + p < 2 ^ 377 ∧ n = (x.val + p) % 2 ^ 248)

/-- the limbs stand for the number `n`, and if they are in range, for `n` in the native field -/
def Stands (I : Info p) (Q : ℕ) (w : ℕ → ZMod p) (x : FpElemVar p) (n : ℕ) : Prop :=
  w x.v0 + I.mod.tpm * w x.v1 = (n : ZMod p) ∧ (Small I w x → value Q I w x = (n : ZMod Q))

theorem stands_of (hP : Params I Q k) {w : ℕ → ZMod p} {x : FpElemVar p} {v : ℕ} {n : ℕ} (hn : n < p)
    (h1 : w x.v0 + I.mod.tpm * w x.v1 = w v) (h2 : (w v).val = n) : Stands I Q w x n := by
  have h3 : w v = (n : ZMod p) := by rw [← h2, ZMod.natCast_val, ZMod.cast_id]
  refine ⟨h1.trans h3, fun hs => ?_⟩
  have ht : I.mod.tpm = ((2 ^ I.mod.m : ℕ) : ZMod p) := by
    rw [hP.mul.tpm]; push_cast; rfl
  have hlt : (w x.v0).val + 2 ^ I.mod.m * (w x.v1).val < p := by
    have h4 : (w x.v0).val + 2 ^ I.mod.m * (w x.v1).val < 2 ^ I.mod.m * 2 ^ I.mod.m := by
      calc _ < 2 ^ I.mod.m + 2 ^ I.mod.m * (w x.v1).val := by have := hs.1; omega
        _ = 2 ^ I.mod.m * ((w x.v1).val + 1) := by ring
        _ ≤ _ := Nat.mul_le_mul_left _ hs.2
    have h5 : (2 : ℕ) ^ I.mod.m * 2 ^ I.mod.m ≤ 2 ^ (2 * I.mod.m + k + 2) := by
      rw [← pow_add]; exact Nat.pow_le_pow_right (by norm_num) (by omega)
    have := hP.wide
    omega
  have h6 : (((w x.v0).val + 2 ^ I.mod.m * (w x.v1).val : ℕ) : ZMod p) = (n : ZMod p) := by
    rw [← h3, ← h1, ht]; push_cast; simp only [ZMod.natCast_val, ZMod.cast_id', id]
  have h7 : (w x.v0).val + 2 ^ I.mod.m * (w x.v1).val = n := by
    have := congrArg ZMod.val h6
    rwa [ZMod.val_natCast_of_lt hlt, ZMod.val_natCast_of_lt hn] at this
  unfold value
  rw [h7]

/-- **C81**, every satisfying assignment, for a lookup range that divides neither 248 nor 129 (as 16): whatever native
keys, inputs and proof the values of the assignment are, and whatever message its message variables are, each challenge
is the native challenge or the truncation of the hash plus the modulus, where that still has 377 bits. The powers of `α` are right if
the limbs of `α` are in range. The claim without the second case is false (`C81_alias_counterexample`), and the message
variables need not have the values of the message (`C81_message_counterexample`). -/
theorem C81_sound_partial (hP : Params I Q k) (h : HashOk K f) (hbp : modulusBits p = 377) (hbQ : modulusBits Q = 253)
    (hk1 : 248 % k ≠ 0) (hk2 : 129 % k ≠ 0) (hk3 : k < 129)
    (hc : Ready k c) (hE : Exist I c vks pis b) {e : Option (List ℕ)} {l : List (ZMod p)} (he : msgElems p e = .ok l)
    {r : ChalVar p × Draws} {c' : Circ p} (hrun : challengesVars K I vks pis b e c = .ok (r, c'))
    {pi : List (ZMod p)} {w : ℕ → ZMod p} (hw : Sat c' pi w) (hin : Input te w vks pis b VK PI B)
    {e' : Option (List ℕ)} (he' : msgElems p e' = .ok (r.2.msg.map w)) :
    ∃ x : Six (ZMod p), challenges (rescueOracle te f) e' VK PI B = chal (x.map (low Q)) ∧
      (∃ n : Six ℕ, Six.All₂ Cut x n ∧ Six.All₂ (Stands I Q w) (six r.1) n) ∧
      (Small I w r.1.α → (Small I w r.1.α2 ∧ value Q I w r.1.α2 = value Q I w r.1.α ^ 2) ∧
        Small I w r.1.α3 ∧ value Q I w r.1.α3 = value Q I w r.1.α ^ 3) := by
  have bp := two_pow_le_of_bits hbp (by norm_num)
  have tc := truncate_ok (p := p) (k := k) hbp hbQ
  have sp := challengesW_spec (H := False) (tr := codeTr) (P := ⟨_, _, _, _, _, _⟩) (g := ⟨_, _, _, _, _, _⟩) hP.par h hbp hbQ ⟨tc, tc, tc, tc, tc, tc⟩ he hc.ctxF hE.vkIn hE.proofIn
  obtain ⟨-, -, R⟩ := sp.sound _ _ hrun
  obtain ⟨q1, ⟨t1, t2, t3, t4, t5, t6⟩, q3⟩ := R pi w hw
  refine ⟨r.2.hash.map w, ?_, ⟨r.2.ch.map fun v => (w v).val, ?_, ?_⟩, fun hs => ⟨q3.α2 hs, q3.α3 hs⟩⟩
  · rw [native_challenges hbp hbQ hin he', ← q1]
  · have key : ∀ {a b : ℕ}, TrRel k w a b → Cut (w a) (w b).val := by
      rintro a b ⟨b1, b2, z1, z2, ht⟩
      have h1 := Nat.mod_lt 248 (show k > 0 by have := hP.mul.two; omega)
      have h2 := Nat.mod_lt 129 (show k > 0 by have := hP.mul.two; omega)
      rw [hbp, show 377 - 248 = 129 from rfl] at ht
      have := (ht.trunc (by omega) (by omega) (by omega) (by omega) hk1 (by omega) hk2).2
      rw [hbp] at this
      exact this
    exact ⟨key t1, key t2, key t3, key t4, key t5, key t6⟩
  · have kk : ∀ {x : FpElemVar p} {v : ℕ}, w x.v0 + I.mod.tpm * w x.v1 = w v → Stands I Q w x (w v).val :=
      fun hx => stands_of hP (ZMod.val_lt _) hx rfl
    exact ⟨kk q3.β, kk q3.γ, kk q3.α, kk q3.ζ, kk q3.v, kk q3.u⟩

/-- **C81**, two numbers for one hash: choose any of the six challenges whose hash `x` has `x + p < 2^377`. The circuit
the code builds for honest values has a satisfying assignment with the same keys, inputs and proof in which the chosen
challenges are `(x + p) % 2^248`, which is another element than the native challenge. -/
theorem C81_alias_partial (hP : Params I Q k) (h : HashOk K f) (hbp : modulusBits p = 377) (hbQ : modulusBits Q = 253)
    (hc : Ready k c) {pi : List (ZMod p)} (hs : checkSat c pi = .ok ()) (hE : Exist I c vks pis b)
    (hin : Input te c.val vks pis b VK PI B) {e : Option (List ℕ)} {l : List (ZMod p)} (he : msgElems p e = .ok l) :
    ∃ x : Six (ZMod p), x = hashes f (dataOf c.val l vks pis b) ∧
      challenges (rescueOracle te f) e VK PI B = chal (x.map (low Q)) ∧
      ∀ s : Six Bool, Six.All₂ (fun s x => s = true → x.val + p < 2 ^ 377) s x →
        ∃ r c' w, challengesVars K I vks pis b e c = .ok (r, c') ∧ checkSat c' pi = .ok () ∧ Sat c' pi w ∧
          (∀ v < c.numVars, w v = c.val v) ∧ r.2.msg.map w = l ∧
          LimbsC I w r.1 (chal ⟨(cut s.β x.β : ℕ), (cut s.γ x.γ : ℕ), (cut s.α x.α : ℕ), (cut s.ζ x.ζ : ℕ), (cut s.v x.v : ℕ),
            (cut s.u x.u : ℕ)⟩ : Chal (ZMod Q)) ∧
          Six.All₂ (fun s x => s = true → ((cut s x : ℕ) : ZMod Q) ≠ low Q x) s x := by
  have hs' := (checkSat_ok hc.1 pi).1 hs
  refine ⟨_, rfl, native_challenges hbp hbQ hin he, ?_⟩
  rintro s ⟨s1, s2, s3, s4, s5, s6⟩
  obtain ⟨r, c', w, hrun, hsat, hw, hold, hmsg, hl⟩ := other hP h hbp hbQ hc hs' hE hin.lens he he rfl rfl
    ⟨pick s.β, pick s.γ, pick s.α, pick s.ζ, pick s.v, pick s.u⟩
    ⟨pick_lt hbQ _, pick_lt hbQ _, pick_lt hbQ _, pick_lt hbQ _, pick_lt hbQ _, pick_lt hbQ _⟩
    ⟨pick_ok hbp _ _ s1, pick_ok hbp _ _ s2, pick_ok hbp _ _ s3, pick_ok hbp _ _ s4, pick_ok hbp _ _ s5, pick_ok hbp _ _ s6⟩
  have hwf : WF c' := by
    have tc := truncate_ok (p := p) (k := k) hbp hbQ
    have sp := challengesW_spec (H := False) (tr := codeTr) (P := ⟨_, _, _, _, _, _⟩) (g := ⟨_, _, _, _, _, _⟩) hP.par h hbp hbQ ⟨tc, tc, tc, tc, tc, tc⟩ he hc.ctxF hE.vkIn hE.proofIn
    exact (sp.sound _ _ hrun).1.wf
  refine ⟨r, c', w, hrun, (checkSat_ok hwf pi).2 hsat, hw, hold, hmsg, hl, ?_⟩
  have hpo : p % 2 = 1 := Nat.odd_iff.1 (hp.out.odd_of_ne_two (by rintro rfl; revert hbp; decide))
  have bQ := (two_pow_le_of_bits hbQ (by norm_num)).1
  have key : ∀ (s : Bool) (x : ZMod p), s = true → ((cut s x : ℕ) : ZMod Q) ≠ low Q x := by
    rintro s x rfl heq
    have h2 : (2 : ℕ) ^ 248 ≤ 2 ^ (253 - 1) := Nat.pow_le_pow_right (by norm_num) (by norm_num)
    have e1 : cut true x < Q := pick_lt hbQ true x
    have e2 : x.val % 2 ^ 248 < 2 ^ 248 := Nat.mod_lt _ (by positivity)
    have := congrArg ZMod.val heq
    unfold low at this
    rw [ZMod.val_natCast_of_lt e1, ZMod.val_natCast_of_lt (by omega)] at this
    have h3 : (x.val + p) % 2 ^ 248 % 2 = x.val % 2 ^ 248 % 2 := congrArg (· % 2) (by simpa [cut] using this)
    rw [Nat.mod_mod_of_dvd _ (dvd_pow_self 2 (by norm_num)), Nat.mod_mod_of_dvd _ (dvd_pow_self 2 (by norm_num))] at h3
    omega
  exact ⟨key _ _, key _ _, key _ _, key _ _, key _ _, key _ _⟩

/-- the number `x % 2^248 + j 2^248` and the rest -/
def pickAdd (Q j : ℕ) : Pick p :=
  ⟨fun x => if x.val % 2 ^ 248 + j * 2 ^ 248 < Q then x.val % 2 ^ 248 + j * 2 ^ 248 else 0, fun x => x.val / 2 ^ 248 - j⟩

theorem pickAdd_ok (hbp : modulusBits p = 377) (hk : 248 % k = 0) {j : ℕ} {x : ZMod p}
    (h : x.val % 2 ^ 248 + j * 2 ^ 248 < Q ∧ j ≤ x.val / 2 ^ 248) : (pickAdd Q j).Ok k x := by
  have bp := (two_pow_le_of_bits hbp (by norm_num)).2
  have hx := ZMod.val_lt x
  refine ⟨?_, ?_, fun h => absurd hk h⟩
  · simp only [pickAdd, if_pos h.1]
    have h1 : x.val % 2 ^ 248 + j * 2 ^ 248 + 2 ^ 248 * (x.val / 2 ^ 248 - j) = x.val := by
      have h2 := Nat.mod_add_div x.val (2 ^ 248)
      have h3 : j * 2 ^ 248 + 2 ^ 248 * (x.val / 2 ^ 248 - j) = 2 ^ 248 * (x.val / 2 ^ 248) := by
        rw [mul_comm j, ← mul_add, Nat.add_sub_cancel' h.2]
      omega
    rw [h1, ZMod.natCast_val, ZMod.cast_id]
  · refine (Nat.sub_le _ _).trans_lt ?_
    apply Nat.div_lt_of_lt_mul
    rw [← pow_add]
    exact hx.trans bp

/-- **C81**, lookup ranges that divide 248 (as 8): the high limb of a challenge is not checked at all. Each challenge can be
any number below the modulus of the native field that agrees with the hash modulo `2^248` and is at most the hash. -/
theorem C81_short_range_partial (hP : Params I Q k) (h : HashOk K f) (hbp : modulusBits p = 377) (hbQ : modulusBits Q = 253)
    (hk : 248 % k = 0)
    (hc : Ready k c) {pi : List (ZMod p)} (hs : checkSat c pi = .ok ()) (hE : Exist I c vks pis b)
    (hin : Input te c.val vks pis b VK PI B) {e : Option (List ℕ)} {l : List (ZMod p)} (he : msgElems p e = .ok l) :
    ∃ x : Six (ZMod p), x = hashes f (dataOf c.val l vks pis b) ∧
      challenges (rescueOracle te f) e VK PI B = chal (x.map (low Q)) ∧
      ∀ j : Six ℕ, Six.All₂ (fun j x => x.val % 2 ^ 248 + j * 2 ^ 248 < Q ∧ j ≤ x.val / 2 ^ 248) j x →
        ∃ r c' w, challengesVars K I vks pis b e c = .ok (r, c') ∧ checkSat c' pi = .ok () ∧ Sat c' pi w ∧
          (∀ v < c.numVars, w v = c.val v) ∧ r.2.msg.map w = l ∧
          LimbsC I w r.1 (chal ⟨low Q x.β + j.β * 2 ^ 248, low Q x.γ + j.γ * 2 ^ 248, low Q x.α + j.α * 2 ^ 248,
            low Q x.ζ + j.ζ * 2 ^ 248, low Q x.v + j.v * 2 ^ 248, low Q x.u + j.u * 2 ^ 248⟩ : Chal (ZMod Q)) := by
  have hs' := (checkSat_ok hc.1 pi).1 hs
  have hQ0 : 0 < Q := hQ.out.pos
  refine ⟨_, rfl, native_challenges hbp hbQ hin he, ?_⟩
  rintro j ⟨s1, s2, s3, s4, s5, s6⟩
  have hlt : ∀ (j : ℕ) (x : ZMod p), (pickAdd Q j).B x < Q := by
    intro j x
    simp only [pickAdd]
    split <;> assumption
  obtain ⟨r, c', w, hrun, hsat, hw, hold, hmsg, hl⟩ := other hP h hbp hbQ hc hs' hE hin.lens he he rfl rfl
    ⟨pickAdd Q j.β, pickAdd Q j.γ, pickAdd Q j.α, pickAdd Q j.ζ, pickAdd Q j.v, pickAdd Q j.u⟩
    ⟨hlt _, hlt _, hlt _, hlt _, hlt _, hlt _⟩
    ⟨pickAdd_ok hbp hk s1, pickAdd_ok hbp hk s2, pickAdd_ok hbp hk s3, pickAdd_ok hbp hk s4, pickAdd_ok hbp hk s5, pickAdd_ok hbp hk s6⟩
  have hwf : WF c' := by
    have tc := truncate_ok (p := p) (k := k) hbp hbQ
    have sp := challengesW_spec (H := False) (tr := codeTr) (P := ⟨_, _, _, _, _, _⟩) (g := ⟨_, _, _, _, _, _⟩) hP.par h hbp hbQ ⟨tc, tc, tc, tc, tc, tc⟩ he hc.ctxF hE.vkIn hE.proofIn
    exact (sp.sound _ _ hrun).1.wf
  refine ⟨r, c', w, hrun, (checkSat_ok hwf pi).2 hsat, hw, hold, hmsg, ?_⟩
  have key : ∀ {j : ℕ} {x : ZMod p}, (x.val % 2 ^ 248 + j * 2 ^ 248 < Q ∧ j ≤ x.val / 2 ^ 248) →
      (((pickAdd Q j).B x : ℕ) : ZMod Q) = low Q x + j * 2 ^ 248 := by
    intro j x hx
    simp only [pickAdd, if_pos hx.1, low]
    rw [Nat.cast_add, Nat.cast_mul, Nat.cast_pow, Nat.cast_ofNat]
  rw [key s1, key s2, key s3, key s4, key s5, key s6] at hl
  exact hl

/-- **C81**, the message of the caller is not bound: the circuit built for one message has a satisfying assignment with
the same keys, inputs and proof and the native challenges of any other message with as many elements. -/
theorem C81_message_partial (hP : Params I Q k) (h : HashOk K f) (hbp : modulusBits p = 377) (hbQ : modulusBits Q = 253)
    (hc : Ready k c) {pi : List (ZMod p)} (hs : checkSat c pi = .ok ()) (hE : Exist I c vks pis b)
    (hin : Input te c.val vks pis b VK PI B) {m m' : List ℕ} {l l' : List (ZMod p)} (he : messageElems p m = .ok l)
    (he' : messageElems p m' = .ok l') (hl : l.length = l'.length) :
    ∃ r c' w, challengesVars K I vks pis b (some m) c = .ok (r, c') ∧ checkSat c' pi = .ok () ∧ Sat c' pi w ∧
      (∀ v < c.numVars, w v = c.val v) ∧
      LimbsC I w r.1 (challenges (rescueOracle te f) (some m') VK PI B) := by
  have hs' := (checkSat_ok hc.1 pi).1 hs
  have f1 : ∀ x : ZMod p, false = true → x.val + p < 2 ^ 377 := fun _ h => by cases h
  obtain ⟨r, c', w, hrun, hsat, hw, hold, hmsg, hL⟩ := other hP h hbp hbQ hc hs' hE hin.lens (e := some m) (e' := some m') he he' hl rfl
    ⟨pick false, pick false, pick false, pick false, pick false, pick false⟩
    ⟨pick_lt hbQ _, pick_lt hbQ _, pick_lt hbQ _, pick_lt hbQ _, pick_lt hbQ _, pick_lt hbQ _⟩
    ⟨pick_ok hbp _ _ (f1 _), pick_ok hbp _ _ (f1 _), pick_ok hbp _ _ (f1 _), pick_ok hbp _ _ (f1 _), pick_ok hbp _ _ (f1 _),
      pick_ok hbp _ _ (f1 _)⟩
  have hwf : WF c' := by
    have tc := truncate_ok (p := p) (k := k) hbp hbQ
    have sp := challengesW_spec (H := False) (extra := some m) (tr := codeTr) (P := ⟨_, _, _, _, _, _⟩) (g := ⟨_, _, _, _, _, _⟩) hP.par h hbp hbQ ⟨tc, tc, tc, tc, tc, tc⟩ he hc.ctxF hE.vkIn hE.proofIn
    exact (sp.sound _ _ hrun).1.wf
  refine ⟨r, c', w, hrun, (checkSat_ok hwf pi).2 hsat, hw, hold, ?_⟩
  rw [native_challenges hbp hbQ hin (extra := some m') he']
  exact hL

end

end Verif.Props.TranscriptCircuit
