import Verif.Circuit.Poe
import Verif.Plonk.BuiltExt
import Verif.Props.CircuitPublic
import Verif.Props.Conversion
import Verif.Props.ElGamalCircuit
import Verif.Props.Prover

/-!
# C91: circuits made with the gadgets, and the proof of exponent

* `C91_gadget`: a gadget turns a circuit that can be built into one that can be built, with the same public inputs; so what is
  proved of finalization, the keys, the prover and the verifier applies to circuits made with the gadgets.
* `C91_same_key`: the keys of circuits that differ in the stored witness are the same.
* The circuit of `plonk/examples/proof_of_exp.rs`: `C91_outcome` (which inputs are accepted), `C91_relation` (which public
  inputs go with which exponents), `C91_one_key` (the keys do not depend on the exponent and the point), `C91_accepted`
  (the proofs of the prover are accepted), `C91_exponent` and `C91_no_exponent` (a prover that commits to wires without an
  exponent is rejected).
-/

set_option linter.unusedSectionVars false

namespace Verif.Props.Poe

open Verif.Circuit Verif.Plonk Verif.Pcs Verif.Props.Circuit Verif.Props.Ecc Verif.Props.ElGamalCircuit Verif.Props.EndToEnd
open Verif.Props.Verifier Verif.Props.Finalize
open Verif.Curves Polynomial

variable {p : ℕ} [Fact p.Prime]

/-! ## Gadgets -/

theorem publicInput_frame {c c' : Circ p} (hc : WF c) (hn : c.numVars ≤ c'.numVars)
    (hv : ∀ i, i < c.numVars → c'.val i = c.val i) (hf : Frame c c') : publicInput c' = publicInput c := by
  unfold publicInput
  rw [hf.pub]
  apply mapM_except_congr
  intro g hg
  obtain ⟨r, h1, -⟩ := hc.pub g hg
  obtain ⟨t, h2, -⟩ := hf.rows
  have hlt : g < c.rows.length := (List.getElem?_eq_some_iff.1 h1).1
  have h3 : c'.rows[g]? = some r := by rw [h2, List.getElem?_append_left hlt]; exact h1
  have h4 := (hc.wires r (List.mem_of_getElem? h1)).2.2.2.2
  unfold ioValue
  rw [h1, h3]
  simp only
  rw [if_neg (by omega), if_neg (by omega), hv _ h4]

/-- **C91, gadgets.** For every gadget `m` with a specification (`Correct`): from a circuit that can be built it makes a
circuit that can be built, with the same public inputs. -/
theorem C91_gadget {α : Type} {m : Build p α} {dom : Circ p → Prop} {pre : (ℕ → ZMod p) → Prop}
    {post : α → (ℕ → ZMod p) → Prop} (h : Correct m dom pre post) {c c' : Circ p} (hc : Built c) (hd : dom c) {v : α}
    (hm : m c = .ok (v, c')) : Built c' ∧ publicInput c' = publicInput c := by
  obtain ⟨h1, h2, h3, h4⟩ := h.wf c hc.ok.wf hd v c' hm
  exact ⟨hc.ext h1 h2 h3 h4, publicInput_frame hc.ok.wf h2 h3 h4⟩

/-! ## Keys -/

/-- the circuit with another witness -/
def withWitness (c : Circ p) (ws : List (ZMod p)) : Circ p := { c with witness := ws }

/-- the finalized circuit with another witness -/
def fWithWitness (f : FCirc p) (ws : List (ZMod p)) : FCirc p := { f with circ := withWitness f.circ ws }

theorem finalize_withWitness (S : ℕ) (root : ZMod p) (rnd : List (ZMod p)) (c : Circ p) (ws : List (ZMod p)) :
    finalize S root rnd (withWitness c ws) = (finalize S root rnd c).map (fWithWitness · ws) := by
  have hr : ∀ n, rearrangeGates (padCirc (withWitness c ws) n) =
      (rearrangeGates (padCirc c n)).map (withWitness · ws) := by
    intro n
    unfold rearrangeGates
    show (match moveIo 0 (padCirc c n).pubIds (padCirc c n).rows with | .error e => _ | .ok (rows, ids) => _) = _
    cases moveIo 0 (padCirc c n).pubIds (padCirc c n).rows with
    | error e => rfl
    | ok y =>
      obtain ⟨rows, ids⟩ := y
      show (match c.ultra with | none => _ | some _ => _) = Except.map _ (match c.ultra with | none => _ | some _ => _)
      cases c.ultra with
      | none => rfl
      | some k =>
        show (match moveLookups (tableIds c.tableGateIds) (n - 2) rows with | .error e => _ | .ok rows' => _) =
          Except.map _ (match moveLookups (tableIds c.tableGateIds) (n - 2) rows with | .error e => _ | .ok rows' => _)
        cases moveLookups (tableIds c.tableGateIds) (n - 2) rows <;> rfl
  unfold finalize
  show (match newDomain S root (numSlots c) with | none => _ | some dom => _) = _
  cases newDomain S root (numSlots c) with
  | none => rfl
  | some dom =>
    simp only
    split
    · rfl
    · rw [hr]
      cases rearrangeGates (padCirc c dom.size) with
      | error e => rfl
      | ok c' =>
        show (match wirePermutation c' with | .error e => _ | .ok perm => _) =
          Except.map _ (match wirePermutation c' with | .error e => _ | .ok perm => _)
        cases wirePermutation c' with
        | error e => rfl
        | ok perm =>
          show (match cosetReps rnd (numWireTypes c') dom.size with | .error e => _ | .ok ks => _) =
            Except.map _ (match cosetReps rnd (numWireTypes c') dom.size with | .error e => _ | .ok ks => _)
          cases cosetReps rnd (numWireTypes c') dom.size <;> rfl

section
variable {G G2 : Type} [AddCommGroup G] [Module (ZMod p) G] [DecidableEq G]
  [AddCommGroup G2] [Module (ZMod p) G2] [DecidableEq G2]

/-- **C91, keys.** Circuits that differ in the stored witness only have the same keys (or the same failure). -/
theorem C91_same_key {c d : Circ p} (h : c.shape = d.shape) (S : ℕ) (root : ZMod p) (rnd : List (ZMod p))
    (srs : Srs G G2) :
    (∀ e, finalize S root rnd c = .error e ↔ finalize S root rnd d = .error e) ∧
      ∀ f f', finalize S root rnd c = .ok f → finalize S root rnd d = .ok f' →
        preprocess rnd srs f = preprocess rnd srs f' := by
  have hd : d = withWitness c d.witness := by
    have h' : withWitness c.shape d.witness = withWitness d.shape d.witness := by rw [h]
    exact h'.symm
  rw [hd, finalize_withWitness]
  cases finalize S root rnd c with
  | error e => exact ⟨fun e' => Iff.rfl, fun f f' hf => by cases hf⟩
  | ok f =>
    refine ⟨fun e' => ⟨fun h => (by cases h), fun h => (by cases h)⟩, ?_⟩
    rintro f1 f2 h1 h2
    obtain rfl := Except.ok.inj h1
    obtain rfl := Except.ok.inj (show (Except.ok (fWithWitness f d.witness) : Except CErr (FCirc p)) = .ok f2 from h2)
    rfl
end

/-! ## Public points -/

/-- what making a new public variable does -/
structure Public (x : ZMod p) (c c' : Circ p) : Prop where
  built : Built c'
  vars : c'.numVars = c.numVars + 1
  ultra : c'.ultra = c.ultra
  ids : c'.pubIds.length = c.pubIds.length + 1
  old : ∀ i, i < c.numVars → c'.val i = c.val i
  new : c'.val c.numVars = x
  sat : ∀ pi y w, Sat c' (pi ++ [y]) w ↔ Sat c pi w ∧ w c.numVars = y
  input : ∀ l, publicInput c = .ok l → publicInput c' = .ok (l ++ [x])

theorem createPublic {c : Circ p} (hc : Built c) (x : ZMod p) :
    ∃ c', createPublicVariable x c = .ok (c.numVars, c') ∧ Public x c c' := by
  have hwf := hc.ok.wf
  have e1 : (createVariable x : Build p ℕ) c = .ok (c.numVars, c.push x) := by
    unfold createVariable; rw [if_neg (by simp [hwf.opn])]; rfl
  have hb1 : Built (c.push x) := Built.var c _ x c.numVars hc e1
  have hlt : c.numVars < (c.push x).numVars := by simp [Circ.push]
  obtain ⟨c', h1, -, h3, h4⟩ := C62_set_variable_public (c.push x) hb1.ok.wf c.numVars hlt
  have hset : setVariablePublic c.numVars (c.push x) = .ok ((), addPub (c.push x) c.numVars) := by
    unfold setVariablePublic; rw [if_neg (by simp [hb1.ok.wf.opn])]; rfl
  have e2 : c' = addPub (c.push x) c.numVars := by
    rw [hset] at h1
    exact (Prod.mk.inj (Except.ok.inj h1)).2.symm
  have e := ext_push hwf x
  refine ⟨c', ?_, Built.pub _ _ c.numVars hb1 hlt h1, by rw [e2]; rfl, by rw [e2]; rfl, by rw [e2]; simp [addPub, Circ.push],
    fun i hi => ?_, ?_, fun pi y w => ?_, fun l hl => ?_⟩
  · unfold createPublicVariable
    rw [bind_of_ok e1, bind_of_ok h1]
    rfl
  · rw [e2]; exact push_val_lt hwf x hi
  · rw [e2]; exact push_val_eq hwf x
  · rw [h3]
    exact and_congr_left fun _ => ⟨fun h => ⟨h.len, h.io, h.plain, h.range, h.lookup⟩,
      fun h => ⟨h.len, h.io, h.plain, h.range, h.lookup⟩⟩
  · have := h4 l (by rw [publicInput_frame hwf e.vars e.val e.frame]; exact hl)
    rw [this, push_val_eq hwf x]

/-! ## The circuit -/

/-- the curve is that of `K`, over an odd field which is not smaller than the scalar field -/
structure Setting (K : TE p) (E : EdGroup (ZMod p)) : Prop where
  two : p ≠ 2
  a : E.a = K.a
  d : E.d = K.d
  pos : 0 < K.r
  le : K.r ≤ p

variable {K : TE p} {E : EdGroup (ZMod p)}

/-- the circuit before the multiplication: variable 2 is the exponent, the generator is a constant, the last two variables
are public -/
structure Start (B X : ZMod p × ZMod p) (x : ZMod p) (gv Xv : ℕ × ℕ) (c : Circ p) : Prop where
  built : Built c
  ultra : c.ultra = none
  pubs : c.pubIds.length = 2
  exp : 2 < c.numVars
  gen : PIn c gv
  point : PIn c Xv
  expVal : c.val 2 = x
  pointVal : pt c.val Xv = X
  sat : ∀ pi w, Sat c pi w → pt w gv = B ∧ pi = [(pt w Xv).1, (pt w Xv).2]
  self : Sat c [X.1, X.2] c.val
  input : publicInput c = .ok [X.1, X.2]

theorem start (B : ZMod p × ZMod p) (x : ZMod p) (X : ZMod p × ZMod p) :
    ∃ gv Xv c, Start B X x gv Xv c ∧ poeGates K B x X (Circ.new p none) =
      (do let y ← Glv.variableBaseScalarMul K 2 gv; enforcePointEqual y Xv) c := by
  have hb0 : Built (Circ.new p none) := Built.new none
  have hw0 := hb0.ok.wf
  have s0 : Sat (Circ.new p none) [] (Circ.new p none).val := by
    refine ⟨rfl, by simp [Circ.new], ?_, by simp [Circ.new], by simp [Circ.new]⟩
    intro r hr _
    simp [Circ.new] at hr
    rcases hr with rfl | rfl <;> simp [Row.Holds, Sel.output, constantGate, Circ.val, Circ.new]
  have e1 : (createVariable x : Build p ℕ) (Circ.new p none) = .ok (2, (Circ.new p none).push x) := rfl
  have x1 := ext_push hw0 x
  have s1 := sat_push hw0 x s0
  have hb1 := hb0.of_ext x1
  have hg := createConstantPointVariable_spec x1.wf B
  obtain ⟨gv, c2, e2, s2⟩ := hg.complete trivial [] s1
  obtain ⟨x2, hgv, r2⟩ := hg.sound gv c2 e2
  have hb2 := hb1.of_ext x2
  obtain ⟨c3, e3, P3⟩ := createPublic hb2 X.1
  obtain ⟨c4, e4, P4⟩ := createPublic P3.built X.2
  have hlt : 2 < c2.numVars := x2.lt (by simp [Circ.push, Circ.new])
  have hu2 : c2.ultra = none := by rw [x2.ultra]; rfl
  have hp2 : c2.pubIds = [] := by rw [x2.frame.pub]; rfl
  have hv3 : c4.val c2.numVars = X.1 := by rw [P4.old _ (by rw [P3.vars]; omega), P3.new]
  have hv4 : c4.val c3.numVars = X.2 := P4.new
  have hold : ∀ i, i < c2.numVars → c4.val i = c2.val i := fun i hi => by
    rw [P4.old i (by rw [P3.vars]; omega), P3.old i hi]
  have hsat : ∀ a b w, Sat c4 [a, b] w ↔ (Sat c2 [] w ∧ w c2.numVars = a) ∧ w c3.numVars = b := fun a b w => by
    rw [show [a, b] = [a] ++ [b] from rfl, P4.sat, show [a] = [] ++ [a] from rfl, P3.sat]
  refine ⟨gv, (c2.numVars, c3.numVars), c4, ⟨P4.built, ?_, ?_, ?_, ?_, ?_, ?_, ?_, ?_, ?_, ?_⟩, ?_⟩
  · rw [P4.ultra, P3.ultra, hu2]
  · rw [P4.ids, P3.ids, hp2]; rfl
  · rw [P4.vars, P3.vars]; omega
  · have h1 := hgv.1
    have h2 := hgv.2
    constructor <;> (rw [P4.vars, P3.vars]; omega)
  · constructor
    · show c2.numVars < _
      rw [P4.vars, P3.vars]; omega
    · show c3.numVars < _
      rw [P4.vars]; omega
  · rw [hold 2 hlt, x2.val 2 (by simp [Circ.push, Circ.new])]
    exact push_val_eq hw0 x
  · exact Prod.ext hv3 hv4
  · intro pi w hs
    have hl : pi.length = 2 := by rw [hs.len, P4.ids, P3.ids, hp2]; rfl
    obtain ⟨a, b, rfl⟩ : ∃ a b, pi = [a, b] := List.length_eq_two.1 hl
    obtain ⟨⟨h1, h2⟩, h3⟩ := (hsat a b w).1 hs
    exact ⟨r2 [] w h1, by rw [← h2, ← h3]; rfl⟩
  · rw [hsat]
    exact ⟨⟨Sat.congr hb2.ok.wf (fun i hi => (hold i hi).symm) s2, hv3⟩, hv4⟩
  · have h0 : publicInput c2 = .ok [] := by unfold publicInput; rw [hp2]; rfl
    exact P4.input _ (P3.input _ h0)
  · unfold poeGates
    rw [bind_of_ok e1, bind_of_ok e2]
    have : createPublicPointVariable X c2 = .ok ((c2.numVars, c3.numVars), c4) := by
      unfold createPublicPointVariable
      rw [bind_of_ok e3, bind_of_ok e4]
      rfl
    rw [bind_of_ok this]

/-- what the gates of the example force, and when they can be laid -/
theorem gates (hS : Setting K E) (B : E.Pt) (x : ZMod p) (X : ZMod p × ZMod p) :
    (∀ u c, poeGates K B.1 x X (Circ.new p none) = .ok (u, c) → Built c ∧ c.ultra = none ∧ c.pubIds.length = 2 ∧
      c.val 2 = x ∧ publicInput c = .ok [X.1, X.2] ∧
      ∀ pi w, Sat c pi w → (w 2).val < 2 ^ Nat.size K.r ∧ pi = [((w 2).val • B).1.1, ((w 2).val • B).1.2]) ∧
    (x.val < 2 ^ Nat.size K.r → X = (x.val • B).1 →
      ∃ u c, poeGates K B.1 x X (Circ.new p none) = .ok (u, c) ∧ Sat c [X.1, X.2] c.val) := by
  obtain ⟨gv, Xv, c0, h, he⟩ := start (K := K) B.1 x X
  rw [he]
  have hwf := h.built.ok.wf
  have hm := variableBase_spec' hS.two hS.a hS.d (Nat.size_pos.2 hS.pos).ne' (Nat.size_le_size hS.le) 2 gv hwf h.ultra h.exp
    h.gen
  constructor
  · intro u c hc
    obtain ⟨y, c1, h1, h2⟩ := bind_ok hc
    obtain ⟨x1, b1, r1⟩ := hm.sound y c1 h1
    obtain ⟨x2, -, r2⟩ := (enforcePointEqual_spec x1.wf y Xv).sound u c h2
    have e := x1.trans x2
    refine ⟨h.built.of_ext e, e.ultra.trans h.ultra, ?_, ?_, ?_, fun pi w hs => ?_⟩
    · rw [e.frame.pub, h.pubs]
    · rw [e.val 2 h.exp, h.expVal]
    · rw [publicInput_frame hwf e.vars e.val e.frame, h.input]
    · obtain ⟨k1, k2⟩ := h.sat pi w (e.sat pi w hs)
      obtain ⟨k3, k4⟩ := r1 pi w (x2.sat pi w hs)
      have k5 : pt w y = pt w Xv := r2 pi w hs
      refine ⟨k3, ?_⟩
      rw [k2, ← k5, k4 B k1]
  · intro hx hX
    have hg := (h.sat _ _ h.self).1
    obtain ⟨y, c1, h1, s1⟩ := hm.complete ⟨by rw [hg]; exact B.2, by rw [h.expVal]; exact hx⟩ _ h.self
    obtain ⟨x1, b1, r1⟩ := hm.sound y c1 h1
    have hy : pt c1.val y = X := by
      have hg1 := (h.sat _ _ (x1.sat _ _ s1)).1
      rw [(r1 _ _ s1).2 B hg1, x1.val 2 h.exp, h.expVal, hX]
    have hX1 : pt c1.val Xv = X := by
      rw [← h.pointVal]
      exact Prod.ext (x1.val _ h.point.1) (x1.val _ h.point.2)
    obtain ⟨u, c, h2, s2⟩ := (enforcePointEqual_spec x1.wf y Xv).complete
      ⟨⟨b1, x1.lt h.point.1, x1.lt h.point.2⟩, hy.trans hX1.symm⟩ _ s1
    exact ⟨u, c, by rw [bind_of_ok h1]; exact h2, s2⟩

theorem createPublicVariable_rel (x y : ZMod p) : Rel (createPublicVariable x) (createPublicVariable y) := by
  unfold createPublicVariable
  exact Rel.bind (Rel.createVariable x y) fun _ => Rel.bind (Rel.setVariablePublic _) fun _ => Rel.pure _

theorem poeGates_rel (hS : Setting K E) (B : ZMod p × ZMod p) (x x' : ZMod p) (X X' : ZMod p × ZMod p) :
    Rel (poeGates K B x X) (poeGates K B x' X') := by
  unfold poeGates
  refine Rel.bind (Rel.createVariable _ _) fun _ => Rel.bind (createConstantPointVariable_rel _) fun _ =>
    Rel.bind ?_ fun _ => Rel.bind (variableBase_rel _ _ _ (Nat.size_pos.2 hS.pos).ne') fun _ => enforcePointEqual_rel _ _
  unfold createPublicPointVariable
  exact Rel.bind (createPublicVariable_rel _ _) fun _ => Rel.bind (createPublicVariable_rel _ _) fun _ => Rel.pure _

theorem sat_shape {c d : Circ p} (h : c.shape = d.shape) (pi : List (ZMod p)) (w : ℕ → ZMod p) (hs : Sat c pi w) :
    Sat d pi w := by
  have h1 : Sat c.shape pi w := ⟨hs.len, hs.io, hs.plain, hs.range, hs.lookup⟩
  rw [h] at h1
  exact ⟨h1.len, h1.io, h1.plain, h1.range, h1.lookup⟩

/-- the run of the gates in a successful run of the example -/
theorem run {B GX X : ZMod p × ZMod p} {x : ZMod K.r} {c : Circ p} (h : proofOfExponent K B GX x X = .ok c) :
    X = GX ∧ poeGates K B (Conv.frToFq p x) X (Circ.new p none) = .ok ((), c) ∧ checkSat c [X.1, X.2] = .ok () := by
  unfold proofOfExponent at h
  split at h
  · cases h
  · rename_i hX
    rcases hg : poeGates K B (Conv.frToFq p x) X (Circ.new p none) with e | ⟨u, c1⟩
    · rw [hg] at h; cases h
    · rw [hg] at h
      simp only at h
      split at h
      · rename_i hs
        obtain rfl := Except.ok.inj h
        exact ⟨not_not.1 hX, rfl, hs⟩
      · cases h

theorem exponent_val (hS : Setting K E) (x : ZMod K.r) : (Conv.frToFq p x).val = x.val ∧ x.val < 2 ^ Nat.size K.r := by
  have : NeZero K.r := ⟨hS.pos.ne'⟩
  have : NeZero p := ⟨(Fact.out : p.Prime).ne_zero⟩
  exact ⟨(Verif.Props.Conv.C45_embedding_preserves K.r p hS.le x).1, (ZMod.val_lt x).trans (Nat.lt_size_self _)⟩

/-- **C91, which inputs are accepted.** The example makes a circuit exactly if the point is the multiple of the generator by the
exponent; the second assertion never fails and no gadget returns an error. -/
theorem C91_outcome (hS : Setting K E) (B : E.Pt) (x : ZMod K.r) (X : ZMod p × ZMod p) :
    (X = (x.val • B).1 → ∃ c, proofOfExponent K B.1 (x.val • B).1 x X = .ok c) ∧
    (X ≠ (x.val • B).1 → proofOfExponent K B.1 (x.val • B).1 x X = .error .panic) := by
  obtain ⟨hv, hlt⟩ := exponent_val hS x
  constructor
  · intro hX
    obtain ⟨u, c, h1, h2⟩ := (gates hS B (Conv.frToFq p x) X).2 (by rw [hv]; exact hlt) (by rw [hv]; exact hX)
    refine ⟨c, ?_⟩
    unfold proofOfExponent
    rw [if_neg (not_not.2 hX), h1]
    have hw := ((gates hS B (Conv.frToFq p x) X).1 u c h1).1.ok.wf
    simp only
    rw [if_pos ((checkSat_ok hw _).2 h2)]
  · intro hX
    unfold proofOfExponent
    rw [if_pos hX]

/-- **C91, the relation.** In every circuit of the example, whatever exponent and point it was made with, the exponents `n`
(variable 2) and the public inputs that go together in satisfying assignments are exactly those with: `n` has no more bits
than the group order, and the public inputs are the coordinates of the multiple of the generator by `n`. -/
theorem C91_relation (hS : Setting K E) (B : E.Pt) {GX X : ZMod p × ZMod p} {x : ZMod K.r} {c : Circ p}
    (h : proofOfExponent K B.1 GX x X = .ok c) (n : ZMod p) (pi : List (ZMod p)) :
    (∃ w, Sat c pi w ∧ w 2 = n) ↔ n.val < 2 ^ Nat.size K.r ∧ pi = [(n.val • B).1.1, (n.val • B).1.2] := by
  obtain ⟨-, hg, -⟩ := run h
  constructor
  · rintro ⟨w, hs, rfl⟩
    exact ((gates hS B _ X).1 _ c hg).2.2.2.2.2 pi w hs
  · rintro ⟨h1, h2⟩
    obtain ⟨u, c', h3, h4⟩ := (gates hS B n (n.val • B).1).2 h1 rfl
    have hsh := (poeGates_rel hS B.1 n (Conv.frToFq p x) (n.val • B).1 X _ _ rfl _ _ _ _ h3 hg).2
    refine ⟨c'.val, ?_, ((gates hS B n _).1 u c' h3).2.2.2.1⟩
    rw [h2]
    exact sat_shape hsh _ _ h4

/-- **C91, the exponent is determined.** In satisfying assignments with the coordinates of `x • B` as public inputs the exponent
is `x` modulo the order of the generator. -/
theorem C91_unique (hS : Setting K E) (B : E.Pt) {GX X : ZMod p × ZMod p} {x : ZMod K.r} {c : Circ p}
    (h : proofOfExponent K B.1 GX x X = .ok c) (n : ℕ) (w : ℕ → ZMod p) (hs : Sat c [(n • B).1.1, (n • B).1.2] w) :
    (w 2).val ≡ n [MOD addOrderOf B] := by
  obtain ⟨-, h2⟩ := (C91_relation hS B h (w 2) _).1 ⟨w, hs, rfl⟩
  simp only [List.cons.injEq, and_true] at h2
  refine nsmul_eq_nsmul_iff_modEq.1 (Subtype.ext (Prod.ext ?_ ?_))
  · exact h2.1.symm
  · exact h2.2.symm

/-! ## Keys, prover, verifier -/

variable {G G2 GT : Type} [AddCommGroup G] [Module (ZMod p) G] [DecidableEq G]
  [AddCommGroup G2] [Module (ZMod p) G2] [DecidableEq G2]
  [AddCommGroup GT] [Module (ZMod p) GT] [DecidableEq GT]

/-- **C91, one key for all.** The circuits of the example for any two exponents and points have the same keys (or the same
failure). -/
theorem C91_one_key (hS : Setting K E) (B : ZMod p × ZMod p) {GX GX' X X' : ZMod p × ZMod p} {x x' : ZMod K.r}
    {c c' : Circ p} (h : proofOfExponent K B GX x X = .ok c) (h' : proofOfExponent K B GX' x' X' = .ok c')
    (S : ℕ) (root : ZMod p) (rnd : List (ZMod p)) (srs : Srs G G2) :
    (∀ e, finalize S root rnd c = .error e ↔ finalize S root rnd c' = .error e) ∧
      ∀ f f', finalize S root rnd c = .ok f → finalize S root rnd c' = .ok f' →
        preprocess rnd srs f = preprocess rnd srs f' :=
  C91_same_key (poeGates_rel hS B _ _ X X' _ _ rfl _ _ _ _ (run h).2.1 (run h').2.1).2 S root rnd srs

variable {S : ℕ} {root : ZMod p} {rnd : List (ZMod p)}

/-- **C91, the honest prover.** A proof made for a circuit of the example is accepted with the coordinates of the point as public
inputs, under the key made from the circuit of any exponent and point. -/
theorem C91_accepted (hS : Setting K E) (hroot : IsPrimitiveRoot root (2 ^ S)) (B : E.Pt)
    {GX GX' X X' : ZMod p × ZMod p} {x x' : ZMod K.r} {c c' : Circ p} (hc : proofOfExponent K B.1 GX x X = .ok c)
    (hc' : proofOfExponent K B.1 GX' x' X' = .ok c') {f f' : FCirc p} (hf : finalize S root rnd c = .ok f)
    (hf' : finalize S root rnd c' = .ok f') {s : ZMod p} {g : G} {h : G2} {m : ℕ} (hm : f.dom.size + 2 ≤ m)
    {pk : PKey (ZMod p) G G2} (hpk : preprocess rnd (genSrs s g h m 1) f' = .ok pk)
    (e : G →ₗ[ZMod p] G2 →ₗ[ZMod p] GT) (he : e g h ≠ 0) (hash : List (ZMod p) → ZMod p)
    {gen : ZMod p} (hgen : gen ≠ 0) {oracle : List (Call (ZMod p) G G2) → ZMod p} {extra : Option (List ℕ)}
    {masks : ℕ → Masks (ZMod p)} {quotMask : ℕ → ZMod p} {π : BProof (ZMod p) G}
    (hπ : batchProve gen (newDomain S root) oracle extra masks quotMask [f.arith] [pk] = .ok π) :
    verifyBatch (newDomain S root) e hash (challenges oracle extra) [pk.vk] [[X.1, X.2]] π = .ok true := by
  obtain ⟨-, hg, hs⟩ := run hc
  obtain ⟨hb, hu, -, -, hi, -⟩ := (gates hS B _ X).1 _ c hg
  rw [← (C91_one_key hS B.1 hc hc' S root rnd (genSrs s g h m 1)).2 f f' hf hf'] at hpk
  refine Verif.Props.Prover.C74_honest (rnd := rnd) (m := m) (x := s) (g := g) (h := h) hroot (L := [⟨c, f, pk, [X.1, X.2]⟩])
    ?_ e he hash hgen hπ
  intro y hy
  obtain rfl := List.mem_singleton.1 hy
  exact ⟨hb, hf, fun k hk => (by rw [hu] at hk; cases hk), hm, hpk, hi, hs⟩

/-- **C91, soundness.** A prover that commits to wire polynomials that do not carry an exponent of the public point is rejected,
except for few values of each challenge in turn (and of the secret of the reference string).  The key may be made from the
circuit of any exponent and point. -/
theorem C91_exponent (hS : Setting K E) (hroot : IsPrimitiveRoot root (2 ^ S)) (B : E.Pt)
    {GX' X' : ZMod p × ZMod p} {x' : ZMod K.r} {c : Circ p} (hc : proofOfExponent K B.1 GX' x' X' = .ok c) {f : FCirc p}
    (hf : finalize S root rnd c = .ok f) {I : Inst (ZMod p)} (hI : KeyOf f I) {X : ZMod p × ZMod p}
    (hX : I.inputs = [X.1, X.2]) (w : ℕ → (ZMod p)[X]) (hw : ∀ j, Low f.dom (w j))
    (hno : ¬ ∃ a, Carries f w a ∧ (a 2).val < 2 ^ Nat.size K.r ∧ X = ((a 2).val • B).1)
    (e : G →ₗ[ZMod p] G2 →ₗ[ZMod p] GT) (hash : List (ZMod p) → ZMod p) (g : G) (h : G2) (he : e g h ≠ 0)
    {M : ℕ} (hM : f.dom.size + 2 ≤ M) (tau : ZMod p → Option (ZMod p)) :
    AllBut (4 * f.dom.size) fun τ => ∀ h1 h2 : ℕ → (ZMod p)[X], (∀ i, Low f.dom (h1 i)) → (∀ i, Low f.dom (h2 i)) →
    AllBut (12 * f.dom.size * p) fun βγ : ZMod p × ZMod p => ∀ z prod : ℕ → (ZMod p)[X], (∀ i, Low f.dom (z i)) →
      (∀ i, Low f.dom (prod i)) →
    AllBut (7 * 1) fun α => ∀ ts : List (ZMod p)[X], ts ≠ [] → (∀ t ∈ ts, Low f.dom t) →
    AllBut (7 * (f.dom.size + 2) + (f.dom.size + 2) * ts.length) fun ζ => ∀ cl : ℕ → Claims (ZMod p),
    AllBut (27 * 1) fun v => ∀ W W' : (ZMod p)[X], Low f.dom W → Low f.dom W' →
    AllBut 1 fun u => AllBut (f.dom.size + 3) fun s =>
      Rejected S root rnd e hash g h M 1 (fun _ => f) (fun _ => I) ⟨tau τ, α, βγ.1, βγ.2, ζ, v, u⟩
        (proof (kzg s g) (withClaims 1 (fun _ => I) (fun _ => w) h1 h2 z prod cl) ts W W') s := by
  obtain ⟨-, hg, -⟩ := run hc
  obtain ⟨hb, hu, -, -, -, hr⟩ := (gates hS B _ X').1 _ c hg
  have hB : Batch S root rnd 1 f.dom (fun _ => c) (fun _ => f) (fun _ => I) :=
    ⟨one_ne_zero, hroot, fun _ _ => hb, fun _ _ => hf, fun _ _ => rfl, fun _ _ k hk => (by rw [hu] at hk; cases hk),
      fun _ _ => hI, _, fun _ _ => rfl⟩
  refine C73_sound hB (fun _ => w) (fun _ => hw) ⟨0, one_pos, ?_⟩ e hash g h he hM tau (fun _ _ hl => by
    rw [hu] at hl; cases hl)
  rintro ⟨a, ha, hs⟩
  obtain ⟨h1, h2⟩ := hr _ a hs
  rw [hX] at h2
  simp only [List.cons.injEq, and_true] at h2
  exact hno ⟨a, ha, h1, Prod.ext h2.1 h2.2⟩

/-- **C91, points without an exponent.** If the public point is no multiple of the generator then every prover of this kind is
rejected, except for few values of each challenge. -/
theorem C91_no_exponent (hS : Setting K E) (hroot : IsPrimitiveRoot root (2 ^ S)) (B : E.Pt)
    {GX' X' : ZMod p × ZMod p} {x' : ZMod K.r} {c : Circ p} (hc : proofOfExponent K B.1 GX' x' X' = .ok c) {f : FCirc p}
    (hf : finalize S root rnd c = .ok f) {I : Inst (ZMod p)} (hI : KeyOf f I) {X : ZMod p × ZMod p}
    (hX : I.inputs = [X.1, X.2]) (hno : ∀ n : ℕ, X ≠ (n • B).1) (w : ℕ → (ZMod p)[X]) (hw : ∀ j, Low f.dom (w j))
    (e : G →ₗ[ZMod p] G2 →ₗ[ZMod p] GT) (hash : List (ZMod p) → ZMod p) (g : G) (h : G2) (he : e g h ≠ 0)
    {M : ℕ} (hM : f.dom.size + 2 ≤ M) (tau : ZMod p → Option (ZMod p)) :
    AllBut (4 * f.dom.size) fun τ => ∀ h1 h2 : ℕ → (ZMod p)[X], (∀ i, Low f.dom (h1 i)) → (∀ i, Low f.dom (h2 i)) →
    AllBut (12 * f.dom.size * p) fun βγ : ZMod p × ZMod p => ∀ z prod : ℕ → (ZMod p)[X], (∀ i, Low f.dom (z i)) →
      (∀ i, Low f.dom (prod i)) →
    AllBut (7 * 1) fun α => ∀ ts : List (ZMod p)[X], ts ≠ [] → (∀ t ∈ ts, Low f.dom t) →
    AllBut (7 * (f.dom.size + 2) + (f.dom.size + 2) * ts.length) fun ζ => ∀ cl : ℕ → Claims (ZMod p),
    AllBut (27 * 1) fun v => ∀ W W' : (ZMod p)[X], Low f.dom W → Low f.dom W' →
    AllBut 1 fun u => AllBut (f.dom.size + 3) fun s =>
      Rejected S root rnd e hash g h M 1 (fun _ => f) (fun _ => I) ⟨tau τ, α, βγ.1, βγ.2, ζ, v, u⟩
        (proof (kzg s g) (withClaims 1 (fun _ => I) (fun _ => w) h1 h2 z prod cl) ts W W') s :=
  C91_exponent hS hroot B hc hf hI hX w hw (fun ⟨_, _, _, h⟩ => hno _ h) e hash g h he hM tau

/-! ## Examples -/

section examples

/-- the curve of the example, JubJub -/
theorem C91_edBls381 : Setting edBls381 edBls381G :=
  ⟨by decide +kernel, rfl, rfl, by decide +kernel, by decide +kernel⟩

/-- the circuit for the exponent 5 over JubJub -/
example : ∃ c, proofOfExponent edBls381 Msm.ed381Pt.1 ((5 : ZMod edBls381.r).val • Msm.ed381Pt).1 5
    ((5 : ZMod edBls381.r).val • Msm.ed381Pt).1 = .ok c :=
  (C91_outcome C91_edBls381 Msm.ed381Pt 5 _).1 rfl

instance : Fact (Nat.Prime 769) := ⟨by norm_num⟩

/-- the curve `x² + y² = 1 + 7 x² y²` with scalars of two bits -/
def exK : TE 769 := ⟨1, 7, 3⟩

theorem ex_nonsquare : ¬ IsSquare (7 : ZMod 769) := by
  rw [ZMod.euler_criterion 769 (by decide +kernel)]
  decide +kernel

/-- its points -/
def exE : EdGroup (ZMod 769) := EdGroup.complete 1 7 (by decide +kernel) ⟨1, by ring⟩ ex_nonsquare

theorem ex_setting : Setting exK exE := ⟨by norm_num, rfl, rfl, by decide, by decide⟩

/-- a point of order 3 -/
def exB : exE.Pt := ⟨(72, 207), by show EdOn _ _ _; unfold EdOn; decide +kernel⟩

theorem ex_multiples (n : ℕ) : (n • exB).1 = (0, 1) ∨ (n • exB).1 = (72, 207) ∨ (n • exB).1 = (697, 207) := by
  induction n with
  | zero => left; rw [zero_nsmul]; rfl
  | succ n ih =>
    rw [succ_nsmul, EdGroup.add_val]
    rcases ih with h | h | h <;> rw [h]
    · right; left; decide +kernel
    · right; right; decide +kernel
    · left; decide +kernel

/-- random elements for the cosets -/
def rnd769 : List (ZMod 769) := [2, 3, 4, 5, 6, 7, 8, 9]

theorem prim562 : IsPrimitiveRoot (562 : ZMod 769) (2 ^ 8) := by
  have h : orderOf (562 : ZMod 769) = 2 ^ (7 + 1) :=
    orderOf_eq_prime_pow (by decide +kernel) (by decide +kernel)
  rw [show 2 ^ 8 = orderOf (562 : ZMod 769) from h.symm]
  exact IsPrimitiveRoot.orderOf _

theorem ex_final : ∃ c f, proofOfExponent exK exB.1 (697, 207) 2 (697, 207) = .ok c ∧
    finalize 8 562 rnd769 c = .ok f ∧ f.dom.size = 32 ∧ c.pubIds.length = 2 := by
  have h : okAnd (proofOfExponent exK (72, 207) (697, 207) 2 (697, 207)) (fun c => okAnd (finalize' 8 562 rnd769 c)
      (fun f => decide (f.dom.size = 32 ∧ c.pubIds.length = 2))) = true := by decide +kernel
  obtain ⟨c, hc, h⟩ := okAnd_elim h
  obtain ⟨f, hf, h⟩ := okAnd_elim h
  rw [decide_eq_true_iff] at h
  rw [← finalize_eq] at hf
  exact ⟨c, f, hc, hf, h⟩

/-- A key made for the exponent 2 and the point (697, 207), and the public point (0, 768), which is no multiple of the
generator.  The numbers of exceptions (of 769, and for `β`, `γ` of 769²; five parts of the quotient) leave challenges over. -/
example : ∃ (c : Circ 769) (f : FCirc 769) (I : Inst (ZMod 769)), proofOfExponent exK exB.1 (697, 207) 2 (697, 207) = .ok c ∧
    finalize 8 562 rnd769 c = .ok f ∧ KeyOf f I ∧ I.inputs = [((0 : ZMod 769), (768 : ZMod 769)).1, ((0 : ZMod 769), 768).2] ∧
    (∀ n : ℕ, ((0 : ZMod 769), (768 : ZMod 769)) ≠ (n • exB).1) ∧ 4 * f.dom.size < 769 ∧
    12 * f.dom.size * 769 < 769 * 769 ∧ 7 * (f.dom.size + 2) + (f.dom.size + 2) * 5 < 769 := by
  obtain ⟨c, f, hc, hf, hn, hp⟩ := ex_final
  have hb := ((gates ex_setting exB _ _).1 _ c (run hc).2.1).1
  obtain ⟨I, hI, hin⟩ := C73_key hb prim562 hf [0, 768] (by rw [hp]; rfl)
  refine ⟨c, f, I, hc, hf, hI, hin, fun n h => ?_, by rw [hn]; norm_num, by rw [hn]; norm_num, by rw [hn]; norm_num⟩
  rcases ex_multiples n with h' | h' | h' <;> rw [h'] at h <;> exact absurd h (by decide +kernel)

/-- an assignment with the exponent 2 -/
example : ∃ c w, proofOfExponent exK exB.1 (697, 207) 2 (697, 207) = .ok c ∧
    Sat c [(((2 : ZMod 769).val) • exB).1.1, (((2 : ZMod 769).val) • exB).1.2] w ∧ w 2 = 2 := by
  obtain ⟨c, f, hc, -⟩ := ex_final
  obtain ⟨w, h1, h2⟩ := (C91_relation ex_setting exB hc 2 _).2 ⟨by decide +kernel, rfl⟩
  exact ⟨c, w, hc, h1, h2⟩

end examples

end Verif.Props.Poe
