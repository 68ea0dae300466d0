import Verif.Circuit.VerifierNative
import Verif.Props.ModArith
import Verif.Props.Lagrange

/-!
# C80: the scalar arithmetic of the PLONK verifier circuit

The circuit computes modulo `Q` with two limbs in a native field `ZMod p`. `value Q m w x` is the element of `ZMod Q`
two limbs stand for in an assignment; `Stores` says that the builder stores the limbs of an element. The results are
compared with the native verifier: `vanishing`, `firstLagrange`, `evaluatePi` and `linPolyConst`.
-/

set_option linter.unusedSectionVars false

namespace Verif.Props.VerifierCircuit

open Verif.Circuit Verif.Circuit.VerifierPoly Verif.Pcs Verif.Plonk
open Verif.Props.ModArith (num parts limbs MulOK)

variable {p : ℕ} {Q k : ℕ}

/-- the parameters of the circuit: modulus `Q`, limbs of `m` bits, range checks of `k` bits, and a native field with
`k + 2` bits more than the two limbs -/
structure Params (I : Info p) (Q k : ℕ) : Prop where
  mul : MulOK I.mod k
  m : I.m = I.mod.m
  tpm : I.tpm = some I.mod.tpm
  int : num I.mod.m (parts I.mod) = Q
  wide : 2 ^ (2 * I.mod.m + k + 2) ≤ p

theorem Params.par {I : Info p} (h : Params I Q k) : Par I Q k := ⟨h.mul.params, h.m, h.tpm, h.int, h.wide⟩

/-- a circuit with lookups of `k` bits -/
def Ready (k : ℕ) (c : Circ p) : Prop := WF c ∧ RangeOK c ∧ c.ultra = some k

/-- the limbs are variables of the circuit -/
def Var (I : Info p) (c : Circ p) (x : FpElemVar p) : Prop :=
  (x.v0 < c.numVars ∧ x.v1 < c.numVars) ∧ x.m = I.mod.m ∧ x.tpm = I.mod.tpm

/-- the limbs are variables of the circuit and the builder stores the limbs of `a` -/
def Stores (I : Info p) (c : Circ p) (x : FpElemVar p) (a : ZMod Q) : Prop :=
  Var I c x ∧ (c.val x.v0).val = a.val % 2 ^ I.mod.m ∧ (c.val x.v1).val = a.val / 2 ^ I.mod.m

/-- both limbs in range -/
def Small (I : Info p) (w : ℕ → ZMod p) (x : FpElemVar p) : Prop :=
  (w x.v0).val < 2 ^ I.mod.m ∧ (w x.v1).val < 2 ^ I.mod.m

/-- the element limbs stand for -/
def value (Q : ℕ) (I : Info p) (w : ℕ → ZMod p) (x : FpElemVar p) : ZMod Q :=
  (((w x.v0).val + 2 ^ I.mod.m * (w x.v1).val : ℕ) : ZMod Q)

/-- a sum that has not been reduced: in the native field the limbs are `V - d Q` for a number `V` that is `v` modulo `Q`
and a `d` of `k` bits, both so small that the difference is known exactly -/
def Unreduced (I : Info p) (k : ℕ) (w : ℕ → ZMod p) (x : FpElemVar p) (v : ZMod Q) : Prop :=
  ∃ d V : ℕ, d < 2 ^ k ∧ V < 2 ^ k * 2 ^ (2 * I.mod.m) ∧
    w x.v0 + 2 ^ I.mod.m * w x.v1 + (d : ZMod p) * (Q : ZMod p) = (V : ZMod p) ∧ (V : ZMod Q) = v

/-- the evaluations are variables -/
def VarE (I : Info p) (c : Circ p) (e : EvalsVar p) : Prop :=
  (∀ x ∈ e.wires, Var I c x) ∧ (∀ x ∈ e.sigmas, Var I c x) ∧ Var I c e.permNext

/-- the builder stores evaluations -/
def StoresE (I : Info p) (c : Circ p) (e : EvalsVar p) (a : Evals (ZMod Q)) : Prop :=
  List.Forall₂ (Stores I c) e.wires a.wires ∧ List.Forall₂ (Stores I c) e.sigmas a.sigmas ∧ Stores I c e.permNext a.permNext

/-- the evaluations in an assignment -/
def valueE (Q : ℕ) (I : Info p) (w : ℕ → ZMod p) (e : EvalsVar p) : Evals (ZMod Q) :=
  ⟨e.wires.map (value Q I w), e.sigmas.map (value Q I w), value Q I w e.permNext⟩

section

variable [hp : Fact p.Prime] [hQ : Fact Q.Prime] {I : Info p} {c : Circ p}

theorem Stores.hol {H : Prop} {x : FpElemVar p} {a : ZMod Q} (h : Stores I c x a) : Hol H I.mod a x c :=
  ⟨h.1.1, h.1.2, fun _ => h.2⟩

theorem Var.hol {x : FpElemVar p} (h : Var I c x) (a : ZMod Q) : Hol False I.mod a x c := ⟨h.1, h.2, False.elim⟩

theorem stores_of_hol {x : FpElemVar p} {a : ZMod Q} (h : Hol True I.mod a x c) : Stores I c x a :=
  ⟨⟨h.1, h.2.1⟩, h.2.2 trivial⟩

theorem hol_list {H : Prop} {xs : List (FpElemVar p)} {as : List (ZMod Q)} (h : List.Forall₂ (Stores I c) xs as) :
    List.Forall₂ (fun x z => Hol H I.mod z x c) xs as := h.imp fun _ _ g => Stores.hol g

theorem var_list {xs : List (FpElemVar p)} (h : ∀ x ∈ xs, Var I c x) :
    List.Forall₂ (fun x z => Hol False I.mod z x c) xs (xs.map fun _ => (0 : ZMod Q)) := by
  induction xs with
  | nil => exact List.Forall₂.nil
  | cons x xs ih => exact List.Forall₂.cons ((h x (by simp)).hol 0) (ih fun y hy => h y (by simp [hy]))

theorem Ready.ctx {pi : List (ZMod p)} (h : Ready k c) (hs : Sat c pi c.val) : Ctx True k c :=
  ⟨h.1, h.2.1, h.2.2, fun _ => ⟨Sat.zero h.1 hs, Sat.one h.1 hs⟩⟩

theorem Ready.ctxF (h : Ready k c) : Ctx False k c := ⟨h.1, h.2.1, h.2.2, False.elim⟩

theorem unreduced_of_loose {w : ℕ → ZMod p} {x : FpElemVar p} {v : ZMod Q} (hl : Loose I Q k w x v) :
    Unreduced I k w x v := by
  obtain ⟨d, hd, V, hV, h1, h2⟩ := hl
  refine ⟨d, V, hd, hV, ?_, h2⟩
  rw [← h1]
  unfold FpElemVar.num
  push_cast
  simp only [ZMod.natCast_val, ZMod.cast_id', id]

theorem st_value {x : FpElemVar p} {a : ZMod Q} (h : St I.mod a x c) : value Q I c.val x = a := by
  have h1 : value Q I c.val x = ((x.num I.mod c.val : ℕ) : ZMod Q) := rfl
  rw [h1, h.num, ZMod.natCast_val, ZMod.cast_id]

/-! ## The vanishing polynomial and the first Lagrange coefficient -/

variable {d : Domain (ZMod Q)}

/-- **C80**, `evaluate_poly_helper` with honest values: the circuit is built and satisfied, and stores the power, the
vanishing polynomial and the first Lagrange coefficient of the native verifier. The challenge must not be one; the code
panics there. -/
theorem C80_helper_honest (h : Params I Q k) (hg : IsPrimitiveRoot d.gen d.size) (ho : d.offset = 1) (hn : d.size < Q)
    (hc : Ready k c) {pi : List (ZMod p)} (hs : checkSat c pi = .ok ()) {ζ : FpElemVar p} {a : ZMod Q}
    (hζ : Stores I c ζ a) (ha : a ≠ 1) :
    ∃ zn van l1 c', evalHelper Q I ζ d.size c = .ok ((zn, van, l1), c') ∧ checkSat c' pi = .ok () ∧ Ready k c' ∧
      Stores I c' zn (a ^ d.size) ∧ Stores I c' van (vanishing d a) ∧
      ∃ L, firstLagrange d a = .ok L ∧ Stores I c' l1 L := by
  have hG : Good d := ⟨hg, by rw [ho]; exact one_ne_zero⟩
  have hs' := (checkSat_ok hc.1 pi).1 hs
  have sp := evalHelper_spec h.par (hc.ctx hs') hζ.hol (n := d.size) (j := d.logSize) rfl hn (fun _ => ha)
  obtain ⟨⟨zn, van, l1⟩, c', hrun, hsat⟩ := sp.complete trivial pi hs'
  obtain ⟨e, ⟨b1, b2, b3⟩, -⟩ := sp.sound _ _ hrun
  refine ⟨zn, van, l1, c', hrun, (checkSat_ok e.wf pi).2 hsat, ⟨e.wf, hc.2.1.ext e, by rw [e.ultra, hc.2.2]⟩,
    stores_of_hol b1, ?_, _, first_native hG ho ha ?_, stores_of_hol b3⟩
  · rw [van_eq ho]; exact stores_of_hol b2
  · have h1 := hG.size_ne
    have h2 : a - 1 ≠ 0 := sub_ne_zero.2 ha
    field_simp

/-- **C80**, `evaluate_poly_helper` for every satisfying assignment with the challenge in range: the limbs returned are
in range and stand for the values of the native verifier. -/
theorem C80_helper_sound (h : Params I Q k) (hg : IsPrimitiveRoot d.gen d.size) (ho : d.offset = 1) (hn : d.size < Q)
    (hc : Ready k c) {ζ zn van l1 : FpElemVar p} (hζ : Var I c ζ) {c' : Circ p}
    (hrun : evalHelper Q I ζ d.size c = .ok ((zn, van, l1), c')) {pi : List (ZMod p)} {w : ℕ → ZMod p}
    (hw : Sat c' pi w) (sζ : Small I w ζ) :
    Small I w zn ∧ Small I w van ∧ Small I w l1 ∧ value Q I w zn = value Q I w ζ ^ d.size ∧
      value Q I w van = vanishing d (value Q I w ζ) ∧
      (value Q I w ζ ≠ 1 → firstLagrange d (value Q I w ζ) = .ok (value Q I w l1)) := by
  have hG : Good d := ⟨hg, by rw [ho]; exact one_ne_zero⟩
  have sp := evalHelper_spec h.par hc.ctxF (hζ.hol (0 : ZMod Q)) (n := d.size) (j := d.logSize) rfl hn False.elim
  obtain ⟨-, -, r⟩ := sp.sound _ _ hrun
  obtain ⟨s1, s2, s3, v1, v2, v3⟩ := r pi w hw sζ
  exact ⟨s1, s2, s3, v1, by rw [van_eq ho]; exact v2, fun ha => first_native hG ho ha v3⟩

/-! ## The public input polynomial -/

/-- **C80**, `evaluate_pi_poly_circuit` with honest values, for a challenge outside of the domain. -/
theorem C80_pi_honest (h : Params I Q k) (hg : IsPrimitiveRoot d.gen d.size) (ho : d.offset = 1)
    (hc : Ready k c) {pi : List (ZMod p)} (hs : checkSat c pi = .ok ()) {ζ van : FpElemVar p} {a : ZMod Q}
    (hζ : Stores I c ζ a) (hv : Stores I c van (vanishing d a)) (hz : vanishing d a ≠ 0)
    {pis : List (FpElemVar p)} {ps : List (ZMod Q)} (hp : List.Forall₂ (Stores I c) pis ps) (hl : ps.length ≤ 2 ^ k)
    (hln : ps.length / 2 ≤ d.size) :
    ∃ v c' V, evalPi I d.size d.gen pis ζ van c = .ok (v, c') ∧ checkSat c' pi = .ok () ∧ Ready k c' ∧
      evaluatePi d ps a true = .ok V ∧ Stores I c' v V := by
  have hG : Good d := ⟨hg, by rw [ho]; exact one_ne_zero⟩
  have hs' := (checkSat_ok hc.1 pi).1 hs
  have hlen := hp.length_eq
  have sp := evalPi_spec h.par hG.size_ne d.gen (pis := pis) (by omega) (by omega) (hc.ctx hs') hζ.hol hv.hol (hol_list hp)
    (fun _ i hi => ne_of_vanishing hG ho hz (piIdx_lt (by omega) hi))
  obtain ⟨v, c', hrun, hsat⟩ := sp.complete trivial pi hs'
  obtain ⟨e, b, -⟩ := sp.sound _ _ hrun
  rw [hlen] at b
  exact ⟨v, c', _, hrun, (checkSat_ok e.wf pi).2 hsat, ⟨e.wf, hc.2.1.ext e, by rw [e.ultra, hc.2.2]⟩,
    lagVal_native hG ho hln hz, stores_of_hol b⟩

/-- **C80**, `evaluate_pi_poly_circuit` for every satisfying assignment with operands in range and a challenge outside
of the domain: the result is an unreduced form of the native value, and the native value itself if its limbs are in
range. -/
theorem C80_pi_sound (h : Params I Q k) (hg : IsPrimitiveRoot d.gen d.size) (ho : d.offset = 1)
    (hc : Ready k c) {ζ van : FpElemVar p} (hζ : Var I c ζ) (hv : Var I c van)
    {pis : List (FpElemVar p)} (hp : ∀ x ∈ pis, Var I c x) (hl : pis.length ≤ 2 ^ k) (hln : pis.length / 2 ≤ d.size)
    {v : FpElemVar p} {c' : Circ p} (hrun : evalPi I d.size d.gen pis ζ van c = .ok (v, c'))
    {pi : List (ZMod p)} {w : ℕ → ZMod p} (hw : Sat c' pi w) (sζ : Small I w ζ) (sv : Small I w van)
    (sp : ∀ x ∈ pis, Small I w x) (hev : value Q I w van = vanishing d (value Q I w ζ))
    (hz : vanishing d (value Q I w ζ) ≠ 0) :
    ∃ V, evaluatePi d (pis.map (value Q I w)) (value Q I w ζ) true = .ok V ∧ Unreduced I k w v V ∧
      (Small I w v → value Q I w v = V) := by
  have hG : Good d := ⟨hg, by rw [ho]; exact one_ne_zero⟩
  have s := evalPi_spec h.par hG.size_ne d.gen hl hln hc.ctxF (hζ.hol (0 : ZMod Q)) (hv.hol 0) (var_list hp) False.elim
  obtain ⟨-, -, r⟩ := s.sound _ _ hrun
  obtain ⟨V, h1, h2⟩ := r pi w hw sζ sv sp
  have hev' : El Q I.mod w van = vanishing d (value Q I w ζ) := hev
  rw [hev'] at h1
  exact ⟨V, piRel_native hG ho (by rw [List.length_map]; exact hln) hz h1, unreduced_of_loose h2, h2.el h.par⟩

/-! ## The constant term of the linearization polynomial -/

theorem StoresE.hol {H : Prop} {e : EvalsVar p} {a : Evals (ZMod Q)} (h : StoresE I c e a) :
    HolE H I.mod (evalsVal a) e c := ⟨hol_list h.1, hol_list h.2.1, h.2.2.hol⟩

theorem holE_list {H : Prop} {es : List (EvalsVar p)} {as : List (Evals (ZMod Q))} (h : List.Forall₂ (StoresE I c) es as) :
    List.Forall₂ (fun e a => HolE H I.mod a e c) es (as.map evalsVal) := by
  induction h with
  | nil => exact List.Forall₂.nil
  | cons h1 _ ih => exact List.Forall₂.cons h1.hol ih

theorem varE_list {es : List (EvalsVar p)} (h : ∀ e ∈ es, VarE I c e) :
    List.Forall₂ (fun e a => HolE False I.mod a e c) es
      (es.map fun e => (⟨e.wires.map fun _ => 0, e.sigmas.map fun _ => 0, 0⟩ : EvalsVal Q)) := by
  induction es with
  | nil => exact List.Forall₂.nil
  | cons e es ih =>
    obtain ⟨h1, h2, h3⟩ := h e (by simp)
    exact List.Forall₂.cons ⟨var_list h1, var_list h2, h3.hol 0⟩ (ih fun y hy => h y (by simp [hy]))

/-- the challenges the circuit uses -/
def StoresC (I : Info p) (c : Circ p) (v : ChalVar p) (a : Chal (ZMod Q)) (α2 : ZMod Q) : Prop :=
  Stores I c v.α a.α ∧ Stores I c v.α2 α2 ∧ Stores I c v.β a.β ∧ Stores I c v.γ a.γ ∧ Stores I c v.ζ a.ζ

/-- the challenges are variables -/
def VarC (I : Info p) (c : Circ p) (v : ChalVar p) : Prop :=
  Var I c v.α ∧ Var I c v.α2 ∧ Var I c v.β ∧ Var I c v.γ ∧ Var I c v.ζ

variable {G G2 : Type} [DecidableEq G]

/-- a batch of proofs without lookups for merged circuits -/
structure Batch (b : BProof (ZMod Q) G) (vks : List (VKey (ZMod Q) G G2)) (ab : List (ZMod Q)) : Prop where
  pos : 0 < b.evals.length
  lookups : b.lookups = b.evals.map fun _ => none
  len : b.len = b.evals.length
  keys : vks.length = b.evals.length
  bases : ab.length = b.evals.length
  wires : ∀ e ∈ b.evals, 5 ≤ e.wires.length
  merged : ∀ vk ∈ vks, vk.merged = true

/-- **C80**, `compute_lin_poly_constant_term_circuit` with honest values: for proofs without lookups of merged circuits
with the same public inputs, the circuit is built and satisfied and stores what the native
verifier computes; the sums are stored with limbs in range. -/
theorem C80_constant_honest (h : Params I Q k) (hg : IsPrimitiveRoot d.gen d.size) (ho : d.offset = 1)
    (hc : Ready k c) {pi : List (ZMod p)} (hs : checkSat c pi = .ok ())
    {ch : ChalVar p} {a : Chal (ZMod Q)} {l α2 : ZMod Q} (hch : StoresC I c ch a α2)
    {van l1 : FpElemVar p} (hv : Stores I c van (vanishing d a.ζ)) (hz : vanishing d a.ζ ≠ 0) (hl1 : Stores I c l1 l)
    {pis : List (FpElemVar p)} {ps : List (ZMod Q)} (hp : List.Forall₂ (Stores I c) pis ps) (hl : ps.length ≤ 2 ^ k)
    (hln : ps.length / 2 ≤ d.size)
    {b : BProof (ZMod Q) G} {vks : List (VKey (ZMod Q) G G2)} {ab : List (ZMod Q)} (hB : Batch b vks ab)
    (hN : b.evals.length ≤ 2 ^ k) {es : List (EvalsVar p)} (he : List.Forall₂ (StoresE I c) es b.evals)
    {bases : List (FpElemVar p)} (hb : List.Forall₂ (Stores I c) bases ab) (ln α3 : ZMod Q) (ap : List (ZMod Q)) :
    ∃ r c' V, linConst I d.size d.gen ch vks.length b.evals.length b.len pis es van l1 bases c = .ok (r, c') ∧
      checkSat c' pi = .ok () ∧ Ready k c' ∧
      linPolyConst d a vks (List.replicate b.evals.length ps) b l ln (α2 :: α3 :: ap) ab = .ok V ∧ Stores I c' r.1 V ∧
      ∀ s ∈ r.2, ∃ z : ZMod Q, Stores I c' s z := by
  have hG : Good d := ⟨hg, by rw [ho]; exact one_ne_zero⟩
  have hs' := (checkSat_ok hc.1 pi).1 hs
  have hlen := hp.length_eq
  have hel := he.length_eq
  have hbl := hb.length_eq
  have hab := hB.bases
  have hw : ∀ e ∈ es, 5 ≤ e.wires.length := by
    intro e hee
    obtain ⟨i, hi, rfl⟩ := List.mem_iff_getElem.1 hee
    have := (List.forall₂_iff_get.1 he).2 i hi (by omega)
    have h5 := hB.wires _ (List.getElem_mem (h := (by omega : i < b.evals.length)))
    have := this.1.length_eq
    simp only [List.get_eq_getElem] at this
    omega
  have sp := linConst_spec (nk := vks.length) (np := b.evals.length) (nb := b.len) h.par hG.size_ne d.gen (pis := pis)
    (by omega) (by omega) (hc.ctx hs') hch.1.hol hch.2.1.hol hch.2.2.1.hol hch.2.2.2.1.hol hch.2.2.2.2.hol hv.hol hl1.hol
    (hol_list hp) (fun _ i hi => ne_of_vanishing hG ho hz (piIdx_lt (by omega) hi)) (holE_list he) hw (hol_list hb)
    (fun _ => by omega) (by omega) (fun _ => ⟨by rw [hB.keys, hB.len], hB.keys, hB.pos.ne'⟩)
  obtain ⟨r, c', hrun, hsat⟩ := sp.complete trivial pi hs'
  obtain ⟨e, ⟨bb, bs⟩, -⟩ := sp.sound _ _ hrun
  rw [hlen] at bb
  exact ⟨r, c', _, hrun, (checkSat_ok e.wf pi).2 hsat, ⟨e.wf, hc.2.1.ext e, by rw [e.ultra, hc.2.2]⟩,
    linConst_native a l ln α2 α3 ap ps (lagVal_native hG ho hln hz) b vks ab hB.lookups hB.len hB.keys hB.bases hB.wires hB.merged,
    stores_of_hol bb, fun s hs => by
      obtain ⟨z, hz⟩ := bs s hs
      exact ⟨z, stores_of_hol hz⟩⟩

/-- the challenges in an assignment -/
def SmallC (I : Info p) (w : ℕ → ZMod p) (v : ChalVar p) : Prop :=
  Small I w v.α ∧ Small I w v.α2 ∧ Small I w v.β ∧ Small I w v.γ ∧ Small I w v.ζ

/-- the evaluations in an assignment are in range -/
def SmallE (I : Info p) (w : ℕ → ZMod p) (e : EvalsVar p) : Prop :=
  (∀ x ∈ e.wires, Small I w x) ∧ (∀ x ∈ e.sigmas, Small I w x) ∧ Small I w e.permNext

/-- **C80**, `compute_lin_poly_constant_term_circuit` for every satisfying assignment. The circuit does not check the
limbs of the sums it multiplies (`r.2`); if they are in range, the result is an unreduced form of the native value, and
the native value if its own limbs are in range. Without that assumption the claim is false
(`C80_constant_counterexample`). -/
theorem C80_constant_sound_partial (h : Params I Q k) (hg : IsPrimitiveRoot d.gen d.size) (ho : d.offset = 1)
    (hc : Ready k c) {ch : ChalVar p} (hch : VarC I c ch) {van l1 : FpElemVar p} (hv : Var I c van) (hl1 : Var I c l1)
    {pis : List (FpElemVar p)} (hp : ∀ x ∈ pis, Var I c x) (hl : pis.length ≤ 2 ^ k) (hln : pis.length / 2 ≤ d.size)
    {es : List (EvalsVar p)} (he : ∀ e ∈ es, VarE I c e) (hN : es.length ≤ 2 ^ k)
    {bases : List (FpElemVar p)} (hb : ∀ x ∈ bases, Var I c x) {nk np nb : ℕ}
    {r : FpElemVar p × List (FpElemVar p)} {c' : Circ p}
    (hrun : linConst I d.size d.gen ch nk np nb pis es van l1 bases c = .ok (r, c'))
    {pi : List (ZMod p)} {w : ℕ → ZMod p} (hw : Sat c' pi w)
    (sc : SmallC I w ch) (sv : Small I w van) (sl : Small I w l1) (sp : ∀ x ∈ pis, Small I w x) (se : ∀ e ∈ es, SmallE I w e)
    (sb : ∀ x ∈ bases, Small I w x) (ss : ∀ x ∈ r.2, Small I w x)
    {b : BProof (ZMod Q) G} {vks : List (VKey (ZMod Q) G G2)} (hB : Batch b vks (bases.map (value Q I w)))
    (hbe : b.evals = es.map (valueE Q I w)) {a : Chal (ZMod Q)}
    (hα : a.α = value Q I w ch.α) (hβ : a.β = value Q I w ch.β) (hγ : a.γ = value Q I w ch.γ) (hζ : a.ζ = value Q I w ch.ζ)
    (hev : value Q I w van = vanishing d a.ζ) (hz : vanishing d a.ζ ≠ 0) (ln α3 : ZMod Q) (ap : List (ZMod Q)) :
    ∃ V, linPolyConst d a vks (List.replicate b.evals.length (pis.map (value Q I w))) b (value Q I w l1) ln
        (value Q I w ch.α2 :: α3 :: ap) (bases.map (value Q I w)) = .ok V ∧
      Unreduced I k w r.1 V ∧ (Small I w r.1 → value Q I w r.1 = V) := by
  have hG : Good d := ⟨hg, by rw [ho]; exact one_ne_zero⟩
  have hwl : ∀ e ∈ es, 5 ≤ e.wires.length := by
    intro e hee
    have := hB.wires (valueE Q I w e) (by rw [hbe]; exact List.mem_map_of_mem hee)
    simpa [valueE] using this
  have s := linConst_spec (nk := nk) (np := np) (nb := nb) h.par hG.size_ne d.gen hl hln hc.ctxF (hch.1.hol (0 : ZMod Q))
    (hch.2.1.hol 0) (hch.2.2.1.hol 0) (hch.2.2.2.1.hol 0) (hch.2.2.2.2.hol 0) (hv.hol 0) (hl1.hol 0) (var_list hp) False.elim
    (varE_list he) hwl (var_list hb) False.elim hN False.elim
  obtain ⟨-, -, R⟩ := s.sound _ _ hrun
  obtain ⟨V, h1, h2⟩ := R pi w hw sc.1 sc.2.1 sc.2.2.1 sc.2.2.2.1 sc.2.2.2.2 sv sl sp se sb ss
  have h1' : PiRel d.size d.gen a.ζ (vanishing d a.ζ) (pis.map (value Q I w)) V := by
    have e1 : El Q I.mod w ch.ζ = a.ζ := hζ.symm
    have e2 : El Q I.mod w van = vanishing d a.ζ := hev
    rw [e1, e2] at h1
    exact h1
  have hV := piRel_native hG ho (by rw [List.length_map]; exact hln) hz h1'
  refine ⟨_, linConst_native a (value Q I w l1) ln (value Q I w ch.α2) α3 ap (pis.map (value Q I w)) hV b vks _ hB.lookups
    hB.len hB.keys hB.bases hB.wires hB.merged, ?_⟩
  have e3 : b.evals.map evalsVal = es.map (EvalsVar.el Q I.mod w) := by
    rw [hbe, List.map_map]; rfl
  rw [e3, hα, hβ, hγ]
  exact ⟨unreduced_of_loose h2, h2.el h.par⟩

/-! ## The sums are not checked -/

/-- for these three values and these hints the product of an unchecked sum is wrong -/
theorem forged (h : Params I Q k) (hg : IsPrimitiveRoot d.gen d.size) (ho : d.offset = 1)
    (hc : Ready k c) {pi : List (ZMod p)} (hs : checkSat c pi = .ok ())
    {ch : ChalVar p} {a : Chal (ZMod Q)} {l α2 : ZMod Q} (hch : StoresC I c ch a α2)
    {van l1 : FpElemVar p} (hv : Stores I c van (vanishing d a.ζ)) (hz : vanishing d a.ζ ≠ 0) (hl1 : Stores I c l1 l)
    {pis : List (FpElemVar p)} {ps : List (ZMod Q)} (hp : List.Forall₂ (Stores I c) pis ps) (hl : ps.length ≤ 2 ^ k)
    (hln : ps.length / 2 ≤ d.size)
    {b : BProof (ZMod Q) G} {vk : VKey (ZMod Q) G G2} {base : ZMod Q} (hB : Batch b [vk] [base]) {ev : Evals (ZMod Q)}
    (hbe : b.evals = [ev]) {e : EvalsVar p} (he : StoresE I c e ev)
    {bv : FpElemVar p} (hb : Stores I c bv base) (ln α3 : ZMod Q) (ap : List (ZMod Q))
    {r0 r1 : ZMod p} {hh : MulHints p} (hA : Attack I Q k (ev.wires.getD 4 0) a.γ ev.permNext r0 r1 hh)
    (hne : hintEl Q I hh ≠ (ev.wires.getD 4 0 + a.γ) * ev.permNext) (hα : a.α ≠ 0) (hbase : base ≠ 0)
    (hperm : ∀ x ∈ (ev.wires.take 4).zip ev.sigmas, x.1 + a.β * x.2 + a.γ ≠ 0) :
    ∃ r c' V w, linConst I d.size d.gen ch 1 1 1 pis [e] van l1 [bv] c = .ok (r, c') ∧
      linPolyConst d a [vk] [ps] b l ln (α2 :: α3 :: ap) [base] = .ok V ∧
      Sat c' pi w ∧ (∀ i < c.numVars, w i = c.val i) ∧ Small I w r.1 ∧ value Q I w r.1 ≠ V := by
  have hs' := (checkSat_ok hc.1 pi).1 hs
  have hG : Good d := ⟨hg, by rw [ho]; exact one_ne_zero⟩
  have hlen := hp.length_eq
  have hw5 : 5 ≤ ev.wires.length := hB.wires ev (by rw [hbe]; simp)
  obtain ⟨r, c', V, hrun, -, -, hV, hr, -⟩ := C80_constant_honest h hg ho hc hs hch hv hz hl1 hp hl hln hB
    (by rw [hbe]; exact Nat.one_le_two_pow) (es := [e]) (by rw [hbe]; exact List.Forall₂.cons he List.Forall₂.nil)
    (bases := [bv]) (List.Forall₂.cons hb List.Forall₂.nil) ln α3 ap
  have hln' := hB.len
  rw [hbe, List.length_singleton] at hln'
  rw [hbe, hln', List.length_singleton, List.length_singleton] at hrun
  rw [hbe] at hV
  have hV' : linPolyConst d a [vk] [ps] b l ln (α2 :: α3 :: ap) [base] = .ok V := hV
  -- the other hints, started with the same values
  have tr : ∀ {x : FpElemVar p} {z : ZMod Q}, Stores I c x z → Hol True I.mod z x (c.assign c.val) := by
    intro x z hx
    refine ⟨hx.1.1, hx.1.2, fun _ => ?_⟩
    unfold St
    rw [assign_val c c.val hx.1.1.1, assign_val c c.val hx.1.1.2]
    exact hx.2
  have trl : ∀ {xs : List (FpElemVar p)} {zs : List (ZMod Q)}, List.Forall₂ (Stores I c) xs zs →
      List.Forall₂ (fun x z => Hol True I.mod z x (c.assign c.val)) xs zs := fun hx => hx.imp fun _ _ g => tr g
  have hctx : Ctx True k (c.assign c.val) :=
    ⟨assign_wf hc.1 c.val, hc.2.1, hc.2.2, fun _ => ⟨by rw [assign_val c c.val hc.1.z]; exact Sat.zero hc.1 hs',
      by rw [assign_val c c.val hc.1.o]; exact Sat.one hc.1 hs'⟩⟩
  have adv := linConstAdv_spec h.par hG.size_ne d.gen (pis := pis) (ps := ps) (by omega) (by omega) hctx (tr hch.1) (tr hch.2.1)
    (tr hch.2.2.1) (tr hch.2.2.2.1) (tr hch.2.2.2.2) (tr hv) (tr hl1) (trl hp)
    (fun i hi => ne_of_vanishing hG ho hz (piIdx_lt (by omega) hi)) (e := e) (a := evalsVal ev)
    ⟨trl he.1, trl he.2.1, tr he.2.2⟩ (by rw [he.1.length_eq]; exact hw5) (tr hb) hA
  obtain ⟨d', -, hB', -, hag, hsat⟩ := adv.universal'' (linConst_rel I d.size d.gen ch pis e van l1 bv 0 r0 r1 hh) hc.1 trivial
    hrun hs'
  have hst := hB'.2.2 trivial
  refine ⟨r, c', V, d'.val, hrun, hV', hsat, hag, hst.small h.par, ?_⟩
  have hval := st_value hst
  rw [hval]
  have hVv := linConst_native a l ln α2 α3 ap ps (lagVal_native hG ho hln hz) b [vk] [base] hB.lookups hB.len hB.keys hB.bases
    hB.wires hB.merged
  rw [hbe] at hVv
  have hVv' : Except.ok V = _ := hV'.symm.trans hVv
  injection hVv' with hVv'
  rw [hVv', hlen]
  simp only [constTerms, List.map_cons, List.map_nil, List.zipWith_cons_cons, List.zipWith_nil_left, List.sum_cons,
    List.sum_nil, add_zero]
  intro heq
  have h1 := mul_left_cancel₀ hbase heq
  have h2 : hintEl Q I hh * (a.α * permVal a.β a.γ ((ev.wires.take 4).zip ev.sigmas)) =
      (ev.wires.getD 4 0 + a.γ) * ev.permNext * (a.α * permVal a.β a.γ ((ev.wires.take 4).zip ev.sigmas)) := by
    have h3 := sub_right_injective h1
    unfold permTerm at h3
    simp only [evalsVal] at h3
    linear_combination h3
  refine hne (mul_right_cancel₀ (mul_ne_zero hα ?_) h2)
  unfold permVal
  refine List.prod_ne_zero ?_
  intro h0
  obtain ⟨x, hx, hx0⟩ := List.mem_map.1 h0
  exact hperm x hx hx0

end

/-! ## The parameters in use -/

/-- variables for a list of elements -/
def newElems {Q : ℕ} (I : Info p) : List (ZMod Q) → Build p (List (FpElemVar p))
  | [] => pure []
  | x :: xs => do
    let v ← newElem I x
    let vs ← newElems I xs
    pure (v :: vs)

theorem newElems_spec [hp : Fact p.Prime] [hQ : Fact Q.Prime] {I : Info p} (h : Par I Q k) (xs : List (ZMod Q)) :
    ∀ {c : Circ p} (_ : Ctx True k c), Spec (newElems I xs) c True
      (fun vs c' => List.Forall₂ (fun v z => Hol True I.mod z v c') vs xs) (fun _ _ => True) := by
  induction xs with
  | nil => intro c hc; exact Spec.pure hc.wf List.Forall₂.nil (fun _ _ _ => trivial)
  | cons x xs ih =>
    intro c hc
    rw [newElems]
    refine hbind hc.wf (newElem_spec h hc (a := x) (fun _ => rfl)) ?_
    intro v c1 e1 hv
    refine hbind e1.wf (ih (hc.ext e1)) ?_
    intro vs c2 e2 hvs
    exact Spec.pure e2.wf (List.Forall₂.cons (hv.ext e2) hvs) (fun _ _ _ _ _ => trivial)

/-- a circuit storing given elements, made by `FpElemVar::new_from_field_element` -/
theorem elems [hp : Fact p.Prime] [hQ : Fact Q.Prime] {I : Info p} (h : Params I Q k) (k1 : k < 32) (k2 : 2 ^ k < p)
    (xs : List (ZMod Q)) :
    ∃ vs c, newElems I xs (Circ.new p (some k)) = .ok (vs, c) ∧ Ready k c ∧ checkSat c [] = .ok () ∧
      List.Forall₂ (Stores I c) vs xs := by
  have hr : RangeOK (Circ.new p (some k)) := by
    intro j hj
    simp only [Circ.new, Option.some.injEq] at hj
    subst hj
    exact ⟨by have := h.mul.two; omega, k1, k2⟩
  have hw := wf_new (p := p) (some k)
  have hs := Verif.Props.Emulated.sat_new (p := p) (some k)
  have hR : Ready k (Circ.new p (some k)) := ⟨hw, hr, rfl⟩
  have sp := newElems_spec h.par xs (hR.ctx hs)
  obtain ⟨vs, c, g, s⟩ := sp.complete trivial [] hs
  obtain ⟨e, b, -⟩ := sp.sound _ _ g
  exact ⟨vs, c, g, ⟨e.wf, hr.ext e, by rw [e.ultra]; rfl⟩, (checkSat_ok e.wf []).2 s, b.imp fun _ _ g => stores_of_hol g⟩

instance : Fact (Nat.Prime Rescue.p_ed377) := ⟨Fields.prime_ed377⟩

/-- the parameters of the verifier circuit for BLS12-377, `mod.rs:186-203` -/
def I377 : Info Rescue.p_fq377 := ⟨128, some (2 ^ 128), (Rescue.p_ed377 : ℕ), ModArith.r377⟩

theorem I377_params : Params I377 Rescue.p_ed377 16 :=
  ⟨ModArith.r377_mulOK, rfl, rfl, ModArith.r377_num, by decide +kernel⟩

/-- the fifth wire, the challenge `γ` and `perm_next_eval` of the example -/
def fA : ZMod Rescue.p_ed377 := (7888609052210118054117285652827862296732064351090230047702789306640625 : ℕ)
def fB : ZMod Rescue.p_ed377 := (40536215597144386832065866109016673800875222251012083746192454448001 : ℕ)
def fX : ZMod Rescue.p_ed377 := (369988485035126972924700782451696644186473100389722973815184405301748249 : ℕ)

/-- the limbs given to `w_4 + γ` -/
def f0 : ZMod Rescue.p_fq377 :=
  202222988263201738347184777335944959105792455818406225148243335698267802979223986609637870144995477815989690494177
def f1 : ZMod Rescue.p_fq377 :=
  794931858907990228941809693590279748160028044707433555178765860029863409742562532309769920035881270891497492236

/-- the hints for the product -/
def fH : MulHints Rescue.p_fq377 :=
  ⟨146190110778961259867844684114279256763, 80623068520669189830420358486017959303,
    163792392134005987754214993190629487136, 167030689728871810313476184306734506494,
    7464436270231678957069504184727264062481355, 8585323651105939428896014330582312842672320⟩

theorem f_attack : Attack I377 Rescue.p_ed377 16 fA fB fX f0 f1 fH :=
  ⟨by decide +kernel, by constructor <;> decide +kernel, by constructor <;> decide +kernel⟩

theorem f_wrong : hintEl Rescue.p_ed377 I377 fH ≠ (fA + fB) * fX := by decide +kernel

/-- a domain of two elements -/
def fD : Domain (ZMod Rescue.p_ed377) := ⟨1, -1, 1⟩

theorem fD_prim : IsPrimitiveRoot fD.gen fD.size := by
  have : fD.size = 2 := rfl
  rw [this, IsPrimitiveRoot.iff (by norm_num)]
  refine ⟨by decide +kernel, ?_⟩
  intro l h0 h2
  have : l = 1 := by omega
  subst this
  decide +kernel

/-- the evaluations of the example -/
def fE : Evals (ZMod Rescue.p_ed377) := ⟨[1, 2, 3, 4, fA], [1, 1, 1, 1], fX⟩

/-- a proof with these evaluations -/
def fP : BProof (ZMod Rescue.p_ed377) ℕ := ⟨[], [0], [fE], [none], [], 0, 0⟩

/-- a key of a merged circuit -/
def fK : VKey (ZMod Rescue.p_ed377) ℕ ℕ := ⟨2, 2, [], [], [], ⟨0, 0, 0, [], []⟩, true, none⟩

/-- the challenges -/
def fC : Chal (ZMod Rescue.p_ed377) := ⟨none, 5, 6, fB, 2, 0, 0⟩

/-- the elements of the example: `α, α², β, γ, ζ`, the vanishing polynomial, `L1`, the base, the evaluations, two public
inputs -/
def fL : List (ZMod Rescue.p_ed377) := [5, 25, 6, fB, 2, 3, 3 / 2, 1, 1, 2, 3, 4, fA, 1, 1, 1, 1, fX, 8, 9]

theorem f_batch : Batch fP [fK] [1] :=
  ⟨by decide, rfl, rfl, rfl, rfl, by intro e he; rw [List.mem_singleton.1 he]; decide,
    by intro vk hvk; rw [List.mem_singleton.1 hvk]; rfl⟩

theorem f_van : vanishing fD 2 = 3 := by
  show (2 : ZMod Rescue.p_ed377) ^ 2 - 1 ^ 2 = 3
  norm_num

theorem f_two : (2 : ZMod Rescue.p_ed377) ≠ 0 := by decide +kernel

theorem f_first : firstLagrange fD 2 = .ok (3 / 2) := by
  refine first_native ⟨fD_prim, one_ne_zero⟩ rfl ?_ ?_
  · intro h
    have : (1 : ZMod Rescue.p_ed377) = 0 := by linear_combination h
    exact one_ne_zero this
  · show ((2 : ℕ) : ZMod Rescue.p_ed377) * (3 / 2) * (2 - 1) = 2 ^ 2 - 1
    have := f_two
    push_cast
    field_simp
    norm_num

theorem f_ne : fC.ζ ≠ 1 := by
  show (2 : ZMod Rescue.p_ed377) ≠ 1
  intro h
  have : (1 : ZMod Rescue.p_ed377) = 0 := by linear_combination h
  exact one_ne_zero this

theorem f_van0 : vanishing fD fC.ζ ≠ 0 := by
  show vanishing fD 2 ≠ 0
  rw [f_van]
  decide +kernel

theorem f_perm : ∀ x ∈ (fE.wires.take 4).zip fE.sigmas, x.1 + fC.β * x.2 + fC.γ ≠ 0 := by
  intro x hx
  have hx' : x ∈ [((1 : ZMod Rescue.p_ed377), (1 : ZMod Rescue.p_ed377)), (2, 1), (3, 1), (4, 1)] := hx
  simp only [List.mem_cons, List.not_mem_nil, or_false] at hx'
  rcases hx' with rfl | rfl | rfl | rfl
  · show (1 : ZMod Rescue.p_ed377) + 6 * 1 + fB ≠ 0
    decide +kernel
  · show (2 : ZMod Rescue.p_ed377) + 6 * 1 + fB ≠ 0
    decide +kernel
  · show (3 : ZMod Rescue.p_ed377) + 6 * 1 + fB ≠ 0
    decide +kernel
  · show (4 : ZMod Rescue.p_ed377) + 6 * 1 + fB ≠ 0
    decide +kernel

/-- the circuit of the example -/
theorem f_circuit : ∃ α α2 β γ ζ van l1 b w0 w1 w2 w3 w4 s0 s1 s2 s3 pn i0 i1 c,
    newElems I377 fL (Circ.new _ (some 16)) = .ok ([α, α2, β, γ, ζ, van, l1, b, w0, w1, w2, w3, w4, s0, s1, s2, s3, pn, i0, i1], c) ∧
    Ready 16 c ∧ checkSat c [] = .ok () ∧ StoresC I377 c ⟨α, α2, α, β, γ, ζ, α, α⟩ fC 25 ∧ Stores I377 c van (vanishing fD 2) ∧
    Stores I377 c l1 (3 / 2 : ZMod Rescue.p_ed377) ∧ Stores I377 c b (1 : ZMod Rescue.p_ed377) ∧
    StoresE I377 c ⟨[w0, w1, w2, w3, w4], [s0, s1, s2, s3], pn⟩ fE ∧
    List.Forall₂ (Stores I377 c) [i0, i1] [(8 : ZMod Rescue.p_ed377), 9] := by
  obtain ⟨vs, c, g, hR, hs, hf⟩ := elems I377_params (by norm_num) (by decide +kernel) fL
  unfold fL at hf
  simp only [List.forall₂_cons_right_iff, List.forall₂_nil_right_iff] at hf
  obtain ⟨α, _, h1, ⟨α2, _, h2, ⟨β, _, h3, ⟨γ, _, h4, ⟨ζ, _, h5, ⟨van, _, h6, ⟨l1, _, h7, ⟨b, _, h8, ⟨w0, _, h9,
    ⟨w1, _, h10, ⟨w2, _, h11, ⟨w3, _, h12, ⟨w4, _, h13, ⟨s0, _, h14, ⟨s1, _, h15, ⟨s2, _, h16, ⟨s3, _, h17,
    ⟨pn, _, h18, ⟨i0, _, h19, ⟨i1, _, h20, rfl, rfl⟩, rfl⟩, rfl⟩, rfl⟩, rfl⟩, rfl⟩, rfl⟩, rfl⟩, rfl⟩, rfl⟩, rfl⟩, rfl⟩, rfl⟩,
    rfl⟩, rfl⟩, rfl⟩, rfl⟩, rfl⟩, rfl⟩, rfl⟩ := hf
  refine ⟨α, α2, β, γ, ζ, van, l1, b, w0, w1, w2, w3, w4, s0, s1, s2, s3, pn, i0, i1, c, g, hR, hs, ⟨h1, h2, h3, h4, h5⟩,
    by rw [f_van]; exact h6, h7, h8, ⟨?_, ?_, h18⟩, ?_⟩
  · exact .cons h9 (.cons h10 (.cons h11 (.cons h12 (.cons h13 .nil))))
  · exact .cons h14 (.cons h15 (.cons h16 (.cons h17 .nil)))
  · exact .cons h19 (.cons h20 .nil)

theorem stores_small {x : FpElemVar Rescue.p_fq377} {a : ZMod Rescue.p_ed377} {c : Circ Rescue.p_fq377}
    (h : Stores I377 c x a) : Small I377 c.val x :=
  St.small I377_params.par h.2

theorem stores_val {x : FpElemVar Rescue.p_fq377} {a : ZMod Rescue.p_ed377} {c : Circ Rescue.p_fq377}
    (h : Stores I377 c x a) : value Rescue.p_ed377 I377 c.val x = a := st_value h.2

/-- The theorems on honest values apply to the example, and the satisfying assignment they give meets all hypotheses of
`C80_constant_sound_partial`: the values stored are those the assignment stands for, in range. -/
example : ∃ (c : Circ Rescue.p_fq377) (ch : ChalVar Rescue.p_fq377) (e : EvalsVar Rescue.p_fq377)
    (van l1 bv i0 i1 : FpElemVar Rescue.p_fq377) (r : FpElemVar Rescue.p_fq377 × List (FpElemVar Rescue.p_fq377))
    (c' : Circ Rescue.p_fq377) (V : ZMod Rescue.p_ed377),
    linConst I377 fD.size fD.gen ch 1 1 1 [i0, i1] [e] van l1 [bv] c = .ok (r, c') ∧ checkSat c' [] = .ok () ∧
      linPolyConst fD fC [fK] [[8, 9]] fP (3 / 2) 0 [25, 125] [1] = .ok V ∧ Stores I377 c' r.1 V ∧
      (∀ s ∈ r.2, Small I377 c'.val s) ∧ SmallC I377 c.val ch ∧ SmallE I377 c.val e ∧ Small I377 c.val van ∧
      value Rescue.p_ed377 I377 c.val van = vanishing fD fC.ζ ∧ fP.evals = [valueE Rescue.p_ed377 I377 c.val e] ∧
      Batch fP [fK] ([bv].map (value Rescue.p_ed377 I377 c.val)) := by
  obtain ⟨α, α2, β, γ, ζ, van, l1, b, w0, w1, w2, w3, w4, s0, s1, s2, s3, pn, i0, i1, c, -, hR, hs, hC, hv, hl, hb, hE, hI⟩ :=
    f_circuit
  obtain ⟨r, c', V, h1, h2, -, h3, h4, h5⟩ := C80_constant_honest I377_params fD_prim rfl hR hs hC hv
    f_van0 hl hI (by decide) (by decide) f_batch (by decide)
    (.cons hE .nil) (.cons hb .nil) 0 125 []
  have small_list : ∀ {xs : List (FpElemVar Rescue.p_fq377)} {zs : List (ZMod Rescue.p_ed377)},
      List.Forall₂ (Stores I377 c) xs zs → ∀ x ∈ xs, Small I377 c.val x := by
    intro xs zs h
    induction h with
    | nil => intro x hx; simp at hx
    | cons g _ ih =>
      intro x hx
      rcases List.mem_cons.1 hx with rfl | hx
      · exact stores_small g
      · exact ih x hx
  have val_list : ∀ {xs : List (FpElemVar Rescue.p_fq377)} {zs : List (ZMod Rescue.p_ed377)},
      List.Forall₂ (Stores I377 c) xs zs → xs.map (value Rescue.p_ed377 I377 c.val) = zs := by
    intro xs zs h
    induction h with
    | nil => rfl
    | cons g _ ih => rw [List.map_cons, stores_val g, ih]
  refine ⟨c, _, _, van, l1, b, i0, i1, r, c', V, h1, h2, h3, h4, fun s hs => ?_,
    ⟨stores_small hC.1, stores_small hC.2.1, stores_small hC.2.2.1, stores_small hC.2.2.2.1, stores_small hC.2.2.2.2⟩,
    ⟨small_list hE.1, small_list hE.2.1, stores_small hE.2.2⟩, stores_small hv, stores_val hv, ?_, ?_⟩
  · obtain ⟨z, hz⟩ := h5 s hs
    exact stores_small hz
  · unfold valueE
    rw [val_list hE.1, val_list hE.2.1, stores_val hE.2.2]
    rfl
  · rw [List.map_cons, List.map_nil, stores_val hb]
    exact f_batch

/-- The theorems on `evaluate_poly_helper` and `evaluate_pi_poly_circuit` apply to the example. -/
example : ∃ (c c' : Circ Rescue.p_fq377) (ζ zn van l1 i0 i1 v : FpElemVar Rescue.p_fq377) (c'' : Circ Rescue.p_fq377),
    evalHelper Rescue.p_ed377 I377 ζ fD.size c = .ok ((zn, van, l1), c') ∧ Stores I377 c' van (3 : ZMod Rescue.p_ed377) ∧
    evalPi I377 fD.size fD.gen [i0, i1] ζ van c' = .ok (v, c'') ∧ checkSat c'' [] = .ok () ∧
    Small I377 c''.val ζ ∧ value Rescue.p_ed377 I377 c''.val ζ = 2 := by
  obtain ⟨α, α2, β, γ, ζ, van, l1, b, w0, w1, w2, w3, w4, s0, s1, s2, s3, pn, i0, i1, c, -, hR, hs, hC, hv, hl, hb, hE, hI⟩ :=
    f_circuit
  have sp := evalHelper_spec I377_params.par (hR.ctx ((checkSat_ok hR.1 []).1 hs)) hC.2.2.2.2.hol (n := fD.size) (j := 1) rfl
    (by decide +kernel) (fun _ => f_ne)
  obtain ⟨zn, van', l1', c', h1, h2, h3, h4, h5, L, h6, h7⟩ := C80_helper_honest I377_params fD_prim rfl
    (by decide +kernel) hR hs hC.2.2.2.2 f_ne
  obtain ⟨e, -, -⟩ := sp.sound _ _ h1
  have tr : ∀ {x : FpElemVar Rescue.p_fq377} {z : ZMod Rescue.p_ed377}, Stores I377 c x z → Stores I377 c' x z :=
    fun g => stores_of_hol ((Stores.hol (H := True) g).ext e)
  have hg : Good fD := ⟨fD_prim, one_ne_zero⟩
  have sp2 := evalPi_spec (n := fD.size) I377_params.par hg.size_ne fD.gen (pis := [i0, i1]) (by show 2 ≤ 2 ^ 16; norm_num) (by simp [fD, Domain.size])
    (h3.ctx ((checkSat_ok h3.1 []).1 h2)) (tr hC.2.2.2.2).hol h5.hol (hol_list (hI.imp fun _ _ g => tr g))
    (fun _ i hi => ne_of_vanishing hg rfl f_van0 (piIdx_lt (by simp [fD, Domain.size]) hi))
  obtain ⟨v, c'', W, g1, g2, g3, g4, g5⟩ := C80_pi_honest I377_params fD_prim rfl h3 h2 (tr hC.2.2.2.2) h5 f_van0
    (hI.imp fun _ _ g => tr g) (by decide) (by decide)
  obtain ⟨e2, -, -⟩ := sp2.sound _ _ g1
  have hζ := stores_of_hol ((Stores.hol (H := True) (tr hC.2.2.2.2)).ext e2)
  have h5' : Stores I377 c' van' (vanishing fD 2) := h5
  rw [f_van] at h5'
  exact ⟨c, c', ζ, zn, van', l1', i0, i1, v, c'', h1, h5', g1, g2, stores_small hζ, stores_val hζ⟩

/-- **C80, refuted for the parameters in use**: over BLS12-377 there are a proof, challenges and public inputs, and a
circuit made by the functions of the code that stores them, such that `compute_lin_poly_constant_term_circuit` accepts
an assignment which agrees with that circuit on all variables it started with, but whose result, with limbs in range, is
not the constant term the native verifier computes. -/
theorem C80_constant_counterexample :
    ∃ (vs : List (FpElemVar Rescue.p_fq377)) (c : Circ Rescue.p_fq377) (ch : ChalVar Rescue.p_fq377)
      (e : EvalsVar Rescue.p_fq377) (van l1 bv i0 i1 : FpElemVar Rescue.p_fq377)
      (r : FpElemVar Rescue.p_fq377 × List (FpElemVar Rescue.p_fq377))
      (c' : Circ Rescue.p_fq377) (V : ZMod Rescue.p_ed377) (w : ℕ → ZMod Rescue.p_fq377),
      newElems I377 fL (Circ.new _ (some 16)) = .ok (vs, c) ∧
      StoresC I377 c ch fC 25 ∧ StoresE I377 c e fE ∧ Stores I377 c van (vanishing fD fC.ζ) ∧
      (∃ L, firstLagrange fD fC.ζ = .ok L ∧ Stores I377 c l1 L) ∧ Stores I377 c bv (1 : ZMod Rescue.p_ed377) ∧
      Stores I377 c i0 (8 : ZMod Rescue.p_ed377) ∧ Stores I377 c i1 (9 : ZMod Rescue.p_ed377) ∧
      linConst I377 fD.size fD.gen ch 1 1 1 [i0, i1] [e] van l1 [bv] c = .ok (r, c') ∧
      linPolyConst fD fC [fK] [[8, 9]] fP (3 / 2) 0 [25, 125] [1] = .ok V ∧
      Sat c' [] w ∧ (∀ i < c.numVars, w i = c.val i) ∧ Small I377 w r.1 ∧ value Rescue.p_ed377 I377 w r.1 ≠ V := by
  obtain ⟨α, α2, β, γ, ζ, van, l1, b, w0, w1, w2, w3, w4, s0, s1, s2, s3, pn, i0, i1, c, g, hR, hs, hC, hv, hl, hb, hE, hI⟩ :=
    f_circuit
  obtain ⟨r, c', V, w, h1, h2, h3, h4, h5, h6⟩ := forged I377_params fD_prim rfl hR hs hC hv
    f_van0 hl hI (by decide) (by decide) f_batch (ev := fE) rfl hE hb 0 125 []
    f_attack f_wrong (by decide +kernel) one_ne_zero f_perm
  cases hI with
  | cons hi0 hI =>
  cases hI with
  | cons hi1 _ =>
  exact ⟨_, c, _, _, van, l1, b, i0, i1, r, c', V, w, g, hC, hE, hv,
    ⟨3 / 2, f_first, hl⟩, hb, hi0, hi1, h1, h2, h3, h4, h5, h6⟩

end Verif.Props.VerifierCircuit
