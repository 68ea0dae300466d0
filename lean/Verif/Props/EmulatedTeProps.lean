import Verif.Props.EmulatedTe
import Verif.Props.EmulatedSwProps
import Verif.Util.Edwards

/-!
# Emulated twisted Edwards addition: what the gate accepts (property C75)

The curve is `-x² + y² = 1 + d x² y²`; the law is `edAdd (-1) d` of `Verif/Util/Edwards.lean`.
-/

set_option linter.unusedSectionVars false

namespace Verif.Props.Emulated

open Verif.Circuit Verif.Props.Circuit

variable {p : ℕ}

/-! ## Point variables -/

/-- the variable stands for the point `A` (two integers) -/
structure StandsTe (E : Emu) (c : Circ p) (w : ℕ → ZMod p) (P : TeVar) (A : ℕ × ℕ) : Prop where
  x : EV E c w P.x A.1
  y : EV E c w P.y A.2

theorem StandsTe.mono {E : Emu} {c c' : Circ p} {w w' : ℕ → ZMod p} {P : TeVar} {A : ℕ × ℕ} (n : Nxt c w c' w')
    (h : StandsTe E c w P A) : StandsTe E c' w' P A := ⟨h.x.mono n, h.y.mono n⟩

section create
variable [hp : Fact p.Prime] {E : Emu} {c : Circ p} {pi : List (ZMod p)}

theorem hon_createTe (hE : E.OK p) (g : Good c) (hs : Sat c pi c.val) {A : ℕ × ℕ} (hx : A.1 < 2 ^ E.T)
    (hy : A.2 < 2 ^ E.T) :
    ∃ v c', createTe E A c = .ok (v, c') ∧ Ext c c' ∧ Sat c' pi c'.val ∧ StandsTe E c' c'.val v A := by
  obtain ⟨v1, c1, m1, e1, s1, f1⟩ := hon_create hE g hs hx
  have g1 := g.ext e1
  obtain ⟨v2, c2, m2, e2, s2, f2⟩ := hon_create hE g1 s1 hy
  refine ⟨⟨v1, v2⟩, c2, ?_, e1.trans e2, s2, f1.mono (Nxt.val e2), f2⟩
  unfold createTe
  rw [bind_of_ok m1, bind_of_ok m2]
  rfl

theorem ext_createTe (hE : E.OK p) (g : Good c) {A : ℕ × ℕ} {c' : Circ p} {v : TeVar}
    (hm : createTe E A c = .ok (v, c')) : Ext c c' ∧ IsVar E v.x c' ∧ IsVar E v.y c' := by
  unfold createTe at hm
  obtain ⟨v1, c1, m1, hm⟩ := bind_ok hm
  obtain ⟨v2, c2, m2, hm⟩ := bind_ok hm
  obtain ⟨e1, i1⟩ := ext_computes (C71_create hE A.1) g.wf g.rg m1
  have g1 := g.ext e1
  obtain ⟨e2, i2⟩ := ext_computes (C71_create hE A.2) g1.wf g1.rg m2
  cases hm
  exact ⟨e1.trans e2, i1.up e2, i2⟩

/-- every pair of integers below `2^T` can be assigned to a new variable -/
theorem rch_createTe (hE : E.OK p) (g : Good c) {A B : ℕ × ℕ} {c' : Circ p} {v : TeVar}
    (hm : createTe E A c = .ok (v, c')) {w : ℕ → ZMod p} (hs : Sat c pi w) (hx : B.1 < 2 ^ E.T)
    (hy : B.2 < 2 ^ E.T) : ∃ w', Nxt c w c' w' ∧ Sat c' pi w' ∧ StandsTe E c' w' v B := by
  unfold createTe at hm
  obtain ⟨v1, c1, m1, hm⟩ := bind_ok hm
  obtain ⟨v2, c2, m2, hm⟩ := bind_ok hm
  obtain ⟨w1, n1, s1, f1⟩ := rch_computes (C71_create hE A.1) g.wf g.rg m1 hs trivial hx trivial
  have g1 := g.ext n1.ext
  obtain ⟨w2, n2, s2, f2⟩ := rch_computes (C71_create hE A.2) g1.wf g1.rg m2 s1 trivial hy trivial
  cases hm
  exact ⟨w2, n1.trans n2, s2, f1.mono n2, f2⟩

end create

/-! ## The witness that the builder stores -/

/-- The builder's own assignment satisfies the gate, if no carry ripples. -/
theorem hon_teAddGate [Fact p.Prime] {E : Emu} [Fact E.q.Prime] (hE : E.OK p) {d x0 y0 x1 y1 x2 y2 : ZMod E.q}
    {P Q R : TeVar} {c : Circ p} {pi : List (ZMod p)} (g0 : Good c) (s0 : Sat c pi c.val)
    (h_x0 : EV E c c.val P.x x0.val) (h_y0 : EV E c c.val P.y y0.val) (h_x1 : EV E c c.val Q.x x1.val) (h_y1 : EV E
      c c.val Q.y y1.val) (h_x2 : EV E c c.val R.x x2.val) (h_y2 : EV E c c.val R.y y2.val)
    (f1 : AddFits E (x0 * y1).val (x1 * y0).val)
    (f2 : AddFits E (x2).val ((((x0 * x1) * (y0 * y1)) * d) * x2).val)
    (f3 : AddFits E (x0 * x1).val (y0 * y1).val)
    (f4 : AddFits E (x0 * x1 + y0 * y1).val ((((x0 * x1) * (y0 * y1)) * d) * y2).val)
    (q1 : x2 + (((x0 * x1) * (y0 * y1)) * d) * x2 = x0 * y1 + x1 * y0)
    (q2 : x0 * x1 + y0 * y1 + (((x0 * x1) * (y0 * y1)) * d) * y2 = y2) :
    ∃ (r : Unit) (c' : Circ p), teAddGate E d.val P Q R c = .ok (r, c') ∧ Ext c c' ∧ Sat c' pi c'.val := by
  obtain ⟨v1, c1, m1, e1, s1, ef1⟩ := hon_mul hE g0 s0
    (show EV E c c.val P.x (x0).val by ev) (show EV E c c.val Q.y (y1).val by ev)
  have g1 := g0.ext e1
  have n1 := Nxt.val e1
  obtain ⟨v2, c2, m2, e2, s2, ef2⟩ := hon_mul hE g1 s1
    (show EV E c1 c1.val Q.x (x1).val by ev) (show EV E c1 c1.val P.y (y0).val by ev)
  have g2 := g1.ext e2
  have n2 := Nxt.val e2
  obtain ⟨v3, c3, m3, e3, s3, ef3⟩ := hon_mul hE g2 s2
    (show EV E c2 c2.val P.x (x0).val by ev) (show EV E c2 c2.val Q.x (x1).val by ev)
  have g3 := g2.ext e3
  have n3 := Nxt.val e3
  obtain ⟨v4, c4, m4, e4, s4, ef4⟩ := hon_mul hE g3 s3
    (show EV E c3 c3.val P.y (y0).val by ev) (show EV E c3 c3.val Q.y (y1).val by ev)
  have g4 := g3.ext e4
  have n4 := Nxt.val e4
  obtain ⟨v5, c5, m5, e5, s5, ef5⟩ := hon_mul hE g4 s4
    (show EV E c4 c4.val v3 (x0 * x1).val by ev) (show EV E c4 c4.val v4 (y0 * y1).val by ev)
  have g5 := g4.ext e5
  have n5 := Nxt.val e5
  obtain ⟨v6, c6, m6, e6, s6, ef6⟩ := hon_mulc (y := d) hE g5 s5
    (show EV E c5 c5.val v5 ((x0 * x1) * (y0 * y1)).val by ev)
  have g6 := g5.ext e6
  have n6 := Nxt.val e6
  obtain ⟨v7, c7, m7, e7, s7, ef7⟩ := hon_add hE g6 s6
    (show EV E c6 c6.val v1 (x0 * y1).val by ev) (show EV E c6 c6.val v2 (x1 * y0).val by ev) f1
  have g7 := g6.ext e7
  have n7 := Nxt.val e7
  obtain ⟨v8, c8, m8, e8, s8, ef8⟩ := hon_mul hE g7 s7
    (show EV E c7 c7.val v6 (((x0 * x1) * (y0 * y1)) * d).val by ev) (show EV E c7 c7.val R.x (x2).val by ev)
  have g8 := g7.ext e8
  have n8 := Nxt.val e8
  obtain ⟨v9, c9, m9, e9, s9⟩ := hon_addGate hE g8 s8
    (show EV E c8 c8.val R.x (x2).val by ev) (show EV E c8 c8.val v8 ((((x0 * x1) * (y0 * y1)) * d) * x2).val by
      ev) (show EV E c8 c8.val v7 (x0 * y1 + x1 * y0).val by ev) q1 f2
  have g9 := g8.ext e9
  have n9 := Nxt.val e9
  obtain ⟨v10, c10, m10, e10, s10, ef10⟩ := hon_add hE g9 s9
    (show EV E c9 c9.val v3 (x0 * x1).val by ev) (show EV E c9 c9.val v4 (y0 * y1).val by ev) f3
  have g10 := g9.ext e10
  have n10 := Nxt.val e10
  obtain ⟨v11, c11, m11, e11, s11, ef11⟩ := hon_mul hE g10 s10
    (show EV E c10 c10.val v6 (((x0 * x1) * (y0 * y1)) * d).val by ev) (show EV E c10 c10.val R.y (y2).val by ev)
  have g11 := g10.ext e11
  have n11 := Nxt.val e11
  obtain ⟨v12, c12, m12, e12, s12⟩ := hon_addGate hE g11 s11
    (show EV E c11 c11.val v10 (x0 * x1 + y0 * y1).val by ev) (show EV E c11 c11.val v11 ((((x0 * x1) * (y0 * y1))
      * d) * y2).val by ev) (show EV E c11 c11.val R.y (y2).val by ev) q2 f4
  have g12 := g11.ext e12
  have n12 := Nxt.val e12
  refine ⟨v12, c12, ?_, ((((((((((e1.trans e2).trans e3).trans e4).trans e5).trans e6).trans e7).trans e8).trans
    e9).trans e10).trans e11).trans e12, s12⟩
  unfold teAddGate
  rw [bind_of_ok m1, bind_of_ok m2, bind_of_ok m3, bind_of_ok m4, bind_of_ok m5, bind_of_ok m6, bind_of_ok m7,
    bind_of_ok m8, bind_of_ok m9, bind_of_ok m10, bind_of_ok m11, m12]

/-- the four additions of `emulated_te_ecc_add_gate` have no carry that ripples (see `AddFits`) -/
def TeFits (E : Emu) [Fact E.q.Prime] (d : ZMod E.q) (P Q R : ZMod E.q × ZMod E.q) : Prop :=
  AddFits E (P.1 * Q.2).val (Q.1 * P.2).val ∧ AddFits E R.1.val (edZ d P Q * R.1).val ∧
  AddFits E (P.1 * Q.1).val (P.2 * Q.2).val ∧ AddFits E (P.1 * Q.1 + P.2 * Q.2).val (edZ d P Q * R.2).val

/-- coordinates as integers below `q` -/
def teEnc {q : ℕ} (P : ZMod q × ZMod q) : ℕ × ℕ := (P.1.val, P.2.val)

/-- the two equations that the gate is meant to express -/
def TeEq {F : Type*} [Field F] (d : F) (P Q R : F × F) : Prop :=
  R.1 + edZ d P Q * R.1 = P.1 * Q.2 + Q.1 * P.2 ∧ P.1 * Q.1 + P.2 * Q.2 + edZ d P Q * R.2 = R.2

/-- where the addition is defined, the equations have exactly one solution, the sum -/
theorem teEq_iff {F : Type*} [Field F] {d : F} {P Q R : F × F} (h : EdDef d P Q) :
    TeEq d P Q R ↔ R = edAdd (-1) d P Q := by
  obtain ⟨h1, h2⟩ := h
  unfold TeEq edAdd
  rw [Prod.ext_iff, eq_div_iff h1, eq_div_iff h2]
  constructor
  · rintro ⟨e1, e2⟩
    exact ⟨by linear_combination e1, by linear_combination -e2⟩
  · rintro ⟨e1, e2⟩
    exact ⟨by linear_combination e1, by linear_combination -e2⟩

theorem hon_te [Fact p.Prime] {E : Emu} [Fact E.q.Prime] (hE : E.OK p) {d : ZMod E.q}
    {P Q R : ZMod E.q × ZMod E.q} {A B C : TeVar} {c : Circ p} {pi : List (ZMod p)} (g0 : Good c)
    (s0 : Sat c pi c.val) (hA : StandsTe E c c.val A (teEnc P)) (hB : StandsTe E c c.val B (teEnc Q))
    (hC : StandsTe E c c.val C (teEnc R)) (hf : TeFits E d P Q R) (he : TeEq d P Q R) :
    ∃ (r : Unit) (c' : Circ p), teAddGate E d.val A B C c = .ok (r, c') ∧ Ext c c' ∧ Sat c' pi c'.val := by
  have hz : P.1 * Q.1 * (P.2 * Q.2) * d = edZ d P Q := by unfold edZ; ring
  obtain ⟨f1, f2, f3, f4⟩ := hf
  exact hon_teAddGate hE g0 s0 hA.x hA.y hB.x hB.y hC.x hC.y f1 (by rwa [hz]) f3 (by rwa [hz])
    (by rw [hz]; exact he.1) (by rw [hz]; exact he.2)

/-! ## The addition gate on three new points -/

/-- the circuit `c'` made by three new point variables and `emulated_te_ecc_add_gate` on them -/
def TeCircuit (E : Emu) (d : ℕ) (A B C : TeVar) (c' : Circ p) : Prop :=
  ∃ c1 c2 c3 u, createTe E (0, 0) (Circ.new p none) = .ok (A, c1) ∧ createTe E (0, 0) c1 = .ok (B, c2) ∧
    createTe E (0, 0) c2 = .ok (C, c3) ∧ teAddGate E d A B C c3 = .ok (u, c')

/-- some assignment to this circuit satisfies it and gives the three variables the values `P`, `Q`, `R` -/
def PossibleTe (p : ℕ) (E : Emu) (d : ℕ) (P Q R : ℕ × ℕ) : Prop :=
  ∃ A B C, ∃ c' : Circ p, TeCircuit E d A B C c' ∧ ∃ w, Sat c' [] w ∧
    StandsTe E c' w A P ∧ StandsTe E c' w B Q ∧ StandsTe E c' w C R

section gate
variable [hp : Fact p.Prime] {E : Emu} [hq : Fact E.q.Prime]

/-- The circuit exists, and the builder's assignment satisfies it. -/
theorem C75_circuit (hE : E.OK p) (d : ZMod E.q) :
    ∃ A B C, ∃ c' : Circ p, TeCircuit E d.val A B C c' ∧ checkSat c' [] = .ok () := by
  have h0 : 0 < 2 ^ E.T := by positivity
  obtain ⟨A, c1, m1, e1, s1, t1⟩ := hon_createTe (A := (0, 0)) hE good_new (sat_new none) h0 h0
  have g1 := good_new.ext e1
  obtain ⟨B, c2, m2, e2, s2, t2⟩ := hon_createTe (A := (0, 0)) hE g1 s1 h0 h0
  have g2 := g1.ext e2
  obtain ⟨C, c3, m3, e3, s3, t3⟩ := hon_createTe (A := (0, 0)) hE g2 s2 h0 h0
  have g3 := g2.ext e3
  have hO : ((0, 0) : ℕ × ℕ) = teEnc ((0, 0) : ZMod E.q × ZMod E.q) := by simp [teEnc]
  have hz : AddFits E 0 0 := addFits_zero hq.out.pos
  obtain ⟨u, c', m4, e4, s4⟩ := hon_te (d := d) hE g3 s3 (hO ▸ (t1.mono (Nxt.val e2)).mono (Nxt.val e3))
    (hO ▸ t2.mono (Nxt.val e3)) (hO ▸ t3) (by simpa [TeFits] using hz) (by simp [TeEq])
  exact ⟨A, B, C, c', ⟨c1, c2, c3, u, m1, m2, m3, m4⟩, (checkSat_ok e4.wf []).2 s4⟩

/-- **C75**, exact form: which triples of pairs of integers the circuit of the gate accepts. -/
theorem C75_exact (hE : E.OK p) (d : ZMod E.q) {P Q R : ℕ × ℕ} (hP : P.1 < 2 ^ E.T ∧ P.2 < 2 ^ E.T)
    (hQ : Q.1 < 2 ^ E.T ∧ Q.2 < 2 ^ E.T) (hR : R.1 < 2 ^ E.T ∧ R.2 < 2 ^ E.T) :
    PossibleTe p E d.val P Q R ↔
      TeRel (2 ^ E.T) (MulRel p E) (AddRel E) d.val P.1 P.2 Q.1 Q.2 R.1 R.2 := by
  have hd := ZMod.val_lt d
  have key : ∀ A B C (c' : Circ p), TeCircuit E d.val A B C c' →
      ((∃ w, Sat c' [] w ∧ StandsTe E c' w A P ∧ StandsTe E c' w B Q ∧ StandsTe E c' w C R) ↔
        TeRel (2 ^ E.T) (MulRel p E) (AddRel E) d.val P.1 P.2 Q.1 Q.2 R.1 R.2) := by
    rintro A B C c' ⟨c1, c2, c3, u, m1, m2, m3, m4⟩
    obtain ⟨e1, i1, j1⟩ := ext_createTe hE good_new m1
    have g1 := good_new.ext e1
    obtain ⟨e2, i2, j2⟩ := ext_createTe hE g1 m2
    have g2 := g1.ext e2
    obtain ⟨e3, i3, j3⟩ := ext_createTe hE g2 m3
    have g3 := g2.ext e3
    have e4 := ext_teAddGate hE hd g3 ((i1.up e2).up e3) ((j1.up e2).up e3) (i2.up e3) (j2.up e3) i3 j3 m4
    constructor
    · rintro ⟨w, hs, hA, hB, hC⟩
      exact snd_teAddGate hE hd g3 m4 hs ⟨(i1.up e2).up e3, hA.x.rng, hA.x.val⟩
        ⟨(j1.up e2).up e3, hA.y.rng, hA.y.val⟩ ⟨i2.up e3, hB.x.rng, hB.x.val⟩ ⟨j2.up e3, hB.y.rng, hB.y.val⟩
        ⟨i3, hC.x.rng, hC.x.val⟩ ⟨j3, hC.y.rng, hC.y.val⟩
    · intro hr
      obtain ⟨w1, n1, s1, t1⟩ := rch_createTe hE good_new m1 (sat_new none) hP.1 hP.2
      obtain ⟨w2, n2, s2, t2⟩ := rch_createTe hE g1 m2 s1 hQ.1 hQ.2
      obtain ⟨w3, n3, s3, t3⟩ := rch_createTe hE g2 m3 s2 hR.1 hR.2
      have t1' := (t1.mono n2).mono n3
      have t2' := t2.mono n3
      obtain ⟨w, n4, hs⟩ := rch_teAddGate hE hd g3 m4 s3 t1'.x t1'.y t2'.x t2'.y t3.x t3.y hr
      exact ⟨w, hs, t1'.mono n4, t2'.mono n4, t3.mono n4⟩
  constructor
  · rintro ⟨A, B, C, c', hc, hw⟩
    exact (key A B C c' hc).1 hw
  · intro hr
    obtain ⟨A, B, C, c', hc, -⟩ := C75_circuit hE d
    exact ⟨A, B, C, c', hc, (key A B C c' hc).2 hr⟩

theorem teEnc_lt (hE : E.OK p) (P : ZMod E.q × ZMod E.q) : (teEnc P).1 < 2 ^ E.T ∧ (teEnc P).2 < 2 ^ E.T :=
  ⟨val_lt hE P.1, val_lt hE P.2⟩

/-- the equations imply the relation, if the right results are possible -/
theorem teRel_of_eq {q N : ℕ} [Fact q.Prime] {mul add : ℕ → ℕ → ℕ → Prop} (H : Honest q N mul add) {d : ZMod q}
    {P Q R : ZMod q × ZMod q} (h : TeEq d P Q R) :
    TeRel N mul add d.val (teEnc P).1 (teEnc P).2 (teEnc Q).1 (teEnc Q).2 (teEnc R).1 (teEnc R).2 := by
  have hl (x : ZMod q) : x.val < N := (ZMod.val_lt x).trans_le H.le
  have hz : P.1 * Q.1 * (P.2 * Q.2) * d = edZ d P Q := by unfold edZ; ring
  refine ⟨_, hl _, H.mul _ _, _, hl _, H.mul _ _, _, hl _, H.mul _ _, _, hl _, H.mul _ _, _, hl _, H.mul _ _,
    _, hl _, H.mul _ _, _, hl _, H.add _ _, _, hl _, H.mul _ _, ?_, _, hl _, H.add _ _, _, hl _, H.mul _ _, ?_⟩
  · have := H.add R.1 (P.1 * Q.1 * (P.2 * Q.2) * d * R.1)
    rwa [hz, h.1, ← hz] at this
  · have := H.add (P.1 * Q.1 + P.2 * Q.2) (P.1 * Q.1 * (P.2 * Q.2) * d * R.2)
    rwa [hz, h.2, ← hz] at this

/-- **C75, completeness**: where the addition is defined, the sum is accepted. -/
theorem C75_complete (hE : E.OK p) {d : ZMod E.q} {P Q : ZMod E.q × ZMod E.q} (h : EdDef d P Q) :
    PossibleTe p E d.val (teEnc P) (teEnc Q) (teEnc (edAdd (-1) d P Q)) :=
  (C75_exact hE d (teEnc_lt hE P) (teEnc_lt hE Q) (teEnc_lt hE _)).2
    (teRel_of_eq (honest_gates hE) ((teEq_iff h).2 rfl))

/-- **C75, part that holds of soundness**: with multiplication and addition that are right modulo `q` the gate
accepts, where the addition is defined, exactly the sum. Missing: the multiplication and addition gates of the crate are
not (`C75_counterexample`). -/
theorem C75_sound_partial {q : ℕ} [Fact q.Prime] {d : ZMod q} {P Q R : ZMod q × ZMod q} (h : EdDef d P Q) :
    TeRel q (fmul q) (fadd q) d.val (teEnc P).1 (teEnc P).2 (teEnc Q).1 (teEnc Q).2 (teEnc R).1 (teEnc R).2 ↔
      R = edAdd (-1) d P Q := by
  rw [← teEq_iff h]
  refine ⟨?_, teRel_of_eq (honest_field q)⟩
  rintro ⟨a, -, ha, b, -, hb, e, -, he, f, -, hf, m, -, hm, k, -, hk, s, -, hs, t, -, ht, h1, u, -, hu, v, -, hv, h2⟩
  simp only [fmul, fadd, teEnc, ZMod.natCast_zmod_val] at ha hb he hf hm hk hs ht h1 hu hv h2
  unfold TeEq edZ
  rw [ht, hk, hm, he, hf] at h1
  rw [← hs, ha, hb] at h1
  rw [← hu, hv, hk, hm, he, hf] at h2
  exact ⟨by linear_combination h1, by linear_combination h2⟩

/-- **C75, soundness refuted**: let `x₀ y₁ + x₁ y₀` be below `q` as an integer, and the addition defined. There is an
accepted result whose first coordinate is not the right one modulo `q`. -/
theorem C75_counterexample (hE : E.OK p) (h2 : E.q ≠ 2) (hT : 2 * E.q ≤ 2 ^ E.T) {d : ZMod E.q}
    {P Q : ZMod E.q × ZMod E.q} (h : EdDef d P Q) (hlt : (P.1 * Q.2).val + (Q.1 * P.2).val < E.q) :
    ∃ x y : ℕ, x < 2 ^ E.T ∧ y < 2 ^ E.T ∧ PossibleTe p E d.val (teEnc P) (teEnc Q) (x, y) ∧
      ((x : ZMod E.q), (y : ZMod E.q)) ≠ edAdd (-1) d P Q := by
  have H := honest_gates (p := p) hE
  have hl (x : ZMod E.q) : x.val < 2 ^ E.T := val_lt hE x
  have hz : P.1 * Q.1 * (P.2 * Q.2) * d = edZ d P Q := by unfold edZ; ring
  have hY := ((teEq_iff h).2 rfl).2
  set A := (P.1 * Q.2).val with hA
  set B := (Q.1 * P.2).val with hB
  set X : ZMod E.q := (P.1 * Q.2 + Q.1 * P.2 + 2 ^ E.T) / (1 + edZ d P Q) with hX
  set t := (edZ d P Q * X).val with ht
  have htq : t < E.q := ZMod.val_lt _
  have hXe : X * (1 + edZ d P Q) = P.1 * Q.2 + Q.1 * P.2 + 2 ^ E.T := by rw [hX, div_mul_cancel₀ _ h.1]
  set s := A + B + 2 ^ E.T - E.q with hs
  have hsT : s < 2 ^ E.T := by omega
  have hts : t ≤ s := by omega
  have hsc : (s : ZMod E.q) = P.1 * Q.2 + Q.1 * P.2 + 2 ^ E.T := by
    rw [hs, Nat.cast_sub (by omega)]
    push_cast
    simp [hA, hB]
  have hxc : ((s - t : ℕ) : ZMod E.q) = X := by
    rw [Nat.cast_sub hts, hsc, ht, ZMod.natCast_zmod_val]
    linear_combination -hXe
  refine ⟨s - t, ((edAdd (-1) d P Q).2).val, by omega, hl _, ?_, ?_⟩
  · rw [C75_exact hE d (teEnc_lt hE P) (teEnc_lt hE Q) ⟨by omega, hl _⟩]
    have m1 := (mulRel_val (p := p) hE (show s - t < 2 ^ E.T by omega) (edZ d P Q)).swap
    rw [hxc, mul_comm, ← ht] at m1
    have a1 : AddRel E A B s := by
      right
      rw [hs, Nat.add_sub_cancel' (by omega)]
      show _ % _ = _ % _
      rw [Nat.add_mod_right]
    refine ⟨_, hl _, H.mul _ _, _, hl _, H.mul _ _, _, hl _, H.mul _ _, _, hl _, H.mul _ _, _, hl _, H.mul _ _,
      _, hl _, H.mul _ _, s, hsT, a1, t, by omega, ?_, ?_, _, hl _, H.add _ _, _, hl _, H.mul _ _, ?_⟩
    · rw [hz]; exact m1
    · left
      show _ ≡ _ [MOD _]
      rw [Nat.sub_add_cancel hts]
    · have := H.add (P.1 * Q.1 + P.2 * Q.2) (P.1 * Q.1 * (P.2 * Q.2) * d * (edAdd (-1) d P Q).2)
      rwa [hz, hY, ← hz] at this
  · intro he
    have h1 := congrArg Prod.fst he
    simp only at h1
    rw [hxc] at h1
    have h3 := ((teEq_iff h).2 rfl).1
    rw [← h1] at h3
    have h4 : (2 : ZMod E.q) ^ E.T = 0 := by linear_combination h3 - hXe
    exact pow_ne_zero _ (two_ne (q := E.q) h2) h4

/-! ## `emulated_te_ecc_add` -/

theorem teSum_eq {q : ℕ} [Fact q.Prime] {d : ZMod q} {P Q : ZMod q × ZMod q} (h : EdDef d P Q) :
    teSum q d.val (teEnc P) (teEnc Q) = some (teEnc (edAdd (-1) d P Q)) := by
  have hz : d * (P.1 * Q.2) * (Q.1 * P.2) = edZ d P Q := by unfold edZ; ring
  obtain ⟨h1, h2⟩ := h
  simp only [teSum, teEnc, ZMod.natCast_zmod_val, hz]
  rw [if_neg (by tauto)]
  unfold edAdd
  rw [div_eq_mul_inv, div_eq_mul_inv]
  have : P.1 * Q.1 + P.2 * Q.2 = P.2 * Q.2 - -1 * P.1 * Q.1 := by ring
  rw [this]

theorem teSum_none {q : ℕ} [Fact q.Prime] {d : ZMod q} {P Q : ZMod q × ZMod q} (h : ¬ EdDef d P Q) :
    teSum q d.val (teEnc P) (teEnc Q) = none := by
  have hz : d * (P.1 * Q.2) * (Q.1 * P.2) = edZ d P Q := by unfold edZ; ring
  simp only [teSum, teEnc, ZMod.natCast_zmod_val, hz]
  rw [if_pos]
  unfold EdDef at h
  tauto

theorem emWitness_eq {c : Circ p} {v : List ℕ} {x : ZMod E.q} (h : EV E c c.val v x.val) :
    emulatedWitness E v c = .ok (x.val, c) := by
  rw [emulatedWitness_eq h.var.2 h.var.1, ← value_eq h.var.1, h.val, Nat.mod_eq_of_lt (ZMod.val_lt x)]

theorem teAdd_eq {d : ZMod E.q} {c : Circ p} {A B : TeVar} {P Q : ZMod E.q × ZMod E.q}
    (hA : StandsTe E c c.val A (teEnc P)) (hB : StandsTe E c c.val B (teEnc Q)) :
    teAdd E d.val A B c = (match teSum E.q d.val (teEnc P) (teEnc Q) with
      | none => Build.fail .panic
      | some R => do
        let R ← createTe E R
        teAddGate E d.val A B R
        pure R) c := by
  unfold teAdd
  rw [bind_of_ok (emWitness_eq hA.x), bind_of_ok (emWitness_eq hA.y), bind_of_ok (emWitness_eq hB.x),
    bind_of_ok (emWitness_eq hB.y)]
  rfl

/-- **C75, the builder, part that holds**: `emulated_te_ecc_add` in a satisfied circuit, on points whose addition is
defined, returns a variable for the sum in a satisfied circuit, unless a carry ripples in one of the four additions.
Missing: that case. -/
theorem C75_add_partial (hE : E.OK p) {c : Circ p} {pi : List (ZMod p)} (hc : WF c) (hr : RangeOK c)
    (hs : checkSat c pi = .ok ()) {A B : TeVar} {d : ZMod E.q} {P Q : ZMod E.q × ZMod E.q}
    (hA : StandsTe E c c.val A (teEnc P)) (hB : StandsTe E c c.val B (teEnc Q)) (h : EdDef d P Q)
    (hf : TeFits E d P Q (edAdd (-1) d P Q)) :
    ∃ R c', teAdd E d.val A B c = .ok (R, c') ∧ checkSat c' pi = .ok () ∧
      StandsTe E c' c'.val R (teEnc (edAdd (-1) d P Q)) := by
  have g : Good c := ⟨hc, hr⟩
  obtain ⟨hx, hy⟩ := teEnc_lt hE (edAdd (-1) d P Q)
  obtain ⟨R, c1, m1, e1, s1, t1⟩ := hon_createTe hE g ((checkSat_ok hc pi).1 hs) hx hy
  have g1 := g.ext e1
  have n1 := Nxt.val e1
  obtain ⟨u, c2, m2, e2, s2⟩ := hon_te hE g1 s1 (hA.mono n1) (hB.mono n1) t1 hf ((teEq_iff h).2 rfl)
  refine ⟨R, c2, ?_, (checkSat_ok e2.wf pi).2 s2, t1.mono (Nxt.val e2)⟩
  rw [teAdd_eq hA hB, teSum_eq h]
  simp only
  rw [bind_of_ok m1, bind_of_ok m2]
  rfl

/-- **C75**: on a curve with `-1` a square and `d` not, the addition of two points of the curve is defined, and its
result is on the curve, so that `C75_complete` and `C75_add_partial` apply. -/
theorem C75_defined {q : ℕ} [Fact q.Prime] (h2 : q ≠ 2) {d : ZMod q} (h1 : IsSquare (-1 : ZMod q))
    (hd : ¬ IsSquare d) {P Q : ZMod q × ZMod q} (hP : EdOn (-1) d P) (hQ : EdOn (-1) d Q) :
    EdDef d P Q ∧ EdOn (-1) d (edAdd (-1) d P Q) :=
  ⟨(EdGroup.complete (-1) d (two_ne h2) h1 hd).defd hP hQ, (EdGroup.complete (-1) d (two_ne h2) h1 hd).add hP hQ⟩

/-- **C75, the builder refuted**: where a denominator is zero, `emulated_te_ecc_add` panics. On a curve with `d` a
nonzero square every point `(x, y)` with `x y ≠ 0` has a point of the curve for which this happens. -/
theorem C75_panic_counterexample {r : ZMod E.q} (hr : r ≠ 0) {P : ZMod E.q × ZMod E.q}
    (hP : EdOn (-1) (r ^ 2) P) (h1 : P.1 ≠ 0) (h2 : P.2 ≠ 0) :
    EdOn (-1) (r ^ 2) (1 / (r * P.2), 1 / (r * P.1)) ∧
    ∀ (c : Circ p) (A B : TeVar), StandsTe E c c.val A (teEnc P) →
      StandsTe E c c.val B (teEnc (1 / (r * P.2), 1 / (r * P.1))) →
      teAdd E (r ^ 2).val A B c = .error .panic := by
  obtain ⟨x, y⟩ := P
  simp only at h1 h2
  constructor
  · unfold EdOn at hP ⊢
    simp only at hP ⊢
    field_simp
    linear_combination hP
  · intro c A B hA hB
    rw [teAdd_eq hA hB, teSum_none]
    · rfl
    · rintro ⟨-, h⟩
      apply h
      unfold edZ
      simp only
      field_simp
      ring

end gate

/-! ## The configurations of the crate -/

/-- the coefficient `d` of BLS12-377 as a twisted Edwards curve, from the tests `twisted_edwards.rs:175` and
`conversion.rs:147` -/
def d377 : ℕ := 122268283598675559488486339158635529096981886914877139579534153582033676785385790730042363341236035746924960903179
/-- a square root of `d377` -/
def r377 : ℕ := 228097355113300204138531148905234651262148041026195375645000724271212049151994375092458297304264351187709081232382
/-- `(1, y377)` is on the curve -/
def y377 : ℕ := 18761259127593226742961652854041614651165179983731818742834598166084609603595333285448207885314211841851744092841

theorem r377_sq : ((d377 : ℕ) : ZMod fq377.q) = ((r377 : ℕ) : ZMod fq377.q) ^ 2 := by
  rw [← Nat.cast_pow, ZMod.natCast_eq_natCast_iff]; unfold Nat.ModEq; decide +kernel

/-- **C75 refuted in both configurations of the crate**: the sum of `(0, 1)` with itself is accepted as
`(2^T - q, 1)`, for every `d`; and on the curve of the crate there are points for which the call panics. -/
theorem C75_shipped_counterexample :
    (∀ d : ZMod fq377.q, PossibleTe Rescue.p_ed254 fq377 d.val (0, 1) (0, 1) (2 ^ fq377.T - fq377.q, 1)) ∧
    (∀ d : ZMod fq254.q, PossibleTe Rescue.p_ed254 fq254 d.val (0, 1) (0, 1) (2 ^ fq254.T - fq254.q, 1)) ∧
    ¬ (2 ^ fq377.T - fq377.q ≡ 0 [MOD fq377.q]) ∧ ¬ (2 ^ fq254.T - fq254.q ≡ 0 [MOD fq254.q]) ∧
    ∃ P Q : ZMod fq377.q × ZMod fq377.q, EdOn (-1) (d377 : ZMod fq377.q) P ∧ EdOn (-1) (d377 : ZMod fq377.q) Q ∧
      ∀ (c : Circ Rescue.p_ed254) (A B : TeVar), StandsTe fq377 c c.val A (teEnc P) →
        StandsTe fq377 c c.val B (teEnc Q) → teAdd fq377 d377 A B c = .error .panic := by
  have key : ∀ (E : Emu) (hE : E.OK Rescue.p_ed254) [Fact E.q.Prime] (h2 : E.q < 2 ^ E.T) (d : ZMod E.q),
      PossibleTe Rescue.p_ed254 E d.val (0, 1) (0, 1) (2 ^ E.T - E.q, 1) := by
    intro E hE _ h2 d
    have hq : 1 < E.q := (Fact.out : E.q.Prime).one_lt
    have h0 : 0 < 2 ^ E.T := by omega
    have h1 : 1 < 2 ^ E.T := by omega
    have h3 : 2 ^ E.T - E.q < 2 ^ E.T := by omega
    rw [C75_exact hE d ⟨h0, h1⟩ ⟨h0, h1⟩ ⟨h3, h1⟩]
    have z : ∀ x, MulRel Rescue.p_ed254 E 0 x 0 := fun x => ⟨0, by omega, by simp; rfl⟩
    refine ⟨0, by omega, z _, 0, by omega, z _, 0, by omega, z _, 1, by omega, ⟨0, by omega, by simp; rfl⟩,
      0, by omega, z _, 0, by omega, z _, 2 ^ E.T - E.q, by omega, Or.inr ?_, 0, by omega, z _, Or.inl rfl, 1, by omega,
      Or.inl rfl, 0, by omega, z _, Or.inl rfl⟩
    rw [Nat.add_sub_cancel' h2.le]
    show _ % _ = _ % _
    simp
  refine ⟨key fq377 fq377_ok (by decide +kernel), key fq254 fq254_ok (by decide +kernel),
    by unfold Nat.ModEq; decide +kernel, by unfold Nat.ModEq; decide +kernel, ?_⟩
  have hr : ((r377 : ℕ) : ZMod fq377.q) ≠ 0 := by
    rw [ne_eq, ZMod.natCast_eq_zero_iff]; decide +kernel
  have hon : EdOn (-1) (((r377 : ℕ) : ZMod fq377.q) ^ 2) (1, ((y377 : ℕ) : ZMod fq377.q)) := by
    unfold EdOn
    rw [← r377_sq]
    have : ((y377 ^ 2 : ℕ) : ZMod fq377.q) = ((2 + d377 * y377 ^ 2 : ℕ) : ZMod fq377.q) := by
      rw [ZMod.natCast_eq_natCast_iff]; unfold Nat.ModEq; decide +kernel
    push_cast at this
    linear_combination this
  have := C75_panic_counterexample (p := Rescue.p_ed254) (E := fq377) hr hon one_ne_zero
    (by simp only; rw [ne_eq, ZMod.natCast_eq_zero_iff]; decide +kernel)
  rw [← r377_sq, ZMod.val_cast_of_lt (by decide +kernel)] at this
  exact ⟨_, _, by rw [r377_sq]; exact hon, this⟩

/-! ## Examples -/

/-- the points `(1, 4)`, `(2, 7)` and their sum on `-x² + y² = 1 + 3 x² y²` modulo 17 -/
theorem te17 : EdOn (-1) (3 : ZMod toy.q) (1, 4) ∧ EdOn (-1) (3 : ZMod toy.q) (2, 7) ∧
    edAdd (-1) (3 : ZMod toy.q) (1, 4) (2, 7) = (2, 10) := by
  unfold EdOn edAdd edZ
  decide +kernel

theorem te17_def : EdDef (3 : ZMod toy.q) (1, 4) (2, 7) :=
  (C75_defined (by decide) (by exact ⟨4, by decide⟩) (by rintro ⟨r, h⟩; revert r; decide) te17.1 te17.2.1).1

/-- The hypotheses of `C75_add_partial` are met for `(1, 4) + (2, 7) = (2, 10)`. -/
example : ∃ A B R, ∃ c c' : Circ 257, teAdd toy 3 A B c = .ok (R, c') ∧ checkSat c' [] = .ok () ∧
    StandsTe toy c' c'.val R (2, 10) := by
  have lt : ∀ n : ℕ, n < 64 → n < 2 ^ toy.T := fun n h => h
  obtain ⟨A, c1, m1, e1, s1, t1⟩ := hon_createTe (p := 257) (A := (1, 4)) toy_ok good_new (sat_new none)
    (lt _ (by decide)) (lt _ (by decide))
  have g1 := good_new.ext e1
  obtain ⟨B, c2, m2, e2, s2, t2⟩ := hon_createTe (A := (2, 7)) toy_ok g1 s1 (lt _ (by decide)) (lt _ (by decide))
  have g2 := g1.ext e2
  obtain ⟨R, c', h1, h2, h3⟩ := C75_add_partial toy_ok g2.wf g2.rg ((checkSat_ok g2.wf []).2 s2) (d := 3)
    (P := (1, 4)) (Q := (2, 7)) (t1.mono (Nxt.val e2)) t2 te17_def
    (by
      rw [te17.2.2]
      unfold TeFits AddFits edZ
      decide +kernel)
  rw [te17.2.2] at h3
  exact ⟨A, B, R, c2, c', h1, h2, h3⟩

/-- `C75_complete` and `C75_counterexample` apply to the same points. -/
example : PossibleTe 257 toy 3 (1, 4) (2, 7) (2, 10) ∧
    ∃ x y : ℕ, PossibleTe 257 toy 3 (1, 4) (2, 7) (x, y) ∧ ((x : ZMod 17), (y : ZMod 17)) ≠ (2, 10) := by
  have h1 := C75_complete (p := 257) toy_ok te17_def
  rw [te17.2.2] at h1
  obtain ⟨x, y, -, -, h2, h3⟩ := C75_counterexample (p := 257) toy_ok (by decide) (by decide) te17_def (by decide +kernel)
  rw [te17.2.2] at h3
  exact ⟨h1, x, y, h2, h3⟩

end Verif.Props.Emulated
