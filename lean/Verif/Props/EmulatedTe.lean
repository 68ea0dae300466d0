import Verif.Props.EmulatedChain

/-!
# The calls of the emulated twisted Edwards addition gate, in terms of integers
-/

set_option linter.unusedSectionVars false

namespace Verif.Props.Emulated

open Verif.Circuit Verif.Props.Circuit

variable {p : ℕ}

/-- the relation between three points that the calls of `emulated_te_ecc_add_gate` express, for any meaning `mul`,
`add` of multiplication and addition; all values are below `N` -/
def TeRel (N : ℕ) (mul add : ℕ → ℕ → ℕ → Prop) (d x0 y0 x1 y1 x2 y2 : ℕ) : Prop :=
  ∃ a, a < N ∧ mul x0 y1 a ∧
  ∃ b, b < N ∧ mul x1 y0 b ∧
  ∃ e, e < N ∧ mul x0 x1 e ∧
  ∃ f, f < N ∧ mul y0 y1 f ∧
  ∃ m, m < N ∧ mul e f m ∧
  ∃ k, k < N ∧ mul m d k ∧
  ∃ s, s < N ∧ add a b s ∧
  ∃ t, t < N ∧ mul k x2 t ∧
  add x2 t s ∧
  ∃ u, u < N ∧ add e f u ∧
  ∃ v, v < N ∧ mul k y2 v ∧
  add u v y2

theorem ext_teAddGate [Fact p.Prime] {E : Emu} (hE : E.OK p) {d : ℕ} (hd : d < E.q)
    {P Q R : TeVar} {c c' : Circ p} {r : Unit} (g0 : Good c)
    (h_x0 : IsVar E P.x c) (h_y0 : IsVar E P.y c) (h_x1 : IsVar E Q.x c) (h_y1 : IsVar E Q.y c) (h_x2 : IsVar E R.x
      c) (h_y2 : IsVar E R.y c)
    (hm : teAddGate E d P Q R c = .ok (r, c')) :
    Ext c c' := by
  unfold teAddGate at hm
  obtain ⟨v1, c1, m1, hm⟩ := bind_ok hm
  obtain ⟨v2, c2, m2, hm⟩ := bind_ok hm
  obtain ⟨v3, c3, m3, hm⟩ := bind_ok hm
  obtain ⟨v4, c4, m4, hm⟩ := bind_ok hm
  obtain ⟨v5, c5, m5, hm⟩ := bind_ok hm
  obtain ⟨v6, c6, m6, hm⟩ := bind_ok hm
  obtain ⟨v7, c7, m7, hm⟩ := bind_ok hm
  obtain ⟨v8, c8, m8, hm⟩ := bind_ok hm
  obtain ⟨v9, c9, m9, hm⟩ := bind_ok hm
  obtain ⟨v10, c10, m10, hm⟩ := bind_ok hm
  obtain ⟨v11, c11, m11, hm⟩ := bind_ok hm
  rename' hm => m12
  obtain ⟨e1, i1⟩ := ext_mul hE g0 (by iv) (by iv) m1
  have g1 := g0.ext e1
  obtain ⟨e2, i2⟩ := ext_mul hE g1 (by iv) (by iv) m2
  have g2 := g1.ext e2
  obtain ⟨e3, i3⟩ := ext_mul hE g2 (by iv) (by iv) m3
  have g3 := g2.ext e3
  obtain ⟨e4, i4⟩ := ext_mul hE g3 (by iv) (by iv) m4
  have g4 := g3.ext e4
  obtain ⟨e5, i5⟩ := ext_mul hE g4 (by iv) (by iv) m5
  have g5 := g4.ext e5
  obtain ⟨e6, i6⟩ := ext_mulc hE g5 (by iv) hd m6
  have g6 := g5.ext e6
  obtain ⟨e7, i7⟩ := ext_add hE g6 (by iv) (by iv) m7
  have g7 := g6.ext e7
  obtain ⟨e8, i8⟩ := ext_mul hE g7 (by iv) (by iv) m8
  have g8 := g7.ext e8
  have e9 := ext_addGate hE g8 (by iv) (by iv) (by iv) m9
  have g9 := g8.ext e9
  obtain ⟨e10, i10⟩ := ext_add hE g9 (by iv) (by iv) m10
  have g10 := g9.ext e10
  obtain ⟨e11, i11⟩ := ext_mul hE g10 (by iv) (by iv) m11
  have g11 := g10.ext e11
  have e12 := ext_addGate hE g11 (by iv) (by iv) (by iv) m12
  have g12 := g11.ext e12
  exact ((((((((((e1.trans e2).trans e3).trans e4).trans e5).trans e6).trans e7).trans e8).trans e9).trans
    e10).trans e11).trans e12

theorem snd_teAddGate [Fact p.Prime] {E : Emu} (hE : E.OK p) {d : ℕ} (hd : d < E.q)
    {P Q R : TeVar} {c c' : Circ p} {r : Unit} (g0 : Good c)
    {w : ℕ → ZMod p} {pi : List (ZMod p)} (hm : teAddGate E d P Q R c = .ok (r, c')) (hs : Sat c' pi w)
    {x0 y0 x1 y1 x2 y2 : ℕ}
    (h_x0 : EV E c w P.x x0) (h_y0 : EV E c w P.y y0) (h_x1 : EV E c w Q.x x1) (h_y1 : EV E c w Q.y y1) (h_x2 : EV
      E c w R.x x2) (h_y2 : EV E c w R.y y2) :
    TeRel (2 ^ E.T) (MulRel p E) (AddRel E) d x0 y0 x1 y1 x2 y2 := by
  unfold teAddGate at hm
  obtain ⟨v1, c1, m1, hm⟩ := bind_ok hm
  obtain ⟨v2, c2, m2, hm⟩ := bind_ok hm
  obtain ⟨v3, c3, m3, hm⟩ := bind_ok hm
  obtain ⟨v4, c4, m4, hm⟩ := bind_ok hm
  obtain ⟨v5, c5, m5, hm⟩ := bind_ok hm
  obtain ⟨v6, c6, m6, hm⟩ := bind_ok hm
  obtain ⟨v7, c7, m7, hm⟩ := bind_ok hm
  obtain ⟨v8, c8, m8, hm⟩ := bind_ok hm
  obtain ⟨v9, c9, m9, hm⟩ := bind_ok hm
  obtain ⟨v10, c10, m10, hm⟩ := bind_ok hm
  obtain ⟨v11, c11, m11, hm⟩ := bind_ok hm
  rename' hm => m12
  have hv_x0 := h_x0.var
  have hv_y0 := h_y0.var
  have hv_x1 := h_x1.var
  have hv_y1 := h_y1.var
  have hv_x2 := h_x2.var
  have hv_y2 := h_y2.var
  obtain ⟨e1, i1⟩ := ext_mul hE g0 (by iv) (by iv) m1
  have g1 := g0.ext e1
  obtain ⟨e2, i2⟩ := ext_mul hE g1 (by iv) (by iv) m2
  have g2 := g1.ext e2
  obtain ⟨e3, i3⟩ := ext_mul hE g2 (by iv) (by iv) m3
  have g3 := g2.ext e3
  obtain ⟨e4, i4⟩ := ext_mul hE g3 (by iv) (by iv) m4
  have g4 := g3.ext e4
  obtain ⟨e5, i5⟩ := ext_mul hE g4 (by iv) (by iv) m5
  have g5 := g4.ext e5
  obtain ⟨e6, i6⟩ := ext_mulc hE g5 (by iv) hd m6
  have g6 := g5.ext e6
  obtain ⟨e7, i7⟩ := ext_add hE g6 (by iv) (by iv) m7
  have g7 := g6.ext e7
  obtain ⟨e8, i8⟩ := ext_mul hE g7 (by iv) (by iv) m8
  have g8 := g7.ext e8
  have e9 := ext_addGate hE g8 (by iv) (by iv) (by iv) m9
  have g9 := g8.ext e9
  obtain ⟨e10, i10⟩ := ext_add hE g9 (by iv) (by iv) m10
  have g10 := g9.ext e10
  obtain ⟨e11, i11⟩ := ext_mul hE g10 (by iv) (by iv) m11
  have g11 := g10.ext e11
  have e12 := ext_addGate hE g11 (by iv) (by iv) (by iv) m12
  have g12 := g11.ext e12
  have s12 := hs
  have s11 := e12.sat _ _ s12
  have s10 := e11.sat _ _ s11
  have s9 := e10.sat _ _ s10
  have s8 := e9.sat _ _ s9
  have s7 := e8.sat _ _ s8
  have s6 := e7.sat _ _ s7
  have s5 := e6.sat _ _ s6
  have s4 := e5.sat _ _ s5
  have s3 := e4.sat _ _ s4
  have s2 := e3.sat _ _ s3
  have s1 := e2.sat _ _ s2
  have n1 := Nxt.same e1 w
  have n2 := Nxt.same e2 w
  have n3 := Nxt.same e3 w
  have n4 := Nxt.same e4 w
  have n5 := Nxt.same e5 w
  have n6 := Nxt.same e6 w
  have n7 := Nxt.same e7 w
  have n8 := Nxt.same e8 w
  have n9 := Nxt.same e9 w
  have n10 := Nxt.same e10 w
  have n11 := Nxt.same e11 w
  have n12 := Nxt.same e12 w
  obtain ⟨a, b1, t1, ef1⟩ := snd_mul hE g0 m1 s1
    (show EV E _ w _ x0 by ev) (show EV E _ w _ y1 by ev)
  obtain ⟨b, b2, t2, ef2⟩ := snd_mul hE g1 m2 s2
    (show EV E _ w _ x1 by ev) (show EV E _ w _ y0 by ev)
  obtain ⟨e, b3, t3, ef3⟩ := snd_mul hE g2 m3 s3
    (show EV E _ w _ x0 by ev) (show EV E _ w _ x1 by ev)
  obtain ⟨f, b4, t4, ef4⟩ := snd_mul hE g3 m4 s4
    (show EV E _ w _ y0 by ev) (show EV E _ w _ y1 by ev)
  obtain ⟨m, b5, t5, ef5⟩ := snd_mul hE g4 m5 s5
    (show EV E _ w _ e by ev) (show EV E _ w _ f by ev)
  obtain ⟨k, b6, t6, ef6⟩ := snd_mulc hE g5 hd m6 s6
    (show EV E _ w _ m by ev)
  obtain ⟨s, b7, t7, ef7⟩ := snd_add hE g6 m7 s7
    (show EV E _ w _ a by ev) (show EV E _ w _ b by ev)
  obtain ⟨t, b8, t8, ef8⟩ := snd_mul hE g7 m8 s8
    (show EV E _ w _ k by ev) (show EV E _ w _ x2 by ev)
  have t9 := snd_addGate hE g8 m9 s9
    (show EV E _ w _ x2 by ev) (show EV E _ w _ t by ev) (show EV E _ w _ s by ev)
  obtain ⟨u, b10, t10, ef10⟩ := snd_add hE g9 m10 s10
    (show EV E _ w _ e by ev) (show EV E _ w _ f by ev)
  obtain ⟨v, b11, t11, ef11⟩ := snd_mul hE g10 m11 s11
    (show EV E _ w _ k by ev) (show EV E _ w _ y2 by ev)
  have t12 := snd_addGate hE g11 m12 s12
    (show EV E _ w _ u by ev) (show EV E _ w _ v by ev) (show EV E _ w _ y2 by ev)
  exact ⟨a, b1, t1, b, b2, t2, e, b3, t3, f, b4, t4, m, b5, t5, k, b6, t6, s, b7, t7, t, b8, t8, t9, u, b10, t10,
    v, b11, t11, t12⟩

theorem rch_teAddGate [Fact p.Prime] {E : Emu} (hE : E.OK p) {d : ℕ} (hd : d < E.q)
    {P Q R : TeVar} {c c' : Circ p} {r : Unit} (g0 : Good c)
    {w0 : ℕ → ZMod p} {pi : List (ZMod p)} (hm : teAddGate E d P Q R c = .ok (r, c')) (s0 : Sat c pi w0)
    {x0 y0 x1 y1 x2 y2 : ℕ}
    (h_x0 : EV E c w0 P.x x0) (h_y0 : EV E c w0 P.y y0) (h_x1 : EV E c w0 Q.x x1) (h_y1 : EV E c w0 Q.y y1) (h_x2 :
      EV E c w0 R.x x2) (h_y2 : EV E c w0 R.y y2)
    (hr : TeRel (2 ^ E.T) (MulRel p E) (AddRel E) d x0 y0 x1 y1 x2 y2) :
    ∃ w', Nxt c w0 c' w' ∧ Sat c' pi w' := by
  unfold teAddGate at hm
  obtain ⟨v1, c1, m1, hm⟩ := bind_ok hm
  obtain ⟨v2, c2, m2, hm⟩ := bind_ok hm
  obtain ⟨v3, c3, m3, hm⟩ := bind_ok hm
  obtain ⟨v4, c4, m4, hm⟩ := bind_ok hm
  obtain ⟨v5, c5, m5, hm⟩ := bind_ok hm
  obtain ⟨v6, c6, m6, hm⟩ := bind_ok hm
  obtain ⟨v7, c7, m7, hm⟩ := bind_ok hm
  obtain ⟨v8, c8, m8, hm⟩ := bind_ok hm
  obtain ⟨v9, c9, m9, hm⟩ := bind_ok hm
  obtain ⟨v10, c10, m10, hm⟩ := bind_ok hm
  obtain ⟨v11, c11, m11, hm⟩ := bind_ok hm
  rename' hm => m12
  have hv_x0 := h_x0.var
  have hv_y0 := h_y0.var
  have hv_x1 := h_x1.var
  have hv_y1 := h_y1.var
  have hv_x2 := h_x2.var
  have hv_y2 := h_y2.var
  obtain ⟨e1, i1⟩ := ext_mul hE g0 (by iv) (by iv) m1
  have g1 := g0.ext e1
  obtain ⟨e2, i2⟩ := ext_mul hE g1 (by iv) (by iv) m2
  have g2 := g1.ext e2
  obtain ⟨e3, i3⟩ := ext_mul hE g2 (by iv) (by iv) m3
  have g3 := g2.ext e3
  obtain ⟨e4, i4⟩ := ext_mul hE g3 (by iv) (by iv) m4
  have g4 := g3.ext e4
  obtain ⟨e5, i5⟩ := ext_mul hE g4 (by iv) (by iv) m5
  have g5 := g4.ext e5
  obtain ⟨e6, i6⟩ := ext_mulc hE g5 (by iv) hd m6
  have g6 := g5.ext e6
  obtain ⟨e7, i7⟩ := ext_add hE g6 (by iv) (by iv) m7
  have g7 := g6.ext e7
  obtain ⟨e8, i8⟩ := ext_mul hE g7 (by iv) (by iv) m8
  have g8 := g7.ext e8
  have e9 := ext_addGate hE g8 (by iv) (by iv) (by iv) m9
  have g9 := g8.ext e9
  obtain ⟨e10, i10⟩ := ext_add hE g9 (by iv) (by iv) m10
  have g10 := g9.ext e10
  obtain ⟨e11, i11⟩ := ext_mul hE g10 (by iv) (by iv) m11
  have g11 := g10.ext e11
  have e12 := ext_addGate hE g11 (by iv) (by iv) (by iv) m12
  have g12 := g11.ext e12
  obtain ⟨a, b1, t1, b, b2, t2, e, b3, t3, f, b4, t4, m, b5, t5, k, b6, t6, s, b7, t7, t, b8, t8, t9, u, b10, t10,
    v, b11, t11, t12⟩ := hr
  obtain ⟨w1, n1, s1, ef1⟩ := rch_mul hE g0 m1 s0
    (show EV E _ w0 _ x0 by ev) (show EV E _ w0 _ y1 by ev) b1 t1
  obtain ⟨w2, n2, s2, ef2⟩ := rch_mul hE g1 m2 s1
    (show EV E _ w1 _ x1 by ev) (show EV E _ w1 _ y0 by ev) b2 t2
  obtain ⟨w3, n3, s3, ef3⟩ := rch_mul hE g2 m3 s2
    (show EV E _ w2 _ x0 by ev) (show EV E _ w2 _ x1 by ev) b3 t3
  obtain ⟨w4, n4, s4, ef4⟩ := rch_mul hE g3 m4 s3
    (show EV E _ w3 _ y0 by ev) (show EV E _ w3 _ y1 by ev) b4 t4
  obtain ⟨w5, n5, s5, ef5⟩ := rch_mul hE g4 m5 s4
    (show EV E _ w4 _ e by ev) (show EV E _ w4 _ f by ev) b5 t5
  obtain ⟨w6, n6, s6, ef6⟩ := rch_mulc hE g5 hd m6 s5
    (show EV E _ w5 _ m by ev) b6 t6
  obtain ⟨w7, n7, s7, ef7⟩ := rch_add hE g6 m7 s6
    (show EV E _ w6 _ a by ev) (show EV E _ w6 _ b by ev) b7 t7
  obtain ⟨w8, n8, s8, ef8⟩ := rch_mul hE g7 m8 s7
    (show EV E _ w7 _ k by ev) (show EV E _ w7 _ x2 by ev) b8 t8
  obtain ⟨w9, n9, s9⟩ := rch_addGate hE g8 m9 s8
    (show EV E _ w8 _ x2 by ev) (show EV E _ w8 _ t by ev) (show EV E _ w8 _ s by ev) t9
  obtain ⟨w10, n10, s10, ef10⟩ := rch_add hE g9 m10 s9
    (show EV E _ w9 _ e by ev) (show EV E _ w9 _ f by ev) b10 t10
  obtain ⟨w11, n11, s11, ef11⟩ := rch_mul hE g10 m11 s10
    (show EV E _ w10 _ k by ev) (show EV E _ w10 _ y2 by ev) b11 t11
  obtain ⟨w12, n12, s12⟩ := rch_addGate hE g11 m12 s11
    (show EV E _ w11 _ u by ev) (show EV E _ w11 _ v by ev) (show EV E _ w11 _ y2 by ev) t12
  exact ⟨w12, ((((((((((n1.trans n2).trans n3).trans n4).trans n5).trans n6).trans n7).trans n8).trans n9).trans
    n10).trans n11).trans n12, s12⟩


end Verif.Props.Emulated
