import Verif.Props.EmulatedChain

/-!
# The calls of the emulated short Weierstrass addition

What `emulated_sw_ecc_add_gate` expresses, call by call, and that the circuit forces and allows exactly that.
-/

set_option linter.unusedSectionVars false

namespace Verif.Props.Emulated

open Verif.Circuit Verif.Props.Circuit

variable {p : ℕ}

/-! ## The relations, for any meaning of multiplication and addition -/

/-- the bits of the gate: from the coordinates and infinity marks of the three points to `non_infinity_mark`,
`neq_x0_x1` and `doubling_coef` -/
def FlagRel (x0 y0 : ℕ) (i0 : ZMod p) (x1 y1 : ℕ) (i1 : ZMod p) (x2 y2 : ℕ) (i2 : ZMod p) (nim nex dc : ZMod p) :
    Prop :=
  ∃ e12 : ZMod p, e12 = (if x1 = x2 then 1 else 0) * (if y1 = y2 then 1 else 0) * (if i1 = i2 then 1 else 0) ∧
  ∃ e02 : ZMod p, e02 = (if x0 = x2 then 1 else 0) * (if y0 = y2 then 1 else 0) * (if i0 = i2 then 1 else 0) ∧
  i0 = e12 ∧
  i1 = e02 ∧
  ∃ im : ZMod p, im = i0 + i1 - i0 * i1 ∧
  nim = (if im = 0 then 1 else 0) ∧
  ∃ ni2 : ZMod p, ni2 = (if i2 = 0 then 1 else 0) ∧
  ∃ ex : ZMod p, ex = (if x0 = x1 then 1 else 0) ∧
  nex = (if ex = 0 then 1 else 0) ∧
  ∃ ey : ZMod p, ey = (if y0 = y1 then 1 else 0) ∧
  ∃ z0 : ZMod p, z0 = (if y0 = 0 then 1 else 0) ∧
  ∃ nz : ZMod p, nz = (if z0 = 0 then 1 else 0) ∧
  ∃ u1 : ZMod p, u1 = ey * nz ∧
  ∃ u2 : ZMod p, u2 = nex + u1 - nex * u1 ∧
  ∃ u3 : ZMod p, u3 = ni2 + u2 - ni2 * u2 ∧
  (im = 1 ∨ u3 = 1) ∧
  ∃ dm : ZMod p, dm = ex * ey ∧
  ∃ dn : ZMod p, dn = dm * nim ∧
  dc = dn * nz

/-- the doubling part; `d` is the coefficient, `k3` the constant 3; all values are below `N` -/
def DoubleRel (N : ℕ) (mul add : ℕ → ℕ → ℕ → Prop) (a k3 x0 y0 x1 x2 y2 d x012 x02 : ℕ) : Prop :=
  ∃ yy, yy < N ∧ add y0 y0 yy ∧
  ∃ xs, xs < N ∧ add x0 x1 xs ∧
  x012 < N ∧ add x2 xs x012 ∧
  ∃ lh1, lh1 < N ∧ mul x012 yy lh1 ∧
  ∃ lh2, lh2 < N ∧ mul lh1 yy lh2 ∧
  ∃ q1, q1 < N ∧ mul x0 x0 q1 ∧
  ∃ q2, q2 < N ∧ mul q1 k3 q2 ∧
  ∃ q3, q3 < N ∧ add q2 a q3 ∧
  ∃ rh1, rh1 < N ∧ mul q3 q3 rh1 ∧
  ∃ lh3, lh3 < N ∧ mul lh2 d lh3 ∧
  ∃ rh2, rh2 < N ∧ mul rh1 d rh2 ∧
  lh3 = rh2 ∧
  ∃ ys, ys < N ∧ add y2 y0 ys ∧
  ∃ lh4, lh4 < N ∧ mul ys yy lh4 ∧
  x02 < N ∧ add x02 x2 x0 ∧
  ∃ rh3, rh3 < N ∧ mul q3 x02 rh3 ∧
  ∃ lh5, lh5 < N ∧ mul lh4 d lh5 ∧
  ∃ rh4, rh4 < N ∧ mul rh3 d rh4 ∧
  lh5 = rh4

/-- the part for different points; `k` is the coefficient -/
def ChordRel (N : ℕ) (mul add : ℕ → ℕ → ℕ → Prop) (x0 y0 x1 y1 y2 x012 x02 k : ℕ) : Prop :=
  ∃ dx, dx < N ∧ add dx x1 x0 ∧
  ∃ lh1, lh1 < N ∧ mul dx dx lh1 ∧
  ∃ lh2, lh2 < N ∧ mul lh1 x012 lh2 ∧
  ∃ dy, dy < N ∧ add dy y1 y0 ∧
  ∃ rh1, rh1 < N ∧ mul dy dy rh1 ∧
  ∃ lh3, lh3 < N ∧ mul lh2 k lh3 ∧
  ∃ rh2, rh2 < N ∧ mul rh1 k rh2 ∧
  lh3 = rh2 ∧
  ∃ lh4, lh4 < N ∧ mul x02 dy lh4 ∧
  ∃ ys, ys < N ∧ add y0 y2 ys ∧
  ∃ rh3, rh3 < N ∧ mul ys dx rh3 ∧
  ∃ lh5, lh5 < N ∧ mul lh4 k lh5 ∧
  ∃ rh4, rh4 < N ∧ mul rh3 k rh4 ∧
  lh5 = rh4

/-! ## Equality of points -/

section
variable [Fact p.Prime] {E : Emu} {P Q : SwVar} {c c' : Circ p} {v : ℕ} {w : ℕ → ZMod p} {pi : List (ZMod p)}
  {x0 y0 x1 y1 : ℕ} {i0 i1 : ZMod p}

theorem ext_pteq (hE : E.OK p) (g0 : Good c) (h_x0 : IsVar E P.x c) (h_y0 : IsVar E P.y c) (h_x1 : IsVar E Q.x c)
    (h_y1 : IsVar E Q.y c) (hm : isSwEqual P Q c = .ok (v, c')) : Ext c c' ∧ v < c'.numVars := by
  unfold isSwEqual at hm
  obtain ⟨v1, c1, m1, hm⟩ := bind_ok hm
  obtain ⟨v2, c2, m2, hm⟩ := bind_ok hm
  obtain ⟨v3, c3, m3, hm⟩ := bind_ok hm
  obtain ⟨v4, c4, m4, m5⟩ := bind_ok hm
  obtain ⟨e1, -⟩ := ext_beeq hE g0 (by iv) (by iv) m1
  have g1 := g0.ext e1
  obtain ⟨e2, -⟩ := ext_beeq hE g1 (by iv) (by iv) m2
  have g2 := g1.ext e2
  obtain ⟨e3, -⟩ := ext_beq g2 m3
  have g3 := g2.ext e3
  obtain ⟨e4, -⟩ := ext_bmul g3 m4
  have g4 := g3.ext e4
  obtain ⟨e5, h5⟩ := ext_bmul g4 m5
  exact ⟨(((e1.trans e2).trans e3).trans e4).trans e5, h5⟩

theorem snd_pteq (hE : E.OK p) (g0 : Good c) (hm : isSwEqual P Q c = .ok (v, c')) (hs : Sat c' pi w)
    (h_x0 : EV E c w P.x x0) (h_y0 : EV E c w P.y y0) (h_i0 : BV c w P.inf i0) (h_x1 : EV E c w Q.x x1)
    (h_y1 : EV E c w Q.y y1) (h_i1 : BV c w Q.inf i1) :
    BV c' w v ((if x0 = x1 then 1 else 0) * (if y0 = y1 then 1 else 0) * (if i0 = i1 then 1 else 0)) := by
  unfold isSwEqual at hm
  obtain ⟨v1, c1, m1, hm⟩ := bind_ok hm
  obtain ⟨v2, c2, m2, hm⟩ := bind_ok hm
  obtain ⟨v3, c3, m3, hm⟩ := bind_ok hm
  obtain ⟨v4, c4, m4, m5⟩ := bind_ok hm
  obtain ⟨e1, -⟩ := ext_beeq hE g0 h_x0.var h_x1.var m1
  have g1 := g0.ext e1
  obtain ⟨e2, -⟩ := ext_beeq hE g1 (h_y0.var.up e1) (h_y1.var.up e1) m2
  have g2 := g1.ext e2
  obtain ⟨e3, -⟩ := ext_beq g2 m3
  have g3 := g2.ext e3
  obtain ⟨e4, -⟩ := ext_bmul g3 m4
  have g4 := g3.ext e4
  obtain ⟨e5, h5⟩ := ext_bmul g4 m5
  have s4 := e5.sat _ _ hs
  have s3 := e4.sat _ _ s4
  have s2 := e3.sat _ _ s3
  have s1 := e2.sat _ _ s2
  have n1 := Nxt.same e1 w
  have n2 := Nxt.same e2 w
  have n3 := Nxt.same e3 w
  have n4 := Nxt.same e4 w
  have f1 := snd_beeq hE g0 m1 s1 h_x0 h_x1
  have f2 := snd_beeq hE g1 m2 s2 (h_y0.mono n1) (h_y1.mono n1)
  have f3 := snd_beq g2 m3 s3 (show BV _ w _ i0 by bv) (show BV _ w _ i1 by bv)
  have f4 := snd_bmul g3 m4 s4 ((f1.mono n2).mono n3) (f2.mono n3)
  exact snd_bmul g4 m5 hs f4 (f3.mono n4)

theorem rch_pteq (hE : E.OK p) (g0 : Good c) (hm : isSwEqual P Q c = .ok (v, c')) (s0 : Sat c pi w)
    (h_x0 : EV E c w P.x x0) (h_y0 : EV E c w P.y y0) (h_i0 : BV c w P.inf i0) (h_x1 : EV E c w Q.x x1)
    (h_y1 : EV E c w Q.y y1) (h_i1 : BV c w Q.inf i1) :
    ∃ w', Nxt c w c' w' ∧ Sat c' pi w' ∧
      BV c' w' v ((if x0 = x1 then 1 else 0) * (if y0 = y1 then 1 else 0) * (if i0 = i1 then 1 else 0)) := by
  have hm' := hm
  unfold isSwEqual at hm
  obtain ⟨v1, c1, m1, hm⟩ := bind_ok hm
  obtain ⟨v2, c2, m2, hm⟩ := bind_ok hm
  obtain ⟨v3, c3, m3, hm⟩ := bind_ok hm
  obtain ⟨v4, c4, m4, m5⟩ := bind_ok hm
  obtain ⟨w1, n1, s1, f1⟩ := rch_beeq hE g0 m1 s0 h_x0 h_x1
  have g1 := g0.ext n1.ext
  obtain ⟨w2, n2, s2, f2⟩ := rch_beeq hE g1 m2 s1 (h_y0.mono n1) (h_y1.mono n1)
  have g2 := g1.ext n2.ext
  obtain ⟨w3, n3, s3, f3⟩ := rch_beq g2 m3 s2 ((h_i0.mono n1).mono n2) ((h_i1.mono n1).mono n2)
  have g3 := g2.ext n3.ext
  obtain ⟨w4, n4, s4, f4⟩ := rch_bmul g3 m4 s3 ((f1.mono n2).mono n3) (f2.mono n3)
  have g4 := g3.ext n4.ext
  obtain ⟨w5, n5, s5, f5⟩ := rch_bmul g4 m5 s4 f4 (f3.mono n4)
  exact ⟨w5, (((n1.trans n2).trans n3).trans n4).trans n5, s5, f5⟩

end

/-! ## The three parts -/

theorem ext_swFlags [Fact p.Prime] {E : Emu} (hE : E.OK p) {P Q R : SwVar} {c c' : Circ p} {r : ℕ × ℕ × ℕ} (g0 : Good c)
    (h_x0 : IsVar E P.x c) (h_y0 : IsVar E P.y c) (h_x1 : IsVar E Q.x c) (h_y1 : IsVar E Q.y c) (h_x2 : IsVar E R.x
      c) (h_y2 : IsVar E R.y c)
    (hm : swFlags P Q R c = .ok (r, c')) :
    Ext c c' ∧ r.1 < c'.numVars ∧ r.2.1 < c'.numVars ∧ r.2.2 < c'.numVars := by
  unfold swFlags at hm
  obtain ⟨v1, c1, m1, hm⟩ := bind_ok hm
  obtain ⟨v2, c2, m2, hm⟩ := bind_ok hm
  obtain ⟨v3, c3, m3, hm⟩ := bind_ok hm
  obtain ⟨v4, c4, m4, hm⟩ := bind_ok hm
  obtain ⟨v5, c5, m5, hm⟩ := bind_ok hm
  obtain ⟨v6, c6, m6, hm⟩ := bind_ok hm
  obtain ⟨v7, c7, m7, hm⟩ := bind_ok hm
  obtain ⟨v8, c8, m8, hm⟩ := bind_ok hm
  obtain ⟨v9, c9, m9, hm⟩ := bind_ok hm
  obtain ⟨v10, c10, m10, hm⟩ := bind_ok hm
  obtain ⟨v11, c11, m11, hm⟩ := bind_ok hm
  obtain ⟨v12, c12, m12, hm⟩ := bind_ok hm
  obtain ⟨v13, c13, m13, hm⟩ := bind_ok hm
  obtain ⟨v14, c14, m14, hm⟩ := bind_ok hm
  obtain ⟨v15, c15, m15, hm⟩ := bind_ok hm
  obtain ⟨v16, c16, m16, hm⟩ := bind_ok hm
  obtain ⟨v17, c17, m17, hm⟩ := bind_ok hm
  obtain ⟨v18, c18, m18, hm⟩ := bind_ok hm
  obtain ⟨v19, c19, m19, hm⟩ := bind_ok hm
  obtain ⟨e1, hi1⟩ := ext_pteq hE g0 (by iv) (by iv) (by iv) (by iv) m1
  have g1 := g0.ext e1
  obtain ⟨e2, hi2⟩ := ext_pteq hE g1 (by iv) (by iv) (by iv) (by iv) m2
  have g2 := g1.ext e2
  have e3 := ext_genf g2 m3
  have g3 := g2.ext e3
  have e4 := ext_genf g3 m4
  have g4 := g3.ext e4
  obtain ⟨e5, hi5⟩ := ext_bor g4 m5
  have g5 := g4.ext e5
  obtain ⟨e6, hi6⟩ := ext_bneg g5 m6
  have g6 := g5.ext e6
  obtain ⟨e7, hi7⟩ := ext_bneg g6 m7
  have g7 := g6.ext e7
  obtain ⟨e8, hi8⟩ := ext_beeq hE g7 (by iv) (by iv) m8
  have g8 := g7.ext e8
  obtain ⟨e9, hi9⟩ := ext_bneg g8 m9
  have g9 := g8.ext e9
  obtain ⟨e10, hi10⟩ := ext_beeq hE g9 (by iv) (by iv) m10
  have g10 := g9.ext e10
  obtain ⟨e11, hi11⟩ := ext_bzero g10 m11
  have g11 := g10.ext e11
  obtain ⟨e12, hi12⟩ := ext_bneg g11 m12
  have g12 := g11.ext e12
  obtain ⟨e13, hi13⟩ := ext_band g12 m13
  have g13 := g12.ext e13
  obtain ⟨e14, hi14⟩ := ext_bor g13 m14
  have g14 := g13.ext e14
  obtain ⟨e15, hi15⟩ := ext_bor g14 m15
  have g15 := g14.ext e15
  have e16 := ext_gor g15 m16
  have g16 := g15.ext e16
  obtain ⟨e17, hi17⟩ := ext_bmul g16 m17
  have g17 := g16.ext e17
  obtain ⟨e18, hi18⟩ := ext_bmul g17 m18
  have g18 := g17.ext e18
  obtain ⟨e19, hi19⟩ := ext_bmul g18 m19
  have g19 := g18.ext e19
  cases hm
  have ec : Ext c6 c' := ((((((((((((e7.trans e8).trans e9).trans e10).trans e11).trans e12).trans e13).trans
    e14).trans e15).trans e16).trans e17).trans e18).trans e19)
  have ed : Ext c9 c' := (((((((((e10.trans e11).trans e12).trans e13).trans e14).trans e15).trans e16).trans
    e17).trans e18).trans e19)
  exact ⟨(((((((((((((((((e1.trans e2).trans e3).trans e4).trans e5).trans e6).trans e7).trans e8).trans e9).trans
    e10).trans e11).trans e12).trans e13).trans e14).trans e15).trans e16).trans e17).trans e18).trans e19, ec.lt
    hi6, ed.lt hi9, hi19⟩

theorem snd_swFlags [Fact p.Prime] {E : Emu} (hE : E.OK p) {P Q R : SwVar} {c c' : Circ p} {r : ℕ × ℕ × ℕ} (g0 : Good c)
    {w : ℕ → ZMod p} {pi : List (ZMod p)} (hm : swFlags P Q R c = .ok (r, c')) (hs : Sat c' pi w)
    {x0 y0 x1 y1 x2 y2 : ℕ} {i0 i1 i2 : ZMod p}
    (h_x0 : EV E c w P.x x0) (h_y0 : EV E c w P.y y0) (h_i0 : BV c w P.inf i0) (h_x1 : EV E c w Q.x x1) (h_y1 : EV
      E c w Q.y y1) (h_i1 : BV c w Q.inf i1) (h_x2 : EV E c w R.x x2) (h_y2 : EV E c w R.y y2) (h_i2 : BV c w R.inf
      i2) :
    ∃ nim nex dc, BV c' w r.1 nim ∧ BV c' w r.2.1 nex ∧ BV c' w r.2.2 dc ∧
      FlagRel x0 y0 i0 x1 y1 i1 x2 y2 i2 nim nex dc := by
  unfold swFlags at hm
  obtain ⟨v1, c1, m1, hm⟩ := bind_ok hm
  obtain ⟨v2, c2, m2, hm⟩ := bind_ok hm
  obtain ⟨v3, c3, m3, hm⟩ := bind_ok hm
  obtain ⟨v4, c4, m4, hm⟩ := bind_ok hm
  obtain ⟨v5, c5, m5, hm⟩ := bind_ok hm
  obtain ⟨v6, c6, m6, hm⟩ := bind_ok hm
  obtain ⟨v7, c7, m7, hm⟩ := bind_ok hm
  obtain ⟨v8, c8, m8, hm⟩ := bind_ok hm
  obtain ⟨v9, c9, m9, hm⟩ := bind_ok hm
  obtain ⟨v10, c10, m10, hm⟩ := bind_ok hm
  obtain ⟨v11, c11, m11, hm⟩ := bind_ok hm
  obtain ⟨v12, c12, m12, hm⟩ := bind_ok hm
  obtain ⟨v13, c13, m13, hm⟩ := bind_ok hm
  obtain ⟨v14, c14, m14, hm⟩ := bind_ok hm
  obtain ⟨v15, c15, m15, hm⟩ := bind_ok hm
  obtain ⟨v16, c16, m16, hm⟩ := bind_ok hm
  obtain ⟨v17, c17, m17, hm⟩ := bind_ok hm
  obtain ⟨v18, c18, m18, hm⟩ := bind_ok hm
  obtain ⟨v19, c19, m19, hm⟩ := bind_ok hm
  have hv_x0 := h_x0.var
  have hv_y0 := h_y0.var
  have hv_x1 := h_x1.var
  have hv_y1 := h_y1.var
  have hv_x2 := h_x2.var
  have hv_y2 := h_y2.var
  obtain ⟨e1, hi1⟩ := ext_pteq hE g0 (by iv) (by iv) (by iv) (by iv) m1
  have g1 := g0.ext e1
  obtain ⟨e2, hi2⟩ := ext_pteq hE g1 (by iv) (by iv) (by iv) (by iv) m2
  have g2 := g1.ext e2
  have e3 := ext_genf g2 m3
  have g3 := g2.ext e3
  have e4 := ext_genf g3 m4
  have g4 := g3.ext e4
  obtain ⟨e5, hi5⟩ := ext_bor g4 m5
  have g5 := g4.ext e5
  obtain ⟨e6, hi6⟩ := ext_bneg g5 m6
  have g6 := g5.ext e6
  obtain ⟨e7, hi7⟩ := ext_bneg g6 m7
  have g7 := g6.ext e7
  obtain ⟨e8, hi8⟩ := ext_beeq hE g7 (by iv) (by iv) m8
  have g8 := g7.ext e8
  obtain ⟨e9, hi9⟩ := ext_bneg g8 m9
  have g9 := g8.ext e9
  obtain ⟨e10, hi10⟩ := ext_beeq hE g9 (by iv) (by iv) m10
  have g10 := g9.ext e10
  obtain ⟨e11, hi11⟩ := ext_bzero g10 m11
  have g11 := g10.ext e11
  obtain ⟨e12, hi12⟩ := ext_bneg g11 m12
  have g12 := g11.ext e12
  obtain ⟨e13, hi13⟩ := ext_band g12 m13
  have g13 := g12.ext e13
  obtain ⟨e14, hi14⟩ := ext_bor g13 m14
  have g14 := g13.ext e14
  obtain ⟨e15, hi15⟩ := ext_bor g14 m15
  have g15 := g14.ext e15
  have e16 := ext_gor g15 m16
  have g16 := g15.ext e16
  obtain ⟨e17, hi17⟩ := ext_bmul g16 m17
  have g17 := g16.ext e17
  obtain ⟨e18, hi18⟩ := ext_bmul g17 m18
  have g18 := g17.ext e18
  obtain ⟨e19, hi19⟩ := ext_bmul g18 m19
  have g19 := g18.ext e19
  cases hm
  have s19 := hs
  have s18 := e19.sat _ _ s19
  have s17 := e18.sat _ _ s18
  have s16 := e17.sat _ _ s17
  have s15 := e16.sat _ _ s16
  have s14 := e15.sat _ _ s15
  have s13 := e14.sat _ _ s14
  have s12 := e13.sat _ _ s13
  have s11 := e12.sat _ _ s12
  have s10 := e11.sat _ _ s11
  have s9 := e10.sat _ _ s10
  have s8 := e9.sat _ _ s9
  have s7 := e8.sat _ _ s8
  have s6 := e7.sat _ _ s7
  have s5 := e6.sat _ _ s6
  have s4 := e5.sat _ _ s5
  have s3 := e4.sat _ _ s4
  have s2 := e3.sat _ _ s3
  have s1 := e2.sat _ _ s2
  have n1 := Nxt.same e1 w
  have n2 := Nxt.same e2 w
  have n3 := Nxt.same e3 w
  have n4 := Nxt.same e4 w
  have n5 := Nxt.same e5 w
  have n6 := Nxt.same e6 w
  have n7 := Nxt.same e7 w
  have n8 := Nxt.same e8 w
  have n9 := Nxt.same e9 w
  have n10 := Nxt.same e10 w
  have n11 := Nxt.same e11 w
  have n12 := Nxt.same e12 w
  have n13 := Nxt.same e13 w
  have n14 := Nxt.same e14 w
  have n15 := Nxt.same e15 w
  have n16 := Nxt.same e16 w
  have n17 := Nxt.same e17 w
  have n18 := Nxt.same e18 w
  have n19 := Nxt.same e19 w
  obtain ⟨e12, t1, ef1⟩ : ∃ z, z = _ ∧ BV c1 w v1 z := ⟨_, rfl, snd_pteq hE g0 m1 s1
    (show EV E _ w _ x1 by ev) (show EV E _ w _ y1 by ev) (show BV _ w _ i1 by bv)
    (show EV E _ w _ x2 by ev) (show EV E _ w _ y2 by ev) (show BV _ w _ i2 by bv)⟩
  obtain ⟨e02, t2, ef2⟩ : ∃ z, z = _ ∧ BV c2 w v2 z := ⟨_, rfl, snd_pteq hE g1 m2 s2
    (show EV E _ w _ x0 by ev) (show EV E _ w _ y0 by ev) (show BV _ w _ i0 by bv)
    (show EV E _ w _ x2 by ev) (show EV E _ w _ y2 by ev) (show BV _ w _ i2 by bv)⟩
  have t3 := snd_genf g2 m3 s3
    (show BV _ w _ i0 by bv) (show BV _ w _ e12 by bv)
  have t4 := snd_genf g3 m4 s4
    (show BV _ w _ i1 by bv) (show BV _ w _ e02 by bv)
  obtain ⟨im, t5, ef5⟩ : ∃ z, z = _ ∧ BV c5 w v5 z := ⟨_, rfl, snd_bor g4 m5 s5
    (show BV _ w _ i0 by bv) (show BV _ w _ i1 by bv)⟩
  obtain ⟨nim, t6, ef6⟩ : ∃ z, z = _ ∧ BV c6 w v6 z := ⟨_, rfl, snd_bneg g5 m6 s6
    (show BV _ w _ im by bv)⟩
  obtain ⟨ni2, t7, ef7⟩ : ∃ z, z = _ ∧ BV c7 w v7 z := ⟨_, rfl, snd_bneg g6 m7 s7
    (show BV _ w _ i2 by bv)⟩
  obtain ⟨ex, t8, ef8⟩ : ∃ z, z = _ ∧ BV c8 w v8 z := ⟨_, rfl, snd_beeq hE g7 m8 s8
    (show EV E _ w _ x0 by ev) (show EV E _ w _ x1 by ev)⟩
  obtain ⟨nex, t9, ef9⟩ : ∃ z, z = _ ∧ BV c9 w v9 z := ⟨_, rfl, snd_bneg g8 m9 s9
    (show BV _ w _ ex by bv)⟩
  obtain ⟨ey, t10, ef10⟩ : ∃ z, z = _ ∧ BV c10 w v10 z := ⟨_, rfl, snd_beeq hE g9 m10 s10
    (show EV E _ w _ y0 by ev) (show EV E _ w _ y1 by ev)⟩
  obtain ⟨z0, t11, ef11⟩ : ∃ z, z = _ ∧ BV c11 w v11 z := ⟨_, rfl, snd_bzero hE g10 m11 s11
    (show EV E _ w _ y0 by ev)⟩
  obtain ⟨nz, t12, ef12⟩ : ∃ z, z = _ ∧ BV c12 w v12 z := ⟨_, rfl, snd_bneg g11 m12 s12
    (show BV _ w _ z0 by bv)⟩
  obtain ⟨u1, t13, ef13⟩ : ∃ z, z = _ ∧ BV c13 w v13 z := ⟨_, rfl, snd_band g12 m13 s13
    (show BV _ w _ ey by bv) (show BV _ w _ nz by bv)⟩
  obtain ⟨u2, t14, ef14⟩ : ∃ z, z = _ ∧ BV c14 w v14 z := ⟨_, rfl, snd_bor g13 m14 s14
    (show BV _ w _ nex by bv) (show BV _ w _ u1 by bv)⟩
  obtain ⟨u3, t15, ef15⟩ : ∃ z, z = _ ∧ BV c15 w v15 z := ⟨_, rfl, snd_bor g14 m15 s15
    (show BV _ w _ ni2 by bv) (show BV _ w _ u2 by bv)⟩
  have t16 := snd_gor g15 m16 s16
    (show BV _ w _ im by bv) (show BV _ w _ u3 by bv)
  obtain ⟨dm, t17, ef17⟩ : ∃ z, z = _ ∧ BV c17 w v17 z := ⟨_, rfl, snd_bmul g16 m17 s17
    (show BV _ w _ ex by bv) (show BV _ w _ ey by bv)⟩
  obtain ⟨dn, t18, ef18⟩ : ∃ z, z = _ ∧ BV c18 w v18 z := ⟨_, rfl, snd_bmul g17 m18 s18
    (show BV _ w _ dm by bv) (show BV _ w _ nim by bv)⟩
  obtain ⟨dc, t19, ef19⟩ : ∃ z, z = _ ∧ BV c' w v19 z := ⟨_, rfl, snd_bmul g18 m19 s19
    (show BV _ w _ dn by bv) (show BV _ w _ nz by bv)⟩
  exact ⟨nim, nex, dc, by bv, by bv, by bv, e12, t1, e02, t2, t3, t4, im, t5, t6, ni2, t7, ex, t8, t9, ey, t10, z0,
    t11, nz, t12, u1, t13, u2, t14, u3, t15, t16, dm, t17, dn, t18, t19⟩

theorem rch_swFlags [Fact p.Prime] {E : Emu} (hE : E.OK p) {P Q R : SwVar} {c c' : Circ p} {r : ℕ × ℕ × ℕ} (g0 : Good c)
    {w0 : ℕ → ZMod p} {pi : List (ZMod p)} (hm : swFlags P Q R c = .ok (r, c')) (s0 : Sat c pi w0)
    {x0 y0 x1 y1 x2 y2 : ℕ} {i0 i1 i2 : ZMod p} {nim nex dc : ZMod p}
    (h_x0 : EV E c w0 P.x x0) (h_y0 : EV E c w0 P.y y0) (h_i0 : BV c w0 P.inf i0) (h_x1 : EV E c w0 Q.x x1) (h_y1 :
      EV E c w0 Q.y y1) (h_i1 : BV c w0 Q.inf i1) (h_x2 : EV E c w0 R.x x2) (h_y2 : EV E c w0 R.y y2) (h_i2 : BV c
      w0 R.inf i2)
    (hr : FlagRel x0 y0 i0 x1 y1 i1 x2 y2 i2 nim nex dc) :
    ∃ w', Nxt c w0 c' w' ∧ Sat c' pi w' ∧ BV c' w' r.1 nim ∧ BV c' w' r.2.1 nex ∧ BV c' w' r.2.2 dc := by
  unfold swFlags at hm
  obtain ⟨v1, c1, m1, hm⟩ := bind_ok hm
  obtain ⟨v2, c2, m2, hm⟩ := bind_ok hm
  obtain ⟨v3, c3, m3, hm⟩ := bind_ok hm
  obtain ⟨v4, c4, m4, hm⟩ := bind_ok hm
  obtain ⟨v5, c5, m5, hm⟩ := bind_ok hm
  obtain ⟨v6, c6, m6, hm⟩ := bind_ok hm
  obtain ⟨v7, c7, m7, hm⟩ := bind_ok hm
  obtain ⟨v8, c8, m8, hm⟩ := bind_ok hm
  obtain ⟨v9, c9, m9, hm⟩ := bind_ok hm
  obtain ⟨v10, c10, m10, hm⟩ := bind_ok hm
  obtain ⟨v11, c11, m11, hm⟩ := bind_ok hm
  obtain ⟨v12, c12, m12, hm⟩ := bind_ok hm
  obtain ⟨v13, c13, m13, hm⟩ := bind_ok hm
  obtain ⟨v14, c14, m14, hm⟩ := bind_ok hm
  obtain ⟨v15, c15, m15, hm⟩ := bind_ok hm
  obtain ⟨v16, c16, m16, hm⟩ := bind_ok hm
  obtain ⟨v17, c17, m17, hm⟩ := bind_ok hm
  obtain ⟨v18, c18, m18, hm⟩ := bind_ok hm
  obtain ⟨v19, c19, m19, hm⟩ := bind_ok hm
  have hv_x0 := h_x0.var
  have hv_y0 := h_y0.var
  have hv_x1 := h_x1.var
  have hv_y1 := h_y1.var
  have hv_x2 := h_x2.var
  have hv_y2 := h_y2.var
  obtain ⟨e1, hi1⟩ := ext_pteq hE g0 (by iv) (by iv) (by iv) (by iv) m1
  have g1 := g0.ext e1
  obtain ⟨e2, hi2⟩ := ext_pteq hE g1 (by iv) (by iv) (by iv) (by iv) m2
  have g2 := g1.ext e2
  have e3 := ext_genf g2 m3
  have g3 := g2.ext e3
  have e4 := ext_genf g3 m4
  have g4 := g3.ext e4
  obtain ⟨e5, hi5⟩ := ext_bor g4 m5
  have g5 := g4.ext e5
  obtain ⟨e6, hi6⟩ := ext_bneg g5 m6
  have g6 := g5.ext e6
  obtain ⟨e7, hi7⟩ := ext_bneg g6 m7
  have g7 := g6.ext e7
  obtain ⟨e8, hi8⟩ := ext_beeq hE g7 (by iv) (by iv) m8
  have g8 := g7.ext e8
  obtain ⟨e9, hi9⟩ := ext_bneg g8 m9
  have g9 := g8.ext e9
  obtain ⟨e10, hi10⟩ := ext_beeq hE g9 (by iv) (by iv) m10
  have g10 := g9.ext e10
  obtain ⟨e11, hi11⟩ := ext_bzero g10 m11
  have g11 := g10.ext e11
  obtain ⟨e12, hi12⟩ := ext_bneg g11 m12
  have g12 := g11.ext e12
  obtain ⟨e13, hi13⟩ := ext_band g12 m13
  have g13 := g12.ext e13
  obtain ⟨e14, hi14⟩ := ext_bor g13 m14
  have g14 := g13.ext e14
  obtain ⟨e15, hi15⟩ := ext_bor g14 m15
  have g15 := g14.ext e15
  have e16 := ext_gor g15 m16
  have g16 := g15.ext e16
  obtain ⟨e17, hi17⟩ := ext_bmul g16 m17
  have g17 := g16.ext e17
  obtain ⟨e18, hi18⟩ := ext_bmul g17 m18
  have g18 := g17.ext e18
  obtain ⟨e19, hi19⟩ := ext_bmul g18 m19
  have g19 := g18.ext e19
  cases hm
  obtain ⟨e12, t1, e02, t2, t3, t4, im, t5, t6, ni2, t7, ex, t8, t9, ey, t10, z0, t11, nz, t12, u1, t13, u2, t14,
    u3, t15, t16, dm, t17, dn, t18, t19⟩ := hr
  obtain ⟨w1, n1, s1, ef1⟩ := rch_pteq hE g0 m1 s0
    (show EV E _ w0 _ x1 by ev) (show EV E _ w0 _ y1 by ev) (show BV _ w0 _ i1 by bv)
    (show EV E _ w0 _ x2 by ev) (show EV E _ w0 _ y2 by ev) (show BV _ w0 _ i2 by bv)
  rw [← t1] at ef1
  obtain ⟨w2, n2, s2, ef2⟩ := rch_pteq hE g1 m2 s1
    (show EV E _ w1 _ x0 by ev) (show EV E _ w1 _ y0 by ev) (show BV _ w1 _ i0 by bv)
    (show EV E _ w1 _ x2 by ev) (show EV E _ w1 _ y2 by ev) (show BV _ w1 _ i2 by bv)
  rw [← t2] at ef2
  obtain ⟨w3, n3, s3⟩ := rch_genf g2 m3 s2
    (show BV _ w2 _ i0 by bv) (show BV _ w2 _ e12 by bv) t3
  obtain ⟨w4, n4, s4⟩ := rch_genf g3 m4 s3
    (show BV _ w3 _ i1 by bv) (show BV _ w3 _ e02 by bv) t4
  obtain ⟨w5, n5, s5, ef5⟩ := rch_bor g4 m5 s4
    (show BV _ w4 _ i0 by bv) (show BV _ w4 _ i1 by bv)
  rw [← t5] at ef5
  obtain ⟨w6, n6, s6, ef6⟩ := rch_bneg g5 m6 s5
    (show BV _ w5 _ im by bv)
  rw [← t6] at ef6
  obtain ⟨w7, n7, s7, ef7⟩ := rch_bneg g6 m7 s6
    (show BV _ w6 _ i2 by bv)
  rw [← t7] at ef7
  obtain ⟨w8, n8, s8, ef8⟩ := rch_beeq hE g7 m8 s7
    (show EV E _ w7 _ x0 by ev) (show EV E _ w7 _ x1 by ev)
  rw [← t8] at ef8
  obtain ⟨w9, n9, s9, ef9⟩ := rch_bneg g8 m9 s8
    (show BV _ w8 _ ex by bv)
  rw [← t9] at ef9
  obtain ⟨w10, n10, s10, ef10⟩ := rch_beeq hE g9 m10 s9
    (show EV E _ w9 _ y0 by ev) (show EV E _ w9 _ y1 by ev)
  rw [← t10] at ef10
  obtain ⟨w11, n11, s11, ef11⟩ := rch_bzero hE g10 m11 s10
    (show EV E _ w10 _ y0 by ev)
  rw [← t11] at ef11
  obtain ⟨w12, n12, s12, ef12⟩ := rch_bneg g11 m12 s11
    (show BV _ w11 _ z0 by bv)
  rw [← t12] at ef12
  obtain ⟨w13, n13, s13, ef13⟩ := rch_band g12 m13 s12
    (show BV _ w12 _ ey by bv) (show BV _ w12 _ nz by bv)
  rw [← t13] at ef13
  obtain ⟨w14, n14, s14, ef14⟩ := rch_bor g13 m14 s13
    (show BV _ w13 _ nex by bv) (show BV _ w13 _ u1 by bv)
  rw [← t14] at ef14
  obtain ⟨w15, n15, s15, ef15⟩ := rch_bor g14 m15 s14
    (show BV _ w14 _ ni2 by bv) (show BV _ w14 _ u2 by bv)
  rw [← t15] at ef15
  obtain ⟨w16, n16, s16⟩ := rch_gor g15 m16 s15
    (show BV _ w15 _ im by bv) (show BV _ w15 _ u3 by bv) t16
  obtain ⟨w17, n17, s17, ef17⟩ := rch_bmul g16 m17 s16
    (show BV _ w16 _ ex by bv) (show BV _ w16 _ ey by bv)
  rw [← t17] at ef17
  obtain ⟨w18, n18, s18, ef18⟩ := rch_bmul g17 m18 s17
    (show BV _ w17 _ dm by bv) (show BV _ w17 _ nim by bv)
  rw [← t18] at ef18
  obtain ⟨w19, n19, s19, ef19⟩ := rch_bmul g18 m19 s18
    (show BV _ w18 _ dn by bv) (show BV _ w18 _ nz by bv)
  rw [← t19] at ef19
  exact ⟨w19, (((((((((((((((((n1.trans n2).trans n3).trans n4).trans n5).trans n6).trans n7).trans n8).trans
    n9).trans n10).trans n11).trans n12).trans n13).trans n14).trans n15).trans n16).trans n17).trans n18).trans
    n19, s19, by bv, by bv, by bv⟩

theorem ext_swDouble [Fact p.Prime] {E : Emu} (hE : E.OK p) {a : ℕ} (ha : a < E.q) {P Q R : SwVar} {dc : List ℕ} {c c' : Circ p} {r : List ℕ × List ℕ} (g0 : Good c)
    (h_x0 : IsVar E P.x c) (h_y0 : IsVar E P.y c) (h_x1 : IsVar E Q.x c) (h_x2 : IsVar E R.x c) (h_y2 : IsVar E R.y
      c) (h_d : IsVar E dc c)
    (hm : swDouble E a P Q R dc c = .ok (r, c')) :
    Ext c c' ∧ IsVar E r.1 c' ∧ IsVar E r.2 c' := by
  unfold swDouble at hm
  obtain ⟨v1, c1, m1, hm⟩ := bind_ok hm
  obtain ⟨v2, c2, m2, hm⟩ := bind_ok hm
  obtain ⟨v3, c3, m3, hm⟩ := bind_ok hm
  obtain ⟨v4, c4, m4, hm⟩ := bind_ok hm
  obtain ⟨v5, c5, m5, hm⟩ := bind_ok hm
  obtain ⟨v6, c6, m6, hm⟩ := bind_ok hm
  obtain ⟨v7, c7, m7, hm⟩ := bind_ok hm
  obtain ⟨v8, c8, m8, hm⟩ := bind_ok hm
  obtain ⟨v9, c9, m9, hm⟩ := bind_ok hm
  obtain ⟨v10, c10, m10, hm⟩ := bind_ok hm
  obtain ⟨v11, c11, m11, hm⟩ := bind_ok hm
  obtain ⟨v12, c12, m12, hm⟩ := bind_ok hm
  obtain ⟨v13, c13, m13, hm⟩ := bind_ok hm
  obtain ⟨v14, c14, m14, hm⟩ := bind_ok hm
  obtain ⟨v15, c15, m15, hm⟩ := bind_ok hm
  obtain ⟨v16, c16, m16, hm⟩ := bind_ok hm
  obtain ⟨v17, c17, m17, hm⟩ := bind_ok hm
  obtain ⟨v18, c18, m18, hm⟩ := bind_ok hm
  obtain ⟨v19, c19, m19, hm⟩ := bind_ok hm
  obtain ⟨e1, i1⟩ := ext_add hE g0 (by iv) (by iv) m1
  have g1 := g0.ext e1
  obtain ⟨e2, i2⟩ := ext_add hE g1 (by iv) (by iv) m2
  have g2 := g1.ext e2
  obtain ⟨e3, i3⟩ := ext_add hE g2 (by iv) (by iv) m3
  have g3 := g2.ext e3
  obtain ⟨e4, i4⟩ := ext_mul hE g3 (by iv) (by iv) m4
  have g4 := g3.ext e4
  obtain ⟨e5, i5⟩ := ext_mul hE g4 (by iv) (by iv) m5
  have g5 := g4.ext e5
  obtain ⟨e6, i6⟩ := ext_mul hE g5 (by iv) (by iv) m6
  have g6 := g5.ext e6
  obtain ⟨e7, i7⟩ := ext_mulc hE g6 (by iv) (Nat.mod_lt _ hE.hq) m7
  have g7 := g6.ext e7
  obtain ⟨e8, i8⟩ := ext_addc hE g7 (by iv) ha m8
  have g8 := g7.ext e8
  obtain ⟨e9, i9⟩ := ext_mul hE g8 (by iv) (by iv) m9
  have g9 := g8.ext e9
  obtain ⟨e10, i10⟩ := ext_mul hE g9 (by iv) (by iv) m10
  have g10 := g9.ext e10
  obtain ⟨e11, i11⟩ := ext_mul hE g10 (by iv) (by iv) m11
  have g11 := g10.ext e11
  have e12 := ext_eq (E := E) g11 (by iv) (by iv) m12
  have g12 := g11.ext e12
  obtain ⟨e13, i13⟩ := ext_add hE g12 (by iv) (by iv) m13
  have g13 := g12.ext e13
  obtain ⟨e14, i14⟩ := ext_mul hE g13 (by iv) (by iv) m14
  have g14 := g13.ext e14
  obtain ⟨e15, i15⟩ := ext_sub hE g14 (by iv) (by iv) m15
  have g15 := g14.ext e15
  obtain ⟨e16, i16⟩ := ext_mul hE g15 (by iv) (by iv) m16
  have g16 := g15.ext e16
  obtain ⟨e17, i17⟩ := ext_mul hE g16 (by iv) (by iv) m17
  have g17 := g16.ext e17
  obtain ⟨e18, i18⟩ := ext_mul hE g17 (by iv) (by iv) m18
  have g18 := g17.ext e18
  have e19 := ext_eq (E := E) g18 (by iv) (by iv) m19
  have g19 := g18.ext e19
  cases hm
  exact ⟨(((((((((((((((((e1.trans e2).trans e3).trans e4).trans e5).trans e6).trans e7).trans e8).trans e9).trans
    e10).trans e11).trans e12).trans e13).trans e14).trans e15).trans e16).trans e17).trans e18).trans e19, by iv,
    by iv⟩

theorem snd_swDouble [Fact p.Prime] {E : Emu} (hE : E.OK p) {a : ℕ} (ha : a < E.q) {P Q R : SwVar} {dc : List ℕ} {c c' : Circ p} {r : List ℕ × List ℕ} (g0 : Good c)
    {w : ℕ → ZMod p} {pi : List (ZMod p)} (hm : swDouble E a P Q R dc c = .ok (r, c')) (hs : Sat c' pi w)
    {x0 y0 x1 x2 y2 d : ℕ}
    (h_x0 : EV E c w P.x x0) (h_y0 : EV E c w P.y y0) (h_x1 : EV E c w Q.x x1) (h_x2 : EV E c w R.x x2) (h_y2 : EV
      E c w R.y y2) (h_d : EV E c w dc d) :
    ∃ x012, ∃ x02, EV E c' w r.1 x012 ∧ EV E c' w r.2 x02 ∧ DoubleRel (2 ^ E.T) (MulRel p E) (AddRel E) a (3 % E.q) x0 y0 x1 x2 y2 d x012 x02 := by
  unfold swDouble at hm
  obtain ⟨v1, c1, m1, hm⟩ := bind_ok hm
  obtain ⟨v2, c2, m2, hm⟩ := bind_ok hm
  obtain ⟨v3, c3, m3, hm⟩ := bind_ok hm
  obtain ⟨v4, c4, m4, hm⟩ := bind_ok hm
  obtain ⟨v5, c5, m5, hm⟩ := bind_ok hm
  obtain ⟨v6, c6, m6, hm⟩ := bind_ok hm
  obtain ⟨v7, c7, m7, hm⟩ := bind_ok hm
  obtain ⟨v8, c8, m8, hm⟩ := bind_ok hm
  obtain ⟨v9, c9, m9, hm⟩ := bind_ok hm
  obtain ⟨v10, c10, m10, hm⟩ := bind_ok hm
  obtain ⟨v11, c11, m11, hm⟩ := bind_ok hm
  obtain ⟨v12, c12, m12, hm⟩ := bind_ok hm
  obtain ⟨v13, c13, m13, hm⟩ := bind_ok hm
  obtain ⟨v14, c14, m14, hm⟩ := bind_ok hm
  obtain ⟨v15, c15, m15, hm⟩ := bind_ok hm
  obtain ⟨v16, c16, m16, hm⟩ := bind_ok hm
  obtain ⟨v17, c17, m17, hm⟩ := bind_ok hm
  obtain ⟨v18, c18, m18, hm⟩ := bind_ok hm
  obtain ⟨v19, c19, m19, hm⟩ := bind_ok hm
  have hv_x0 := h_x0.var
  have hv_y0 := h_y0.var
  have hv_x1 := h_x1.var
  have hv_x2 := h_x2.var
  have hv_y2 := h_y2.var
  have hv_d := h_d.var
  obtain ⟨e1, i1⟩ := ext_add hE g0 (by iv) (by iv) m1
  have g1 := g0.ext e1
  obtain ⟨e2, i2⟩ := ext_add hE g1 (by iv) (by iv) m2
  have g2 := g1.ext e2
  obtain ⟨e3, i3⟩ := ext_add hE g2 (by iv) (by iv) m3
  have g3 := g2.ext e3
  obtain ⟨e4, i4⟩ := ext_mul hE g3 (by iv) (by iv) m4
  have g4 := g3.ext e4
  obtain ⟨e5, i5⟩ := ext_mul hE g4 (by iv) (by iv) m5
  have g5 := g4.ext e5
  obtain ⟨e6, i6⟩ := ext_mul hE g5 (by iv) (by iv) m6
  have g6 := g5.ext e6
  obtain ⟨e7, i7⟩ := ext_mulc hE g6 (by iv) (Nat.mod_lt _ hE.hq) m7
  have g7 := g6.ext e7
  obtain ⟨e8, i8⟩ := ext_addc hE g7 (by iv) ha m8
  have g8 := g7.ext e8
  obtain ⟨e9, i9⟩ := ext_mul hE g8 (by iv) (by iv) m9
  have g9 := g8.ext e9
  obtain ⟨e10, i10⟩ := ext_mul hE g9 (by iv) (by iv) m10
  have g10 := g9.ext e10
  obtain ⟨e11, i11⟩ := ext_mul hE g10 (by iv) (by iv) m11
  have g11 := g10.ext e11
  have e12 := ext_eq (E := E) g11 (by iv) (by iv) m12
  have g12 := g11.ext e12
  obtain ⟨e13, i13⟩ := ext_add hE g12 (by iv) (by iv) m13
  have g13 := g12.ext e13
  obtain ⟨e14, i14⟩ := ext_mul hE g13 (by iv) (by iv) m14
  have g14 := g13.ext e14
  obtain ⟨e15, i15⟩ := ext_sub hE g14 (by iv) (by iv) m15
  have g15 := g14.ext e15
  obtain ⟨e16, i16⟩ := ext_mul hE g15 (by iv) (by iv) m16
  have g16 := g15.ext e16
  obtain ⟨e17, i17⟩ := ext_mul hE g16 (by iv) (by iv) m17
  have g17 := g16.ext e17
  obtain ⟨e18, i18⟩ := ext_mul hE g17 (by iv) (by iv) m18
  have g18 := g17.ext e18
  have e19 := ext_eq (E := E) g18 (by iv) (by iv) m19
  have g19 := g18.ext e19
  cases hm
  have s19 := hs
  have s18 := e19.sat _ _ s19
  have s17 := e18.sat _ _ s18
  have s16 := e17.sat _ _ s17
  have s15 := e16.sat _ _ s16
  have s14 := e15.sat _ _ s15
  have s13 := e14.sat _ _ s14
  have s12 := e13.sat _ _ s13
  have s11 := e12.sat _ _ s12
  have s10 := e11.sat _ _ s11
  have s9 := e10.sat _ _ s10
  have s8 := e9.sat _ _ s9
  have s7 := e8.sat _ _ s8
  have s6 := e7.sat _ _ s7
  have s5 := e6.sat _ _ s6
  have s4 := e5.sat _ _ s5
  have s3 := e4.sat _ _ s4
  have s2 := e3.sat _ _ s3
  have s1 := e2.sat _ _ s2
  have n1 := Nxt.same e1 w
  have n2 := Nxt.same e2 w
  have n3 := Nxt.same e3 w
  have n4 := Nxt.same e4 w
  have n5 := Nxt.same e5 w
  have n6 := Nxt.same e6 w
  have n7 := Nxt.same e7 w
  have n8 := Nxt.same e8 w
  have n9 := Nxt.same e9 w
  have n10 := Nxt.same e10 w
  have n11 := Nxt.same e11 w
  have n12 := Nxt.same e12 w
  have n13 := Nxt.same e13 w
  have n14 := Nxt.same e14 w
  have n15 := Nxt.same e15 w
  have n16 := Nxt.same e16 w
  have n17 := Nxt.same e17 w
  have n18 := Nxt.same e18 w
  have n19 := Nxt.same e19 w
  obtain ⟨yy, b1, t1, ef1⟩ := snd_add hE g0 m1 s1
    (show EV E _ w _ y0 by ev) (show EV E _ w _ y0 by ev)
  obtain ⟨xs, b2, t2, ef2⟩ := snd_add hE g1 m2 s2
    (show EV E _ w _ x0 by ev) (show EV E _ w _ x1 by ev)
  obtain ⟨x012, b3, t3, ef3⟩ := snd_add hE g2 m3 s3
    (show EV E _ w _ x2 by ev) (show EV E _ w _ xs by ev)
  obtain ⟨lh1, b4, t4, ef4⟩ := snd_mul hE g3 m4 s4
    (show EV E _ w _ x012 by ev) (show EV E _ w _ yy by ev)
  obtain ⟨lh2, b5, t5, ef5⟩ := snd_mul hE g4 m5 s5
    (show EV E _ w _ lh1 by ev) (show EV E _ w _ yy by ev)
  obtain ⟨q1, b6, t6, ef6⟩ := snd_mul hE g5 m6 s6
    (show EV E _ w _ x0 by ev) (show EV E _ w _ x0 by ev)
  obtain ⟨q2, b7, t7, ef7⟩ := snd_mulc hE g6 (Nat.mod_lt _ hE.hq) m7 s7
    (show EV E _ w _ q1 by ev)
  obtain ⟨q3, b8, t8, ef8⟩ := snd_addc hE g7 ha m8 s8
    (show EV E _ w _ q2 by ev)
  obtain ⟨rh1, b9, t9, ef9⟩ := snd_mul hE g8 m9 s9
    (show EV E _ w _ q3 by ev) (show EV E _ w _ q3 by ev)
  obtain ⟨lh3, b10, t10, ef10⟩ := snd_mul hE g9 m10 s10
    (show EV E _ w _ lh2 by ev) (show EV E _ w _ d by ev)
  obtain ⟨rh2, b11, t11, ef11⟩ := snd_mul hE g10 m11 s11
    (show EV E _ w _ rh1 by ev) (show EV E _ w _ d by ev)
  have t12 := snd_eq g11 m12 s12
    (show EV E _ w _ lh3 by ev) (show EV E _ w _ rh2 by ev)
  obtain ⟨ys, b13, t13, ef13⟩ := snd_add hE g12 m13 s13
    (show EV E _ w _ y2 by ev) (show EV E _ w _ y0 by ev)
  obtain ⟨lh4, b14, t14, ef14⟩ := snd_mul hE g13 m14 s14
    (show EV E _ w _ ys by ev) (show EV E _ w _ yy by ev)
  obtain ⟨x02, b15, t15, ef15⟩ := snd_sub hE g14 m15 s15
    (show EV E _ w _ x0 by ev) (show EV E _ w _ x2 by ev)
  obtain ⟨rh3, b16, t16, ef16⟩ := snd_mul hE g15 m16 s16
    (show EV E _ w _ q3 by ev) (show EV E _ w _ x02 by ev)
  obtain ⟨lh5, b17, t17, ef17⟩ := snd_mul hE g16 m17 s17
    (show EV E _ w _ lh4 by ev) (show EV E _ w _ d by ev)
  obtain ⟨rh4, b18, t18, ef18⟩ := snd_mul hE g17 m18 s18
    (show EV E _ w _ rh3 by ev) (show EV E _ w _ d by ev)
  have t19 := snd_eq g18 m19 s19
    (show EV E _ w _ lh5 by ev) (show EV E _ w _ rh4 by ev)
  exact ⟨x012, x02, by ev, by ev, yy, b1, t1, xs, b2, t2, b3, t3, lh1, b4, t4, lh2, b5, t5, q1, b6, t6, q2, b7, t7,
    q3, b8, t8, rh1, b9, t9, lh3, b10, t10, rh2, b11, t11, t12, ys, b13, t13, lh4, b14, t14, b15, t15, rh3, b16,
    t16, lh5, b17, t17, rh4, b18, t18, t19⟩

theorem rch_swDouble [Fact p.Prime] {E : Emu} (hE : E.OK p) {a : ℕ} (ha : a < E.q) {P Q R : SwVar} {dc : List ℕ} {c c' : Circ p} {r : List ℕ × List ℕ} (g0 : Good c)
    {w0 : ℕ → ZMod p} {pi : List (ZMod p)} (hm : swDouble E a P Q R dc c = .ok (r, c')) (s0 : Sat c pi w0)
    {x0 y0 x1 x2 y2 d x012 x02 : ℕ}
    (h_x0 : EV E c w0 P.x x0) (h_y0 : EV E c w0 P.y y0) (h_x1 : EV E c w0 Q.x x1) (h_x2 : EV E c w0 R.x x2) (h_y2 :
      EV E c w0 R.y y2) (h_d : EV E c w0 dc d)
    (hr : DoubleRel (2 ^ E.T) (MulRel p E) (AddRel E) a (3 % E.q) x0 y0 x1 x2 y2 d x012 x02) :
    ∃ w', Nxt c w0 c' w' ∧ Sat c' pi w' ∧ EV E c' w' r.1 x012 ∧ EV E c' w' r.2 x02 := by
  unfold swDouble at hm
  obtain ⟨v1, c1, m1, hm⟩ := bind_ok hm
  obtain ⟨v2, c2, m2, hm⟩ := bind_ok hm
  obtain ⟨v3, c3, m3, hm⟩ := bind_ok hm
  obtain ⟨v4, c4, m4, hm⟩ := bind_ok hm
  obtain ⟨v5, c5, m5, hm⟩ := bind_ok hm
  obtain ⟨v6, c6, m6, hm⟩ := bind_ok hm
  obtain ⟨v7, c7, m7, hm⟩ := bind_ok hm
  obtain ⟨v8, c8, m8, hm⟩ := bind_ok hm
  obtain ⟨v9, c9, m9, hm⟩ := bind_ok hm
  obtain ⟨v10, c10, m10, hm⟩ := bind_ok hm
  obtain ⟨v11, c11, m11, hm⟩ := bind_ok hm
  obtain ⟨v12, c12, m12, hm⟩ := bind_ok hm
  obtain ⟨v13, c13, m13, hm⟩ := bind_ok hm
  obtain ⟨v14, c14, m14, hm⟩ := bind_ok hm
  obtain ⟨v15, c15, m15, hm⟩ := bind_ok hm
  obtain ⟨v16, c16, m16, hm⟩ := bind_ok hm
  obtain ⟨v17, c17, m17, hm⟩ := bind_ok hm
  obtain ⟨v18, c18, m18, hm⟩ := bind_ok hm
  obtain ⟨v19, c19, m19, hm⟩ := bind_ok hm
  have hv_x0 := h_x0.var
  have hv_y0 := h_y0.var
  have hv_x1 := h_x1.var
  have hv_x2 := h_x2.var
  have hv_y2 := h_y2.var
  have hv_d := h_d.var
  obtain ⟨e1, i1⟩ := ext_add hE g0 (by iv) (by iv) m1
  have g1 := g0.ext e1
  obtain ⟨e2, i2⟩ := ext_add hE g1 (by iv) (by iv) m2
  have g2 := g1.ext e2
  obtain ⟨e3, i3⟩ := ext_add hE g2 (by iv) (by iv) m3
  have g3 := g2.ext e3
  obtain ⟨e4, i4⟩ := ext_mul hE g3 (by iv) (by iv) m4
  have g4 := g3.ext e4
  obtain ⟨e5, i5⟩ := ext_mul hE g4 (by iv) (by iv) m5
  have g5 := g4.ext e5
  obtain ⟨e6, i6⟩ := ext_mul hE g5 (by iv) (by iv) m6
  have g6 := g5.ext e6
  obtain ⟨e7, i7⟩ := ext_mulc hE g6 (by iv) (Nat.mod_lt _ hE.hq) m7
  have g7 := g6.ext e7
  obtain ⟨e8, i8⟩ := ext_addc hE g7 (by iv) ha m8
  have g8 := g7.ext e8
  obtain ⟨e9, i9⟩ := ext_mul hE g8 (by iv) (by iv) m9
  have g9 := g8.ext e9
  obtain ⟨e10, i10⟩ := ext_mul hE g9 (by iv) (by iv) m10
  have g10 := g9.ext e10
  obtain ⟨e11, i11⟩ := ext_mul hE g10 (by iv) (by iv) m11
  have g11 := g10.ext e11
  have e12 := ext_eq (E := E) g11 (by iv) (by iv) m12
  have g12 := g11.ext e12
  obtain ⟨e13, i13⟩ := ext_add hE g12 (by iv) (by iv) m13
  have g13 := g12.ext e13
  obtain ⟨e14, i14⟩ := ext_mul hE g13 (by iv) (by iv) m14
  have g14 := g13.ext e14
  obtain ⟨e15, i15⟩ := ext_sub hE g14 (by iv) (by iv) m15
  have g15 := g14.ext e15
  obtain ⟨e16, i16⟩ := ext_mul hE g15 (by iv) (by iv) m16
  have g16 := g15.ext e16
  obtain ⟨e17, i17⟩ := ext_mul hE g16 (by iv) (by iv) m17
  have g17 := g16.ext e17
  obtain ⟨e18, i18⟩ := ext_mul hE g17 (by iv) (by iv) m18
  have g18 := g17.ext e18
  have e19 := ext_eq (E := E) g18 (by iv) (by iv) m19
  have g19 := g18.ext e19
  cases hm
  obtain ⟨yy, b1, t1, xs, b2, t2, b3, t3, lh1, b4, t4, lh2, b5, t5, q1, b6, t6, q2, b7, t7, q3, b8, t8, rh1, b9,
    t9, lh3, b10, t10, rh2, b11, t11, t12, ys, b13, t13, lh4, b14, t14, b15, t15, rh3, b16, t16, lh5, b17, t17,
    rh4, b18, t18, t19⟩ := hr
  obtain ⟨w1, n1, s1, ef1⟩ := rch_add hE g0 m1 s0
    (show EV E _ w0 _ y0 by ev) (show EV E _ w0 _ y0 by ev) b1 t1
  obtain ⟨w2, n2, s2, ef2⟩ := rch_add hE g1 m2 s1
    (show EV E _ w1 _ x0 by ev) (show EV E _ w1 _ x1 by ev) b2 t2
  obtain ⟨w3, n3, s3, ef3⟩ := rch_add hE g2 m3 s2
    (show EV E _ w2 _ x2 by ev) (show EV E _ w2 _ xs by ev) b3 t3
  obtain ⟨w4, n4, s4, ef4⟩ := rch_mul hE g3 m4 s3
    (show EV E _ w3 _ x012 by ev) (show EV E _ w3 _ yy by ev) b4 t4
  obtain ⟨w5, n5, s5, ef5⟩ := rch_mul hE g4 m5 s4
    (show EV E _ w4 _ lh1 by ev) (show EV E _ w4 _ yy by ev) b5 t5
  obtain ⟨w6, n6, s6, ef6⟩ := rch_mul hE g5 m6 s5
    (show EV E _ w5 _ x0 by ev) (show EV E _ w5 _ x0 by ev) b6 t6
  obtain ⟨w7, n7, s7, ef7⟩ := rch_mulc hE g6 (Nat.mod_lt _ hE.hq) m7 s6
    (show EV E _ w6 _ q1 by ev) b7 t7
  obtain ⟨w8, n8, s8, ef8⟩ := rch_addc hE g7 ha m8 s7
    (show EV E _ w7 _ q2 by ev) b8 t8
  obtain ⟨w9, n9, s9, ef9⟩ := rch_mul hE g8 m9 s8
    (show EV E _ w8 _ q3 by ev) (show EV E _ w8 _ q3 by ev) b9 t9
  obtain ⟨w10, n10, s10, ef10⟩ := rch_mul hE g9 m10 s9
    (show EV E _ w9 _ lh2 by ev) (show EV E _ w9 _ d by ev) b10 t10
  obtain ⟨w11, n11, s11, ef11⟩ := rch_mul hE g10 m11 s10
    (show EV E _ w10 _ rh1 by ev) (show EV E _ w10 _ d by ev) b11 t11
  obtain ⟨w12, n12, s12⟩ := rch_eq g11 m12 s11
    (show EV E _ w11 _ lh3 by ev) (show EV E _ w11 _ rh2 by ev) t12
  obtain ⟨w13, n13, s13, ef13⟩ := rch_add hE g12 m13 s12
    (show EV E _ w12 _ y2 by ev) (show EV E _ w12 _ y0 by ev) b13 t13
  obtain ⟨w14, n14, s14, ef14⟩ := rch_mul hE g13 m14 s13
    (show EV E _ w13 _ ys by ev) (show EV E _ w13 _ yy by ev) b14 t14
  obtain ⟨w15, n15, s15, ef15⟩ := rch_sub hE g14 m15 s14
    (show EV E _ w14 _ x0 by ev) (show EV E _ w14 _ x2 by ev) b15 t15
  obtain ⟨w16, n16, s16, ef16⟩ := rch_mul hE g15 m16 s15
    (show EV E _ w15 _ q3 by ev) (show EV E _ w15 _ x02 by ev) b16 t16
  obtain ⟨w17, n17, s17, ef17⟩ := rch_mul hE g16 m17 s16
    (show EV E _ w16 _ lh4 by ev) (show EV E _ w16 _ d by ev) b17 t17
  obtain ⟨w18, n18, s18, ef18⟩ := rch_mul hE g17 m18 s17
    (show EV E _ w17 _ rh3 by ev) (show EV E _ w17 _ d by ev) b18 t18
  obtain ⟨w19, n19, s19⟩ := rch_eq g18 m19 s18
    (show EV E _ w18 _ lh5 by ev) (show EV E _ w18 _ rh4 by ev) t19
  exact ⟨w19, (((((((((((((((((n1.trans n2).trans n3).trans n4).trans n5).trans n6).trans n7).trans n8).trans
    n9).trans n10).trans n11).trans n12).trans n13).trans n14).trans n15).trans n16).trans n17).trans n18).trans
    n19, s19, by ev, by ev⟩

theorem ext_swChord [Fact p.Prime] {E : Emu} (hE : E.OK p) {P Q R : SwVar} {l1 l2 ac : List ℕ} {c c' : Circ p} {r : Unit} (g0 : Good c)
    (h_x0 : IsVar E P.x c) (h_y0 : IsVar E P.y c) (h_x1 : IsVar E Q.x c) (h_y1 : IsVar E Q.y c) (h_y2 : IsVar E R.y
      c) (h_x012 : IsVar E l1 c) (h_x02 : IsVar E l2 c) (h_k : IsVar E ac c)
    (hm : swChord E P Q R l1 l2 ac c = .ok (r, c')) :
    Ext c c' := by
  unfold swChord at hm
  obtain ⟨v1, c1, m1, hm⟩ := bind_ok hm
  obtain ⟨v2, c2, m2, hm⟩ := bind_ok hm
  obtain ⟨v3, c3, m3, hm⟩ := bind_ok hm
  obtain ⟨v4, c4, m4, hm⟩ := bind_ok hm
  obtain ⟨v5, c5, m5, hm⟩ := bind_ok hm
  obtain ⟨v6, c6, m6, hm⟩ := bind_ok hm
  obtain ⟨v7, c7, m7, hm⟩ := bind_ok hm
  obtain ⟨v8, c8, m8, hm⟩ := bind_ok hm
  obtain ⟨v9, c9, m9, hm⟩ := bind_ok hm
  obtain ⟨v10, c10, m10, hm⟩ := bind_ok hm
  obtain ⟨v11, c11, m11, hm⟩ := bind_ok hm
  obtain ⟨v12, c12, m12, hm⟩ := bind_ok hm
  obtain ⟨v13, c13, m13, hm⟩ := bind_ok hm
  rename' hm => m14
  obtain ⟨e1, i1⟩ := ext_sub hE g0 (by iv) (by iv) m1
  have g1 := g0.ext e1
  obtain ⟨e2, i2⟩ := ext_mul hE g1 (by iv) (by iv) m2
  have g2 := g1.ext e2
  obtain ⟨e3, i3⟩ := ext_mul hE g2 (by iv) (by iv) m3
  have g3 := g2.ext e3
  obtain ⟨e4, i4⟩ := ext_sub hE g3 (by iv) (by iv) m4
  have g4 := g3.ext e4
  obtain ⟨e5, i5⟩ := ext_mul hE g4 (by iv) (by iv) m5
  have g5 := g4.ext e5
  obtain ⟨e6, i6⟩ := ext_mul hE g5 (by iv) (by iv) m6
  have g6 := g5.ext e6
  obtain ⟨e7, i7⟩ := ext_mul hE g6 (by iv) (by iv) m7
  have g7 := g6.ext e7
  have e8 := ext_eq (E := E) g7 (by iv) (by iv) m8
  have g8 := g7.ext e8
  obtain ⟨e9, i9⟩ := ext_mul hE g8 (by iv) (by iv) m9
  have g9 := g8.ext e9
  obtain ⟨e10, i10⟩ := ext_add hE g9 (by iv) (by iv) m10
  have g10 := g9.ext e10
  obtain ⟨e11, i11⟩ := ext_mul hE g10 (by iv) (by iv) m11
  have g11 := g10.ext e11
  obtain ⟨e12, i12⟩ := ext_mul hE g11 (by iv) (by iv) m12
  have g12 := g11.ext e12
  obtain ⟨e13, i13⟩ := ext_mul hE g12 (by iv) (by iv) m13
  have g13 := g12.ext e13
  have e14 := ext_eq (E := E) g13 (by iv) (by iv) m14
  have g14 := g13.ext e14
  exact ((((((((((((e1.trans e2).trans e3).trans e4).trans e5).trans e6).trans e7).trans e8).trans e9).trans
    e10).trans e11).trans e12).trans e13).trans e14

theorem snd_swChord [Fact p.Prime] {E : Emu} (hE : E.OK p) {P Q R : SwVar} {l1 l2 ac : List ℕ} {c c' : Circ p} {r : Unit} (g0 : Good c)
    {w : ℕ → ZMod p} {pi : List (ZMod p)} (hm : swChord E P Q R l1 l2 ac c = .ok (r, c')) (hs : Sat c' pi w)
    {x0 y0 x1 y1 y2 x012 x02 k : ℕ}
    (h_x0 : EV E c w P.x x0) (h_y0 : EV E c w P.y y0) (h_x1 : EV E c w Q.x x1) (h_y1 : EV E c w Q.y y1) (h_y2 : EV
      E c w R.y y2) (h_x012 : EV E c w l1 x012) (h_x02 : EV E c w l2 x02) (h_k : EV E c w ac k) :
    ChordRel (2 ^ E.T) (MulRel p E) (AddRel E) x0 y0 x1 y1 y2 x012 x02 k := by
  unfold swChord at hm
  obtain ⟨v1, c1, m1, hm⟩ := bind_ok hm
  obtain ⟨v2, c2, m2, hm⟩ := bind_ok hm
  obtain ⟨v3, c3, m3, hm⟩ := bind_ok hm
  obtain ⟨v4, c4, m4, hm⟩ := bind_ok hm
  obtain ⟨v5, c5, m5, hm⟩ := bind_ok hm
  obtain ⟨v6, c6, m6, hm⟩ := bind_ok hm
  obtain ⟨v7, c7, m7, hm⟩ := bind_ok hm
  obtain ⟨v8, c8, m8, hm⟩ := bind_ok hm
  obtain ⟨v9, c9, m9, hm⟩ := bind_ok hm
  obtain ⟨v10, c10, m10, hm⟩ := bind_ok hm
  obtain ⟨v11, c11, m11, hm⟩ := bind_ok hm
  obtain ⟨v12, c12, m12, hm⟩ := bind_ok hm
  obtain ⟨v13, c13, m13, hm⟩ := bind_ok hm
  rename' hm => m14
  have hv_x0 := h_x0.var
  have hv_y0 := h_y0.var
  have hv_x1 := h_x1.var
  have hv_y1 := h_y1.var
  have hv_y2 := h_y2.var
  have hv_x012 := h_x012.var
  have hv_x02 := h_x02.var
  have hv_k := h_k.var
  obtain ⟨e1, i1⟩ := ext_sub hE g0 (by iv) (by iv) m1
  have g1 := g0.ext e1
  obtain ⟨e2, i2⟩ := ext_mul hE g1 (by iv) (by iv) m2
  have g2 := g1.ext e2
  obtain ⟨e3, i3⟩ := ext_mul hE g2 (by iv) (by iv) m3
  have g3 := g2.ext e3
  obtain ⟨e4, i4⟩ := ext_sub hE g3 (by iv) (by iv) m4
  have g4 := g3.ext e4
  obtain ⟨e5, i5⟩ := ext_mul hE g4 (by iv) (by iv) m5
  have g5 := g4.ext e5
  obtain ⟨e6, i6⟩ := ext_mul hE g5 (by iv) (by iv) m6
  have g6 := g5.ext e6
  obtain ⟨e7, i7⟩ := ext_mul hE g6 (by iv) (by iv) m7
  have g7 := g6.ext e7
  have e8 := ext_eq (E := E) g7 (by iv) (by iv) m8
  have g8 := g7.ext e8
  obtain ⟨e9, i9⟩ := ext_mul hE g8 (by iv) (by iv) m9
  have g9 := g8.ext e9
  obtain ⟨e10, i10⟩ := ext_add hE g9 (by iv) (by iv) m10
  have g10 := g9.ext e10
  obtain ⟨e11, i11⟩ := ext_mul hE g10 (by iv) (by iv) m11
  have g11 := g10.ext e11
  obtain ⟨e12, i12⟩ := ext_mul hE g11 (by iv) (by iv) m12
  have g12 := g11.ext e12
  obtain ⟨e13, i13⟩ := ext_mul hE g12 (by iv) (by iv) m13
  have g13 := g12.ext e13
  have e14 := ext_eq (E := E) g13 (by iv) (by iv) m14
  have g14 := g13.ext e14
  have s14 := hs
  have s13 := e14.sat _ _ s14
  have s12 := e13.sat _ _ s13
  have s11 := e12.sat _ _ s12
  have s10 := e11.sat _ _ s11
  have s9 := e10.sat _ _ s10
  have s8 := e9.sat _ _ s9
  have s7 := e8.sat _ _ s8
  have s6 := e7.sat _ _ s7
  have s5 := e6.sat _ _ s6
  have s4 := e5.sat _ _ s5
  have s3 := e4.sat _ _ s4
  have s2 := e3.sat _ _ s3
  have s1 := e2.sat _ _ s2
  have n1 := Nxt.same e1 w
  have n2 := Nxt.same e2 w
  have n3 := Nxt.same e3 w
  have n4 := Nxt.same e4 w
  have n5 := Nxt.same e5 w
  have n6 := Nxt.same e6 w
  have n7 := Nxt.same e7 w
  have n8 := Nxt.same e8 w
  have n9 := Nxt.same e9 w
  have n10 := Nxt.same e10 w
  have n11 := Nxt.same e11 w
  have n12 := Nxt.same e12 w
  have n13 := Nxt.same e13 w
  have n14 := Nxt.same e14 w
  obtain ⟨dx, b1, t1, ef1⟩ := snd_sub hE g0 m1 s1
    (show EV E _ w _ x0 by ev) (show EV E _ w _ x1 by ev)
  obtain ⟨lh1, b2, t2, ef2⟩ := snd_mul hE g1 m2 s2
    (show EV E _ w _ dx by ev) (show EV E _ w _ dx by ev)
  obtain ⟨lh2, b3, t3, ef3⟩ := snd_mul hE g2 m3 s3
    (show EV E _ w _ lh1 by ev) (show EV E _ w _ x012 by ev)
  obtain ⟨dy, b4, t4, ef4⟩ := snd_sub hE g3 m4 s4
    (show EV E _ w _ y0 by ev) (show EV E _ w _ y1 by ev)
  obtain ⟨rh1, b5, t5, ef5⟩ := snd_mul hE g4 m5 s5
    (show EV E _ w _ dy by ev) (show EV E _ w _ dy by ev)
  obtain ⟨lh3, b6, t6, ef6⟩ := snd_mul hE g5 m6 s6
    (show EV E _ w _ lh2 by ev) (show EV E _ w _ k by ev)
  obtain ⟨rh2, b7, t7, ef7⟩ := snd_mul hE g6 m7 s7
    (show EV E _ w _ rh1 by ev) (show EV E _ w _ k by ev)
  have t8 := snd_eq g7 m8 s8
    (show EV E _ w _ lh3 by ev) (show EV E _ w _ rh2 by ev)
  obtain ⟨lh4, b9, t9, ef9⟩ := snd_mul hE g8 m9 s9
    (show EV E _ w _ x02 by ev) (show EV E _ w _ dy by ev)
  obtain ⟨ys, b10, t10, ef10⟩ := snd_add hE g9 m10 s10
    (show EV E _ w _ y0 by ev) (show EV E _ w _ y2 by ev)
  obtain ⟨rh3, b11, t11, ef11⟩ := snd_mul hE g10 m11 s11
    (show EV E _ w _ ys by ev) (show EV E _ w _ dx by ev)
  obtain ⟨lh5, b12, t12, ef12⟩ := snd_mul hE g11 m12 s12
    (show EV E _ w _ lh4 by ev) (show EV E _ w _ k by ev)
  obtain ⟨rh4, b13, t13, ef13⟩ := snd_mul hE g12 m13 s13
    (show EV E _ w _ rh3 by ev) (show EV E _ w _ k by ev)
  have t14 := snd_eq g13 m14 s14
    (show EV E _ w _ lh5 by ev) (show EV E _ w _ rh4 by ev)
  exact ⟨dx, b1, t1, lh1, b2, t2, lh2, b3, t3, dy, b4, t4, rh1, b5, t5, lh3, b6, t6, rh2, b7, t7, t8, lh4, b9, t9,
    ys, b10, t10, rh3, b11, t11, lh5, b12, t12, rh4, b13, t13, t14⟩

theorem rch_swChord [Fact p.Prime] {E : Emu} (hE : E.OK p) {P Q R : SwVar} {l1 l2 ac : List ℕ} {c c' : Circ p} {r : Unit} (g0 : Good c)
    {w0 : ℕ → ZMod p} {pi : List (ZMod p)} (hm : swChord E P Q R l1 l2 ac c = .ok (r, c')) (s0 : Sat c pi w0)
    {x0 y0 x1 y1 y2 x012 x02 k : ℕ}
    (h_x0 : EV E c w0 P.x x0) (h_y0 : EV E c w0 P.y y0) (h_x1 : EV E c w0 Q.x x1) (h_y1 : EV E c w0 Q.y y1) (h_y2 :
      EV E c w0 R.y y2) (h_x012 : EV E c w0 l1 x012) (h_x02 : EV E c w0 l2 x02) (h_k : EV E c w0 ac k)
    (hr : ChordRel (2 ^ E.T) (MulRel p E) (AddRel E) x0 y0 x1 y1 y2 x012 x02 k) :
    ∃ w', Nxt c w0 c' w' ∧ Sat c' pi w' := by
  unfold swChord at hm
  obtain ⟨v1, c1, m1, hm⟩ := bind_ok hm
  obtain ⟨v2, c2, m2, hm⟩ := bind_ok hm
  obtain ⟨v3, c3, m3, hm⟩ := bind_ok hm
  obtain ⟨v4, c4, m4, hm⟩ := bind_ok hm
  obtain ⟨v5, c5, m5, hm⟩ := bind_ok hm
  obtain ⟨v6, c6, m6, hm⟩ := bind_ok hm
  obtain ⟨v7, c7, m7, hm⟩ := bind_ok hm
  obtain ⟨v8, c8, m8, hm⟩ := bind_ok hm
  obtain ⟨v9, c9, m9, hm⟩ := bind_ok hm
  obtain ⟨v10, c10, m10, hm⟩ := bind_ok hm
  obtain ⟨v11, c11, m11, hm⟩ := bind_ok hm
  obtain ⟨v12, c12, m12, hm⟩ := bind_ok hm
  obtain ⟨v13, c13, m13, hm⟩ := bind_ok hm
  rename' hm => m14
  have hv_x0 := h_x0.var
  have hv_y0 := h_y0.var
  have hv_x1 := h_x1.var
  have hv_y1 := h_y1.var
  have hv_y2 := h_y2.var
  have hv_x012 := h_x012.var
  have hv_x02 := h_x02.var
  have hv_k := h_k.var
  obtain ⟨e1, i1⟩ := ext_sub hE g0 (by iv) (by iv) m1
  have g1 := g0.ext e1
  obtain ⟨e2, i2⟩ := ext_mul hE g1 (by iv) (by iv) m2
  have g2 := g1.ext e2
  obtain ⟨e3, i3⟩ := ext_mul hE g2 (by iv) (by iv) m3
  have g3 := g2.ext e3
  obtain ⟨e4, i4⟩ := ext_sub hE g3 (by iv) (by iv) m4
  have g4 := g3.ext e4
  obtain ⟨e5, i5⟩ := ext_mul hE g4 (by iv) (by iv) m5
  have g5 := g4.ext e5
  obtain ⟨e6, i6⟩ := ext_mul hE g5 (by iv) (by iv) m6
  have g6 := g5.ext e6
  obtain ⟨e7, i7⟩ := ext_mul hE g6 (by iv) (by iv) m7
  have g7 := g6.ext e7
  have e8 := ext_eq (E := E) g7 (by iv) (by iv) m8
  have g8 := g7.ext e8
  obtain ⟨e9, i9⟩ := ext_mul hE g8 (by iv) (by iv) m9
  have g9 := g8.ext e9
  obtain ⟨e10, i10⟩ := ext_add hE g9 (by iv) (by iv) m10
  have g10 := g9.ext e10
  obtain ⟨e11, i11⟩ := ext_mul hE g10 (by iv) (by iv) m11
  have g11 := g10.ext e11
  obtain ⟨e12, i12⟩ := ext_mul hE g11 (by iv) (by iv) m12
  have g12 := g11.ext e12
  obtain ⟨e13, i13⟩ := ext_mul hE g12 (by iv) (by iv) m13
  have g13 := g12.ext e13
  have e14 := ext_eq (E := E) g13 (by iv) (by iv) m14
  have g14 := g13.ext e14
  obtain ⟨dx, b1, t1, lh1, b2, t2, lh2, b3, t3, dy, b4, t4, rh1, b5, t5, lh3, b6, t6, rh2, b7, t7, t8, lh4, b9, t9,
    ys, b10, t10, rh3, b11, t11, lh5, b12, t12, rh4, b13, t13, t14⟩ := hr
  obtain ⟨w1, n1, s1, ef1⟩ := rch_sub hE g0 m1 s0
    (show EV E _ w0 _ x0 by ev) (show EV E _ w0 _ x1 by ev) b1 t1
  obtain ⟨w2, n2, s2, ef2⟩ := rch_mul hE g1 m2 s1
    (show EV E _ w1 _ dx by ev) (show EV E _ w1 _ dx by ev) b2 t2
  obtain ⟨w3, n3, s3, ef3⟩ := rch_mul hE g2 m3 s2
    (show EV E _ w2 _ lh1 by ev) (show EV E _ w2 _ x012 by ev) b3 t3
  obtain ⟨w4, n4, s4, ef4⟩ := rch_sub hE g3 m4 s3
    (show EV E _ w3 _ y0 by ev) (show EV E _ w3 _ y1 by ev) b4 t4
  obtain ⟨w5, n5, s5, ef5⟩ := rch_mul hE g4 m5 s4
    (show EV E _ w4 _ dy by ev) (show EV E _ w4 _ dy by ev) b5 t5
  obtain ⟨w6, n6, s6, ef6⟩ := rch_mul hE g5 m6 s5
    (show EV E _ w5 _ lh2 by ev) (show EV E _ w5 _ k by ev) b6 t6
  obtain ⟨w7, n7, s7, ef7⟩ := rch_mul hE g6 m7 s6
    (show EV E _ w6 _ rh1 by ev) (show EV E _ w6 _ k by ev) b7 t7
  obtain ⟨w8, n8, s8⟩ := rch_eq g7 m8 s7
    (show EV E _ w7 _ lh3 by ev) (show EV E _ w7 _ rh2 by ev) t8
  obtain ⟨w9, n9, s9, ef9⟩ := rch_mul hE g8 m9 s8
    (show EV E _ w8 _ x02 by ev) (show EV E _ w8 _ dy by ev) b9 t9
  obtain ⟨w10, n10, s10, ef10⟩ := rch_add hE g9 m10 s9
    (show EV E _ w9 _ y0 by ev) (show EV E _ w9 _ y2 by ev) b10 t10
  obtain ⟨w11, n11, s11, ef11⟩ := rch_mul hE g10 m11 s10
    (show EV E _ w10 _ ys by ev) (show EV E _ w10 _ dx by ev) b11 t11
  obtain ⟨w12, n12, s12, ef12⟩ := rch_mul hE g11 m12 s11
    (show EV E _ w11 _ lh4 by ev) (show EV E _ w11 _ k by ev) b12 t12
  obtain ⟨w13, n13, s13, ef13⟩ := rch_mul hE g12 m13 s12
    (show EV E _ w12 _ rh3 by ev) (show EV E _ w12 _ k by ev) b13 t13
  obtain ⟨w14, n14, s14⟩ := rch_eq g13 m14 s13
    (show EV E _ w13 _ lh5 by ev) (show EV E _ w13 _ rh4 by ev) t14
  exact ⟨w14, ((((((((((((n1.trans n2).trans n3).trans n4).trans n5).trans n6).trans n7).trans n8).trans n9).trans
    n10).trans n11).trans n12).trans n13).trans n14, s14⟩


end Verif.Props.Emulated
