import Verif.Props.EmulatedHonest

/-!
# The parts of the emulated short Weierstrass addition: the witness the builder stores
-/

set_option linter.unusedSectionVars false

namespace Verif.Props.Emulated

open Verif.Circuit Verif.Props.Circuit

variable {p : ℕ}

theorem hon_swFlags [Fact p.Prime] {E : Emu} (hE : E.OK p) {P Q R : SwVar} {c : Circ p}
    {pi : List (ZMod p)} (g0 : Good c) (s0 : Sat c pi c.val)
    {x0 y0 x1 y1 x2 y2 : ℕ} {i0 i1 i2 : ZMod p} {nim nex dc : ZMod p}
    (h_x0 : EV E c c.val P.x x0) (h_y0 : EV E c c.val P.y y0) (h_i0 : BV c c.val P.inf i0) (h_x1 : EV E c c.val Q.x
      x1) (h_y1 : EV E c c.val Q.y y1) (h_i1 : BV c c.val Q.inf i1) (h_x2 : EV E c c.val R.x x2) (h_y2 : EV E c
      c.val R.y y2) (h_i2 : BV c c.val R.inf i2)
    (hr : FlagRel x0 y0 i0 x1 y1 i1 x2 y2 i2 nim nex dc) :
    ∃ (r : ℕ × ℕ × ℕ) (c' : Circ p), swFlags P Q R c = .ok (r, c') ∧ Ext c c' ∧ Sat c' pi c'.val ∧
      BV c' c'.val r.1 nim ∧ BV c' c'.val r.2.1 nex ∧ BV c' c'.val r.2.2 dc := by
  obtain ⟨e12, t1, e02, t2, t3, t4, im, t5, t6, ni2, t7, ex, t8, t9, ey, t10, z0, t11, nz, t12, u1, t13, u2, t14,
    u3, t15, t16, dm, t17, dn, t18, t19⟩ := hr
  obtain ⟨v1, c1, m1, e1, s1, ef1⟩ := hon_pteq hE g0 s0
    (show EV E c c.val Q.x x1 by ev) (show EV E c c.val Q.y y1 by ev) (show BV c c.val Q.inf i1 by bv)
    (show EV E c c.val R.x x2 by ev) (show EV E c c.val R.y y2 by ev) (show BV c c.val R.inf i2 by bv)
  rw [← t1] at ef1
  have g1 := g0.ext e1
  have n1 := Nxt.val e1
  obtain ⟨v2, c2, m2, e2, s2, ef2⟩ := hon_pteq hE g1 s1
    (show EV E c1 c1.val P.x x0 by ev) (show EV E c1 c1.val P.y y0 by ev) (show BV c1 c1.val P.inf i0 by bv)
    (show EV E c1 c1.val R.x x2 by ev) (show EV E c1 c1.val R.y y2 by ev) (show BV c1 c1.val R.inf i2 by bv)
  rw [← t2] at ef2
  have g2 := g1.ext e2
  have n2 := Nxt.val e2
  obtain ⟨v3, c3, m3, e3, s3⟩ := hon_genf g2 s2
    (show BV c2 c2.val P.inf i0 by bv) (show BV c2 c2.val v1 e12 by bv) t3
  have g3 := g2.ext e3
  have n3 := Nxt.val e3
  obtain ⟨v4, c4, m4, e4, s4⟩ := hon_genf g3 s3
    (show BV c3 c3.val Q.inf i1 by bv) (show BV c3 c3.val v2 e02 by bv) t4
  have g4 := g3.ext e4
  have n4 := Nxt.val e4
  obtain ⟨v5, c5, m5, e5, s5, ef5⟩ := hon_bor g4 s4
    (show BV c4 c4.val P.inf i0 by bv) (show BV c4 c4.val Q.inf i1 by bv)
  rw [← t5] at ef5
  have g5 := g4.ext e5
  have n5 := Nxt.val e5
  obtain ⟨v6, c6, m6, e6, s6, ef6⟩ := hon_bneg g5 s5
    (show BV c5 c5.val v5 im by bv)
  rw [← t6] at ef6
  have g6 := g5.ext e6
  have n6 := Nxt.val e6
  obtain ⟨v7, c7, m7, e7, s7, ef7⟩ := hon_bneg g6 s6
    (show BV c6 c6.val R.inf i2 by bv)
  rw [← t7] at ef7
  have g7 := g6.ext e7
  have n7 := Nxt.val e7
  obtain ⟨v8, c8, m8, e8, s8, ef8⟩ := hon_beeq hE g7 s7
    (show EV E c7 c7.val P.x x0 by ev) (show EV E c7 c7.val Q.x x1 by ev)
  rw [← t8] at ef8
  have g8 := g7.ext e8
  have n8 := Nxt.val e8
  obtain ⟨v9, c9, m9, e9, s9, ef9⟩ := hon_bneg g8 s8
    (show BV c8 c8.val v8 ex by bv)
  rw [← t9] at ef9
  have g9 := g8.ext e9
  have n9 := Nxt.val e9
  obtain ⟨v10, c10, m10, e10, s10, ef10⟩ := hon_beeq hE g9 s9
    (show EV E c9 c9.val P.y y0 by ev) (show EV E c9 c9.val Q.y y1 by ev)
  rw [← t10] at ef10
  have g10 := g9.ext e10
  have n10 := Nxt.val e10
  obtain ⟨v11, c11, m11, e11, s11, ef11⟩ := hon_bzero hE g10 s10
    (show EV E c10 c10.val P.y y0 by ev)
  rw [← t11] at ef11
  have g11 := g10.ext e11
  have n11 := Nxt.val e11
  obtain ⟨v12, c12, m12, e12, s12, ef12⟩ := hon_bneg g11 s11
    (show BV c11 c11.val v11 z0 by bv)
  rw [← t12] at ef12
  have g12 := g11.ext e12
  have n12 := Nxt.val e12
  obtain ⟨v13, c13, m13, e13, s13, ef13⟩ := hon_band g12 s12
    (show BV c12 c12.val v10 ey by bv) (show BV c12 c12.val v12 nz by bv)
  rw [← t13] at ef13
  have g13 := g12.ext e13
  have n13 := Nxt.val e13
  obtain ⟨v14, c14, m14, e14, s14, ef14⟩ := hon_bor g13 s13
    (show BV c13 c13.val v9 nex by bv) (show BV c13 c13.val v13 u1 by bv)
  rw [← t14] at ef14
  have g14 := g13.ext e14
  have n14 := Nxt.val e14
  obtain ⟨v15, c15, m15, e15, s15, ef15⟩ := hon_bor g14 s14
    (show BV c14 c14.val v7 ni2 by bv) (show BV c14 c14.val v14 u2 by bv)
  rw [← t15] at ef15
  have g15 := g14.ext e15
  have n15 := Nxt.val e15
  obtain ⟨v16, c16, m16, e16, s16⟩ := hon_gor g15 s15
    (show BV c15 c15.val v5 im by bv) (show BV c15 c15.val v15 u3 by bv) t16
  have g16 := g15.ext e16
  have n16 := Nxt.val e16
  obtain ⟨v17, c17, m17, e17, s17, ef17⟩ := hon_bmul g16 s16
    (show BV c16 c16.val v8 ex by bv) (show BV c16 c16.val v10 ey by bv)
  rw [← t17] at ef17
  have g17 := g16.ext e17
  have n17 := Nxt.val e17
  obtain ⟨v18, c18, m18, e18, s18, ef18⟩ := hon_bmul g17 s17
    (show BV c17 c17.val v17 dm by bv) (show BV c17 c17.val v6 nim by bv)
  rw [← t18] at ef18
  have g18 := g17.ext e18
  have n18 := Nxt.val e18
  obtain ⟨v19, c19, m19, e19, s19, ef19⟩ := hon_bmul g18 s18
    (show BV c18 c18.val v18 dn by bv) (show BV c18 c18.val v12 nz by bv)
  rw [← t19] at ef19
  have g19 := g18.ext e19
  have n19 := Nxt.val e19
  refine ⟨(v6, v9, v19), c19, ?_, (((((((((((((((((e1.trans e2).trans e3).trans e4).trans e5).trans e6).trans
    e7).trans e8).trans e9).trans e10).trans e11).trans e12).trans e13).trans e14).trans e15).trans e16).trans
    e17).trans e18).trans e19, s19, by bv, by bv, by bv⟩
  unfold swFlags
  rw [bind_of_ok m1, bind_of_ok m2, bind_of_ok m3, bind_of_ok m4, bind_of_ok m5, bind_of_ok m6, bind_of_ok m7,
    bind_of_ok m8, bind_of_ok m9, bind_of_ok m10, bind_of_ok m11, bind_of_ok m12, bind_of_ok m13, bind_of_ok m14,
    bind_of_ok m15, bind_of_ok m16, bind_of_ok m17, bind_of_ok m18, bind_of_ok m19]
  rfl

theorem hon_swDouble [Fact p.Prime] {E : Emu} [Fact E.q.Prime] (hE : E.OK p) {a x0 y0 x1 x2 y2 d : ZMod E.q} {P Q R : SwVar} {dc : List ℕ} {c : Circ p}
    {pi : List (ZMod p)} (g0 : Good c) (s0 : Sat c pi c.val)
    (h_x0 : EV E c c.val P.x (x0).val) (h_y0 : EV E c c.val P.y (y0).val) (h_x1 : EV E c c.val Q.x (x1).val) (h_x2
      : EV E c c.val R.x (x2).val) (h_y2 : EV E c c.val R.y (y2).val) (h_d : EV E c c.val dc (d).val)
    (f1 : AddFits E (y0).val (y0).val)
    (f2 : AddFits E (x0).val (x1).val)
    (f3 : AddFits E (x2).val (x0 + x1).val)
    (f4 : AddFits E ((x0 * x0) * 3).val (a).val)
    (f5 : AddFits E (y2).val (y0).val)
    (f6 : AddFits E (x0 - x2).val (x2).val)
    (q1 : (((x2 + (x0 + x1)) * (y0 + y0)) * (y0 + y0)) * d = (((x0 * x0) * 3 + a) * ((x0 * x0) * 3 + a)) * d)
    (q2 : ((y2 + y0) * (y0 + y0)) * d = (((x0 * x0) * 3 + a) * (x0 - x2)) * d) :
    ∃ (r : List ℕ × List ℕ) (c' : Circ p), swDouble E a.val P Q R dc c = .ok (r, c') ∧ Ext c c' ∧ Sat c' pi c'.val ∧ EV E c' c'.val r.1 (x2 + (x0 + x1)).val ∧ EV E c' c'.val r.2 (x0 - x2).val := by
  obtain ⟨v1, c1, m1, e1, s1, ef1⟩ := hon_add hE g0 s0
    (show EV E c c.val P.y (y0).val by ev) (show EV E c c.val P.y (y0).val by ev) f1
  have g1 := g0.ext e1
  have n1 := Nxt.val e1
  obtain ⟨v2, c2, m2, e2, s2, ef2⟩ := hon_add hE g1 s1
    (show EV E c1 c1.val P.x (x0).val by ev) (show EV E c1 c1.val Q.x (x1).val by ev) f2
  have g2 := g1.ext e2
  have n2 := Nxt.val e2
  obtain ⟨v3, c3, m3, e3, s3, ef3⟩ := hon_add hE g2 s2
    (show EV E c2 c2.val R.x (x2).val by ev) (show EV E c2 c2.val v2 (x0 + x1).val by ev) f3
  have g3 := g2.ext e3
  have n3 := Nxt.val e3
  obtain ⟨v4, c4, m4, e4, s4, ef4⟩ := hon_mul hE g3 s3
    (show EV E c3 c3.val v3 (x2 + (x0 + x1)).val by ev) (show EV E c3 c3.val v1 (y0 + y0).val by ev)
  have g4 := g3.ext e4
  have n4 := Nxt.val e4
  obtain ⟨v5, c5, m5, e5, s5, ef5⟩ := hon_mul hE g4 s4
    (show EV E c4 c4.val v4 ((x2 + (x0 + x1)) * (y0 + y0)).val by ev) (show EV E c4 c4.val v1 (y0 + y0).val by ev)
  have g5 := g4.ext e5
  have n5 := Nxt.val e5
  obtain ⟨v6, c6, m6, e6, s6, ef6⟩ := hon_mul hE g5 s5
    (show EV E c5 c5.val P.x (x0).val by ev) (show EV E c5 c5.val P.x (x0).val by ev)
  have g6 := g5.ext e6
  have n6 := Nxt.val e6
  obtain ⟨v7, c7, m7, e7, s7, ef7⟩ := hon_mulc (y := 3) hE g6 s6
    (show EV E c6 c6.val v6 (x0 * x0).val by ev)
  have g7 := g6.ext e7
  have n7 := Nxt.val e7
  obtain ⟨v8, c8, m8, e8, s8, ef8⟩ := hon_addc (y := a) hE g7 s7
    (show EV E c7 c7.val v7 ((x0 * x0) * 3).val by ev) f4
  have g8 := g7.ext e8
  have n8 := Nxt.val e8
  obtain ⟨v9, c9, m9, e9, s9, ef9⟩ := hon_mul hE g8 s8
    (show EV E c8 c8.val v8 ((x0 * x0) * 3 + a).val by ev) (show EV E c8 c8.val v8 ((x0 * x0) * 3 + a).val by ev)
  have g9 := g8.ext e9
  have n9 := Nxt.val e9
  obtain ⟨v10, c10, m10, e10, s10, ef10⟩ := hon_mul hE g9 s9
    (show EV E c9 c9.val v5 (((x2 + (x0 + x1)) * (y0 + y0)) * (y0 + y0)).val by ev) (show EV E c9 c9.val dc (d).val
      by ev)
  have g10 := g9.ext e10
  have n10 := Nxt.val e10
  obtain ⟨v11, c11, m11, e11, s11, ef11⟩ := hon_mul hE g10 s10
    (show EV E c10 c10.val v9 (((x0 * x0) * 3 + a) * ((x0 * x0) * 3 + a)).val by ev) (show EV E c10 c10.val dc
      (d).val by ev)
  have g11 := g10.ext e11
  have n11 := Nxt.val e11
  obtain ⟨v12, c12, m12, e12, s12⟩ := hon_eq g11 s11
    (show EV E c11 c11.val v10 ((((x2 + (x0 + x1)) * (y0 + y0)) * (y0 + y0)) * d).val by ev) (show EV E c11 c11.val
      v11 ((((x0 * x0) * 3 + a) * ((x0 * x0) * 3 + a)) * d).val by ev) q1
  have g12 := g11.ext e12
  have n12 := Nxt.val e12
  obtain ⟨v13, c13, m13, e13, s13, ef13⟩ := hon_add hE g12 s12
    (show EV E c12 c12.val R.y (y2).val by ev) (show EV E c12 c12.val P.y (y0).val by ev) f5
  have g13 := g12.ext e13
  have n13 := Nxt.val e13
  obtain ⟨v14, c14, m14, e14, s14, ef14⟩ := hon_mul hE g13 s13
    (show EV E c13 c13.val v13 (y2 + y0).val by ev) (show EV E c13 c13.val v1 (y0 + y0).val by ev)
  have g14 := g13.ext e14
  have n14 := Nxt.val e14
  obtain ⟨v15, c15, m15, e15, s15, ef15⟩ := hon_sub hE g14 s14
    (show EV E c14 c14.val P.x (x0).val by ev) (show EV E c14 c14.val R.x (x2).val by ev) f6
  have g15 := g14.ext e15
  have n15 := Nxt.val e15
  obtain ⟨v16, c16, m16, e16, s16, ef16⟩ := hon_mul hE g15 s15
    (show EV E c15 c15.val v8 ((x0 * x0) * 3 + a).val by ev) (show EV E c15 c15.val v15 (x0 - x2).val by ev)
  have g16 := g15.ext e16
  have n16 := Nxt.val e16
  obtain ⟨v17, c17, m17, e17, s17, ef17⟩ := hon_mul hE g16 s16
    (show EV E c16 c16.val v14 ((y2 + y0) * (y0 + y0)).val by ev) (show EV E c16 c16.val dc (d).val by ev)
  have g17 := g16.ext e17
  have n17 := Nxt.val e17
  obtain ⟨v18, c18, m18, e18, s18, ef18⟩ := hon_mul hE g17 s17
    (show EV E c17 c17.val v16 (((x0 * x0) * 3 + a) * (x0 - x2)).val by ev) (show EV E c17 c17.val dc (d).val by ev)
  have g18 := g17.ext e18
  have n18 := Nxt.val e18
  obtain ⟨v19, c19, m19, e19, s19⟩ := hon_eq g18 s18
    (show EV E c18 c18.val v17 (((y2 + y0) * (y0 + y0)) * d).val by ev) (show EV E c18 c18.val v18 ((((x0 * x0) * 3
      + a) * (x0 - x2)) * d).val by ev) q2
  have g19 := g18.ext e19
  have n19 := Nxt.val e19
  refine ⟨(v3, v15), c19, ?_, (((((((((((((((((e1.trans e2).trans e3).trans e4).trans e5).trans e6).trans e7).trans
    e8).trans e9).trans e10).trans e11).trans e12).trans e13).trans e14).trans e15).trans e16).trans e17).trans
    e18).trans e19, s19, by ev, by ev⟩
  unfold swDouble
  have k3 : 3 % E.q = (3 : ZMod E.q).val := (ZMod.val_natCast E.q 3).symm
  rw [k3]
  rw [bind_of_ok m1, bind_of_ok m2, bind_of_ok m3, bind_of_ok m4, bind_of_ok m5, bind_of_ok m6, bind_of_ok m7,
    bind_of_ok m8, bind_of_ok m9, bind_of_ok m10, bind_of_ok m11, bind_of_ok m12, bind_of_ok m13, bind_of_ok m14,
    bind_of_ok m15, bind_of_ok m16, bind_of_ok m17, bind_of_ok m18, bind_of_ok m19]
  rfl

theorem hon_swChord [Fact p.Prime] {E : Emu} [Fact E.q.Prime] (hE : E.OK p) {x0 y0 x1 y1 y2 x012 x02 k : ZMod E.q} {P Q R : SwVar} {l1 l2 ac : List ℕ} {c : Circ p}
    {pi : List (ZMod p)} (g0 : Good c) (s0 : Sat c pi c.val)
    (h_x0 : EV E c c.val P.x (x0).val) (h_y0 : EV E c c.val P.y (y0).val) (h_x1 : EV E c c.val Q.x (x1).val) (h_y1
      : EV E c c.val Q.y (y1).val) (h_y2 : EV E c c.val R.y (y2).val) (h_x012 : EV E c c.val l1 (x012).val) (h_x02
      : EV E c c.val l2 (x02).val) (h_k : EV E c c.val ac (k).val)
    (f1 : AddFits E (x0 - x1).val (x1).val)
    (f2 : AddFits E (y0 - y1).val (y1).val)
    (f3 : AddFits E (y0).val (y2).val)
    (q1 : (((x0 - x1) * (x0 - x1)) * x012) * k = ((y0 - y1) * (y0 - y1)) * k)
    (q2 : (x02 * (y0 - y1)) * k = ((y0 + y2) * (x0 - x1)) * k) :
    ∃ (r : Unit) (c' : Circ p), swChord E P Q R l1 l2 ac c = .ok (r, c') ∧ Ext c c' ∧ Sat c' pi c'.val := by
  obtain ⟨v1, c1, m1, e1, s1, ef1⟩ := hon_sub hE g0 s0
    (show EV E c c.val P.x (x0).val by ev) (show EV E c c.val Q.x (x1).val by ev) f1
  have g1 := g0.ext e1
  have n1 := Nxt.val e1
  obtain ⟨v2, c2, m2, e2, s2, ef2⟩ := hon_mul hE g1 s1
    (show EV E c1 c1.val v1 (x0 - x1).val by ev) (show EV E c1 c1.val v1 (x0 - x1).val by ev)
  have g2 := g1.ext e2
  have n2 := Nxt.val e2
  obtain ⟨v3, c3, m3, e3, s3, ef3⟩ := hon_mul hE g2 s2
    (show EV E c2 c2.val v2 ((x0 - x1) * (x0 - x1)).val by ev) (show EV E c2 c2.val l1 (x012).val by ev)
  have g3 := g2.ext e3
  have n3 := Nxt.val e3
  obtain ⟨v4, c4, m4, e4, s4, ef4⟩ := hon_sub hE g3 s3
    (show EV E c3 c3.val P.y (y0).val by ev) (show EV E c3 c3.val Q.y (y1).val by ev) f2
  have g4 := g3.ext e4
  have n4 := Nxt.val e4
  obtain ⟨v5, c5, m5, e5, s5, ef5⟩ := hon_mul hE g4 s4
    (show EV E c4 c4.val v4 (y0 - y1).val by ev) (show EV E c4 c4.val v4 (y0 - y1).val by ev)
  have g5 := g4.ext e5
  have n5 := Nxt.val e5
  obtain ⟨v6, c6, m6, e6, s6, ef6⟩ := hon_mul hE g5 s5
    (show EV E c5 c5.val v3 (((x0 - x1) * (x0 - x1)) * x012).val by ev) (show EV E c5 c5.val ac (k).val by ev)
  have g6 := g5.ext e6
  have n6 := Nxt.val e6
  obtain ⟨v7, c7, m7, e7, s7, ef7⟩ := hon_mul hE g6 s6
    (show EV E c6 c6.val v5 ((y0 - y1) * (y0 - y1)).val by ev) (show EV E c6 c6.val ac (k).val by ev)
  have g7 := g6.ext e7
  have n7 := Nxt.val e7
  obtain ⟨v8, c8, m8, e8, s8⟩ := hon_eq g7 s7
    (show EV E c7 c7.val v6 ((((x0 - x1) * (x0 - x1)) * x012) * k).val by ev) (show EV E c7 c7.val v7 (((y0 - y1) *
      (y0 - y1)) * k).val by ev) q1
  have g8 := g7.ext e8
  have n8 := Nxt.val e8
  obtain ⟨v9, c9, m9, e9, s9, ef9⟩ := hon_mul hE g8 s8
    (show EV E c8 c8.val l2 (x02).val by ev) (show EV E c8 c8.val v4 (y0 - y1).val by ev)
  have g9 := g8.ext e9
  have n9 := Nxt.val e9
  obtain ⟨v10, c10, m10, e10, s10, ef10⟩ := hon_add hE g9 s9
    (show EV E c9 c9.val P.y (y0).val by ev) (show EV E c9 c9.val R.y (y2).val by ev) f3
  have g10 := g9.ext e10
  have n10 := Nxt.val e10
  obtain ⟨v11, c11, m11, e11, s11, ef11⟩ := hon_mul hE g10 s10
    (show EV E c10 c10.val v10 (y0 + y2).val by ev) (show EV E c10 c10.val v1 (x0 - x1).val by ev)
  have g11 := g10.ext e11
  have n11 := Nxt.val e11
  obtain ⟨v12, c12, m12, e12, s12, ef12⟩ := hon_mul hE g11 s11
    (show EV E c11 c11.val v9 (x02 * (y0 - y1)).val by ev) (show EV E c11 c11.val ac (k).val by ev)
  have g12 := g11.ext e12
  have n12 := Nxt.val e12
  obtain ⟨v13, c13, m13, e13, s13, ef13⟩ := hon_mul hE g12 s12
    (show EV E c12 c12.val v11 ((y0 + y2) * (x0 - x1)).val by ev) (show EV E c12 c12.val ac (k).val by ev)
  have g13 := g12.ext e13
  have n13 := Nxt.val e13
  obtain ⟨v14, c14, m14, e14, s14⟩ := hon_eq g13 s13
    (show EV E c13 c13.val v12 ((x02 * (y0 - y1)) * k).val by ev) (show EV E c13 c13.val v13 (((y0 + y2) * (x0 -
      x1)) * k).val by ev) q2
  have g14 := g13.ext e14
  have n14 := Nxt.val e14
  refine ⟨v14, c14, ?_, ((((((((((((e1.trans e2).trans e3).trans e4).trans e5).trans e6).trans e7).trans e8).trans
    e9).trans e10).trans e11).trans e12).trans e13).trans e14, s14⟩
  unfold swChord
  rw [bind_of_ok m1, bind_of_ok m2, bind_of_ok m3, bind_of_ok m4, bind_of_ok m5, bind_of_ok m6, bind_of_ok m7,
    bind_of_ok m8, bind_of_ok m9, bind_of_ok m10, bind_of_ok m11, bind_of_ok m12, bind_of_ok m13, m14]

end Verif.Props.Emulated
