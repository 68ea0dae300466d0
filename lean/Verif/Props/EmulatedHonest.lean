import Verif.Props.EmulatedSwChain

/-!
# Sequences of calls on emulated variables: the witness the builder stores

For canonical arguments: when a call succeeds and the stored witness satisfies the constraints, and what it stores.
-/

set_option linter.unusedSectionVars false

namespace Verif.Props.Emulated

open Verif.Circuit Verif.Props.Circuit

variable {p : ℕ}

theorem Nxt.val {c c' : Circ p} (e : Ext c c') : Nxt c c.val c' c'.val := ⟨e, e.val⟩

section
variable {E : Emu} {c : Circ p} {a b : List ℕ} {pi : List (ZMod p)} {x y : ZMod E.q}

theorem hon_computes {m : Build p (List ℕ)} {dom : Circ p → Prop} {pre : (ℕ → ZMod p) → Prop}
    {rel : (ℕ → ZMod p) → ℕ → Prop} {canon hon : (ℕ → ZMod p) → Prop} {out : (ℕ → ZMod p) → ℕ}
    (h : Computes E m dom pre rel canon hon out) {c : Circ p} (hc : WF c) (hd : dom c)
    (hs : Sat c pi c.val) (h1 : canon c.val) (h2 : hon c.val) :
    ∃ v c', m c = .ok (v, c') ∧ Ext c c' ∧ Sat c' pi c'.val ∧ EV E c' c'.val v (out c.val) := by
  obtain ⟨h3, h4⟩ := h.honest c hc hd pi ((checkSat_ok hc pi).2 hs) h1
  obtain ⟨v, c', hm, hck⟩ := h3.2 h2
  obtain ⟨e, hv⟩ := ext_computes h hc hd hm
  have s := (checkSat_ok e.wf pi).1 hck
  exact ⟨v, c', hm, e, s, hv, (h.var c hc hd v c' hm).2 pi _ s, h4 v c' hm⟩

variable [hp : Fact p.Prime] [hq : Fact E.q.Prime]

theorem hon_mul (hE : E.OK p) (g : Good c) (hs : Sat c pi c.val) (ha : EV E c c.val a x.val)
    (hb : EV E c c.val b y.val) :
    ∃ v c', emulatedMul E a b c = .ok (v, c') ∧ Ext c c' ∧ Sat c' pi c'.val ∧ EV E c' c'.val v (x * y).val := by
  have := hon_computes (C28_mul hE a b) g.wf ⟨g.rg, ha.var, hb.var⟩ hs
    ⟨⟨ha.rng, hb.rng⟩, by rw [ha.val]; exact ZMod.val_lt x, by rw [hb.val]; exact ZMod.val_lt y⟩ trivial
  rwa [ha.val, hb.val, ← ZMod.val_mul] at this

theorem hon_mulc (hE : E.OK p) (g : Good c) (hs : Sat c pi c.val) (ha : EV E c c.val a x.val) :
    ∃ v c', emulatedMulConstant E a y.val c = .ok (v, c') ∧ Ext c c' ∧ Sat c' pi c'.val ∧
      EV E c' c'.val v (x * y).val := by
  have := hon_computes (C28_mul_constant hE a y.val (ZMod.val_lt y)) g.wf ⟨g.rg, ha.var⟩ hs
    ⟨ha.rng, by rw [ha.val]; exact ZMod.val_lt x⟩ trivial
  rwa [ha.val, ← ZMod.val_mul] at this

theorem hon_add (hE : E.OK p) (g : Good c) (hs : Sat c pi c.val) (ha : EV E c c.val a x.val)
    (hb : EV E c c.val b y.val) (hf : AddFits E x.val y.val) :
    ∃ v c', emulatedAdd E a b c = .ok (v, c') ∧ Ext c c' ∧ Sat c' pi c'.val ∧ EV E c' c'.val v (x + y).val := by
  have := hon_computes (C29_add hE a b) g.wf ⟨g.rg, ha.var, hb.var⟩ hs
    ⟨⟨ha.rng, hb.rng⟩, by rw [ha.val]; exact ZMod.val_lt x, by rw [hb.val]; exact ZMod.val_lt y⟩
    (by rwa [ha.val, hb.val])
  rwa [ha.val, hb.val, ← ZMod.val_add] at this

theorem hon_addc (hE : E.OK p) (g : Good c) (hs : Sat c pi c.val) (ha : EV E c c.val a x.val)
    (hf : AddFits E x.val y.val) :
    ∃ v c', emulatedAddConstant E a y.val c = .ok (v, c') ∧ Ext c c' ∧ Sat c' pi c'.val ∧
      EV E c' c'.val v (x + y).val := by
  have := hon_computes (C29_add_constant hE a y.val (ZMod.val_lt y)) g.wf ⟨g.rg, ha.var⟩ hs
    ⟨ha.rng, by rw [ha.val]; exact ZMod.val_lt x⟩ (by rwa [ha.val])
  rwa [ha.val, ← ZMod.val_add] at this

theorem val_sub' (x y : ZMod E.q) : (x.val + (E.q - y.val)) % E.q = (x - y).val := by
  rw [← ZMod.val_natCast, Nat.cast_add, Nat.cast_sub (ZMod.val_lt y).le]
  simp [sub_eq_add_neg]

theorem hon_sub (hE : E.OK p) (g : Good c) (hs : Sat c pi c.val) (ha : EV E c c.val a x.val)
    (hb : EV E c c.val b y.val) (hf : AddFits E (x - y).val y.val) :
    ∃ v c', emulatedSub E a b c = .ok (v, c') ∧ Ext c c' ∧ Sat c' pi c'.val ∧ EV E c' c'.val v (x - y).val := by
  have := hon_computes (C29_sub hE a b) g.wf ⟨g.rg, ha.var, hb.var⟩ hs
    ⟨⟨ha.rng, hb.rng⟩, by rw [ha.val]; exact ZMod.val_lt x, by rw [hb.val]; exact ZMod.val_lt y⟩
    (by rwa [ha.val, hb.val, val_sub'])
  rwa [ha.val, hb.val, val_sub'] at this

theorem hon_eq (g : Good c) (hs : Sat c pi c.val) (ha : EV E c c.val a x.val) (hb : EV E c c.val b y.val)
    (he : x = y) : ∃ u c', enforceEmulatedEqual a b c = .ok (u, c') ∧ Ext c c' ∧ Sat c' pi c'.val := by
  have hl : a.length = b.length := by rw [ha.var.1, hb.var.1]
  have hv : a.map c.val = b.map c.val := (value_inj hl ha.rng hb.rng).1 (by rw [ha.val, hb.val, he])
  obtain ⟨u, c', hm, s⟩ := (enforceEmulatedEqual_spec a b g.wf hl).complete ⟨ha.var.2, hb.var.2, hv⟩ pi hs
  exact ⟨u, c', hm, ext_eq g ha.var hb.var hm, s⟩

theorem hon_addGate {v : List ℕ} (hE : E.OK p) (g : Good c) (hs : Sat c pi c.val) (ha : EV E c c.val a x.val)
    (hb : EV E c c.val b y.val) {z : ZMod E.q} (hv : EV E c c.val v z.val) (he : x + y = z)
    (hf : AddFits E x.val y.val) :
    ∃ u c', emulatedAddGate E a b v c = .ok (u, c') ∧ Ext c c' ∧ Sat c' pi c'.val := by
  obtain ⟨u, c', hm, hck⟩ := ((C29_add_gate hE a b v).honest c g.wf ⟨g.rg, ha.var, hb.var, hv.var⟩ pi
    ((checkSat_ok g.wf pi).2 hs) ⟨⟨ha.rng, hb.rng, hv.rng⟩, by rw [ha.val]; exact ZMod.val_lt x,
      by rw [hb.val]; exact ZMod.val_lt y, by rw [ha.val, hb.val, hv.val, ← he, ZMod.val_add]⟩).2
    (by rwa [ha.val, hb.val])
  have e := ext_addGate hE g ha.var hb.var hv.var hm
  exact ⟨u, c', hm, e, (checkSat_ok e.wf pi).1 hck⟩

end

section
variable {E : Emu} {c : Circ p} {pi : List (ZMod p)} [hp : Fact p.Prime] {i j : ℕ} {x y : ZMod p}

theorem hon_bmul (g : Good c) (hs : Sat c pi c.val) (hi : BV c c.val i x) (hj : BV c c.val j y) :
    ∃ v c', mul i j c = .ok (v, c') ∧ Ext c c' ∧ Sat c' pi c'.val ∧ BV c' c'.val v (x * y) := by
  obtain ⟨v, c', hm, s⟩ := (mul_spec g.wf i j).complete ⟨hi.var, hj.var⟩ pi hs
  have e := (ext_bmul g hm).1
  have n : Nxt c c.val c c'.val := ⟨Ext.refl g.wf, e.val⟩
  exact ⟨v, c', hm, e, s, snd_bmul g hm s (hi.mono n) (hj.mono n)⟩

theorem hon_bor (g : Good c) (hs : Sat c pi c.val) (hi : BV c c.val i x) (hj : BV c c.val j y) :
    ∃ v c', logicOr i j c = .ok (v, c') ∧ Ext c c' ∧ Sat c' pi c'.val ∧ BV c' c'.val v (x + y - x * y) := by
  obtain ⟨v, c', hm, s⟩ := (logicOr_spec g.wf i j).complete ⟨hi.var, hj.var⟩ pi hs
  have e := (ext_bor g hm).1
  have n : Nxt c c.val c c'.val := ⟨Ext.refl g.wf, e.val⟩
  exact ⟨v, c', hm, e, s, snd_bor g hm s (hi.mono n) (hj.mono n)⟩

theorem hon_band (g : Good c) (hs : Sat c pi c.val) (hi : BV c c.val i x) (hj : BV c c.val j y) :
    ∃ v c', logicAnd i j c = .ok (v, c') ∧ Ext c c' ∧ Sat c' pi c'.val ∧ BV c' c'.val v (x * y) := by
  obtain ⟨v, c', hm, s⟩ := (logicAnd_spec g.wf i j).complete ⟨hi.var, hj.var⟩ pi hs
  have e := (ext_band g hm).1
  have n : Nxt c c.val c c'.val := ⟨Ext.refl g.wf, e.val⟩
  exact ⟨v, c', hm, e, s, snd_band g hm s (hi.mono n) (hj.mono n)⟩

theorem hon_bneg (g : Good c) (hs : Sat c pi c.val) (hi : BV c c.val i x) :
    ∃ v c', logicNeg i c = .ok (v, c') ∧ Ext c c' ∧ Sat c' pi c'.val ∧ BV c' c'.val v (if x = 0 then 1 else 0) := by
  obtain ⟨v, c', hm, s⟩ := (logicNeg_spec g.wf i).complete hi.var pi hs
  have e := (ext_bneg g hm).1
  have n : Nxt c c.val c c'.val := ⟨Ext.refl g.wf, e.val⟩
  exact ⟨v, c', hm, e, s, snd_bneg g hm s (hi.mono n)⟩

theorem hon_beq (g : Good c) (hs : Sat c pi c.val) (hi : BV c c.val i x) (hj : BV c c.val j y) :
    ∃ v c', isEqual i j c = .ok (v, c') ∧ Ext c c' ∧ Sat c' pi c'.val ∧
      BV c' c'.val v (if x = y then 1 else 0) := by
  obtain ⟨v, c', hm, s⟩ := (isEqual_spec g.wf i j).complete ⟨hi.var, hj.var⟩ pi hs
  have e := (ext_beq g hm).1
  have n : Nxt c c.val c c'.val := ⟨Ext.refl g.wf, e.val⟩
  exact ⟨v, c', hm, e, s, snd_beq g hm s (hi.mono n) (hj.mono n)⟩

theorem hon_genf (g : Good c) (hs : Sat c pi c.val) (hi : BV c c.val i x) (hj : BV c c.val j y) (h : x = y) :
    ∃ u c', enforceEqual i j c = .ok (u, c') ∧ Ext c c' ∧ Sat c' pi c'.val := by
  obtain ⟨v, c', hm, s⟩ := (enforceEqual_spec g.wf i j).complete
    ⟨⟨hi.var, hj.var⟩, by rw [hi.val, hj.val, h]⟩ pi hs
  exact ⟨v, c', hm, ext_genf g hm, s⟩

theorem hon_gor (g : Good c) (hs : Sat c pi c.val) (hi : BV c c.val i x) (hj : BV c c.val j y) (h : x = 1 ∨ y = 1) :
    ∃ u c', logicOrGate i j c = .ok (u, c') ∧ Ext c c' ∧ Sat c' pi c'.val := by
  obtain ⟨v, c', hm, s⟩ := (logicOrGate_spec g.wf i j).complete
    ⟨⟨hi.var, hj.var⟩, by rwa [hi.val, hj.val]⟩ pi hs
  exact ⟨v, c', hm, ext_gor g hm, s⟩

variable {a b : List ℕ} {X Y : ℕ}

theorem hon_beeq (hE : E.OK p) (g : Good c) (hs : Sat c pi c.val) (ha : EV E c c.val a X) (hb : EV E c c.val b Y) :
    ∃ v c', isEmulatedEqual a b c = .ok (v, c') ∧ Ext c c' ∧ Sat c' pi c'.val ∧
      BV c' c'.val v (if X = Y then 1 else 0) := by
  obtain ⟨v, c', hm, s⟩ := (isEmulatedEqual_spec a b g.wf (ha.var.1.trans hb.var.1.symm)).complete
    ⟨ha.var.ne_nil hE, ha.var.2, hb.var.2⟩ pi hs
  have e := (ext_beeq hE g ha.var hb.var hm).1
  have n : Nxt c c.val c c'.val := ⟨Ext.refl g.wf, e.val⟩
  exact ⟨v, c', hm, e, s, snd_beeq hE g hm s (ha.mono n) (hb.mono n)⟩

theorem hon_bzero (hE : E.OK p) (g : Good c) (hs : Sat c pi c.val) (ha : EV E c c.val a X) :
    ∃ v c', isEmulatedZero a c = .ok (v, c') ∧ Ext c c' ∧ Sat c' pi c'.val ∧
      BV c' c'.val v (if X = 0 then 1 else 0) := by
  obtain ⟨v, c', hm, s⟩ := (isEmulatedZero_spec a g.wf).complete ⟨ha.var.ne_nil hE, ha.var.2⟩ pi hs
  have e := (ext_bzero g hm).1
  have n : Nxt c c.val c c'.val := ⟨Ext.refl g.wf, e.val⟩
  exact ⟨v, c', hm, e, s, snd_bzero hE g hm s (ha.mono n)⟩

variable {P Q : SwVar} {x0 y0 x1 y1 : ℕ} {i0 i1 : ZMod p}

theorem hon_pteq (hE : E.OK p) (g0 : Good c) (s0 : Sat c pi c.val)
    (h_x0 : EV E c c.val P.x x0) (h_y0 : EV E c c.val P.y y0) (h_i0 : BV c c.val P.inf i0)
    (h_x1 : EV E c c.val Q.x x1) (h_y1 : EV E c c.val Q.y y1) (h_i1 : BV c c.val Q.inf i1) :
    ∃ v c', isSwEqual P Q c = .ok (v, c') ∧ Ext c c' ∧ Sat c' pi c'.val ∧
      BV c' c'.val v ((if x0 = x1 then 1 else 0) * (if y0 = y1 then 1 else 0) * (if i0 = i1 then 1 else 0)) := by
  obtain ⟨v1, c1, m1, e1, s1, f1⟩ := hon_beeq hE g0 s0 h_x0 h_x1
  have g1 := g0.ext e1
  have n1 := Nxt.val e1
  obtain ⟨v2, c2, m2, e2, s2, f2⟩ := hon_beeq hE g1 s1 (h_y0.mono n1) (h_y1.mono n1)
  have g2 := g1.ext e2
  have n2 := Nxt.val e2
  obtain ⟨v3, c3, m3, e3, s3, f3⟩ := hon_beq g2 s2 ((h_i0.mono n1).mono n2) ((h_i1.mono n1).mono n2)
  have g3 := g2.ext e3
  have n3 := Nxt.val e3
  obtain ⟨v4, c4, m4, e4, s4, f4⟩ := hon_bmul g3 s3 ((f1.mono n2).mono n3) (f2.mono n3)
  have g4 := g3.ext e4
  have n4 := Nxt.val e4
  obtain ⟨v5, c5, m5, e5, s5, f5⟩ := hon_bmul g4 s4 f4 (f3.mono n4)
  refine ⟨v5, c5, ?_, (((e1.trans e2).trans e3).trans e4).trans e5, s5, f5⟩
  unfold isSwEqual
  rw [bind_of_ok m1, bind_of_ok m2, bind_of_ok m3, bind_of_ok m4, m5]

end

end Verif.Props.Emulated
