import Verif.Props.EmulatedAdd
import Verif.Props.EmulatedCmp
import Verif.Circuit.EmulatedCurve

/-!
# Sequences of calls on emulated variables

Tools to follow the value of an emulated variable through a sequence of calls, in an assignment for the circuit at
the end (what the constraints force) and in an assignment that is extended call by call (what can be reached).
-/

set_option linter.unusedSectionVars false

namespace Verif.Props.Emulated

open Verif.Circuit Verif.Props.Circuit

variable {p : ℕ} {α : Type}

/-- a well-formed circuit in which range checks work -/
structure Good (c : Circ p) : Prop where
  wf : WF c
  rg : RangeOK c

theorem Good.ext {c c' : Circ p} (g : Good c) (e : Ext c c') : Good c' := ⟨e.wf, g.rg.ext e⟩

/-- `c'` extends `c`, and `w'` extends `w` -/
structure Nxt (c : Circ p) (w : ℕ → ZMod p) (c' : Circ p) (w' : ℕ → ZMod p) : Prop where
  ext : Ext c c'
  agree : Agree c w' w

theorem Nxt.same {c c' : Circ p} (e : Ext c c') (w : ℕ → ZMod p) : Nxt c w c' w := ⟨e, fun _ _ => rfl⟩

theorem Nxt.trans {c c' c'' : Circ p} {w w' w'' : ℕ → ZMod p} (h : Nxt c w c' w') (h' : Nxt c' w' c'' w'') :
    Nxt c w c'' w'' :=
  ⟨h.ext.trans h'.ext, fun i hi => (h'.agree i (h.ext.lt hi)).trans (h.agree i hi)⟩

/-- an emulated variable with limbs in range and value `x` -/
structure EV (E : Emu) (c : Circ p) (w : ℕ → ZMod p) (a : List ℕ) (x : ℕ) : Prop where
  var : IsVar E a c
  rng : Ranged E w a
  val : value E.B w a = x

theorem IsVar.up {E : Emu} {a : List ℕ} {c c' : Circ p} (e : Ext c c') (h : IsVar E a c) : IsVar E a c' :=
  ⟨h.1, fun v hv => e.lt (h.2 v hv)⟩

theorem EV.mono {E : Emu} {c c' : Circ p} {w w' : ℕ → ZMod p} {a : List ℕ} {x : ℕ} (n : Nxt c w c' w')
    (h : EV E c w a x) : EV E c' w' a x :=
  ⟨h.var.up n.ext, h.rng.congr h.var n.agree, (value_agree h.var n.agree).trans h.val⟩

theorem EV.lt {E : Emu} (hE : E.OK p) {c : Circ p} {w : ℕ → ZMod p} {a : List ℕ} {x : ℕ} (h : EV E c w a x) :
    x < 2 ^ E.T := by
  have := value_lt h.rng
  rw [h.var.1, ← hE.hT, h.val] at this
  exact this

/-- a variable with a given value -/
structure BV (c : Circ p) (w : ℕ → ZMod p) (i : ℕ) (b : ZMod p) : Prop where
  var : i < c.numVars
  val : w i = b

theorem BV.mono {c c' : Circ p} {w w' : ℕ → ZMod p} {i : ℕ} {b : ZMod p} (n : Nxt c w c' w') (h : BV c w i b) :
    BV c' w' i b := ⟨n.ext.lt h.var, (n.agree i h.var).trans h.val⟩

/-! ## One call -/

section
variable {E : Emu} {c c' : Circ p} {w : ℕ → ZMod p} {a b v : List ℕ} {x y : ℕ} {pi : List (ZMod p)}

theorem ext_computes {E : Emu} {m : Build p (List ℕ)} {dom : Circ p → Prop} {pre : (ℕ → ZMod p) → Prop}
    {rel : (ℕ → ZMod p) → ℕ → Prop} {canon hon : (ℕ → ZMod p) → Prop} {out : (ℕ → ZMod p) → ℕ}
    (h : Computes E m dom pre rel canon hon out) {c : Circ p} (hc : WF c) (hd : dom c) {v : List ℕ} {c' : Circ p}
    (hm : m c = .ok (v, c')) : Ext c c' ∧ IsVar E v c' := by
  obtain ⟨h1, h2, h3, h4⟩ := h.wf c hc hd v c' hm
  exact ⟨⟨h1, h2, h3, h4.ultra, h.old c hc hd v c' hm, h4⟩, (h.var c hc hd v c' hm).1⟩

theorem snd_computes {E : Emu} {m : Build p (List ℕ)} {dom : Circ p → Prop} {pre : (ℕ → ZMod p) → Prop}
    {rel : (ℕ → ZMod p) → ℕ → Prop} {canon hon : (ℕ → ZMod p) → Prop} {out : (ℕ → ZMod p) → ℕ}
    (h : Computes E m dom pre rel canon hon out) {c : Circ p} (hc : WF c) (hd : dom c) {v : List ℕ} {c' : Circ p}
    (hm : m c = .ok (v, c')) {pi : List (ZMod p)} {w : ℕ → ZMod p} (hs : Sat c' pi w) (hp : pre w) :
    ∃ z, z < 2 ^ E.T ∧ rel w z ∧ EV E c' w v z := by
  obtain ⟨h1, h2⟩ := (h.exact c hc hd v c' hm pi w (h.old c hc hd v c' hm pi w hs) hp (value E.B w v)).1
    ⟨w, fun _ _ => rfl, hs, rfl⟩
  obtain ⟨h3, h4⟩ := h.var c hc hd v c' hm
  exact ⟨_, h1, h2, h3, h4 pi w hs, rfl⟩

theorem rch_computes {E : Emu} {m : Build p (List ℕ)} {dom : Circ p → Prop} {pre : (ℕ → ZMod p) → Prop}
    {rel : (ℕ → ZMod p) → ℕ → Prop} {canon hon : (ℕ → ZMod p) → Prop} {out : (ℕ → ZMod p) → ℕ}
    (h : Computes E m dom pre rel canon hon out) {c : Circ p} (hc : WF c) (hd : dom c) {v : List ℕ} {c' : Circ p}
    (hm : m c = .ok (v, c')) {pi : List (ZMod p)} {w : ℕ → ZMod p} (hs : Sat c pi w) (hp : pre w) {z : ℕ}
    (hz : z < 2 ^ E.T) (hr : rel w z) : ∃ w', Nxt c w c' w' ∧ Sat c' pi w' ∧ EV E c' w' v z := by
  obtain ⟨w', h1, h2, h3⟩ := (h.exact c hc hd v c' hm pi w hs hp z).2 ⟨hz, hr⟩
  obtain ⟨h5, h4⟩ := h.var c hc hd v c' hm
  exact ⟨w', ⟨(ext_computes h hc hd hm).1, h1⟩, h2, h5, h4 pi w' h2, h3⟩

variable [hp : Fact p.Prime]

theorem ext_mul (hE : E.OK p) (g : Good c) (ha : IsVar E a c) (hb : IsVar E b c)
    (hm : emulatedMul E a b c = .ok (v, c')) : Ext c c' ∧ IsVar E v c' :=
  ext_computes (C28_mul hE a b) g.wf ⟨g.rg, ha, hb⟩ hm

theorem snd_mul (hE : E.OK p) (g : Good c) (hm : emulatedMul E a b c = .ok (v, c')) (hs : Sat c' pi w)
    (ha : EV E c w a x) (hb : EV E c w b y) :
    ∃ z, z < 2 ^ E.T ∧ MulRel p E x y z ∧ EV E c' w v z := by
  have := snd_computes (C28_mul hE a b) g.wf ⟨g.rg, ha.var, hb.var⟩ hm hs ⟨ha.rng, hb.rng⟩
  rwa [ha.val, hb.val] at this

theorem rch_mul (hE : E.OK p) (g : Good c) (hm : emulatedMul E a b c = .ok (v, c')) (hs : Sat c pi w)
    (ha : EV E c w a x) (hb : EV E c w b y) {z : ℕ} (hz : z < 2 ^ E.T) (hr : MulRel p E x y z) :
    ∃ w', Nxt c w c' w' ∧ Sat c' pi w' ∧ EV E c' w' v z := by
  refine rch_computes (C28_mul hE a b) g.wf ⟨g.rg, ha.var, hb.var⟩ hm hs ⟨ha.rng, hb.rng⟩ hz ?_
  rwa [ha.val, hb.val]

theorem ext_mulc (hE : E.OK p) (g : Good c) (ha : IsVar E a c) {k : ℕ} (hk : k < E.q)
    (hm : emulatedMulConstant E a k c = .ok (v, c')) : Ext c c' ∧ IsVar E v c' :=
  ext_computes (C28_mul_constant hE a k hk) g.wf ⟨g.rg, ha⟩ hm

theorem snd_mulc (hE : E.OK p) (g : Good c) {k : ℕ} (hk : k < E.q)
    (hm : emulatedMulConstant E a k c = .ok (v, c')) (hs : Sat c' pi w) (ha : EV E c w a x) :
    ∃ z, z < 2 ^ E.T ∧ MulRel p E x k z ∧ EV E c' w v z := by
  have := snd_computes (C28_mul_constant hE a k hk) g.wf ⟨g.rg, ha.var⟩ hm hs ha.rng
  rwa [ha.val] at this

theorem rch_mulc (hE : E.OK p) (g : Good c) {k : ℕ} (hk : k < E.q)
    (hm : emulatedMulConstant E a k c = .ok (v, c')) (hs : Sat c pi w) (ha : EV E c w a x)
    {z : ℕ} (hz : z < 2 ^ E.T) (hr : MulRel p E x k z) :
    ∃ w', Nxt c w c' w' ∧ Sat c' pi w' ∧ EV E c' w' v z := by
  refine rch_computes (C28_mul_constant hE a k hk) g.wf ⟨g.rg, ha.var⟩ hm hs ha.rng hz ?_
  rwa [ha.val]

theorem ext_add (hE : E.OK p) (g : Good c) (ha : IsVar E a c) (hb : IsVar E b c)
    (hm : emulatedAdd E a b c = .ok (v, c')) : Ext c c' ∧ IsVar E v c' :=
  ext_computes (C29_add hE a b) g.wf ⟨g.rg, ha, hb⟩ hm

theorem snd_add (hE : E.OK p) (g : Good c) (hm : emulatedAdd E a b c = .ok (v, c')) (hs : Sat c' pi w)
    (ha : EV E c w a x) (hb : EV E c w b y) :
    ∃ z, z < 2 ^ E.T ∧ AddRel E x y z ∧ EV E c' w v z := by
  have := snd_computes (C29_add hE a b) g.wf ⟨g.rg, ha.var, hb.var⟩ hm hs ⟨ha.rng, hb.rng⟩
  rwa [ha.val, hb.val] at this

theorem rch_add (hE : E.OK p) (g : Good c) (hm : emulatedAdd E a b c = .ok (v, c')) (hs : Sat c pi w)
    (ha : EV E c w a x) (hb : EV E c w b y) {z : ℕ} (hz : z < 2 ^ E.T) (hr : AddRel E x y z) :
    ∃ w', Nxt c w c' w' ∧ Sat c' pi w' ∧ EV E c' w' v z := by
  refine rch_computes (C29_add hE a b) g.wf ⟨g.rg, ha.var, hb.var⟩ hm hs ⟨ha.rng, hb.rng⟩ hz ?_
  rwa [ha.val, hb.val]

theorem ext_addc (hE : E.OK p) (g : Good c) (ha : IsVar E a c) {k : ℕ} (hk : k < E.q)
    (hm : emulatedAddConstant E a k c = .ok (v, c')) : Ext c c' ∧ IsVar E v c' :=
  ext_computes (C29_add_constant hE a k hk) g.wf ⟨g.rg, ha⟩ hm

theorem snd_addc (hE : E.OK p) (g : Good c) {k : ℕ} (hk : k < E.q)
    (hm : emulatedAddConstant E a k c = .ok (v, c')) (hs : Sat c' pi w) (ha : EV E c w a x) :
    ∃ z, z < 2 ^ E.T ∧ AddRel E x k z ∧ EV E c' w v z := by
  have := snd_computes (C29_add_constant hE a k hk) g.wf ⟨g.rg, ha.var⟩ hm hs ha.rng
  rwa [ha.val] at this

theorem rch_addc (hE : E.OK p) (g : Good c) {k : ℕ} (hk : k < E.q)
    (hm : emulatedAddConstant E a k c = .ok (v, c')) (hs : Sat c pi w) (ha : EV E c w a x)
    {z : ℕ} (hz : z < 2 ^ E.T) (hr : AddRel E x k z) :
    ∃ w', Nxt c w c' w' ∧ Sat c' pi w' ∧ EV E c' w' v z := by
  refine rch_computes (C29_add_constant hE a k hk) g.wf ⟨g.rg, ha.var⟩ hm hs ha.rng hz ?_
  rwa [ha.val]

theorem ext_sub (hE : E.OK p) (g : Good c) (ha : IsVar E a c) (hb : IsVar E b c)
    (hm : emulatedSub E a b c = .ok (v, c')) : Ext c c' ∧ IsVar E v c' :=
  ext_computes (C29_sub hE a b) g.wf ⟨g.rg, ha, hb⟩ hm

theorem snd_sub (hE : E.OK p) (g : Good c) (hm : emulatedSub E a b c = .ok (v, c')) (hs : Sat c' pi w)
    (ha : EV E c w a x) (hb : EV E c w b y) :
    ∃ z, z < 2 ^ E.T ∧ AddRel E z y x ∧ EV E c' w v z := by
  have := snd_computes (C29_sub hE a b) g.wf ⟨g.rg, ha.var, hb.var⟩ hm hs ⟨ha.rng, hb.rng⟩
  rwa [ha.val, hb.val] at this

theorem rch_sub (hE : E.OK p) (g : Good c) (hm : emulatedSub E a b c = .ok (v, c')) (hs : Sat c pi w)
    (ha : EV E c w a x) (hb : EV E c w b y) {z : ℕ} (hz : z < 2 ^ E.T) (hr : AddRel E z y x) :
    ∃ w', Nxt c w c' w' ∧ Sat c' pi w' ∧ EV E c' w' v z := by
  refine rch_computes (C29_sub hE a b) g.wf ⟨g.rg, ha.var, hb.var⟩ hm hs ⟨ha.rng, hb.rng⟩ hz ?_
  rwa [ha.val, hb.val]

theorem ext_eq {u : Unit} (g : Good c) (ha : IsVar E a c) (hb : IsVar E b c)
    (hm : enforceEmulatedEqual a b c = .ok (u, c')) : Ext c c' := by
  have h := C71_enforce_equal (p := p) E a b
  obtain ⟨h1, h2, h3, h4⟩ := h.wf c g.wf ⟨ha, hb⟩ u c' hm
  exact ⟨h1, h2, h3, h4.ultra, fun pi w hs => (h.sound c g.wf ⟨ha, hb⟩ u c' hm pi w hs).1, h4⟩

theorem snd_eq {u : Unit} (g : Good c) (hm : enforceEmulatedEqual a b c = .ok (u, c')) (hs : Sat c' pi w)
    (ha : EV E c w a x) (hb : EV E c w b y) : x = y := by
  have h := ((C71_enforce_equal (p := p) E a b).sound c g.wf ⟨ha.var, hb.var⟩ u c' hm pi w hs).2.2
  rwa [ha.val, hb.val] at h

theorem rch_eq {u : Unit} (g : Good c) (hm : enforceEmulatedEqual a b c = .ok (u, c')) (hs : Sat c pi w)
    (ha : EV E c w a x) (hb : EV E c w b y) (he : x = y) : ∃ w', Nxt c w c' w' ∧ Sat c' pi w' := by
  obtain ⟨w', h1, h2⟩ := (C71_enforce_equal (p := p) E a b).complete c g.wf ⟨ha.var, hb.var⟩ u c' hm pi w hs
    ⟨ha.rng, hb.rng, by rw [ha.val, hb.val, he]⟩
  exact ⟨w', ⟨ext_eq g ha.var hb.var hm, h1⟩, h2⟩

theorem ext_addGate {u : Unit} (hE : E.OK p) (g : Good c) (ha : IsVar E a c) (hb : IsVar E b c) (hv : IsVar E v c)
    (hm : emulatedAddGate E a b v c = .ok (u, c')) : Ext c c' := by
  have h := C29_add_gate (p := p) hE a b v
  obtain ⟨h1, h2, h3, h4⟩ := h.wf c g.wf ⟨g.rg, ha, hb, hv⟩ u c' hm
  exact ⟨h1, h2, h3, h4.ultra, h.old c g.wf ⟨g.rg, ha, hb, hv⟩ u c' hm, h4⟩

theorem snd_addGate {u : Unit} {z : ℕ} (hE : E.OK p) (g : Good c) (hm : emulatedAddGate E a b v c = .ok (u, c'))
    (hs : Sat c' pi w) (ha : EV E c w a x) (hb : EV E c w b y) (hv : EV E c w v z) : AddRel E x y z := by
  have h := C29_add_gate (p := p) hE a b v
  have hd : RangeOK c ∧ IsVar E a c ∧ IsVar E b c ∧ IsVar E v c := ⟨g.rg, ha.var, hb.var, hv.var⟩
  have := (h.exact c g.wf hd u c' hm pi w (h.old c g.wf hd u c' hm pi w hs) ⟨ha.rng, hb.rng, hv.rng⟩).1
    ⟨w, fun _ _ => rfl, hs⟩
  rwa [ha.val, hb.val, hv.val] at this

theorem rch_addGate {u : Unit} {z : ℕ} (hE : E.OK p) (g : Good c) (hm : emulatedAddGate E a b v c = .ok (u, c'))
    (hs : Sat c pi w) (ha : EV E c w a x) (hb : EV E c w b y) (hv : EV E c w v z) (hr : AddRel E x y z) :
    ∃ w', Nxt c w c' w' ∧ Sat c' pi w' := by
  have h := C29_add_gate (p := p) hE a b v
  have hd : RangeOK c ∧ IsVar E a c ∧ IsVar E b c ∧ IsVar E v c := ⟨g.rg, ha.var, hb.var, hv.var⟩
  obtain ⟨w', h1, h2⟩ := (h.exact c g.wf hd u c' hm pi w hs ⟨ha.rng, hb.rng, hv.rng⟩).2
    (by rwa [ha.val, hb.val, hv.val])
  exact ⟨w', ⟨ext_addGate hE g ha.var hb.var hv.var hm, h1⟩, h2⟩

end

/-! ## Bits -/

section
variable {E : Emu} {c c' : Circ p} {w : ℕ → ZMod p} {pi : List (ZMod p)}

theorem rch_spec {m : Build p α} (hrel : Rel m m) (g : Good c) {C : Circ p → Prop} {B : α → Circ p → Prop}
    {R : α → (ℕ → ZMod p) → Prop} (hs : ∀ c : Circ p, WF c → C c → Spec m c (C c) B R) (h0 : C c)
    (hC : C (c.assign w)) {v : α} (hm : m c = .ok (v, c')) (hw : Sat c pi w) :
    ∃ w', Nxt c w c' w' ∧ Sat c' pi w' ∧ B v c' ∧ R v w' := by
  obtain ⟨d', -, -, hR, h1, h2⟩ := (hs _ (assign_wf g.wf w) hC).universal'' hrel g.wf hC hm hw
  obtain ⟨e, hB, -⟩ := (hs _ g.wf h0).sound _ _ hm
  exact ⟨d'.val, ⟨e, h1⟩, h2, hB, hR⟩

variable [hp : Fact p.Prime] {i j v : ℕ} {x y : ZMod p}

theorem ext_bmul (g : Good c) (hm : mul i j c = .ok (v, c')) : Ext c c' ∧ v < c'.numVars :=
  let h := (mul_spec g.wf i j).sound _ _ hm
  ⟨h.1, h.2.1⟩

theorem snd_bmul (g : Good c) (hm : mul i j c = .ok (v, c')) (hs : Sat c' pi w) (hi : BV c w i x) (hj : BV c w j y) :
    BV c' w v (x * y) := by
  obtain ⟨-, h1, h2⟩ := (mul_spec g.wf i j).sound _ _ hm
  have := h2 pi w hs
  rw [hi.val, hj.val] at this
  exact ⟨h1, this⟩

theorem rch_bmul (g : Good c) (hm : mul i j c = .ok (v, c')) (hs : Sat c pi w) (hi : BV c w i x) (hj : BV c w j y) :
    ∃ w', Nxt c w c' w' ∧ Sat c' pi w' ∧ BV c' w' v (x * y) := by
  obtain ⟨w', n, h1, h2, h3⟩ := rch_spec (C := fun c => i < c.numVars ∧ j < c.numVars) (mul_rel i j) g
    (fun c hc _ => mul_spec hc i j) ⟨hi.var, hj.var⟩ ⟨hi.var, hj.var⟩ hm hs
  rw [n.agree i hi.var, n.agree j hj.var, hi.val, hj.val] at h3
  exact ⟨w', n, h1, h2, h3⟩

theorem ext_bor (g : Good c) (hm : logicOr i j c = .ok (v, c')) : Ext c c' ∧ v < c'.numVars :=
  let h := (logicOr_spec g.wf i j).sound _ _ hm
  ⟨h.1, h.2.1⟩

theorem snd_bor (g : Good c) (hm : logicOr i j c = .ok (v, c')) (hs : Sat c' pi w) (hi : BV c w i x) (hj : BV c w j y) :
    BV c' w v (x + y - x * y) := by
  obtain ⟨-, h1, h2⟩ := (logicOr_spec g.wf i j).sound _ _ hm
  have := h2 pi w hs
  rw [hi.val, hj.val] at this
  exact ⟨h1, this⟩

theorem rch_bor (g : Good c) (hm : logicOr i j c = .ok (v, c')) (hs : Sat c pi w) (hi : BV c w i x) (hj : BV c w j y) :
    ∃ w', Nxt c w c' w' ∧ Sat c' pi w' ∧ BV c' w' v (x + y - x * y) := by
  obtain ⟨w', n, h1, h2, h3⟩ := rch_spec (C := fun c => i < c.numVars ∧ j < c.numVars) (logicOr_rel i j) g
    (fun c hc _ => logicOr_spec hc i j) ⟨hi.var, hj.var⟩ ⟨hi.var, hj.var⟩ hm hs
  rw [n.agree i hi.var, n.agree j hj.var, hi.val, hj.val] at h3
  exact ⟨w', n, h1, h2, h3⟩

theorem ext_band (g : Good c) (hm : logicAnd i j c = .ok (v, c')) : Ext c c' ∧ v < c'.numVars :=
  let h := (logicAnd_spec g.wf i j).sound _ _ hm
  ⟨h.1, h.2.1⟩

theorem snd_band (g : Good c) (hm : logicAnd i j c = .ok (v, c')) (hs : Sat c' pi w) (hi : BV c w i x) (hj : BV c w j y) :
    BV c' w v (x * y) := by
  obtain ⟨-, h1, h2⟩ := (logicAnd_spec g.wf i j).sound _ _ hm
  have := h2 pi w hs
  rw [hi.val, hj.val] at this
  exact ⟨h1, this⟩

theorem rch_band (g : Good c) (hm : logicAnd i j c = .ok (v, c')) (hs : Sat c pi w) (hi : BV c w i x) (hj : BV c w j y) :
    ∃ w', Nxt c w c' w' ∧ Sat c' pi w' ∧ BV c' w' v (x * y) := by
  obtain ⟨w', n, h1, h2, h3⟩ := rch_spec (C := fun c => i < c.numVars ∧ j < c.numVars) (logicAnd_rel i j) g
    (fun c hc _ => logicAnd_spec hc i j) ⟨hi.var, hj.var⟩ ⟨hi.var, hj.var⟩ hm hs
  rw [n.agree i hi.var, n.agree j hj.var, hi.val, hj.val] at h3
  exact ⟨w', n, h1, h2, h3⟩

theorem ext_bneg (g : Good c) (hm : logicNeg i c = .ok (v, c')) : Ext c c' ∧ v < c'.numVars :=
  let h := (logicNeg_spec g.wf i).sound _ _ hm
  ⟨h.1, h.2.1⟩

theorem snd_bneg (g : Good c) (hm : logicNeg i c = .ok (v, c')) (hs : Sat c' pi w) (hi : BV c w i x) :
    BV c' w v (if x = 0 then 1 else 0) := by
  obtain ⟨-, h1, h2⟩ := (logicNeg_spec g.wf i).sound _ _ hm
  have := h2 pi w hs
  rw [hi.val] at this
  exact ⟨h1, this⟩

theorem rch_bneg (g : Good c) (hm : logicNeg i c = .ok (v, c')) (hs : Sat c pi w) (hi : BV c w i x) :
    ∃ w', Nxt c w c' w' ∧ Sat c' pi w' ∧ BV c' w' v (if x = 0 then 1 else 0) := by
  obtain ⟨w', n, h1, h2, h3⟩ := rch_spec (C := fun c => i < c.numVars) (logicNeg_rel i) g
    (fun c hc _ => logicNeg_spec hc i) hi.var hi.var hm hs
  rw [n.agree i hi.var, hi.val] at h3
  exact ⟨w', n, h1, h2, h3⟩

theorem ext_beq (g : Good c) (hm : isEqual i j c = .ok (v, c')) : Ext c c' ∧ v < c'.numVars :=
  let h := (isEqual_spec g.wf i j).sound _ _ hm
  ⟨h.1, h.2.1⟩

theorem snd_beq (g : Good c) (hm : isEqual i j c = .ok (v, c')) (hs : Sat c' pi w) (hi : BV c w i x) (hj : BV c w j y) :
    BV c' w v (if x = y then 1 else 0) := by
  obtain ⟨-, h1, h2⟩ := (isEqual_spec g.wf i j).sound _ _ hm
  have := h2 pi w hs
  rw [hi.val, hj.val] at this
  exact ⟨h1, this⟩

theorem rch_beq (g : Good c) (hm : isEqual i j c = .ok (v, c')) (hs : Sat c pi w) (hi : BV c w i x) (hj : BV c w j y) :
    ∃ w', Nxt c w c' w' ∧ Sat c' pi w' ∧ BV c' w' v (if x = y then 1 else 0) := by
  obtain ⟨w', n, h1, h2, h3⟩ := rch_spec (C := fun c => i < c.numVars ∧ j < c.numVars) (isEqual_rel i j) g
    (fun c hc _ => isEqual_spec hc i j) ⟨hi.var, hj.var⟩ ⟨hi.var, hj.var⟩ hm hs
  rw [n.agree i hi.var, n.agree j hj.var, hi.val, hj.val] at h3
  exact ⟨w', n, h1, h2, h3⟩

theorem ext_genf {u : Unit} (g : Good c) (hm : enforceEqual i j c = .ok (u, c')) : Ext c c' :=
  ((enforceEqual_spec g.wf i j).sound _ _ hm).1

theorem snd_genf {u : Unit} (g : Good c) (hm : enforceEqual i j c = .ok (u, c')) (hs : Sat c' pi w)
    (hi : BV c w i x) (hj : BV c w j y) : x = y := by
  have := ((enforceEqual_spec g.wf i j).sound _ _ hm).2.2 pi w hs
  rwa [hi.val, hj.val] at this

theorem rch_genf {u : Unit} (g : Good c) (hm : enforceEqual i j c = .ok (u, c')) (hs : Sat c pi w)
    (hi : BV c w i x) (hj : BV c w j y) (h : x = y) : ∃ w', Nxt c w c' w' ∧ Sat c' pi w' := by
  obtain ⟨d', -, -, -, h1, h2⟩ := (enforceEqual_spec (assign_wf g.wf w) i j).universal'' (enforceEqual_rel i j) g.wf
    ⟨⟨hi.var, hj.var⟩, by rw [assign_val c w hi.var, assign_val c w hj.var, hi.val, hj.val, h]⟩ hm hs
  exact ⟨d'.val, ⟨ext_genf g hm, h1⟩, h2⟩

theorem ext_gor {u : Unit} (g : Good c) (hm : logicOrGate i j c = .ok (u, c')) : Ext c c' :=
  ((logicOrGate_spec g.wf i j).sound _ _ hm).1

theorem snd_gor {u : Unit} (g : Good c) (hm : logicOrGate i j c = .ok (u, c')) (hs : Sat c' pi w)
    (hi : BV c w i x) (hj : BV c w j y) : x = 1 ∨ y = 1 := by
  have := ((logicOrGate_spec g.wf i j).sound _ _ hm).2.2 pi w hs
  rwa [hi.val, hj.val] at this

theorem rch_gor {u : Unit} (g : Good c) (hm : logicOrGate i j c = .ok (u, c')) (hs : Sat c pi w)
    (hi : BV c w i x) (hj : BV c w j y) (h : x = 1 ∨ y = 1) : ∃ w', Nxt c w c' w' ∧ Sat c' pi w' := by
  obtain ⟨d', -, -, -, h1, h2⟩ := (logicOrGate_spec (assign_wf g.wf w) i j).universal'' (logicOrGate_rel i j) g.wf
    ⟨⟨hi.var, hj.var⟩, by rwa [assign_val c w hi.var, assign_val c w hj.var, hi.val, hj.val]⟩ hm hs
  exact ⟨d'.val, ⟨ext_gor g hm, h1⟩, h2⟩

variable {a b : List ℕ} {X Y : ℕ}

theorem IsVar.ne_nil (hE : E.OK p) (ha : IsVar E a c) : a ≠ [] := by
  rintro rfl
  have h1 := ha.1
  have h2 := hE.hn
  simp at h1
  omega

theorem ext_beeq (hE : E.OK p) (g : Good c) (ha : IsVar E a c) (hb : IsVar E b c)
    (hm : isEmulatedEqual a b c = .ok (v, c')) : Ext c c' ∧ v < c'.numVars :=
  let h := (isEmulatedEqual_spec a b g.wf (ha.1.trans hb.1.symm)).sound _ _ hm
  ⟨h.1, h.2.1⟩

theorem snd_beeq (hE : E.OK p) (g : Good c) (hm : isEmulatedEqual a b c = .ok (v, c')) (hs : Sat c' pi w)
    (ha : EV E c w a X) (hb : EV E c w b Y) : BV c' w v (if X = Y then 1 else 0) := by
  have h := (C71_is_equal hE.hn a b).sound c g.wf ⟨ha.var, hb.var⟩ v c' hm pi w hs
  have := h.2 ha.rng hb.rng
  rw [ha.val, hb.val] at this
  exact ⟨(ext_beeq hE g ha.var hb.var hm).2, this⟩

theorem rch_beeq (hE : E.OK p) (g : Good c) (hm : isEmulatedEqual a b c = .ok (v, c')) (hs : Sat c pi w)
    (ha : EV E c w a X) (hb : EV E c w b Y) :
    ∃ w', Nxt c w c' w' ∧ Sat c' pi w' ∧ BV c' w' v (if X = Y then 1 else 0) := by
  have e := ext_beeq hE g ha.var hb.var hm
  obtain ⟨w', h1, h2⟩ := (C71_is_equal hE.hn a b).complete c g.wf ⟨ha.var, hb.var⟩ v c' hm pi w hs trivial
  have n0 : Nxt c w c w' := ⟨Ext.refl g.wf, h1⟩
  exact ⟨w', ⟨e.1, h1⟩, h2, snd_beeq hE g hm h2 (ha.mono n0) (hb.mono n0)⟩

theorem ext_bzero (g : Good c) (hm : isEmulatedZero a c = .ok (v, c')) : Ext c c' ∧ v < c'.numVars :=
  let h := (isEmulatedZero_spec a g.wf).sound _ _ hm
  ⟨h.1, h.2.1⟩

theorem snd_bzero (hE : E.OK p) (g : Good c) (hm : isEmulatedZero a c = .ok (v, c')) (hs : Sat c' pi w)
    (ha : EV E c w a X) : BV c' w v (if X = 0 then 1 else 0) := by
  have h := ((C71_is_zero hE.hn a).sound c g.wf ha.var v c' hm pi w hs).2
  rw [ha.val] at h
  exact ⟨(ext_bzero g hm).2, h⟩

theorem rch_bzero (hE : E.OK p) (g : Good c) (hm : isEmulatedZero a c = .ok (v, c')) (hs : Sat c pi w)
    (ha : EV E c w a X) : ∃ w', Nxt c w c' w' ∧ Sat c' pi w' ∧ BV c' w' v (if X = 0 then 1 else 0) := by
  obtain ⟨w', h1, h2⟩ := (C71_is_zero hE.hn a).complete c g.wf ha.var v c' hm pi w hs trivial
  have n0 : Nxt c w c w' := ⟨Ext.refl g.wf, h1⟩
  exact ⟨w', ⟨(ext_bzero g hm).1, h1⟩, h2, snd_bzero hE g hm h2 (ha.mono n0)⟩

end

/-! ## Closing goals about earlier variables -/

/-- `IsVar` and `<` at a later circuit -/
macro "iv" : tactic => `(tactic| (repeat (first | assumption | refine IsVar.up ‹Ext _ _› ?_)))

/-- `EV` at a later circuit -/
macro "ev" : tactic => `(tactic| (repeat (first | assumption | refine EV.mono ‹Nxt _ _ _ _› ?_)))

/-- `BV` at a later circuit -/
macro "bv" : tactic => `(tactic| (repeat (first | assumption | refine BV.mono ‹Nxt _ _ _ _› ?_)))

/-- `Good` at a later circuit -/
macro "gd" : tactic => `(tactic| (repeat (first | assumption | refine Good.ext ?_ ‹Ext _ _›)))

end Verif.Props.Emulated
