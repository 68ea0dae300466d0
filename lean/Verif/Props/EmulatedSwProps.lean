import Verif.Props.EmulatedSw
import Verif.Props.EmulatedSwLaw
import Verif.Props.EmulatedSwHonest

/-!
# Emulated short Weierstrass addition: what the gate accepts (property C36)
-/

set_option linter.unusedSectionVars false

namespace Verif.Props.Emulated

open Verif.Circuit Verif.Props.Circuit WeierstrassCurve.Affine

variable {p : ℕ}

/-! ## The witness that the builder stores -/

/-- the additions and subtractions of `emulated_sw_ecc_add_gate` have no carry that ripples (see `AddFits`) -/
def SwFits (E : Emu) (a : ZMod E.q) (x0 y0 x1 y1 x2 y2 : ZMod E.q) : Prop :=
  AddFits E y0.val y0.val ∧ AddFits E x0.val x1.val ∧ AddFits E x2.val (x0 + x1).val ∧
  AddFits E (x0 * x0 * 3).val a.val ∧ AddFits E y2.val y0.val ∧ AddFits E (x0 - x2).val x2.val ∧
  AddFits E (x0 - x1).val x1.val ∧ AddFits E (y0 - y1).val y1.val ∧ AddFits E y0.val y2.val

/-- multiplication and addition in the field with `q` elements -/
abbrev fmul (q : ℕ) (x y z : ℕ) : Prop := (z : ZMod q) = x * y
/-- addition in the field with `q` elements -/
abbrev fadd (q : ℕ) (x y z : ℕ) : Prop := (x + y : ZMod q) = z

theorem exact_field (q : ℕ) : Exact q (fmul q) (fadd q) := ⟨fun _ _ _ h => h, fun _ _ _ h => h⟩

theorem honest_field (q : ℕ) [Fact q.Prime] : Honest q q (fmul q) (fadd q) :=
  ⟨fun u v => by simp [fmul], fun u v => by simp [fadd], le_rfl⟩

theorem hon_swAddGate [Fact p.Prime] {E : Emu} [Fact E.q.Prime] (hE : E.OK p)
    {a x0 y0 x1 y1 x2 y2 : ZMod E.q} {i0 i1 i2 : Bool} {P Q R : SwVar} {c : Circ p} {pi : List (ZMod p)}
    (g0 : Good c) (s0 : Sat c pi c.val) (hP : Stands E c c.val P ⟨x0.val, y0.val, i0⟩)
    (hQ : Stands E c c.val Q ⟨x1.val, y1.val, i1⟩) (hR : Stands E c c.val R ⟨x2.val, y2.val, i2⟩)
    (hf : SwFits E a x0 y0 x1 y1 x2 y2)
    (hr : SwRel E.q (fmul E.q) (fadd E.q) a.val (3 % E.q) ⟨x0.val, y0.val, i0⟩ ⟨x1.val, y1.val, i1⟩
      ⟨x2.val, y2.val, i2⟩) :
    ∃ u c', swAddGate E a.val P Q R c = .ok (u, c') ∧ Ext c c' ∧ Sat c' pi c'.val := by
  obtain ⟨f1, f2, f3, f4, f5, f6, f7, f8, f9⟩ := hf
  obtain ⟨r1, r2, r3, x012, x02, hd, hch⟩ := hr
  obtain ⟨d1, d2, d3⟩ := (exact_field E.q).double hd
  have d4 := (exact_field E.q).chord d1 d2 hch
  simp only [ZMod.natCast_zmod_val, (ZMod.val_injective E.q).eq_iff, ne_eq, ZMod.val_eq_zero, ite_eq_left_iff,
    zero_ne_one, imp_false, not_not] at d3 d4
  obtain ⟨⟨nim, nex, dc⟩, c1, m1, e1, s1, b1, b2, b3⟩ := hon_swFlags hE g0 s0 hP.x hP.y hP.inf hQ.x hQ.y hQ.inf
    hR.x hR.y hR.inf (flagRel_iff.2 ⟨r1, r2, rfl, rfl, r3, rfl⟩)
  have g1 := g0.ext e1
  have n1 := Nxt.val e1
  have v1 := ev_bitVar (E := E) hE g1 s1 b3
  rw [val_ite (q := E.q)] at v1
  simp only [ne_eq, ZMod.val_eq_zero, (ZMod.val_injective E.q).eq_iff] at v1
  obtain ⟨⟨l1, l2⟩, c2, m2, e2, s2, t1, t2⟩ := hon_swDouble (a := a) hE g1 s1 (hP.x.mono n1) (hP.y.mono n1)
    (hQ.x.mono n1) (hR.x.mono n1) (hR.y.mono n1) v1 f1 f2 f3 f4 f5 f6
    (by split
        · rename_i h; rw [(d3 h).1]
        · simp)
    (by split
        · rename_i h; rw [(d3 h).2]
        · simp)
  have g2 := g1.ext e2
  have n2 := Nxt.val e2
  obtain ⟨ac, c3, m3, e3, s3, b4⟩ := hon_bmul g2 s2 (b1.mono n2) (b2.mono n2)
  have hk : ((if i0 = false ∧ i1 = false then 1 else 0) * (if x0.val ≠ x1.val then 1 else 0) : ZMod p)
      = if i0 = false ∧ i1 = false ∧ x0.val ≠ x1.val then 1 else 0 := by
    by_cases h : i0 = false ∧ i1 = false <;> by_cases hx : x0.val = x1.val <;> simp [h, hx, ← and_assoc]
  replace b4 := b4.val.trans hk |> fun h => (⟨b4.var, h⟩ : BV c3 c3.val ac _)
  have g3 := g2.ext e3
  have n3 := Nxt.val e3
  have v2 := ev_bitVar (E := E) hE g3 s3 b4
  rw [val_ite (q := E.q)] at v2
  simp only [ne_eq, (ZMod.val_injective E.q).eq_iff] at v2
  have n13 := (n1.trans n2).trans n3
  obtain ⟨u, c4, m4, e4, s4⟩ := hon_swChord hE g3 s3 (hP.x.mono n13) (hP.y.mono n13) (hQ.x.mono n13)
    (hQ.y.mono n13) (hR.y.mono n13) (t1.mono n3) (t2.mono n3) v2 f7 f8 f9
    (by split
        · rename_i h; rw [(d4 h).1]
        · simp)
    (by split
        · rename_i h; rw [(d4 h).2]
        · simp)
  refine ⟨u, c4, ?_, ((e1.trans e2).trans e3).trans e4, s4⟩
  unfold swAddGate
  rw [bind_of_ok m1]
  simp only
  rw [bind_of_ok m2]
  simp only
  rw [bind_of_ok m3, m4]

/-! ## New point variables -/

section create
variable [hp : Fact p.Prime] {E : Emu} {c : Circ p} {pi : List (ZMod p)}

theorem hon_create (hE : E.OK p) (g : Good c) (hs : Sat c pi c.val) {x : ℕ} (hx : x < 2 ^ E.T) :
    ∃ v c', createEmulated E x c = .ok (v, c') ∧ Ext c c' ∧ Sat c' pi c'.val ∧ EV E c' c'.val v x :=
  hon_computes (C71_create hE x) g.wf g.rg hs hx trivial

theorem hon_bool (g : Good c) (hs : Sat c pi c.val) (b : Bool) :
    ∃ v c', createBooleanVariable b c = .ok (v, c') ∧ Ext c c' ∧ Sat c' pi c'.val ∧
      BV c' c'.val v (if b then 1 else 0) := by
  obtain ⟨v, c', hm, s⟩ := (createBooleanVariable_spec g.wf b).complete trivial pi hs
  obtain ⟨e, ⟨h1, h2⟩, -⟩ := (createBooleanVariable_spec g.wf b).sound _ _ hm
  exact ⟨v, c', hm, e, s, h1, by rw [h2]; cases b <;> rfl⟩

theorem hon_createSw (hE : E.OK p) (g : Good c) (hs : Sat c pi c.val) {A : SwPoint} (hx : A.x < 2 ^ E.T)
    (hy : A.y < 2 ^ E.T) :
    ∃ v c', createSw E A c = .ok (v, c') ∧ Ext c c' ∧ Sat c' pi c'.val ∧ Stands E c' c'.val v A := by
  obtain ⟨v1, c1, m1, e1, s1, f1⟩ := hon_create hE g hs hx
  have g1 := g.ext e1
  obtain ⟨v2, c2, m2, e2, s2, f2⟩ := hon_create hE g1 s1 hy
  have g2 := g1.ext e2
  obtain ⟨v3, c3, m3, e3, s3, f3⟩ := hon_bool g2 s2 A.inf
  refine ⟨⟨v1, v2, v3⟩, c3, ?_, (e1.trans e2).trans e3, s3,
    (f1.mono (Nxt.val e2)).mono (Nxt.val e3), f2.mono (Nxt.val e3), f3⟩
  unfold createSw
  rw [bind_of_ok m1, bind_of_ok m2, bind_of_ok m3]
  rfl

theorem ext_createSw (hE : E.OK p) (g : Good c) {A : SwPoint} {c' : Circ p} {v : SwVar}
    (hm : createSw E A c = .ok (v, c')) :
    Ext c c' ∧ IsVar E v.x c' ∧ IsVar E v.y c' ∧ v.inf < c'.numVars := by
  unfold createSw at hm
  obtain ⟨v1, c1, m1, hm⟩ := bind_ok hm
  obtain ⟨v2, c2, m2, hm⟩ := bind_ok hm
  obtain ⟨v3, c3, m3, hm⟩ := bind_ok hm
  obtain ⟨e1, i1⟩ := ext_computes (C71_create hE A.x) g.wf g.rg m1
  have g1 := g.ext e1
  obtain ⟨e2, i2⟩ := ext_computes (C71_create hE A.y) g1.wf g1.rg m2
  have g2 := g1.ext e2
  obtain ⟨e3, ⟨h1, -⟩, -⟩ := (createBooleanVariable_spec g2.wf A.inf).sound _ _ m3
  cases hm
  exact ⟨(e1.trans e2).trans e3, (i1.up e2).up e3, i2.up e3, h1⟩

/-- every point can be assigned to a new variable -/
theorem rch_createSw (hE : E.OK p) (g : Good c) {A B : SwPoint} {c' : Circ p} {v : SwVar}
    (hm : createSw E A c = .ok (v, c')) {w : ℕ → ZMod p} (hs : Sat c pi w) (hx : B.x < 2 ^ E.T)
    (hy : B.y < 2 ^ E.T) : ∃ w', Nxt c w c' w' ∧ Sat c' pi w' ∧ Stands E c' w' v B := by
  unfold createSw at hm
  obtain ⟨v1, c1, m1, hm⟩ := bind_ok hm
  obtain ⟨v2, c2, m2, hm⟩ := bind_ok hm
  obtain ⟨v3, c3, m3, hm⟩ := bind_ok hm
  obtain ⟨w1, n1, s1, f1⟩ := rch_computes (C71_create hE A.x) g.wf g.rg m1 hs trivial hx trivial
  have g1 := g.ext n1.ext
  obtain ⟨w2, n2, s2, f2⟩ := rch_computes (C71_create hE A.y) g1.wf g1.rg m2 s1 trivial hy trivial
  have g2 := g1.ext n2.ext
  obtain ⟨e3, -, -⟩ := (createBooleanVariable_spec g2.wf A.inf).sound _ _ m3
  obtain ⟨d, hsame, ⟨h1, h2⟩, -, h3, h4⟩ := (createBooleanVariable_spec (assign_wf g2.wf w2) B.inf).universal''
    (createBooleanVariable_rel A.inf B.inf) g2.wf trivial m3 s2
  have n3 : Nxt c2 w2 c3 d.val := ⟨e3, h3⟩
  cases hm
  refine ⟨d.val, (n1.trans n2).trans n3, h4, (f1.mono n2).mono n3, f2.mono n3, ⟨?_, ?_⟩⟩
  · have := hsame.numVars
    simpa [this] using h1
  · rw [h2]; cases B.inf <;> rfl

/-- a new variable holds a point -/
theorem snd_createSw (hE : E.OK p) (g : Good c) {A : SwPoint} {c' : Circ p} {v : SwVar}
    (hm : createSw E A c = .ok (v, c')) {w : ℕ → ZMod p} (hs : Sat c' pi w) :
    ∃ B : SwPoint, B.x < 2 ^ E.T ∧ B.y < 2 ^ E.T ∧ Stands E c' w v B := by
  unfold createSw at hm
  obtain ⟨v1, c1, m1, hm⟩ := bind_ok hm
  obtain ⟨v2, c2, m2, hm⟩ := bind_ok hm
  obtain ⟨v3, c3, m3, hm⟩ := bind_ok hm
  obtain ⟨e1, -⟩ := ext_computes (C71_create hE A.x) g.wf g.rg m1
  have g1 := g.ext e1
  obtain ⟨e2, -⟩ := ext_computes (C71_create hE A.y) g1.wf g1.rg m2
  have g2 := g1.ext e2
  obtain ⟨e3, ⟨h1, -⟩, h2⟩ := (createBooleanVariable_spec g2.wf A.inf).sound _ _ m3
  cases hm
  have s2 := e3.sat _ _ hs
  have s1 := e2.sat _ _ s2
  obtain ⟨x, hx, -, f1⟩ := snd_computes (C71_create hE A.x) g.wf g.rg m1 s1 trivial
  obtain ⟨y, hy, -, f2⟩ := snd_computes (C71_create hE A.y) g1.wf g1.rg m2 s2 trivial
  refine ⟨⟨x, y, decide (w v3 = 1)⟩, hx, hy, (f1.mono (Nxt.same e2 w)).mono (Nxt.same e3 w),
    f2.mono (Nxt.same e3 w), ⟨h1, ?_⟩⟩
  rcases h2 pi w hs with h | h <;> simp [h]

end create

/-! ## The addition gate on three new points -/

/-- the point at infinity -/
def swO : SwPoint := ⟨0, 0, true⟩

/-- the circuit `c'` made by three new point variables `A`, `B`, `C` and `emulated_sw_ecc_add_gate` on them; which
points the builder stores is of no importance here, it stores infinity -/
def SwCircuit (E : Emu) (a : ℕ) (A B C : SwVar) (c' : Circ p) : Prop :=
  ∃ c1 c2 c3 u, createSw E swO (Circ.new p none) = .ok (A, c1) ∧ createSw E swO c1 = .ok (B, c2) ∧
    createSw E swO c2 = .ok (C, c3) ∧ swAddGate E a A B C c3 = .ok (u, c')

/-- some assignment to this circuit satisfies it and gives the three variables the points `P`, `Q`, `R` -/
def Possible (p : ℕ) (E : Emu) (a : ℕ) (P Q R : SwPoint) : Prop :=
  ∃ A B C, ∃ c' : Circ p, SwCircuit E a A B C c' ∧ ∃ w, Sat c' [] w ∧
    Stands E c' w A P ∧ Stands E c' w B Q ∧ Stands E c' w C R

theorem noRipple_zero {E : Emu} (u : ℕ) : NoRipple E 0 u := by
  intro j _
  have hB : 0 < 2 ^ E.B := by positivity
  simp only [Nat.zero_div, Nat.zero_mod, Nat.zero_add]
  rw [Nat.div_eq_of_lt (Nat.mod_lt _ hB), Nat.div_eq_of_lt (Nat.mod_lt _ (by positivity))]

theorem addFits_zero {E : Emu} {u : ℕ} (hu : u < E.q) : AddFits E 0 u := by
  refine ⟨noRipple_zero u, ?_⟩
  rw [if_neg (by omega)]
  exact noRipple_zero _

section gate
variable [hp : Fact p.Prime] {E : Emu} [hq : Fact E.q.Prime]

theorem good_new : Good (Circ.new p none) := ⟨wf_new none, by intro k hk; simp [Circ.new] at hk⟩

/-- The circuit exists, and the builder's assignment (`0 + 0 = 0`) satisfies it. -/
theorem C36_sw_circuit (hE : E.OK p) (a : ZMod E.q) :
    ∃ A B C, ∃ c' : Circ p, SwCircuit E a.val A B C c' ∧ checkSat c' [] = .ok () ∧
      Stands E c' c'.val A swO ∧ Stands E c' c'.val B swO ∧ Stands E c' c'.val C swO := by
  have h0 : 0 < 2 ^ E.T := by positivity
  obtain ⟨A, c1, m1, e1, s1, t1⟩ := hon_createSw (A := swO) hE good_new (sat_new none) h0 h0
  have g1 := good_new.ext e1
  obtain ⟨B, c2, m2, e2, s2, t2⟩ := hon_createSw (A := swO) hE g1 s1 h0 h0
  have g2 := g1.ext e2
  obtain ⟨C, c3, m3, e3, s3, t3⟩ := hon_createSw (A := swO) hE g2 s2 h0 h0
  have g3 := g2.ext e3
  have hO : swO = ⟨(0 : ZMod E.q).val, (0 : ZMod E.q).val, true⟩ := by simp [swO]
  have hz (u : ZMod E.q) : AddFits E 0 u.val := addFits_zero (ZMod.val_lt u)
  have t1' := (t1.mono (Nxt.val e2)).mono (Nxt.val e3)
  have t2' := t2.mono (Nxt.val e3)
  obtain ⟨u, c', m4, e4, s4⟩ := hon_swAddGate (a := a) (x0 := 0) (y0 := 0) (x1 := 0) (y1 := 0) (x2 := 0) (y2 := 0)
    (i0 := true) (i1 := true) (i2 := true) hE g3 s3 (hO ▸ t1') (hO ▸ t2') (hO ▸ t3)
    (by
      have := hz 0
      refine ⟨?_, ?_, ?_, ?_, ?_, ?_, ?_, ?_, ?_⟩ <;> simp only [add_zero, sub_zero, mul_zero, zero_mul, ZMod.val_zero] <;>
        first | exact hz a | simpa using this)
    (by
      refine ⟨by simp, by simp, by simp, ?_⟩
      have hD := Honest.double (honest_field E.q) (a := a) (x0 := 0) (y0 := 0) (x1 := 0) (x2 := 0) (y2 := 0)
        (A := False) (by simp)
      have hC := Honest.chord (honest_field E.q) (x0 := 0) (y0 := 0) (x1 := 0) (y1 := 0) (x2 := 0) (y2 := 0)
        (A := False) (by simp)
      rw [if_neg (by simp)] at hD hC
      exact ⟨_, _, by simpa using hD, by simpa using hC⟩)
  have n4 := Nxt.val e4
  exact ⟨A, B, C, c', ⟨c1, c2, c3, u, m1, m2, m3, m4⟩, (checkSat_ok e4.wf []).2 s4, t1'.mono n4, t2'.mono n4,
    t3.mono n4⟩

/-- **C36**, exact form: which triples of points the circuit of the gate accepts. -/
theorem C36_sw_exact (hE : E.OK p) (a : ZMod E.q) {P Q R : SwPoint} (hP : P.x < 2 ^ E.T ∧ P.y < 2 ^ E.T)
    (hQ : Q.x < 2 ^ E.T ∧ Q.y < 2 ^ E.T) (hR : R.x < 2 ^ E.T ∧ R.y < 2 ^ E.T) :
    Possible p E a.val P Q R ↔ SwRel (2 ^ E.T) (MulRel p E) (AddRel E) a.val (3 % E.q) P Q R := by
  have key : ∀ A B C (c' : Circ p), SwCircuit E a.val A B C c' →
      ((∃ w, Sat c' [] w ∧ Stands E c' w A P ∧ Stands E c' w B Q ∧ Stands E c' w C R) ↔
        SwRel (2 ^ E.T) (MulRel p E) (AddRel E) a.val (3 % E.q) P Q R) := by
    rintro A B C c' ⟨c1, c2, c3, u, m1, m2, m3, m4⟩
    obtain ⟨e1, i1, j1, k1⟩ := ext_createSw hE good_new m1
    have g1 := good_new.ext e1
    obtain ⟨e2, i2, j2, k2⟩ := ext_createSw hE g1 m2
    have g2 := g1.ext e2
    obtain ⟨e3, i3, j3, k3⟩ := ext_createSw hE g2 m3
    have g3 := g2.ext e3
    obtain ⟨h1, -, h2, h3⟩ := C36_sw_gate hE (ZMod.val_lt a) g3.wf g3.rg ⟨(i1.up e2).up e3, (j1.up e2).up e3⟩
      ⟨i2.up e3, j2.up e3⟩ ⟨i3, j3⟩ m4
    constructor
    · rintro ⟨w, hs, hA, hB, hC⟩
      refine (h3 [] w P Q R (h2 _ _ hs) ?_ ?_ ?_).1 ⟨w, fun _ _ => rfl, hs⟩
      · exact ⟨⟨(i1.up e2).up e3, hA.x.rng, hA.x.val⟩, ⟨(j1.up e2).up e3, hA.y.rng, hA.y.val⟩,
          ⟨e3.lt (e2.lt k1), hA.inf.val⟩⟩
      · exact ⟨⟨i2.up e3, hB.x.rng, hB.x.val⟩, ⟨j2.up e3, hB.y.rng, hB.y.val⟩, ⟨e3.lt k2, hB.inf.val⟩⟩
      · exact ⟨⟨i3, hC.x.rng, hC.x.val⟩, ⟨j3, hC.y.rng, hC.y.val⟩, ⟨k3, hC.inf.val⟩⟩
    · intro hr
      obtain ⟨w1, n1, s1, t1⟩ := rch_createSw hE good_new m1 (sat_new none) hP.1 hP.2
      obtain ⟨w2, n2, s2, t2⟩ := rch_createSw hE g1 m2 s1 hQ.1 hQ.2
      obtain ⟨w3, n3, s3, t3⟩ := rch_createSw hE g2 m3 s2 hR.1 hR.2
      have t1' := (t1.mono n2).mono n3
      have t2' := t2.mono n3
      obtain ⟨w, hag, hs⟩ := (h3 [] w3 P Q R s3 t1' t2' t3).2 hr
      have e4 : Ext c3 c' := ext_swAddGate hE (ZMod.val_lt a) g3 ⟨(i1.up e2).up e3, (j1.up e2).up e3⟩
        ⟨i2.up e3, j2.up e3⟩ ⟨i3, j3⟩ m4
      have n4 : Nxt c3 w3 c' w := ⟨e4, hag⟩
      exact ⟨w, hs, t1'.mono n4, t2'.mono n4, t3.mono n4⟩
  constructor
  · rintro ⟨A, B, C, c', hc, hw⟩
    exact (key A B C c' hc).1 hw
  · intro hr
    obtain ⟨A, B, C, c', hc, -⟩ := C36_sw_circuit hE a
    exact ⟨A, B, C, c', hc, (key A B C c' hc).2 hr⟩

variable {a b : ZMod E.q}

theorem enc_lt (hE : E.OK p) (P : (curve E.q a b).Point) : (enc P).x < 2 ^ E.T ∧ (enc P).y < 2 ^ E.T := by
  cases P with
  | zero => exact ⟨by simp [enc], by simp [enc]⟩
  | some x y h => exact ⟨(ZMod.val_lt x).trans hE.hqT, (ZMod.val_lt y).trans hE.hqT⟩

theorem val_lt (hE : E.OK p) (x : ZMod E.q) : x.val < 2 ^ E.T := (ZMod.val_lt x).trans hE.hqT

theorem enc_lt_q (P : (curve E.q a b).Point) : (enc P).x < E.q ∧ (enc P).y < E.q := by
  cases P with
  | zero => exact ⟨hq.out.pos, hq.out.pos⟩
  | some x y h => exact ⟨ZMod.val_lt x, ZMod.val_lt y⟩

/-- the coordinates of a point as field elements, `0` for infinity -/
def px (P : (curve E.q a b).Point) : ZMod E.q := ((enc P).x : ZMod E.q)
/-- second coordinate -/
def py (P : (curve E.q a b).Point) : ZMod E.q := ((enc P).y : ZMod E.q)

theorem enc_eq (P : (curve E.q a b).Point) : enc P = ⟨(px P).val, (py P).val, (enc P).inf⟩ := by
  unfold px py
  rw [ZMod.val_cast_of_lt (enc_lt_q P).1, ZMod.val_cast_of_lt (enc_lt_q P).2]

theorem accepts_sum (P Q : (curve E.q a b).Point) (hn : P = 0 ∨ Q = 0 ∨ P + Q ≠ 0) : Accepts P Q (enc (P + Q)) := by
  refine ⟨?_, ?_, ?_⟩
  · rw [enc_inj]; constructor
    · rintro rfl; rw [zero_add]
    · intro h; exact right_eq_add.1 h
  · rw [enc_inj]; constructor
    · rintro rfl; rw [add_zero]
    · intro h; exact left_eq_add.1 h
  · intro nP nQ
    have hs : P + Q ≠ 0 := by tauto
    rw [if_neg hs]
    generalize P + Q = S at hs
    cases S with
    | zero => exact absurd rfl hs
    | some x y h => exact ⟨x, y, h, rfl, by simp [enc], by simp [enc]⟩

/-- **C36, completeness, part that holds**: the right sum is accepted, except for two opposite points. Missing:
`P + (-P)`, see `C36_sw_inverse_counterexample`. -/
theorem C36_sw_complete_partial (hE : E.OK p) (h2 : E.q ≠ 2) (P Q : (curve E.q a b).Point)
    (hn : P = 0 ∨ Q = 0 ∨ P + Q ≠ 0) : Possible p E a.val (enc P) (enc Q) (enc (P + Q)) := by
  rw [C36_sw_exact hE a (enc_lt hE P) (enc_lt hE Q) (enc_lt hE _)]
  have key := accepts_sum P Q hn
  rw [enc_eq (P + Q)] at key ⊢
  exact accepts_swRel h2 (honest_gates hE) P Q _ _ _ key

/-- infinity is not accepted as a sum of two finite points with the same first coordinate -/
theorem not_swRel_inverse {N a' : ℕ} {mul add : ℕ → ℕ → ℕ → Prop} (h2 : E.q ≠ 2) (P Q : (curve E.q a b).Point)
    (hP : P ≠ 0) (hs : P + Q = 0) : ¬ SwRel N mul add a' (3 % E.q) (enc P) (enc Q) (enc (P + Q)) := by
  rw [hs]
  rintro ⟨-, -, h3, -⟩
  have hQ : Q ≠ 0 := by rintro rfl; exact hP (by simpa using hs)
  cases P with
  | zero => exact hP rfl
  | some x0 y0 h0 =>
  cases Q with
  | zero => exact hQ rfl
  | some x1 y1 h1 =>
  simp only [enc_some, enc_zero, Bool.false_eq_true, false_or, (ZMod.val_injective E.q).eq_iff, ne_eq,
    ZMod.val_eq_zero] at h3
  have hx : x0 = x1 ∧ y0 = -y1 := by
    rw [add_eq_zero_iff_eq_neg, Point.neg_some] at hs
    simp only [Point.some.injEq, negY_curve] at hs
    exact hs
  obtain ⟨rfl, hy⟩ := hx
  rcases h3 with h | h | ⟨h, h'⟩
  · simp at h
  · exact h rfl
  · exact ne_neg h2 h' (by rw [← h] at hy; exact hy)

/-- **C36, completeness refuted**: for two opposite points other than infinity, no assignment with the right
result (infinity) satisfies the circuit. -/
theorem C36_sw_inverse_counterexample (hE : E.OK p) (h2 : E.q ≠ 2) (P Q : (curve E.q a b).Point) (hP : P ≠ 0)
    (hs : P + Q = 0) : ¬ Possible p E a.val (enc P) (enc Q) (enc (P + Q)) := by
  rw [C36_sw_exact hE a (enc_lt hE P) (enc_lt hE Q) (enc_lt hE _)]
  exact not_swRel_inverse h2 P Q hP hs

/-- **C36, soundness refuted**: for two opposite points every finite point other than these two is accepted as
their sum, on the curve or not. -/
theorem C36_sw_inverse_any_counterexample (hE : E.OK p) (h2 : E.q ≠ 2) (P Q : (curve E.q a b).Point) (hP : P ≠ 0)
    (hs : P + Q = 0) (x y : ZMod E.q) (n1 : enc P ≠ ⟨x.val, y.val, false⟩) (n2 : enc Q ≠ ⟨x.val, y.val, false⟩) :
    Possible p E a.val (enc P) (enc Q) ⟨x.val, y.val, false⟩ := by
  rw [C36_sw_exact hE a (enc_lt hE P) (enc_lt hE Q) ⟨val_lt hE x, val_lt hE y⟩]
  have hQ : Q ≠ 0 := by rintro rfl; exact hP (by simpa using hs)
  refine accepts_swRel h2 (honest_gates hE) P Q x y false ⟨by simp [hP, n2], by simp [hQ, n1], ?_⟩
  intro _ _
  rw [if_pos hs]

/-- **C36, soundness refuted**: where the sum is a finite point, the same coordinates marked as infinity are accepted
too. -/
theorem C36_sw_flag_counterexample (hE : E.OK p) (h2 : E.q ≠ 2) (P Q : (curve E.q a b).Point) (hP : P ≠ 0)
    (hQ : Q ≠ 0) {x y : ZMod E.q} (h : (curve E.q a b).Nonsingular x y) (hs : P + Q = Point.some x y h) :
    Possible p E a.val (enc P) (enc Q) ⟨x.val, y.val, true⟩ := by
  rw [C36_sw_exact hE a (enc_lt hE P) (enc_lt hE Q) ⟨val_lt hE x, val_lt hE y⟩]
  have hne : ∀ S : (curve E.q a b).Point, S ≠ 0 → enc S ≠ ⟨x.val, y.val, true⟩ := by
    intro S hS he
    exact hS ((enc_inf S).1 (by rw [he]))
  refine accepts_swRel h2 (honest_gates hE) P Q x y true ⟨by simp [hP, hne Q hQ], by simp [hQ, hne P hP], ?_⟩
  intro _ _
  rw [if_neg (by rw [hs]; exact Point.some_ne_zero _)]
  exact ⟨x, y, h, hs, by simp, by simp⟩

/-- **C36, part that holds of soundness**: with multiplication and addition that are right modulo `q` the gate
accepts exactly the points of `Accepts`. Missing: the crate's multiplication and addition gates are not
(`C28_shipped_counterexample`, `C29_shipped_counterexample`), and `Accepts` is more than the right sum. -/
theorem C36_sw_sound_partial {q : ℕ} [Fact q.Prime] (h2 : q ≠ 2) {a b : ZMod q} (P Q : (curve q a b).Point)
    (x y : ZMod q) (i : Bool) :
    SwRel q (fmul q) (fadd q) a.val (3 % q) (enc P) (enc Q) ⟨x.val, y.val, i⟩ ↔ Accepts P Q ⟨x.val, y.val, i⟩ :=
  ⟨swRel_accepts h2 (exact_field q) P Q _, accepts_swRel h2 (honest_field q) P Q x y i⟩

/-! ## A wrong double -/

theorem mulRel_val (hE : E.OK p) {x : ℕ} (hx : x < 2 ^ E.T) (v : ZMod E.q) :
    MulRel p E x v.val ((x : ZMod E.q) * v).val := by
  refine ⟨x * v.val / E.q, ?_, ?_⟩
  · have h1 : x * v.val / E.q ≤ x := by
      apply Nat.div_le_of_le_mul
      rw [Nat.mul_comm]
      exact Nat.mul_le_mul_right _ (ZMod.val_lt v).le
    exact h1.trans_lt hx
  · have : ((x : ZMod E.q) * v).val = x * v.val % E.q := by
      rw [ZMod.val_mul, ZMod.val_natCast, Nat.mod_mul_mod]
    rw [this, Nat.mul_comm _ E.q, Nat.div_add_mod]

theorem MulRel.swap {x y z : ℕ} (h : MulRel p E x y z) : MulRel p E y x z := by
  unfold MulRel at h ⊢
  rwa [Nat.mul_comm x y] at h

/-- **C36, soundness refuted**: the gate takes for the double of `P` also another point, which solves the equations
of the double with `2^T` added to its first coordinate (if this point has `X + 2 x < q` as integers). -/
theorem C36_sw_double_counterexample (hE : E.OK p) {x y : ZMod E.q} (h : (curve E.q a b).Nonsingular x y)
    (h2 : E.q ≠ 2) (hy : y ≠ 0) {X Y : ZMod E.q} (hlt : X.val + (x + x).val < E.q)
    (e1 : (X + (x + x) + 2 ^ E.T) * (y + y) * (y + y) = (x * x * 3 + a) * (x * x * 3 + a))
    (e2 : (Y + y) * (y + y) = (x * x * 3 + a) * (x - X)) (hne : x ≠ X ∨ y ≠ Y) :
    Possible p E a.val (enc (Point.some x y h)) (enc (Point.some x y h)) ⟨X.val, Y.val, false⟩ ∧
      enc (Point.some x y h + Point.some x y h) ≠ ⟨X.val, Y.val, false⟩ := by
  refine ⟨?_, ?_⟩
  rotate_left
  · obtain ⟨x', y', h', e', -, hu⟩ := sum_double h (ne_neg h2 hy)
    rw [e', enc_some]
    intro he
    simp only [SwPoint.mk.injEq, (ZMod.val_injective E.q).eq_iff, and_true] at he
    have h3 := ((hu X Y).2 ⟨he.1.symm, he.2.symm⟩).1
    have h4 : (2 : ZMod E.q) ^ E.T * ((2 * y) * (2 * y)) = 0 := by linear_combination e1 - h3
    have h5 := two_ne (q := E.q) h2
    exact mul_ne_zero (pow_ne_zero _ h5) (mul_ne_zero (mul_ne_zero h5 hy) (mul_ne_zero h5 hy)) h4
  rw [C36_sw_exact hE a (enc_lt hE _) (enc_lt hE _) ⟨val_lt hE X, val_lt hE Y⟩]
  have H := honest_gates (p := p) hE
  have hl (x : ZMod E.q) : x.val < 2 ^ E.T := val_lt hE x
  have hqT := hE.hqT
  have k3 : 3 % E.q = (3 : ZMod E.q).val := (ZMod.val_natCast E.q 3).symm
  have hn : (⟨x.val, y.val, false⟩ : SwPoint) ≠ ⟨X.val, Y.val, false⟩ := by
    simp only [ne_eq, SwPoint.mk.injEq, (ZMod.val_injective E.q).eq_iff, and_true]
    tauto
  have ht : X.val + (x + x).val + 2 ^ E.T - E.q < 2 ^ E.T := by omega
  have hc : ((X.val + (x + x).val + 2 ^ E.T - E.q : ℕ) : ZMod E.q) = X + (x + x) + 2 ^ E.T := by
    rw [Nat.cast_sub (by omega)]
    push_cast
    simp
  have ha : AddRel E X.val (x + x).val (X.val + (x + x).val + 2 ^ E.T - E.q) := by
    right
    rw [Nat.add_sub_cancel' (by omega)]
    show _ % _ = _ % _
    rw [Nat.add_mod_right]
  have hs (x y : ZMod E.q) : AddRel E (x - y).val y.val x.val := by
    have := H.add (x - y) y
    rwa [sub_add_cancel] at this
  have m1 := mulRel_val hE ht (y + y)
  have m2 := (mulRel_val hE ht ((x - x) * (x - x))).swap
  rw [hc] at m1 m2
  refine ⟨by simpa using hn, by simpa using hn, Or.inr (Or.inr (Or.inl rfl)),
    X.val + (x + x).val + 2 ^ E.T - E.q, (x - X).val, ?_, ?_⟩
  · simp only [enc_some, ne_eq, ZMod.val_eq_zero, hy, not_false_eq_true, and_self, if_true]
    rw [← ZMod.val_one E.q, k3]
    refine ⟨_, hl _, H.add _ _, _, hl _, H.add _ _, ht, ha, _, hl _, m1, _, hl _, H.mul _ _, _, hl _,
      H.mul _ _, _, hl _, H.mul _ _, _, hl _, H.add _ _, _, hl _, H.mul _ _, _, hl _, H.mul _ _, _, hl _, H.mul _ _,
      ?_, _, hl _, H.add _ _, _, hl _, H.mul _ _, hl _, hs _ _, _, hl _, H.mul _ _, _, hl _, H.mul _ _, _, hl _,
      H.mul _ _, ?_⟩
    · rw [e1]
    · rw [e2]
  · simp only [enc_some, ne_eq, not_true_eq_false, and_false, if_false]
    rw [← ZMod.val_zero (n := E.q)]
    refine ⟨_, hl _, hs _ _, _, hl _, H.mul _ _, _, hl _, m2, _, hl _, hs _ _, _, hl _, H.mul _ _, _, hl _,
      H.mul _ _, _, hl _, H.mul _ _, ?_, _, hl _, H.mul _ _, _, hl _, H.add _ _, _, hl _, H.mul _ _, _, hl _, H.mul _ _,
      _, hl _, H.mul _ _, ?_⟩
    · simp
    · simp

/-! ## `emulated_sw_ecc_add` -/

theorem witness_ok {c : Circ p} {v : ℕ} (h : v < c.numVars) : (witness v : Build p _) c = .ok (c.val v, c) := by
  unfold witness
  rw [if_neg (by omega)]

theorem swWitness_eq {c : Circ p} {P : SwVar} {A : SwPoint} (hx : A.x < E.q) (hy : A.y < E.q)
    (h : Stands E c c.val P A) : swWitness E P c = .ok (A, c) := by
  unfold swWitness
  rw [bind_of_ok (emulatedWitness_eq h.x.var.2 h.x.var.1), bind_of_ok (emulatedWitness_eq h.y.var.2 h.y.var.1),
    bind_of_ok (witness_ok h.inf.var), ← value_eq h.x.var.1, ← value_eq h.y.var.1, h.x.val, h.y.val, h.inf.val,
    Nat.mod_eq_of_lt hx, Nat.mod_eq_of_lt hy]
  obtain ⟨x, y, i⟩ := A
  cases i <;> simp <;> rfl

/-- The call stores the sum, whatever happens afterwards. -/
theorem swAdd_eq (h2 : E.q ≠ 2) {c : Circ p} {A B : SwVar} (P Q : (curve E.q a b).Point)
    (hA : Stands E c c.val A (enc P)) (hB : Stands E c c.val B (enc Q)) :
    swAdd E a.val A B c = (do
      let R ← createSw E (enc (P + Q))
      swAddGate E a.val A B R
      pure R) c := by
  unfold swAdd
  rw [bind_of_ok (swWitness_eq (enc_lt_q P).1 (enc_lt_q P).2 hA),
    bind_of_ok (swWitness_eq (enc_lt_q Q).1 (enc_lt_q Q).2 hB), C36_sum h2]

/-- **C36, the builder, part that holds**: `emulated_sw_ecc_add` in a satisfied circuit returns a variable for the sum
in a satisfied circuit, unless the points are opposite or a carry ripples in one of the nine additions. Missing: these
two cases (`C36_sw_add_inverse_counterexample`, `C29_shipped_counterexample`). -/
theorem C36_sw_add_partial (hE : E.OK p) (h2 : E.q ≠ 2) {c : Circ p} {pi : List (ZMod p)} (hc : WF c) (hr : RangeOK c)
    (hs : checkSat c pi = .ok ()) {A B : SwVar} (P Q : (curve E.q a b).Point)
    (hA : Stands E c c.val A (enc P)) (hB : Stands E c c.val B (enc Q)) (hn : P = 0 ∨ Q = 0 ∨ P + Q ≠ 0)
    (hf : SwFits E a (px P) (py P) (px Q) (py Q) (px (P + Q)) (py (P + Q))) :
    ∃ R c', swAdd E a.val A B c = .ok (R, c') ∧ checkSat c' pi = .ok () ∧ Stands E c' c'.val R (enc (P + Q)) := by
  have g : Good c := ⟨hc, hr⟩
  obtain ⟨hx, hy⟩ := enc_lt hE (P + Q)
  obtain ⟨R, c1, m1, e1, s1, t1⟩ := hon_createSw hE g ((checkSat_ok hc pi).1 hs) hx hy
  have g1 := g.ext e1
  have n1 := Nxt.val e1
  have key := accepts_sum P Q hn
  rw [enc_eq (P + Q)] at key
  have hrel := accepts_swRel h2 (honest_field E.q) P Q _ _ _ key
  rw [enc_eq P, enc_eq Q] at hrel
  obtain ⟨u, c2, m2, e2, s2⟩ := hon_swAddGate (a := a) hE g1 s1 (enc_eq P ▸ hA.mono n1) (enc_eq Q ▸ hB.mono n1)
    (enc_eq (P + Q) ▸ t1) hf hrel
  refine ⟨R, c2, ?_, (checkSat_ok e2.wf pi).2 s2, t1.mono (Nxt.val e2)⟩
  rw [swAdd_eq h2 P Q hA hB, bind_of_ok m1, bind_of_ok m2]
  rfl

/-- **C36, the builder refuted**: after `emulated_sw_ecc_add` on two opposite points other than infinity, the builder's
own assignment does not satisfy the circuit. -/
theorem C36_sw_add_inverse_counterexample (hE : E.OK p) (h2 : E.q ≠ 2) {c : Circ p} (hc : WF c) (hr : RangeOK c)
    {A B : SwVar} (P Q : (curve E.q a b).Point) (hA : Stands E c c.val A (enc P))
    (hB : Stands E c c.val B (enc Q)) (hP : P ≠ 0) (hs : P + Q = 0) {R : SwVar} {c' : Circ p}
    (hm : swAdd E a.val A B c = .ok (R, c')) (pi : List (ZMod p)) : checkSat c' pi ≠ .ok () := by
  have g : Good c := ⟨hc, hr⟩
  rw [swAdd_eq h2 P Q hA hB] at hm
  obtain ⟨R', c1, m1, hm⟩ := bind_ok hm
  obtain ⟨u, c2, m2, hm⟩ := bind_ok hm
  cases hm
  obtain ⟨e1, i1, j1, k1⟩ := ext_createSw hE g m1
  have g1 := g.ext e1
  have n1 := Nxt.val e1
  have e2 := ext_swAddGate hE (ZMod.val_lt a) g1 ⟨hA.x.var.up e1, hA.y.var.up e1⟩ ⟨hB.x.var.up e1, hB.y.var.up e1⟩
    ⟨i1, j1⟩ m2
  intro hck
  have hsat := (checkSat_ok e2.wf pi).1 hck
  obtain ⟨-, -, hold, hex⟩ := C36_sw_gate hE (ZMod.val_lt a) g1.wf g1.rg ⟨hA.x.var.up e1, hA.y.var.up e1⟩
    ⟨hB.x.var.up e1, hB.y.var.up e1⟩ ⟨i1, j1⟩ m2
  have s1 := hold _ _ hsat
  have n2 : Nxt c1 c1.val c1 c'.val := ⟨Ext.refl g1.wf, e2.val⟩
  obtain ⟨hx, hy⟩ := enc_lt hE (P + Q)
  have s0 : Sat c pi c.val :=
    Sat.congr hc (fun i hi => (e2.val i (e1.lt hi)).trans (e1.val i hi)) (e1.sat _ _ s1)
  obtain ⟨R2, c2, m1', -, -, t1⟩ := hon_createSw hE g s0 hx hy
  rw [m1] at m1'
  cases m1'
  exact not_swRel_inverse h2 P Q hP hs ((hex pi _ _ _ _ s1 ((hA.mono n1).mono n2) ((hB.mono n1).mono n2)
    (t1.mono n2)).1 ⟨_, fun _ _ => rfl, hsat⟩)

end gate

/-! ## The configurations of the crate -/

instance : Fact (Nat.Prime fq254.q) := ⟨Fields.prime_fq254⟩
instance : Fact (Nat.Prime fq377.q) := ⟨Fields.prime_fq377⟩

theorem nonsingular_of {q : ℕ} [Fact q.Prime] (h2 : q ≠ 2) {a b x y : ZMod q} (h : y ^ 2 = x ^ 3 + a * x + b)
    (hy : y ≠ 0) : (curve q a b).Nonsingular x y := by
  rw [nonsingular_iff']
  refine ⟨?_, Or.inr ?_⟩
  · rw [equation_iff]
    simpa [curve] using h
  · simp only [curve, zero_mul, add_zero]
    exact mul_ne_zero (two_ne h2) hy

/-- the generator of BN254 -/
def g254 : (curve fq254.q 0 3).Point :=
  .some ((1 : ℕ) : ZMod fq254.q) ((2 : ℕ) : ZMod fq254.q) (nonsingular_of (by decide +kernel) (by norm_num)
    (by rw [ne_eq, ZMod.natCast_eq_zero_iff]; decide +kernel))

/-- the point `(2, 3)` of BLS12-377 -/
def g377 : (curve fq377.q 0 1).Point :=
  .some ((2 : ℕ) : ZMod fq377.q) ((3 : ℕ) : ZMod fq377.q) (nonsingular_of (by decide +kernel) (by norm_num)
    (by rw [ne_eq, ZMod.natCast_eq_zero_iff]; decide +kernel))

/-- the number accepted as first coordinate of `2 * g254` -/
def X254 : ℕ := 970012244347408420398144678526130789391010154638899872161647047645555613673
/-- second coordinate -/
def Y254 : ℕ := 21160733688578718906947797236362676996653053541318648758567802608911059498327
/-- the number accepted as first coordinate of `2 * g377` -/
def X377 : ℕ := 17258779260484519469288880326620542704839615963816425498873072004743455138488922570371409278107015287101644854237
/-- second coordinate -/
def Y377 : ℕ := 224146867492000055072074973041652448126714280827281809542138118657233558071362977634226069583359329550237031749704

/-- **C36 refuted in both configurations of the crate**: a wrong double of a point of BN254 and of BLS12-377 is
accepted; and for every point `P` other than infinity the right value of `P + (-P)` is not, while `(0, 0)` is. -/
theorem C36_shipped_counterexample :
    (Possible Rescue.p_ed254 fq254 0 (enc g254) (enc g254) ⟨X254, Y254, false⟩ ∧
      enc (g254 + g254) ≠ ⟨X254, Y254, false⟩) ∧
    (Possible Rescue.p_ed254 fq377 0 (enc g377) (enc g377) ⟨X377, Y377, false⟩ ∧
      enc (g377 + g377) ≠ ⟨X377, Y377, false⟩) ∧
    (∀ P : (curve fq254.q 0 3).Point, P ≠ 0 → ¬ Possible Rescue.p_ed254 fq254 0 (enc P) (enc (-P)) (enc (P + -P))) ∧
    (∀ P : (curve fq377.q 0 1).Point, P ≠ 0 → ¬ Possible Rescue.p_ed254 fq377 0 (enc P) (enc (-P)) (enc (P + -P))) ∧
    (∀ P : (curve fq254.q 0 3).Point, P ≠ 0 → Possible Rescue.p_ed254 fq254 0 (enc P) (enc (-P)) ⟨0, 0, false⟩) := by
  have q1 : fq254.q ≠ 2 := by decide +kernel
  have q2 : fq377.q ≠ 2 := by decide +kernel
  have vX : ((X254 : ℕ) : ZMod fq254.q).val = X254 := ZMod.val_cast_of_lt (by decide +kernel)
  have vY : ((Y254 : ℕ) : ZMod fq254.q).val = Y254 := ZMod.val_cast_of_lt (by decide +kernel)
  have wX : ((X377 : ℕ) : ZMod fq377.q).val = X377 := ZMod.val_cast_of_lt (by decide +kernel)
  have wY : ((Y377 : ℕ) : ZMod fq377.q).val = Y377 := ZMod.val_cast_of_lt (by decide +kernel)
  refine ⟨?_, ?_, ?_, ?_, ?_⟩
  · have := C36_sw_double_counterexample (a := (0 : ZMod fq254.q)) (b := 3) (X := ((X254 : ℕ) : ZMod fq254.q))
      (Y := ((Y254 : ℕ) : ZMod fq254.q)) fq254_ok (x := ((1 : ℕ) : ZMod fq254.q)) (y := ((2 : ℕ) : ZMod fq254.q))
      (nonsingular_of q1 (by norm_num) (by rw [ne_eq, ZMod.natCast_eq_zero_iff]; decide +kernel)) q1
      (by rw [ne_eq, ZMod.natCast_eq_zero_iff]; decide +kernel)
      (by rw [← Nat.cast_add, vX, ZMod.val_cast_of_lt (by decide +kernel)]; decide +kernel)
      (by
        have : (((X254 + (1 + 1) + 2 ^ fq254.T) * (2 + 2) * (2 + 2) : ℕ) : ZMod fq254.q)
            = (((1 * 1 * 3) * (1 * 1 * 3) : ℕ) : ZMod fq254.q) := by
          rw [ZMod.natCast_eq_natCast_iff]; unfold Nat.ModEq; decide +kernel
        push_cast at this ⊢
        linear_combination this)
      (by
        have : (((Y254 + 2) * (2 + 2) + 3 * X254 : ℕ) : ZMod fq254.q) = ((3 * 1 : ℕ) : ZMod fq254.q) := by
          rw [ZMod.natCast_eq_natCast_iff]; unfold Nat.ModEq; decide +kernel
        push_cast at this ⊢
        linear_combination this)
      (Or.inl (by rw [ne_eq, ZMod.natCast_eq_natCast_iff]; unfold Nat.ModEq; decide +kernel))
    rw [vX, vY, ZMod.val_zero] at this
    exact this
  · have := C36_sw_double_counterexample (a := (0 : ZMod fq377.q)) (b := 1) (X := ((X377 : ℕ) : ZMod fq377.q))
      (Y := ((Y377 : ℕ) : ZMod fq377.q)) fq377_ok (x := ((2 : ℕ) : ZMod fq377.q)) (y := ((3 : ℕ) : ZMod fq377.q))
      (nonsingular_of q2 (by norm_num) (by rw [ne_eq, ZMod.natCast_eq_zero_iff]; decide +kernel)) q2
      (by rw [ne_eq, ZMod.natCast_eq_zero_iff]; decide +kernel)
      (by rw [← Nat.cast_add, wX, ZMod.val_cast_of_lt (by decide +kernel)]; decide +kernel)
      (by
        have : (((X377 + (2 + 2) + 2 ^ fq377.T) * (3 + 3) * (3 + 3) : ℕ) : ZMod fq377.q)
            = (((2 * 2 * 3) * (2 * 2 * 3) : ℕ) : ZMod fq377.q) := by
          rw [ZMod.natCast_eq_natCast_iff]; unfold Nat.ModEq; decide +kernel
        push_cast at this ⊢
        linear_combination this)
      (by
        have : (((Y377 + 3) * (3 + 3) + 12 * X377 : ℕ) : ZMod fq377.q) = ((12 * 2 : ℕ) : ZMod fq377.q) := by
          rw [ZMod.natCast_eq_natCast_iff]; unfold Nat.ModEq; decide +kernel
        push_cast at this ⊢
        linear_combination this)
      (Or.inl (by rw [ne_eq, ZMod.natCast_eq_natCast_iff]; unfold Nat.ModEq; decide +kernel))
    rw [wX, wY, ZMod.val_zero] at this
    exact this
  · intro P hP
    have := C36_sw_inverse_counterexample (p := Rescue.p_ed254) fq254_ok q1 P (-P) hP (add_neg_cancel P)
    rwa [ZMod.val_zero] at this
  · intro P hP
    have := C36_sw_inverse_counterexample (p := Rescue.p_ed254) fq377_ok q2 P (-P) hP (add_neg_cancel P)
    rwa [ZMod.val_zero] at this
  · intro P hP
    have hne : ∀ S : (curve fq254.q 0 3).Point, enc S ≠ ⟨(0 : ZMod fq254.q).val, (0 : ZMod fq254.q).val, false⟩ := by
      intro S hS
      cases S with
      | zero => simp [enc] at hS
      | some x y h =>
        simp only [enc_some, SwPoint.mk.injEq, (ZMod.val_injective fq254.q).eq_iff, and_true] at hS
        have := on_curve h
        rw [hS.1, hS.2] at this
        have h3 : ((3 : ℕ) : ZMod fq254.q) = 0 := by push_cast; linear_combination -this
        rw [ZMod.natCast_eq_zero_iff] at h3
        revert h3
        decide +kernel
    have := C36_sw_inverse_any_counterexample (p := Rescue.p_ed254) fq254_ok q1 P (-P) hP (add_neg_cancel P) 0 0
      (hne P) (hne _)
    rwa [ZMod.val_zero] at this

/-! ## Examples -/

instance : Fact (Nat.Prime toy.q) := ⟨by decide⟩

/-- the point `(6, 3)` of `y² = x³ + 2 x + 2` modulo 17 -/
def g17 : (curve toy.q 2 2).Point := .some 6 3 (nonsingular_of (by decide) (by decide) (by decide))

theorem g17_double : enc (g17 + g17) = ⟨3, 1, false⟩ := by
  rw [← C36_sum (by decide)]
  decide +kernel

/-- The hypotheses of `C36_sw_add_partial` are met for `(6, 3) + (6, 3) = (3, 1)`. -/
example : ∃ A B R, ∃ c c' : Circ 257, swAdd toy 2 A B c = .ok (R, c') ∧ checkSat c' [] = .ok () ∧
    Stands toy c' c'.val R ⟨3, 1, false⟩ := by
  obtain ⟨hx, hy⟩ := enc_lt (p := 257) toy_ok g17
  obtain ⟨A, c1, m1, e1, s1, t1⟩ := hon_createSw (p := 257) toy_ok good_new (sat_new none) hx hy
  have g1 := good_new.ext e1
  obtain ⟨B, c2, m2, e2, s2, t2⟩ := hon_createSw toy_ok g1 s1 hx hy
  have g2 := g1.ext e2
  obtain ⟨R, c', h1, h2, h3⟩ := C36_sw_add_partial (a := 2) (b := 2) toy_ok (by decide) g2.wf g2.rg
    ((checkSat_ok g2.wf []).2 s2) g17 g17 (t1.mono (Nxt.val e2)) t2
    (Or.inr (Or.inr (by rw [ne_eq, ← enc_inf, g17_double]; decide)))
    (by
      have e1 : px g17 = 6 ∧ py g17 = 3 := by decide +kernel
      have e2 : px (g17 + g17) = 3 ∧ py (g17 + g17) = 1 := by unfold px py; rw [g17_double]; decide +kernel
      rw [e1.1, e1.2, e2.1, e2.2]
      unfold SwFits AddFits
      decide +kernel)
  rw [g17_double] at h3
  exact ⟨A, B, R, c2, c', h1, h2, h3⟩

/-- The refutations apply to it: `(6, 3) + (6, 14)` is not infinity for the circuit, but `(0, 0)`, and
`(6, 3) + (6, 3)` is also `(3, 1)` marked as infinity. -/
example : ¬ Possible 257 toy 2 ⟨6, 3, false⟩ ⟨6, 14, false⟩ ⟨0, 0, true⟩ ∧
    Possible 257 toy 2 ⟨6, 3, false⟩ ⟨6, 14, false⟩ ⟨0, 0, false⟩ ∧
    Possible 257 toy 2 ⟨6, 3, false⟩ ⟨6, 3, false⟩ ⟨3, 1, true⟩ ∧
    Possible 257 toy 2 ⟨6, 3, false⟩ ⟨6, 3, false⟩ ⟨3, 1, false⟩ := by
  have hn : g17 ≠ 0 := Point.some_ne_zero _
  have e1 : enc g17 = ⟨6, 3, false⟩ := by decide +kernel
  have e2 : enc (-g17) = ⟨6, 14, false⟩ := by
    rw [show -g17 = Point.some _ _ _ from Point.neg_some _]
    decide +kernel
  refine ⟨?_, ?_, ?_, ?_⟩
  · have := C36_sw_inverse_counterexample (p := 257) toy_ok (by decide) g17 (-g17) hn (add_neg_cancel _)
    rw [e1, e2, add_neg_cancel] at this
    exact this
  · have := C36_sw_inverse_any_counterexample (p := 257) toy_ok (by decide) g17 (-g17) hn (add_neg_cancel _) 0 0
      (by rw [e1]; decide) (by rw [e2]; decide)
    rw [e1, e2] at this
    exact this
  · have h : g17 + g17 = Point.some 3 1 (nonsingular_of (by decide) (by decide) (by decide)) := by
      rw [← enc_inj, g17_double]; decide +kernel
    have := C36_sw_flag_counterexample (p := 257) toy_ok (by decide) g17 g17 hn hn _ h
    rw [e1] at this
    exact this
  · have := C36_sw_complete_partial (p := 257) toy_ok (by decide) g17 g17
      (Or.inr (Or.inr (by rw [ne_eq, ← enc_inf, g17_double]; decide)))
    rw [g17_double, e1] at this
    exact this

end Verif.Props.Emulated
