import Verif.Props.EmulatedSwChain
import Mathlib.AlgebraicGeometry.EllipticCurve.Affine.Point

/-!
# Emulated short Weierstrass addition (property C36)
-/

set_option linter.unusedSectionVars false

namespace Verif.Props.Emulated

open Verif.Circuit Verif.Props.Circuit

variable {p : ℕ}

/-! ## The gate -/

/-- what the calls of `emulated_sw_ecc_add_gate` say of three points, for any meaning `mul`, `add` of multiplication
and addition -/
def SwRel (N : ℕ) (mul add : ℕ → ℕ → ℕ → Prop) (a k3 : ℕ) (P Q R : SwPoint) : Prop :=
  (P.inf = true ↔ Q = R) ∧ (Q.inf = true ↔ P = R) ∧
  (P.inf = true ∨ Q.inf = true ∨ R.inf = false ∨ P.x ≠ Q.x ∨ P.y = Q.y ∧ P.y ≠ 0) ∧
  ∃ x012 x02,
    DoubleRel N mul add a k3 P.x P.y Q.x R.x R.y
      (if P.inf = false ∧ Q.inf = false ∧ P.x = Q.x ∧ P.y = Q.y ∧ P.y ≠ 0 then 1 else 0) x012 x02 ∧
    ChordRel N mul add P.x P.y Q.x Q.y R.y x012 x02
      (if P.inf = false ∧ Q.inf = false ∧ P.x ≠ Q.x then 1 else 0)

/-- the point variable `P` stands for the point `A` -/
structure Stands (E : Emu) (c : Circ p) (w : ℕ → ZMod p) (P : SwVar) (A : SwPoint) : Prop where
  x : EV E c w P.x A.x
  y : EV E c w P.y A.y
  inf : BV c w P.inf (if A.inf then 1 else 0)

theorem Stands.mono {E : Emu} {c c' : Circ p} {w w' : ℕ → ZMod p} {P : SwVar} {A : SwPoint} (n : Nxt c w c' w')
    (h : Stands E c w P A) : Stands E c' w' P A := ⟨h.x.mono n, h.y.mono n, h.inf.mono n⟩

theorem pteq_iff [Fact p.Prime] {b b1 b2 : Bool} {A B : Prop} [Decidable A] [Decidable B] :
    ((if b = true then 1 else 0 : ZMod p) = ((if A then 1 else 0) * if B then 1 else 0) *
      if (if b1 = true then 1 else 0 : ZMod p) = if b2 = true then 1 else 0 then 1 else 0) ↔
    (b = true ↔ A ∧ B ∧ b1 = b2) := by
  cases b <;> cases b1 <;> cases b2 <;> by_cases hA : A <;> by_cases hB : B <;> simp [hA, hB]

theorem flagRel_iff [Fact p.Prime] {P Q R : SwPoint} {nim nex dc : ZMod p} :
    FlagRel P.x P.y (if P.inf then 1 else 0) Q.x Q.y (if Q.inf then 1 else 0) R.x R.y (if R.inf then 1 else 0)
      nim nex dc ↔
    (P.inf = true ↔ Q = R) ∧ (Q.inf = true ↔ P = R) ∧
    nim = (if P.inf = false ∧ Q.inf = false then 1 else 0) ∧ nex = (if P.x ≠ Q.x then 1 else 0) ∧
    (P.inf = true ∨ Q.inf = true ∨ R.inf = false ∨ P.x ≠ Q.x ∨ P.y = Q.y ∧ P.y ≠ 0) ∧
    dc = (if P.inf = false ∧ Q.inf = false ∧ P.x = Q.x ∧ P.y = Q.y ∧ P.y ≠ 0 then 1 else 0) := by
  obtain ⟨x0, y0, b0⟩ := P
  obtain ⟨x1, y1, b1⟩ := Q
  obtain ⟨x2, y2, b2⟩ := R
  unfold FlagRel
  simp only [exists_eq_left, SwPoint.mk.injEq, pteq_iff]
  refine and_congr Iff.rfl (and_congr Iff.rfl ?_)
  have h1 : (if ((if b0 = true then 1 else 0) + (if b1 = true then 1 else 0)
      - (if b0 = true then 1 else 0) * (if b1 = true then 1 else 0) : ZMod p) = 0 then 1 else 0 : ZMod p)
      = if b0 = false ∧ b1 = false then 1 else 0 := by cases b0 <;> cases b1 <;> simp
  have h2 : (if (if x0 = x1 then 1 else 0 : ZMod p) = 0 then 1 else 0 : ZMod p) = if x0 ≠ x1 then 1 else 0 := by
    by_cases h : x0 = x1 <;> simp [h]
  rw [h1, h2]
  constructor
  · rintro ⟨rfl, rfl, h3, rfl⟩
    refine ⟨rfl, rfl, ?_, ?_⟩
    · by_contra hn
      push Not at hn
      obtain ⟨n1, n2, n3, n4, n5⟩ := hn
      simp only [Bool.not_eq_true, Bool.not_eq_false] at n1 n2 n3
      subst n1 n2 n3 n4
      by_cases hy : y0 = y1
      · simp [hy, n5 hy] at h3
        by_cases h0 : y1 = 0
        · simp [h0] at h3
        · exact h0 (hy ▸ n5 hy)
      · simp [hy] at h3
    · by_cases hx : x0 = x1 <;> by_cases hy : y0 = y1 <;> by_cases h0 : y0 = 0 <;> cases b0 <;> cases b1 <;>
        simp_all
  · rintro ⟨rfl, rfl, h3, rfl⟩
    refine ⟨rfl, rfl, ?_, ?_⟩
    · by_cases hx : x0 = x1 <;> by_cases hy : y0 = y1 <;> by_cases h0 : y0 = 0 <;> cases b0 <;> cases b1 <;>
        cases b2 <;> simp_all
    · by_cases hx : x0 = x1 <;> by_cases hy : y0 = y1 <;> by_cases h0 : y0 = 0 <;> cases b0 <;> cases b1 <;>
        simp_all

/-- a bit as an emulated variable -/
theorem ev_bitVar [Fact p.Prime] {E : Emu} (hE : E.OK p) {c : Circ p} (g : Good c) {pi : List (ZMod p)}
    {w : ℕ → ZMod p} (hs : Sat c pi w) {v : ℕ} {A : Prop} [Decidable A] (h : BV c w v (if A then 1 else 0)) :
    EV E c w (bitVar E v) (if A then 1 else 0) := by
  have hn := hE.hn
  have h0 : w 0 = 0 := hs.zero g.wf
  have hp1 : 1 < 2 ^ E.B := Nat.one_lt_two_pow hE.hB.ne'
  have hz : ∀ n, value E.B w (List.replicate n 0) = 0 := by
    intro n
    rw [value_zero]
    intro x hx
    rw [List.eq_of_mem_replicate hx, h0]
  refine ⟨⟨by simp [bitVar]; omega, ?_⟩, ?_, ?_⟩
  · intro x hx
    rcases List.mem_cons.1 hx with rfl | hx
    · exact h.var
    · rw [List.eq_of_mem_replicate hx]; exact g.wf.z
  · intro x hx
    rcases List.mem_cons.1 hx with rfl | hx
    · rw [h.val]
      split
      · rw [ZMod.val_one]; exact hp1
      · simp
    · rw [List.eq_of_mem_replicate hx, h0]; simp
  · unfold bitVar value
    rw [hz, h.val]
    split
    · simp [ZMod.val_one]
    · simp

theorem isVar_bitVar {E : Emu} (hE : E.OK p) {c : Circ p} (g : Good c) {v : ℕ} (h : v < c.numVars) :
    IsVar E (bitVar E v) c := by
  have hn := hE.hn
  refine ⟨by simp [bitVar]; omega, ?_⟩
  intro x hx
  rcases List.mem_cons.1 hx with rfl | hx
  · exact h
  · rw [List.eq_of_mem_replicate hx]; exact g.wf.z

theorem ext_swAddGate [Fact p.Prime] {E : Emu} (hE : E.OK p) {a : ℕ} (ha : a < E.q) {P Q R : SwVar} {c c' : Circ p}
    {u : Unit} (g0 : Good c) (hP : IsVar E P.x c ∧ IsVar E P.y c) (hQ : IsVar E Q.x c ∧ IsVar E Q.y c)
    (hR : IsVar E R.x c ∧ IsVar E R.y c) (hm : swAddGate E a P Q R c = .ok (u, c')) : Ext c c' := by
  unfold swAddGate at hm
  obtain ⟨⟨nim, nex, dc⟩, c1, m1, hm⟩ := bind_ok hm
  obtain ⟨⟨l1, l2⟩, c2, m2, hm⟩ := bind_ok hm
  obtain ⟨ac, c3, m3, m4⟩ := bind_ok hm
  obtain ⟨e1, j1, j2, j3⟩ := ext_swFlags hE g0 hP.1 hP.2 hQ.1 hQ.2 hR.1 hR.2 m1
  have g1 := g0.ext e1
  obtain ⟨e2, j4, j5⟩ := ext_swDouble hE ha g1 (hP.1.up e1) (hP.2.up e1) (hQ.1.up e1) (hR.1.up e1) (hR.2.up e1)
    (isVar_bitVar hE g1 j3) m2
  have g2 := g1.ext e2
  obtain ⟨e3, j6⟩ := ext_bmul g2 m3
  have g3 := g2.ext e3
  have e13 := (e1.trans e2).trans e3
  exact e13.trans (ext_swChord hE g3 (hP.1.up e13) (hP.2.up e13) (hQ.1.up e13) (hQ.2.up e13) (hR.2.up e13)
    (j4.up e3) (j5.up e3) (isVar_bitVar hE g3 j6) m4)

/-- **C36**, exact form for `emulated_sw_ecc_add_gate`: let `w` satisfy the circuit before the call and let the three
point variables stand for points `A`, `B`, `C` in it. It extends to the new variables if and only if `SwRel` holds for
the relations that the multiplication and addition gates of this crate force (`MulRel`, `AddRel`). -/
theorem C36_sw_gate [Fact p.Prime] {E : Emu} (hE : E.OK p) {a : ℕ} (ha : a < E.q) {P Q R : SwVar} {c c' : Circ p}
    {u : Unit} (hc : WF c) (hr : RangeOK c) (hP : IsVar E P.x c ∧ IsVar E P.y c) (hQ : IsVar E Q.x c ∧ IsVar E Q.y c)
    (hR : IsVar E R.x c ∧ IsVar E R.y c) (hm : swAddGate E a P Q R c = .ok (u, c')) :
    WF c' ∧ Frame c c' ∧ (∀ pi w, Sat c' pi w → Sat c pi w) ∧
    ∀ pi w A B C, Sat c pi w → Stands E c w P A → Stands E c w Q B → Stands E c w R C →
      ((∃ w', Agree c w' w ∧ Sat c' pi w') ↔
        SwRel (2 ^ E.T) (MulRel p E) (AddRel E) a (3 % E.q) A B C) := by
  have g0 : Good c := ⟨hc, hr⟩
  unfold swAddGate at hm
  obtain ⟨⟨nim, nex, dc⟩, c1, m1, hm⟩ := bind_ok hm
  obtain ⟨⟨l1, l2⟩, c2, m2, hm⟩ := bind_ok hm
  obtain ⟨ac, c3, m3, m4⟩ := bind_ok hm
  obtain ⟨e1, j1, j2, j3⟩ := ext_swFlags hE g0 hP.1 hP.2 hQ.1 hQ.2 hR.1 hR.2 m1
  have g1 := g0.ext e1
  obtain ⟨e2, j4, j5⟩ := ext_swDouble hE ha g1 (hP.1.up e1) (hP.2.up e1) (hQ.1.up e1) (hR.1.up e1) (hR.2.up e1)
    (isVar_bitVar hE g1 j3) m2
  have g2 := g1.ext e2
  obtain ⟨e3, j6⟩ := ext_bmul g2 m3
  have g3 := g2.ext e3
  have e13 := (e1.trans e2).trans e3
  have e4 := ext_swChord hE g3 (hP.1.up e13) (hP.2.up e13) (hQ.1.up e13) (hQ.2.up e13) (hR.2.up e13)
    (j4.up e3) (j5.up e3) (isVar_bitVar hE g3 j6) m4
  have e := e13.trans e4
  refine ⟨e.wf, e.frame, e.sat, ?_⟩
  intro pi w A B C hw hA hB hC
  constructor
  · rintro ⟨w', hag, s4⟩
    have n00 : Nxt c w c w' := ⟨Ext.refl hc, hag⟩
    replace hA := hA.mono n00
    replace hB := hB.mono n00
    replace hC := hC.mono n00
    have s3 := e4.sat _ _ s4
    have s2 := e3.sat _ _ s3
    have s1 := e2.sat _ _ s2
    obtain ⟨nim', nex', dc', b1, b2, b3, hf⟩ :=
      snd_swFlags hE g0 m1 s1 hA.x hA.y hA.inf hB.x hB.y hB.inf hC.x hC.y hC.inf
    obtain ⟨f1, f2, rfl, rfl, f3, rfl⟩ := flagRel_iff.1 hf
    have n1 := Nxt.same e1 w'
    have n2 := Nxt.same e2 w'
    have n3 := Nxt.same e3 w'
    have d1 := ev_bitVar hE g1 s1 b3
    obtain ⟨x012, x02, v1, v2, hd⟩ := snd_swDouble hE ha g1 m2 s2 (hA.x.mono n1) (hA.y.mono n1) (hB.x.mono n1)
      (hC.x.mono n1) (hC.y.mono n1) d1
    have b4 := snd_bmul g2 m3 s3 (b1.mono n2) (b2.mono n2)
    have hk : ((if A.inf = false ∧ B.inf = false then 1 else 0) * (if A.x ≠ B.x then 1 else 0) : ZMod p)
        = if A.inf = false ∧ B.inf = false ∧ A.x ≠ B.x then 1 else 0 := by
      by_cases h : A.inf = false ∧ B.inf = false <;> by_cases hx : A.x = B.x <;> simp [h, hx, ← and_assoc]
    rw [hk] at b4
    have d2 := ev_bitVar hE g3 s3 b4
    have n13 := (n1.trans n2).trans n3
    have hch := snd_swChord hE g3 m4 s4 (hA.x.mono n13) (hA.y.mono n13) (hB.x.mono n13) (hB.y.mono n13)
      (hC.y.mono n13) (v1.mono n3) (v2.mono n3) d2
    exact ⟨f1, f2, f3, x012, x02, hd, hch⟩
  · rintro ⟨f1, f2, f3, x012, x02, hd, hch⟩
    obtain ⟨w1, n1, s1, b1, b2, b3⟩ :=
      rch_swFlags hE g0 m1 hw hA.x hA.y hA.inf hB.x hB.y hB.inf hC.x hC.y hC.inf
        (flagRel_iff.2 ⟨f1, f2, rfl, rfl, f3, rfl⟩)
    obtain ⟨w2, n2, s2, v1, v2⟩ := rch_swDouble hE ha g1 m2 s1 (hA.x.mono n1) (hA.y.mono n1) (hB.x.mono n1)
      (hC.x.mono n1) (hC.y.mono n1) (ev_bitVar hE g1 s1 b3) hd
    obtain ⟨w3, n3, s3, b4⟩ := rch_bmul g2 m3 s2 (b1.mono n2) (b2.mono n2)
    have hk : ((if A.inf = false ∧ B.inf = false then 1 else 0) * (if A.x ≠ B.x then 1 else 0) : ZMod p)
        = if A.inf = false ∧ B.inf = false ∧ A.x ≠ B.x then 1 else 0 := by
      by_cases h : A.inf = false ∧ B.inf = false <;> by_cases hx : A.x = B.x <;> simp [h, hx, ← and_assoc]
    rw [hk] at b4
    have n13 := (n1.trans n2).trans n3
    obtain ⟨w4, n4, s4⟩ := rch_swChord hE g3 m4 s3 (hA.x.mono n13) (hA.y.mono n13) (hB.x.mono n13) (hB.y.mono n13)
      (hC.y.mono n13) (v1.mono n3) (v2.mono n3) (ev_bitVar hE g3 s3 b4) hch
    exact ⟨w4, (n13.trans n4).agree, s4⟩

end Verif.Props.Emulated
