import Verif.Circuit.VerifierPoly
import Verif.Circuit.ModArithNum
import Verif.Props.Conversion

/-!
# Arithmetic modulo `Q` in the verifier circuit, one step at a time

`Hol H q a x c`: the variables of `x` exist, and if `H` holds (an assumption on the values the builder started with)
they store the limbs of `a : ZMod Q`. `El q w x` is the element of `ZMod Q` that limbs stand for in an assignment.
-/

set_option linter.unusedSectionVars false

namespace Verif.Circuit.VerifierPoly

open Verif.Circuit Verif.Conv

variable {p : ℕ} {α β : Type}

/-- the parameters: `Q` is the modulus, `k` the range bit length, and four times the largest sum fits into the native
field -/
structure Par (I : Info p) (Q k : ℕ) : Prop where
  mul : MulParams I.mod k
  m : I.m = I.mod.m
  tpm : I.tpm = some I.mod.tpm
  int : I.mod.int = Q
  wide : 2 ^ (2 * I.mod.m + k + 2) ≤ p

/-- the state of the circuit between two steps -/
structure Ctx (H : Prop) (k : ℕ) (c : Circ p) : Prop where
  wf : WF c
  rng : RangeOK c
  ultra : c.ultra = some k
  zo : H → c.val 0 = 0 ∧ c.val 1 = 1

theorem Ctx.ext {H : Prop} {k : ℕ} {c c' : Circ p} (h : Ctx H k c) (e : Ext c c') : Ctx H k c' :=
  ⟨e.wf, h.rng.ext e, by rw [e.ultra, h.ultra], fun g => by
    rw [e.val _ h.wf.z, e.val _ h.wf.o]; exact h.zo g⟩

/-- the builder stores the limbs of `a` -/
def St {Q : ℕ} (q : FpElem p) (a : ZMod Q) (x : FpElemVar p) (c : Circ p) : Prop :=
  (c.val x.v0).val = a.val % 2 ^ q.m ∧ (c.val x.v1).val = a.val / 2 ^ q.m

/-- see the file header -/
def Hol {Q : ℕ} (H : Prop) (q : FpElem p) (a : ZMod Q) (x : FpElemVar p) (c : Circ p) : Prop :=
  x.In c ∧ x.Match q ∧ (H → St q a x c)

theorem Hol.ext {Q : ℕ} {H : Prop} {q : FpElem p} {a : ZMod Q} {x : FpElemVar p} {c c' : Circ p} (h : Hol H q a x c)
    (e : Ext c c') : Hol H q a x c' :=
  ⟨h.1.ext e, h.2.1, fun g => by
    unfold St; rw [e.val _ h.1.1, e.val _ h.1.2]; exact h.2.2 g⟩

/-- the element of `ZMod Q` limbs stand for -/
def El (Q : ℕ) (q : FpElem p) (w : ℕ → ZMod p) (x : FpElemVar p) : ZMod Q := ((x.num q w : ℕ) : ZMod Q)

/-- sequencing without remembering the relation in the honest part -/
theorem hbind {H : Prop} {m : Build p α} {f : α → Build p β} {c : Circ p}
    {B1 : α → Circ p → Prop} {R1 : α → (ℕ → ZMod p) → Prop}
    {B : β → Circ p → Prop} {R : β → (ℕ → ZMod p) → Prop} (hc : WF c)
    (h1 : Spec m c H B1 R1)
    (h2 : ∀ v c1, Ext c c1 → B1 v c1 → Spec (f v) c1 H B (fun u w => R1 v w → R u w)) :
    Spec (m >>= f) c H B R :=
  Spec.bind h1 (fun h _ _ => h) hc fun v c1 e b => (h2 v c1 e b).weaken And.left

section

variable [hp : Fact p.Prime] {Q : ℕ} [hQ : Fact Q.Prime] {I : Info p} {k : ℕ} {H : Prop}

theorem Par.q_lt (h : Par I Q k) : Q < 2 ^ (2 * I.mod.m) := by
  rw [← h.int]; exact q_int_lt h.mul.ok

theorem Par.q_lt_p (h : Par I Q k) : Q < p := h.q_lt.trans (h.mul.pow_le (by omega))

theorem Par.fieldElem (h : Par I Q k) : I.mod.fieldElem = ((Q : ℕ) : ZMod p) := by
  rw [← h.int]
  unfold FpElem.fieldElem FpElem.int
  rw [h.mul.ok.tpm]
  push_cast
  rw [ZMod.natCast_val, ZMod.natCast_val, ZMod.cast_id, ZMod.cast_id]

theorem Par.fieldElem_val (h : Par I Q k) : I.mod.fieldElem.val = Q := by
  rw [h.fieldElem, ZMod.val_natCast_of_lt h.q_lt_p]

theorem Par.add (h : Par I Q k) : AddParams I.mod k :=
  ⟨h.mul.dvd, h.mul.half, by rw [h.mul.tpm_val]; positivity, by rw [h.fieldElem_val]; exact hQ.out.ne_zero⟩

theorem felt_num (h : Par I Q k) {x : FpElemVar p} (mx : x.Match I.mod) (w : ℕ → ZMod p) :
    x.felt w = ((x.num I.mod w : ℕ) : ZMod p) := by
  unfold FpElemVar.felt FpElemVar.num
  rw [mx.2, h.mul.ok.tpm]
  push_cast
  rw [ZMod.natCast_val, ZMod.natCast_val, ZMod.cast_id, ZMod.cast_id]

theorem num_lt {x : FpElemVar p} {q : FpElem p} {w : ℕ → ZMod p} (h : x.Small q w) : x.num q w < 2 ^ (2 * q.m) := by
  obtain ⟨h1, h2⟩ := h
  unfold FpElemVar.num
  rw [two_mul, pow_add]
  calc _ < 2 ^ q.m + 2 ^ q.m * (w x.v1).val := by omega
    _ = 2 ^ q.m * ((w x.v1).val + 1) := by ring
    _ ≤ _ := Nat.mul_le_mul_left _ h2

theorem St.num {q : FpElem p} {a : ZMod Q} {x : FpElemVar p} {c : Circ p} (h : St q a x c) :
    x.num q c.val = a.val := by
  unfold FpElemVar.num
  rw [h.1, h.2, Nat.mod_add_div]

theorem Par.val_lt (h : Par I Q k) (a : ZMod Q) : a.val < 2 ^ I.mod.m * 2 ^ I.mod.m := by
  rw [← pow_add, ← two_mul]
  exact (ZMod.val_lt a).trans h.q_lt

theorem St.small (h : Par I Q k) {a : ZMod Q} {x : FpElemVar p} {c : Circ p} (hs : St I.mod a x c) :
    x.Small I.mod c.val := by
  refine ⟨?_, ?_⟩
  · rw [hs.1]; exact Nat.mod_lt _ (by positivity)
  · rw [hs.2]; exact Nat.div_lt_of_lt_mul (h.val_lt a)

theorem St.felt (h : Par I Q k) {a : ZMod Q} {x : FpElemVar p} {c : Circ p} (mx : x.Match I.mod)
    (hs : St I.mod a x c) : x.felt c.val = ((a.val : ℕ) : ZMod p) := by
  rw [felt_num h mx, hs.num]

/-- multiplication -/
theorem mul_spec (h : Par I Q k) {c : Circ p} (hc : Ctx H k c) {x y : FpElemVar p} {a b : ZMod Q}
    (hx : Hol H I.mod a x c) (hy : Hol H I.mod b y c) :
    Spec (modMul x y I.mod) c H (fun v c' => Hol H I.mod (a * b) v c')
      (fun v w => x.Small I.mod w → y.Small I.mod w → v.Small I.mod w ∧ El Q I.mod w v = El Q I.mod w x * El Q I.mod w y) := by
  refine Spec.conseq hc.wf (modMul_spec hc.wf hc.rng hc.ultra x y hx.1 hy.1 I.mod hx.2.1 hy.2.1 h.mul) ?_ ?_ ?_
  · intro hH _ _
    have sx := hx.2.2 hH
    have sy := hy.2.2 hH
    refine ⟨sx.small h, sy.small h, ?_⟩
    rw [sx.num, sy.num, h.int]
    refine (Nat.div_lt_of_lt_mul ?_).trans h.q_lt
    exact Nat.mul_lt_mul'' (ZMod.val_lt a) (ZMod.val_lt b)
  · rintro v c' e ⟨g1, g2, g3, g4, g5⟩
    refine ⟨g1, ⟨g2, g3⟩, fun hH => ?_⟩
    rw [(hx.2.2 hH).num, (hy.2.2 hH).num, h.int, ← ZMod.val_mul] at g4 g5
    exact ⟨g4, g5⟩
  · rintro v w _ _ g sx sy
    obtain ⟨g1, g2, W, -, g3⟩ := g sx sy
    refine ⟨⟨g1, g2⟩, ?_⟩
    have := congrArg (fun n : ℕ => (n : ZMod Q)) g3
    simp only [h.int] at this
    push_cast at this
    unfold El FpElemVar.num
    push_cast
    rw [ZMod.natCast_self, mul_zero, add_zero] at this
    rw [this]
    unfold FpElemVar.num
    push_cast
    ring

/-- a constant -/
structure Cst (I : Info p) (b : ZMod Q) (y : FpElem p) : Prop where
  m : y.m = I.mod.m
  ok : y.OK
  int : y.int = b.val

theorem Cst.tpm (h : Par I Q k) {b : ZMod Q} {y : FpElem p} (hy : Cst I b y) : y.tpm = I.mod.tpm := by
  rw [hy.ok.tpm, hy.m, h.mul.ok.tpm]

theorem Cst.fieldElem {b : ZMod Q} {y : FpElem p} (hy : Cst I b y) : y.fieldElem = ((b.val : ℕ) : ZMod p) := by
  rw [← hy.int]
  unfold FpElem.fieldElem FpElem.int
  rw [hy.ok.tpm]
  push_cast
  rw [ZMod.natCast_val, ZMod.natCast_val, ZMod.cast_id, ZMod.cast_id]

theorem cst_new (h : Par I Q k) {b : ZMod Q} {x : ZMod p} (hx : x.val = b.val) :
    ∃ y, FpElem.new x I.m I.tpm = .ok y ∧ Cst I b y := by
  have hb := ZMod.val_lt b
  have hp' := h.q_lt_p
  have e : x = ((b.val : ℕ) : ZMod p) := by rw [← hx, ZMod.natCast_val, ZMod.cast_id]
  have hm : 2 ^ I.mod.m < p := h.mul.pow_le (by omega)
  refine ⟨⟨((b.val % 2 ^ I.mod.m : ℕ) : ZMod p), ((b.val / 2 ^ I.mod.m : ℕ) : ZMod p), I.mod.m, I.mod.tpm⟩, ?_, rfl, ?_, ?_⟩
  · rw [h.m, h.tpm, e]
    exact FpElem.new_mul h.mul (hb.trans hp')
  · refine ⟨?_, ?_, h.mul.ok.tpm⟩
    · show (((b.val % 2 ^ I.mod.m : ℕ) : ZMod p)).val < _
      have : b.val % 2 ^ I.mod.m < 2 ^ I.mod.m := Nat.mod_lt _ (by positivity)
      rw [ZMod.val_natCast_of_lt (by omega)]
      exact this
    · show (((b.val / 2 ^ I.mod.m : ℕ) : ZMod p)).val < _
      have : b.val / 2 ^ I.mod.m < 2 ^ I.mod.m := Nat.div_lt_of_lt_mul (h.val_lt b)
      rw [ZMod.val_natCast_of_lt (by omega)]
      exact this
  · show (((b.val % 2 ^ I.mod.m : ℕ) : ZMod p)).val + 2 ^ I.mod.m * (((b.val / 2 ^ I.mod.m : ℕ) : ZMod p)).val = _
    have h1 : b.val % 2 ^ I.mod.m < 2 ^ I.mod.m := Nat.mod_lt _ (by positivity)
    have h2 : b.val / 2 ^ I.mod.m < 2 ^ I.mod.m := Nat.div_lt_of_lt_mul (h.val_lt b)
    rw [ZMod.val_natCast_of_lt (by omega), ZMod.val_natCast_of_lt (by omega), Nat.mod_add_div]

/-- multiplication by a constant -/
theorem mulConst_spec (h : Par I Q k) {c : Circ p} (hc : Ctx H k c) {x : FpElemVar p} {y : FpElem p} {a b : ZMod Q}
    (hx : Hol H I.mod a x c) (hy : Cst I b y) :
    Spec (modMulConstant x y I.mod) c H (fun v c' => Hol H I.mod (a * b) v c')
      (fun v w => x.Small I.mod w → v.Small I.mod w ∧ El Q I.mod w v = El Q I.mod w x * b) := by
  refine Spec.conseq hc.wf (modMulConstant_spec hc.wf hc.rng hc.ultra x hx.1 y I.mod hx.2.1 hy.m hy.ok h.mul) ?_ ?_ ?_
  · intro hH _ _
    have sx := hx.2.2 hH
    refine ⟨sx.small h, ?_⟩
    rw [sx.num, hy.int, h.int]
    refine (Nat.div_lt_of_lt_mul ?_).trans h.q_lt
    exact Nat.mul_lt_mul'' (ZMod.val_lt a) (ZMod.val_lt b)
  · rintro v c' e ⟨g1, g2, g3, g4, g5⟩
    refine ⟨g1, ⟨g2, g3⟩, fun hH => ?_⟩
    rw [(hx.2.2 hH).num, hy.int, h.int, ← ZMod.val_mul] at g4 g5
    exact ⟨g4, g5⟩
  · rintro v w _ _ g sx
    obtain ⟨g1, g2, W, -, g3⟩ := g sx
    refine ⟨⟨g1, g2⟩, ?_⟩
    have := congrArg (fun n : ℕ => (n : ZMod Q)) g3
    simp only [h.int, hy.int] at this
    push_cast at this
    rw [ZMod.natCast_self, mul_zero, add_zero] at this
    have eb : ((b.val : ℕ) : ZMod Q) = b := by rw [ZMod.natCast_val, ZMod.cast_id]
    rw [eb] at this
    unfold El
    rw [← this]
    unfold FpElemVar.num
    push_cast
    rfl

/-- the limbs the additions store are those of the remainder -/
theorem addOut_st (h : Par I Q k) {s : ZMod p} {a : ZMod Q} (hs : ((s.val : ℕ) : ZMod Q) = a) {v : FpElemVar p}
    {c : Circ p} (ho : AddOut I.mod s v c.val) : St I.mod a v c := by
  obtain ⟨h1, h2⟩ := ho
  have e : s.val % Q = a.val := by rw [← hs, ZMod.val_natCast]
  rw [h.fieldElem_val, h.mul.tpm_val, e] at h1 h2
  have ha := ZMod.val_lt a
  have hp' := h.q_lt_p
  refine ⟨?_, ?_⟩
  · rw [h1, ZMod.val_natCast_of_lt]
    exact (Nat.mod_le _ _).trans_lt (by omega)
  · rw [h2, ZMod.val_natCast_of_lt]
    exact (Nat.div_le_self _ _).trans_lt (by omega)

/-- addition of a constant -/
theorem addConst_spec (h : Par I Q k) {c : Circ p} (hc : Ctx H k c) {x : FpElemVar p} {y : FpElem p} {a b : ZMod Q}
    (hx : Hol H I.mod a x c) (hy : Cst I b y) :
    Spec (modAddConstant x y I.mod) c H (fun v c' => Hol H I.mod (a + b) v c')
      (fun v w => ∃ d < 2 ^ k, ((v.num I.mod w + d * Q : ℕ) : ZMod p) = ((x.num I.mod w + b.val : ℕ) : ZMod p)) := by
  have ha := ZMod.val_lt a
  have hb := ZMod.val_lt b
  have hqp : Q * 2 ^ k < p := by
    have := h.mul.pow_lt
    rw [pow_add] at this
    exact (Nat.mul_le_mul_right _ h.q_lt.le).trans_lt this
  have h4 : 4 ≤ 2 ^ k := by
    calc 4 = 2 ^ 2 := rfl
      _ ≤ _ := Nat.pow_le_pow_right (by norm_num) h.mul.two
  have hsum : a.val + b.val < p := by nlinarith
  have key : H → (x.felt c.val + y.fieldElem).val = a.val + b.val := fun hH => by
    rw [St.felt h hx.2.1 (hx.2.2 hH), hy.fieldElem, ← Nat.cast_add, ZMod.val_natCast_of_lt hsum]
  refine Spec.conseq hc.wf (modAddConstant_spec hc.wf hc.rng hc.ultra x hx.1 y I.mod hx.2.1 ⟨hy.m, hy.tpm h⟩ h.add) ?_ ?_ ?_
  · intro hH _ _
    rw [key hH, h.fieldElem_val]
    refine Nat.div_lt_of_lt_mul ?_
    nlinarith
  · rintro v c' e ⟨g1, g2, g3, g4, -⟩
    refine ⟨g1, ⟨g2, g3⟩, fun hH => addOut_st h ?_ g4⟩
    rw [key hH]
    push_cast
    rw [ZMod.natCast_val, ZMod.natCast_val, ZMod.cast_id, ZMod.cast_id]
  · rintro v w _ _ ⟨z, g1, g2⟩
    refine ⟨z.val, g1, ?_⟩
    have e : w v.v0 + I.mod.tpm * w v.v1 = ((v.num I.mod w : ℕ) : ZMod p) := by
      unfold FpElemVar.num
      rw [h.mul.ok.tpm]
      push_cast
      rw [ZMod.natCast_val, ZMod.natCast_val, ZMod.cast_id, ZMod.cast_id]
    rw [e, felt_num h hx.2.1, hy.fieldElem, h.fieldElem] at g2
    have ez : ((z.val : ℕ) : ZMod p) = z := by rw [ZMod.natCast_val, ZMod.cast_id]
    push_cast
    rw [g2, ez]
    push_cast
    ring

/-- addition of a list -/
theorem addVec_spec (h : Par I Q k) {c : Circ p} (hc : Ctx H k c) {xs : List (FpElemVar p)} {as : List (ZMod Q)}
    (hx : List.Forall₂ (fun x a => Hol H I.mod a x c) xs as) (hl : as.length ≤ 2 ^ k) :
    Spec (modAddVec xs I.mod) c H (fun v c' => Hol H I.mod as.sum v c')
      (fun v w => ∃ d < 2 ^ k, ((v.num I.mod w + d * Q : ℕ) : ZMod p) =
        (((xs.map (fun x => x.num I.mod w)).sum : ℕ) : ZMod p)) := by
  have hin : ∀ x ∈ xs, x.In c ∧ x.Match I.mod := by
    intro x hxm
    obtain ⟨i, hi, rfl⟩ := List.getElem_of_mem hxm
    have hi' : i < as.length := by rw [← hx.length_eq]; exact hi
    have ha := (List.forall₂_iff_get.1 hx).2 i hi hi'
    exact ⟨ha.1, ha.2.1⟩
  have hqp : Q * 2 ^ k < p := by
    have := h.mul.pow_lt
    rw [pow_add] at this
    exact (Nat.mul_le_mul_right _ h.q_lt.le).trans_lt this
  have hbound : ∀ as : List (ZMod Q), (as.map ZMod.val).sum ≤ as.length * (Q - 1) := by
    intro as
    induction as with
    | nil => simp
    | cons a l ih =>
      have := ZMod.val_lt a
      simp only [List.map_cons, List.sum_cons, List.length_cons, Nat.add_mul, Nat.one_mul]
      omega
  have hcast : ∀ as : List (ZMod Q), (((as.map ZMod.val).sum : ℕ) : ZMod Q) = as.sum := by
    intro as
    induction as with
    | nil => simp
    | cons a l ih =>
      simp only [List.map_cons, List.sum_cons, Nat.cast_add, ih]
      rw [ZMod.natCast_val, ZMod.cast_id]
  have hQ0 := hQ.out.pos
  have hle : (as.map ZMod.val).sum < Q * 2 ^ k := by
    refine (hbound as).trans_lt ?_
    calc as.length * (Q - 1) ≤ 2 ^ k * (Q - 1) := Nat.mul_le_mul_right _ hl
      _ < 2 ^ k * Q := Nat.mul_lt_mul_of_pos_left (by omega) (by positivity)
      _ = _ := Nat.mul_comm _ _
  have key : H → (xs.map (fun x => FpElemVar.felt x c.val)).sum.val = (as.map ZMod.val).sum := fun hH => by
    have : (xs.map (fun x => FpElemVar.felt x c.val)).sum = (((as.map ZMod.val).sum : ℕ) : ZMod p) := by
      clear hl hle hin
      induction hx with
      | nil => simp
      | cons hxa _ ih =>
        simp only [List.map_cons, List.sum_cons, Nat.cast_add, ih]
        rw [St.felt h hxa.2.1 (hxa.2.2 hH)]
    rw [this, ZMod.val_natCast_of_lt (hle.trans hqp)]
  refine Spec.conseq hc.wf (modAddVec_spec hc.wf hc.rng hc.ultra xs (fun x hx => (hin x hx).1) I.mod
    (fun x hx => (hin x hx).2) h.add) ?_ ?_ ?_
  · intro hH _ _
    rw [key hH, h.fieldElem_val]
    exact Nat.div_lt_of_lt_mul hle
  · rintro v c' e ⟨g1, g2, g3, g4, -⟩
    refine ⟨g1, ⟨g2, g3⟩, fun hH => addOut_st h ?_ g4⟩
    rw [key hH, hcast]
  · rintro v w _ _ ⟨z, g1, g2⟩
    refine ⟨z.val, g1, ?_⟩
    have e : w v.v0 + I.mod.tpm * w v.v1 = ((v.num I.mod w : ℕ) : ZMod p) := by
      unfold FpElemVar.num
      rw [h.mul.ok.tpm]
      push_cast
      rw [ZMod.natCast_val, ZMod.natCast_val, ZMod.cast_id, ZMod.cast_id]
    have es : (xs.map (fun x => FpElemVar.felt x w)).sum = (((xs.map (fun x => x.num I.mod w)).sum : ℕ) : ZMod p) := by
      have hm : ∀ x ∈ xs, x.Match I.mod := fun x hx => (hin x hx).2
      clear hl hle hin g2 key hx
      induction xs with
      | nil => simp
      | cons x l ih =>
        simp only [List.map_cons, List.sum_cons, Nat.cast_add]
        rw [ih (fun y hy => hm y (by simp [hy])), felt_num h (hm x (by simp))]
    rw [e, es, h.fieldElem] at g2
    have ez : ((z.val : ℕ) : ZMod p) = z := by rw [ZMod.natCast_val, ZMod.cast_id]
    rw [Nat.cast_add, Nat.cast_mul, ez, g2]
    ring

/-- addition of two -/
theorem add_spec (h : Par I Q k) {c : Circ p} (hc : Ctx H k c) {x y : FpElemVar p} {a b : ZMod Q}
    (hx : Hol H I.mod a x c) (hy : Hol H I.mod b y c) :
    Spec (modAdd x y I.mod) c H (fun v c' => Hol H I.mod (a + b) v c')
      (fun v w => ∃ d < 2 ^ k, ((v.num I.mod w + d * Q : ℕ) : ZMod p) =
        ((x.num I.mod w + y.num I.mod w : ℕ) : ZMod p)) := by
  have ha := ZMod.val_lt a
  have hb := ZMod.val_lt b
  have hqp : Q * 2 ^ k < p := by
    have := h.mul.pow_lt
    rw [pow_add] at this
    exact (Nat.mul_le_mul_right _ h.q_lt.le).trans_lt this
  have h4 : 4 ≤ 2 ^ k := by
    calc 4 = 2 ^ 2 := rfl
      _ ≤ _ := Nat.pow_le_pow_right (by norm_num) h.mul.two
  have hsum : a.val + b.val < p := by nlinarith
  have key : H → (x.felt c.val + y.felt c.val).val = a.val + b.val := fun hH => by
    rw [St.felt h hx.2.1 (hx.2.2 hH), St.felt h hy.2.1 (hy.2.2 hH), ← Nat.cast_add, ZMod.val_natCast_of_lt hsum]
  refine Spec.conseq hc.wf (modAdd_spec hc.wf hc.rng hc.ultra x y hx.1 hy.1 I.mod hx.2.1 hy.2.1 h.add) ?_ ?_ ?_
  · intro hH _ _
    rw [key hH, h.fieldElem_val]
    refine Nat.div_lt_of_lt_mul ?_
    nlinarith
  · rintro v c' e ⟨g1, g2, g3, g4, -⟩
    refine ⟨g1, ⟨g2, g3⟩, fun hH => addOut_st h ?_ g4⟩
    rw [key hH]
    push_cast
    rw [ZMod.natCast_val, ZMod.natCast_val, ZMod.cast_id, ZMod.cast_id]
  · rintro v w _ _ ⟨z, g1, g2⟩
    refine ⟨z.val, g1, ?_⟩
    have e : w v.v0 + I.mod.tpm * w v.v1 = ((v.num I.mod w : ℕ) : ZMod p) := by
      unfold FpElemVar.num
      rw [h.mul.ok.tpm]
      push_cast
      rw [ZMod.natCast_val, ZMod.natCast_val, ZMod.cast_id, ZMod.cast_id]
    rw [e, felt_num h hx.2.1, felt_num h hy.2.1, h.fieldElem] at g2
    have ez : ((z.val : ℕ) : ZMod p) = z := by rw [ZMod.natCast_val, ZMod.cast_id]
    rw [Nat.cast_add, Nat.cast_mul, ez, g2]
    push_cast
    ring

/-- the switch of fields, values below the target -/
theorem switch_of_lt {s t : ℕ} [NeZero s] [NeZero t] (x : ZMod s) (hx : x.val < t) :
    fieldSwitching t x = .ok ((x.val : ℕ) : ZMod t) := by
  rw [Verif.Props.Conv.switch_eq, if_pos (by rw [Nat.mod_eq_of_lt hx])]

theorem switch_bind {s t : ℕ} [NeZero s] [NeZero t] {x : ZMod s} {f : ZMod t → Build p β} {c : Circ p}
    {B : β → Circ p → Prop} {R : β → (ℕ → ZMod p) → Prop} (hC : H → x.val < t)
    (h2 : ∀ y : ZMod t, (x.val < t → y.val = x.val) → Spec (f y) c H B R) : Spec (switch t x >>= f) c H B R := by
  unfold switch
  rcases hx : fieldSwitching t x with e | y
  · constructor
    · intro u c' hu
      obtain ⟨_, _, a, _⟩ := bind_ok hu
      cases a
    · intro g
      rw [switch_of_lt x (hC g)] at hx
      cases hx
  · have hy : x.val < t → y.val = x.val := fun hl => by
      rw [switch_of_lt x hl] at hx
      cases hx
      rw [ZMod.val_natCast_of_lt hl]
    exact Spec.of_eq (v := y) rfl (h2 y hy)

/-- reading a value -/
theorem read_bind (h : Par I Q k) {c : Circ p} {x : FpElemVar p} {a : ZMod Q}
    (hx : Hol H I.mod a x c) {f : ZMod Q → Build p β} {B : β → Circ p → Prop} {R : β → (ℕ → ZMod p) → Prop}
    (h2 : ∀ r : ZMod Q, (H → r = a) → Spec (f r) c H B R) :
    Spec (wit x >>= fun y => switch Q y >>= f) c H B R := by
  have hw : (wit x : Build p _) c = .ok (c.val x.v0 + c.val x.v1 * x.tpm, c) := by
    have w0 : (witness x.v0 : Build p _) c = .ok (c.val x.v0, c) := by
      unfold witness; rw [if_neg (by have := hx.1.1; omega)]
    have w1 : (witness x.v1 : Build p _) c = .ok (c.val x.v1, c) := by
      unfold witness; rw [if_neg (by have := hx.1.2; omega)]
    unfold wit
    rw [bind_of_ok w0, bind_of_ok w1]
    rfl
  refine Spec.of_eq hw ?_
  have ev : H → (c.val x.v0 + c.val x.v1 * x.tpm).val = a.val := fun hH => by
    have := St.felt h hx.2.1 (hx.2.2 hH)
    unfold FpElemVar.felt at this
    rw [mul_comm] at this
    rw [this, ZMod.val_natCast_of_lt ((ZMod.val_lt a).trans h.q_lt_p)]
  refine switch_bind (fun hH => by rw [ev hH]; exact ZMod.val_lt a) ?_
  intro y hy
  refine h2 y fun hH => ?_
  apply ZMod.val_injective
  rw [hy (by rw [ev hH]; exact ZMod.val_lt a), ev hH]

/-- a new element -/
theorem newFrom_spec (h : Par I Q k) {c : Circ p} (hc : Ctx H k c) {x : ZMod p} {a : ZMod Q} (hx : H → x.val = a.val) :
    Spec (newFromFieldElement x I.m I.tpm) c H (fun v c' => Hol H I.mod a v c') (fun v w => v.Small I.mod w) := by
  unfold newFromFieldElement
  refine Spec.liftE_bind' (fun hH => ?_) ?_
  · obtain ⟨y, hy, -⟩ := cst_new h (hx hH)
    exact ⟨y, hy⟩
  intro e he
  have hm := h.m
  refine Spec.conseq hc.wf (newFromFpElem_spec hc.wf hc.rng e I.m I.tpm) ?_ ?_ ?_
  · intro hH _ _
    obtain ⟨y, hy, hk⟩ := cst_new h (hx hH)
    rw [hy] at he
    cases he
    refine ⟨by rw [hc.ultra]; rfl, by rw [hm]; exact h.mul.mpos, ?_, ?_⟩
    · rw [hm, ← hk.m]; exact hk.ok.p0
    · rw [hm, ← hk.m]; exact hk.ok.p1
  · rintro v c' _ ⟨g1, g2, g3, g4, g5⟩
    refine ⟨g1, ⟨by rw [g2, hm], by rw [g3, h.tpm]; rfl⟩, fun hH => ?_⟩
    obtain ⟨y, hy, hk⟩ := cst_new h (hx hH)
    rw [hy] at he
    cases he
    have e1 := hk.ok.p0
    have e2 := hk.int
    unfold FpElem.int at e2
    rw [hk.m] at e1 e2
    unfold St
    rw [g4, g5, ← e2]
    refine ⟨?_, ?_⟩
    · rw [Nat.add_mul_mod_self_left, Nat.mod_eq_of_lt e1]
    · rw [Nat.add_mul_div_left _ _ (by positivity), Nat.div_eq_of_lt e1, zero_add]
  · rintro v w _ _ g
    rw [hm] at g
    exact g

theorem newElem_spec (h : Par I Q k) {c : Circ p} (hc : Ctx H k c) {x a : ZMod Q} (hx : H → x = a) :
    Spec (newElem I x) c H (fun v c' => Hol H I.mod a v c') (fun v w => v.Small I.mod w) := by
  unfold newElem
  have hl : x.val < p := (ZMod.val_lt x).trans h.q_lt_p
  refine switch_bind (fun _ => hl) ?_
  intro y hy
  exact newFrom_spec h hc fun hH => by rw [hy hl, hx hH]

theorem const_bind (h : Par I Q k) {c : Circ p} {x : ZMod p} {b : ZMod Q} (hx : x.val = b.val)
    {f : FpElem p → Build p β} {B : β → Circ p → Prop} {R : β → (ℕ → ZMod p) → Prop}
    (h2 : ∀ y, Cst I b y → Spec (f y) c H B R) : Spec (const I x >>= f) c H B R := by
  obtain ⟨y, hy, hk⟩ := cst_new h hx
  exact Spec.liftE_bind hy (h2 y hk)

theorem constQ_bind (h : Par I Q k) {c : Circ p} {b : ZMod Q}
    {f : FpElem p → Build p β} {B : β → Circ p → Prop} {R : β → (ℕ → ZMod p) → Prop}
    (h2 : ∀ y, Cst I b y → Spec (f y) c H B R) : Spec (switch p b >>= fun x => const I x >>= f) c H B R := by
  have hl : b.val < p := (ZMod.val_lt b).trans h.q_lt_p
  refine switch_bind (fun _ => hl) ?_
  intro y hy
  exact const_bind h (hy hl) h2

/-- equality of two elements -/
theorem eq_spec {c : Circ p} (hc : Ctx H k c) {x y : FpElemVar p} {a b : ZMod Q}
    (hx : Hol H I.mod a x c) (hy : Hol H I.mod b y c) (hab : H → a = b) :
    Spec (x.enforceEqual y) c H (fun _ _ => True) (fun _ w => w x.v0 = w y.v0 ∧ w x.v1 = w y.v1) := by
  unfold FpElemVar.enforceEqual
  rw [if_neg (by rw [hx.2.1.1, hx.2.1.2, hy.2.1.1, hy.2.1.2]; simp)]
  have key : H → c.val x.v0 = c.val y.v0 ∧ c.val x.v1 = c.val y.v1 := fun hH => by
    obtain ⟨g1, g2⟩ := hx.2.2 hH
    obtain ⟨g3, g4⟩ := hy.2.2 hH
    rw [hab hH] at g1 g2
    exact ⟨ZMod.val_injective _ (g1.trans g3.symm), ZMod.val_injective _ (g2.trans g4.symm)⟩
  refine hbind hc.wf (Spec.weaken (enforceEqual_spec hc.wf _ _)
    (fun hH => ⟨⟨hx.1.1, hy.1.1⟩, (key hH).1⟩)) ?_
  intro _ c1 e1 _
  refine Spec.conseq e1.wf (enforceEqual_spec e1.wf _ _) (fun hH _ _ => ⟨⟨e1.lt hx.1.2, e1.lt hy.1.2⟩, ?_⟩)
    (fun _ _ _ _ => trivial) (fun _ w _ _ g2 g1 => ⟨g1, g2⟩)
  rw [e1.val _ hx.1.2, e1.val _ hy.1.2]
  exact (key hH).2

/-- two elements with the same limbs -/
theorem num_congr {q : FpElem p} {w : ℕ → ZMod p} {x y : FpElemVar p} (h : w x.v0 = w y.v0 ∧ w x.v1 = w y.v1) :
    x.num q w = y.num q w := by
  unfold FpElemVar.num; rw [h.1, h.2]

/-- an equation of two sums with at most `2^k` summands, and up to `2^k` times the modulus on each side -/
theorem sum_eq (h : Par I Q k) {A B d e : ℕ} (hA : A < 2 ^ k * 2 ^ (2 * I.mod.m)) (hB : B < 2 ^ k * 2 ^ (2 * I.mod.m))
    (hd : d ≤ 3 * 2 ^ k) (he : e ≤ 3 * 2 ^ k) (hh : ((A + d * Q : ℕ) : ZMod p) = ((B + e * Q : ℕ) : ZMod p)) :
    ((A : ℕ) : ZMod Q) = ((B : ℕ) : ZMod Q) := by
  have hq := h.q_lt
  have hw := h.wide
  have hw' : 4 * (2 ^ k * 2 ^ (2 * I.mod.m)) ≤ p := by
    refine le_trans (le_of_eq ?_) hw
    rw [pow_add, pow_add]; ring
  generalize 2 ^ (2 * I.mod.m) = M at *
  generalize 2 ^ k = K at *
  have h1 : d * Q ≤ 3 * K * M := Nat.mul_le_mul hd hq.le
  have h2 : e * Q ≤ 3 * K * M := Nat.mul_le_mul he hq.le
  have h3 : 3 * K * M = 3 * (K * M) := by ring
  rw [h3] at h1 h2
  generalize hdq : d * Q = D at *
  generalize heq : e * Q = E at *
  generalize K * M = T at *
  have e1 : A + D = B + E := by
    rw [ZMod.natCast_eq_natCast_iff] at hh
    unfold Nat.ModEq at hh
    rwa [Nat.mod_eq_of_lt (by omega), Nat.mod_eq_of_lt (by omega)] at hh
  have := congrArg (fun n : ℕ => (n : ZMod Q)) e1
  simp only [← hdq, ← heq, Nat.cast_add, Nat.cast_mul, ZMod.natCast_self, mul_zero, add_zero] at this
  exact this

end

end Verif.Circuit.VerifierPoly
