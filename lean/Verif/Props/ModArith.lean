import Verif.Circuit.ModArithNum
import Verif.Props.ExactSpec
import Verif.Props.Emulated

/-!
# Two-limb modular arithmetic (property C30)

* Multiplication. With `range_bit_len = k ≥ 2` and `2^(2m+k) ≤ p` the result limbs accepted are exactly those below
  `2^m` with `z + W * q = x * y` for some `W < 2^(2m)` (`C30_mod_mul`, `C30_mod_mul_constant`), so the result is the
  product modulo `q` (`C30_mod_mul_sound_partial`). The code only asks for `m ≤ bits / 2`. That is not enough
  (`C30_mod_mul_wrap_counterexample`), and `k = 1` rejects honest witnesses (`C30_mod_mul_small_range_counterexample`).
* Addition. The result limbs accepted are exactly those with `r0 + 2^m r1 = sum - q * z` in the native field for some
  `z < 2^k` (`C30_mod_add`, `C30_mod_add_constant`, `C30_mod_add_vec`). The range check on the result is vacuous and
  the limbs are not range checked, so other sums are accepted (`C30_mod_add_counterexample`).
* Negation. The result limbs accepted are exactly those with `r0 + 2^m r1 = q - x` in the native field
  (`C30_mod_negate`, `C30_mod_negate_counterexample`).
-/

set_option linter.unusedSectionVars false

namespace Verif.Props.ModArith

open Verif.Circuit Verif.Props.Emulated

variable {p : ℕ}

/-- the two limbs in an assignment -/
def limbs (w : ℕ → ZMod p) (v : FpElemVar p) : ZMod p × ZMod p := (w v.v0, w v.v1)

/-- the integer two limbs of `m` bits stand for -/
def num (m : ℕ) (a : ZMod p × ZMod p) : ℕ := a.1.val + 2 ^ m * a.2.val

/-- the native field element two limbs stand for -/
def felt (t : ZMod p) (a : ZMod p × ZMod p) : ZMod p := a.1 + t * a.2

/-- both limbs below `2^m` -/
def Small (m : ℕ) (a : ZMod p × ZMod p) : Prop := a.1.val < 2 ^ m ∧ a.2.val < 2 ^ m

/-- the limbs of a number -/
def split (p : ℕ) (t n : ℕ) : ZMod p × ZMod p := (((n % t : ℕ) : ZMod p), ((n / t : ℕ) : ZMod p))

/-- the parts of a constant -/
def parts (q : FpElem p) : ZMod p × ZMod p := (q.p0, q.p1)

/-- the variable belongs to the parameters of `q` -/
def Fits (x : FpElemVar p) (q : FpElem p) : Prop := x.m = q.m ∧ x.tpm = q.tpm

/-- the circuit supports lookups of `k` bits and has the variables -/
def Dom (k : ℕ) (xs : List (FpElemVar p)) (c : Circ p) : Prop :=
  RangeOK c ∧ c.ultra = some k ∧ ∀ x ∈ xs, x.v0 < c.numVars ∧ x.v1 < c.numVars

/-- parameters for which multiplication is known exactly -/
structure MulOK (q : FpElem p) (k : ℕ) : Prop where
  small : Small q.m (parts q)
  tpm : q.tpm = 2 ^ q.m
  pos : 0 < num q.m (parts q)
  dvd : k ∣ q.m
  mpos : 0 < q.m
  two : 2 ≤ k
  fit : 2 ^ (2 * q.m + k) ≤ p

theorem MulOK.params {q : FpElem p} {k : ℕ} (h : MulOK q k) : MulParams q k :=
  ⟨⟨⟨h.small.1, h.small.2, h.tpm⟩, h.mpos, h.two, h.fit⟩, h.pos, Nat.mod_eq_zero_of_dvd h.dvd⟩

/-- what multiplication allows: limbs in range, and the integer equation with a two-limb quotient -/
def MulRel (m Q X Y : ℕ) (z : ZMod p × ZMod p) : Prop :=
  Small m z ∧ ∃ W, W < 2 ^ (2 * m) ∧ num m z + W * Q = X * Y

theorem mulRel_iff {q : FpElem p} {X Y : ℕ} {z : ZMod p × ZMod p} :
    MulRel q.m (num q.m (parts q)) X Y z ↔ MulOut q X Y z :=
  ⟨fun ⟨⟨h1, h2⟩, h3⟩ => ⟨h1, h2, h3⟩, fun ⟨h1, h2, h3⟩ => ⟨⟨h1, h2⟩, h3⟩⟩

/-- what is returned -/
def Good (q : FpElem p) (v : FpElemVar p) (c : Circ p) : Prop := Fits v q ∧ v.v0 < c.numVars ∧ v.v1 < c.numVars

theorem limbs_agree {c : Circ p} {x : FpElemVar p} (h : x.v0 < c.numVars ∧ x.v1 < c.numVars) {w w' : ℕ → ZMod p}
    (ha : Agree c w' w) : limbs w' x = limbs w x := by
  unfold limbs; rw [ha _ h.1, ha _ h.2]

theorem quot_lt {m Q N r0 r1 : ℕ} (hQ : 0 < Q) (h0 : r0 = N % Q % 2 ^ m) (h1 : r1 = N % Q / 2 ^ m)
    (h : ∃ W, W < 2 ^ (2 * m) ∧ r0 + 2 ^ m * r1 + W * Q = N) : N / Q < 2 ^ (2 * m) := by
  obtain ⟨W, hW, he⟩ := h
  rw [h0, h1, Nat.mod_add_div] at he
  have h2 := Nat.mod_add_div N Q
  have : W * Q = Q * (N / Q) := by omega
  rw [Nat.mul_comm] at this
  rw [← Nat.eq_of_mul_eq_mul_left hQ this]
  exact hW

theorem split_eq {a b : ZMod p} [NeZero p] {t n : ℕ} (h0 : a.val = n % t) (h1 : b.val = n / t) :
    (a, b) = split p t n := by
  unfold split
  rw [← h0, ← h1, ZMod.natCast_val, ZMod.natCast_val, ZMod.cast_id, ZMod.cast_id]

/-- **C30**, exact form for `mod_mul`. -/
theorem C30_mod_mul [Fact p.Prime] {q : FpElem p} {k : ℕ} (hq : MulOK q k) (x y : FpElemVar p)
    (fx : Fits x q) (fy : Fits y q) :
    Exact (modMul x y q) (Dom k [x, y])
      (fun w => Small q.m (limbs w x) ∧ Small q.m (limbs w y))
      limbs
      (fun w z => MulRel q.m (num q.m (parts q)) (num q.m (limbs w x)) (num q.m (limbs w y)) z)
      (fun w => Small q.m (limbs w x) ∧ Small q.m (limbs w y))
      (fun w => num q.m (limbs w x) * num q.m (limbs w y) / num q.m (parts q) < 2 ^ (2 * q.m))
      (fun w => split p (2 ^ q.m) (num q.m (limbs w x) * num q.m (limbs w y) % num q.m (parts q)))
      (Good q) := by
  have sp : ∀ c : Circ p, WF c → Dom k [x, y] c → _ := fun c hc (hd : Dom k [x, y] c) =>
    modMul_spec hc hd.1 hd.2.1 x y (hd.2.2 x (by simp)) (hd.2.2 y (by simp)) q fx fy hq.params
  refine Exact.of_spec (modMul_rel _ _ _) (fun _ _ h => h) ?_ ?_ ?_ ?_ ?_
  · rintro c w w' hd ha ⟨h1, h2⟩
    rw [limbs_agree (hd.2.2 x (by simp)) ha, limbs_agree (hd.2.2 y (by simp)) ha]
    exact ⟨h1, h2⟩
  · rintro c w w' z hd ha h
    rw [limbs_agree (hd.2.2 x (by simp)) ha, limbs_agree (hd.2.2 y (by simp)) ha]
    exact h
  · intro c hc hd
    refine Spec.conseq hc (sp c hc hd) ?_ ?_ ?_
    · rintro ⟨⟨h1, h2⟩, h3⟩ _ _
      exact ⟨h1, h2, h3⟩
    · rintro v c' _ ⟨g1, g2, g3, g4, g5⟩
      exact ⟨⟨⟨g2, g3⟩, g1⟩, fun _ _ _ => split_eq g4 g5⟩
    · rintro v w _ _ h ⟨h1, h2⟩
      exact mulRel_iff.2 (h h1 h2)
  · rintro c z hc hd ⟨⟨a1, a2⟩, ⟨b1, b2⟩⟩ ⟨⟨z1, z2⟩, W, hW, he⟩
    obtain ⟨c0, c1, -, -, -, -, r, s⟩ := eqs_complete hq.params a1 a2 b1 b2 z1 z2 hW he
    refine ⟨_, modMul_rel' _ _ _ ⟨((W % 2 ^ q.m : ℕ) : ZMod p), ((W / 2 ^ q.m : ℕ) : ZMod p), z.1, z.2, (c0 : ℕ), (c1 : ℕ)⟩, ?_⟩
    refine Spec.conseq hc (modMulAdv_spec hc hd.1 hd.2.1 x y (hd.2.2 x (by simp)) (hd.2.2 y (by simp)) q hq.mpos _ r s)
      (fun _ _ _ => trivial) ?_ (fun _ _ _ _ _ => trivial)
    rintro v c' _ ⟨g1, g2⟩
    exact Prod.ext g1 g2
  · rintro c hc hd ⟨h1, h2⟩ v c' hm pi hs
    obtain ⟨e, ⟨-, -, -, g4, g5⟩, r⟩ := (sp c hc hd).sound v c' hm
    have hx := hd.2.2 x (by simp)
    have hy := hd.2.2 y (by simp)
    have ex : limbs c'.val x = limbs c.val x := limbs_agree hx (fun i hi => e.val i hi)
    have ey : limbs c'.val y = limbs c.val y := limbs_agree hy (fun i hi => e.val i hi)
    have h3 := mulRel_iff.2 (r pi _ hs (by rw [← ex] at h1; exact h1) (by rw [← ey] at h2; exact h2))
    have h4 : MulRel q.m (num q.m (parts q)) (num q.m (limbs c'.val x)) (num q.m (limbs c'.val y)) (limbs c'.val v) := h3
    rw [ex, ey] at h4
    exact quot_lt hq.pos g4 g5 h4.2

/-- **C30**, exact form for `mod_mul_constant`. -/
theorem C30_mod_mul_constant [Fact p.Prime] {q : FpElem p} {k : ℕ} (hq : MulOK q k) (x : FpElemVar p)
    (fx : Fits x q) (y : FpElem p) (ym : y.m = q.m) (yt : y.tpm = q.tpm) (ys : Small q.m (parts y)) :
    Exact (modMulConstant x y q) (Dom k [x])
      (fun w => Small q.m (limbs w x))
      limbs
      (fun w z => MulRel q.m (num q.m (parts q)) (num q.m (limbs w x)) (num q.m (parts y)) z)
      (fun w => Small q.m (limbs w x))
      (fun w => num q.m (limbs w x) * num q.m (parts y) / num q.m (parts q) < 2 ^ (2 * q.m))
      (fun w => split p (2 ^ q.m) (num q.m (limbs w x) * num q.m (parts y) % num q.m (parts q)))
      (Good q) := by
  have oy : y.OK := ⟨by rw [ym]; exact ys.1, by rw [ym]; exact ys.2, by rw [yt, ym]; exact hq.tpm⟩
  have hyi : y.int = num q.m (parts y) := by unfold FpElem.int; rw [ym]; rfl
  have sp : ∀ c : Circ p, WF c → Dom k [x] c → _ := fun c hc (hd : Dom k [x] c) =>
    modMulConstant_spec hc hd.1 hd.2.1 x (hd.2.2 x (by simp)) y q fx ym oy hq.params
  simp only [hyi] at sp
  refine Exact.of_spec (modMulConstant_rel _ _ _) (fun _ _ h => h) ?_ ?_ ?_ ?_ ?_
  · rintro c w w' hd ha h1
    rw [limbs_agree (hd.2.2 x (by simp)) ha]
    exact h1
  · rintro c w w' z hd ha h
    rw [limbs_agree (hd.2.2 x (by simp)) ha]
    exact h
  · intro c hc hd
    refine Spec.conseq hc (sp c hc hd) ?_ ?_ ?_
    · rintro ⟨h1, h3⟩ _ _
      exact ⟨h1, h3⟩
    · rintro v c' _ ⟨g1, g2, g3, g4, g5⟩
      exact ⟨⟨⟨g2, g3⟩, g1⟩, fun _ _ _ => split_eq g4 g5⟩
    · rintro v w _ _ h h1
      exact mulRel_iff.2 (h h1)
  · rintro c z hc hd ⟨a1, a2⟩ ⟨⟨z1, z2⟩, W, hW, he⟩
    obtain ⟨c0, c1, -, -, -, -, r, s⟩ := eqs_complete hq.params a1 a2 ys.1 ys.2 z1 z2 hW he
    refine ⟨_, modMulConstant_rel' _ _ _ ⟨((W % 2 ^ q.m : ℕ) : ZMod p), ((W / 2 ^ q.m : ℕ) : ZMod p), z.1, z.2, (c0 : ℕ), (c1 : ℕ)⟩, ?_⟩
    refine Spec.conseq hc (modMulConstAdv_spec hc hd.1 hd.2.1 x (hd.2.2 x (by simp)) y q hq.mpos _ r s)
      (fun _ _ _ => trivial) ?_ (fun _ _ _ _ _ => trivial)
    rintro v c' _ ⟨g1, g2⟩
    exact Prod.ext g1 g2
  · rintro c hc hd h1 v c' hm pi hs
    obtain ⟨e, ⟨-, -, -, g4, g5⟩, r⟩ := (sp c hc hd).sound v c' hm
    have ex : limbs c'.val x = limbs c.val x := limbs_agree (hd.2.2 x (by simp)) (fun i hi => e.val i hi)
    have h3 := mulRel_iff.2 (r pi _ hs (by rw [← ex] at h1; exact h1))
    have h4 : MulRel q.m (num q.m (parts q)) (num q.m (limbs c'.val x)) (num q.m (parts y)) (limbs c'.val v) := h3
    rw [ex] at h4
    exact quot_lt hq.pos g4 g5 h4.2

/-- **C30, multiplication**: in every satisfying assignment with the arguments in range, the result is in range and
is the product modulo `q`. Missing: parameters that the code accepts but that do not satisfy `MulOK`; there it is
false (`C30_mod_mul_wrap_counterexample`, `C30_mod_mul_small_range_counterexample`). -/
theorem C30_mod_mul_sound_partial [Fact p.Prime] {q : FpElem p} {k : ℕ} (hq : MulOK q k) {x y : FpElemVar p}
    (fx : Fits x q) (fy : Fits y q) {c : Circ p} (hc : WF c) (hd : Dom k [x, y] c) {v : FpElemVar p} {c' : Circ p}
    (hm : modMul x y q c = .ok (v, c')) {pi : List (ZMod p)} {w : ℕ → ZMod p} (hs : Sat c' pi w)
    (sx : Small q.m (limbs w x)) (sy : Small q.m (limbs w y)) :
    Small q.m (limbs w v) ∧
      num q.m (limbs w v) ≡ num q.m (limbs w x) * num q.m (limbs w y) [MOD num q.m (parts q)] := by
  obtain ⟨h1, W, -, h2⟩ := (C30_mod_mul hq x y fx fy).sound hc hd hm hs ⟨sx, sy⟩
  refine ⟨h1, ?_⟩
  rw [← h2]
  exact (Nat.add_mul_modulus_modEq_iff.2 (Nat.ModEq.refl _)).symm

/-- **C30, multiplication by a constant** -/
theorem C30_mod_mul_constant_sound_partial [Fact p.Prime] {q : FpElem p} {k : ℕ} (hq : MulOK q k) {x : FpElemVar p}
    (fx : Fits x q) {y : FpElem p} (ym : y.m = q.m) (yt : y.tpm = q.tpm) (ys : Small q.m (parts y))
    {c : Circ p} (hc : WF c) (hd : Dom k [x] c) {v : FpElemVar p} {c' : Circ p}
    (hm : modMulConstant x y q c = .ok (v, c')) {pi : List (ZMod p)} {w : ℕ → ZMod p} (hs : Sat c' pi w)
    (sx : Small q.m (limbs w x)) :
    Small q.m (limbs w v) ∧
      num q.m (limbs w v) ≡ num q.m (limbs w x) * num q.m (parts y) [MOD num q.m (parts q)] := by
  obtain ⟨h1, W, -, h2⟩ := (C30_mod_mul_constant hq x fx y ym yt ys).sound hc hd hm hs sx
  refine ⟨h1, ?_⟩
  rw [← h2]
  exact (Nat.add_mul_modulus_modEq_iff.2 (Nat.ModEq.refl _)).symm

/-! ## Addition and negation -/

/-- parameters for which the additions run -/
structure AddOK (q : FpElem p) (k : ℕ) : Prop where
  dvd : k ∣ q.m
  half : q.m ≤ modulusBits p / 2
  tpm : q.tpm ≠ 0
  pos : felt q.tpm (parts q) ≠ 0

theorem AddOK.params {q : FpElem p} {k : ℕ} (h : AddOK q k) : AddParams q k :=
  ⟨Nat.mod_eq_zero_of_dvd h.dvd, h.half, by rw [Ne, ZMod.val_eq_zero]; exact h.tpm,
    by rw [Ne, ZMod.val_eq_zero]; exact h.pos⟩

/-- what addition allows for the sum `s` -/
def AddRel (q : FpElem p) (k : ℕ) (s : ZMod p) (r : ZMod p × ZMod p) : Prop :=
  ∃ z : ℕ, z < 2 ^ k ∧ felt q.tpm r = s - felt q.tpm (parts q) * z

theorem addRel_of [NeZero p] {q : FpElem p} {k : ℕ} {s : ZMod p} {r : ZMod p × ZMod p}
    (h : ∃ z : ZMod p, z.val < 2 ^ k ∧ r.1 + q.tpm * r.2 = s - q.fieldElem * z) : AddRel q k s r := by
  obtain ⟨z, h1, h2⟩ := h
  exact ⟨z.val, h1, by rw [ZMod.natCast_val, ZMod.cast_id]; exact h2⟩

theorem of_addRel {q : FpElem p} {k : ℕ} (hk : 2 ^ k < p) {s : ZMod p} {r : ZMod p × ZMod p} (h : AddRel q k s r) :
    ∃ z : ZMod p, z.val < 2 ^ k ∧ r.1 + q.tpm * r.2 = s - q.fieldElem * z := by
  obtain ⟨z, h1, h2⟩ := h
  exact ⟨z, by rw [ZMod.val_natCast_of_lt (h1.trans hk)]; exact h1, h2⟩

/-- what the builder of an addition stores -/
def addRes (q : FpElem p) (s : ZMod p) : ZMod p × ZMod p :=
  split p q.tpm.val (s.val % (felt q.tpm (parts q)).val)

theorem sum_agree {c : Circ p} (q : FpElem p) {xs : List (FpElemVar p)}
    (h : ∀ x ∈ xs, x.v0 < c.numVars ∧ x.v1 < c.numVars) {w w' : ℕ → ZMod p} (ha : Agree c w' w) :
    (xs.map (fun x => felt q.tpm (limbs w' x))).sum = (xs.map (fun x => felt q.tpm (limbs w x))).sum := by
  congr 1
  apply List.map_congr_left
  intro x hx
  rw [limbs_agree (h x hx) ha]

theorem felt_sum {q : FpElem p} {xs : List (FpElemVar p)} (h : ∀ x ∈ xs, Fits x q) (w : ℕ → ZMod p) :
    (xs.map (fun x => FpElemVar.felt x w)).sum = (xs.map (fun x => felt q.tpm (limbs w x))).sum := by
  congr 1
  apply List.map_congr_left
  intro x hx
  unfold FpElemVar.felt felt limbs
  rw [(h x hx).2]

/-- **C30**, exact form for `mod_add_vec`. -/
theorem C30_mod_add_vec [Fact p.Prime] {q : FpElem p} {k : ℕ} (hq : AddOK q k) (xs : List (FpElemVar p))
    (fx : ∀ x ∈ xs, Fits x q) :
    Exact (modAddVec xs q) (Dom k xs)
      (fun _ => True)
      limbs
      (fun w r => AddRel q k (xs.map (fun x => felt q.tpm (limbs w x))).sum r)
      (fun _ => True)
      (fun w => (xs.map (fun x => felt q.tpm (limbs w x))).sum.val / (felt q.tpm (parts q)).val < 2 ^ k)
      (fun w => addRes q (xs.map (fun x => felt q.tpm (limbs w x))).sum)
      (Good q) := by
  have sp : ∀ c : Circ p, WF c → Dom k xs c → _ := fun c hc (hd : Dom k xs c) =>
    modAddVec_spec hc hd.1 hd.2.1 xs hd.2.2 q fx hq.params
  simp only [felt_sum fx] at sp
  refine Exact.of_spec (modAddVec_rel _ _) (fun _ _ h => h) (fun _ _ _ _ _ h => h) ?_ ?_ ?_ ?_
  · rintro c w w' r hd ha h
    rw [sum_agree q hd.2.2 ha]; exact h
  · intro c hc hd
    refine Spec.conseq hc (sp c hc hd) (fun g _ _ => g.2) ?_ ?_
    · rintro v c' _ ⟨g1, g2, g3, ⟨g4, g5⟩, -⟩
      exact ⟨⟨⟨g2, g3⟩, g1⟩, fun _ _ _ => Prod.ext g4 g5⟩
    · rintro v w _ _ h -
      exact addRel_of h
  · rintro c r hc hd - h
    obtain ⟨z, h1, h2⟩ := of_addRel (hd.1 k hd.2.1).2.2 h
    refine ⟨_, modAddVec_rel' _ _ z (r.1 + q.tpm * r.2) r.1 r.2, ?_⟩
    refine Spec.conseq hc (modAddVecAdv_spec hc hd.1 hd.2.1 xs hd.2.2 q z r.1 r.2 h1 (by rw [felt_sum fx]; exact h2))
      (fun _ _ _ => trivial) ?_ (fun _ _ _ _ _ => trivial)
    rintro v c' _ ⟨g1, g2⟩
    exact Prod.ext g1 g2
  · rintro c hc hd - v c' hm pi hs
    exact ((sp c hc hd).sound v c' hm).2.1.2.2.2.2

/-- **C30**, exact form for `mod_add`. -/
theorem C30_mod_add [Fact p.Prime] {q : FpElem p} {k : ℕ} (hq : AddOK q k) (x y : FpElemVar p)
    (fx : Fits x q) (fy : Fits y q) :
    Exact (modAdd x y q) (Dom k [x, y])
      (fun _ => True)
      limbs
      (fun w r => AddRel q k (felt q.tpm (limbs w x) + felt q.tpm (limbs w y)) r)
      (fun _ => True)
      (fun w => (felt q.tpm (limbs w x) + felt q.tpm (limbs w y)).val / (felt q.tpm (parts q)).val < 2 ^ k)
      (fun w => addRes q (felt q.tpm (limbs w x) + felt q.tpm (limbs w y)))
      (Good q) := by
  have sp : ∀ c : Circ p, WF c → Dom k [x, y] c → _ := fun c hc (hd : Dom k [x, y] c) =>
    modAdd_spec hc hd.1 hd.2.1 x y (hd.2.2 x (by simp)) (hd.2.2 y (by simp)) q fx fy hq.params
  have ex : ∀ w : ℕ → ZMod p, x.felt w = felt q.tpm (limbs w x) := fun w => by
    unfold FpElemVar.felt felt limbs; rw [fx.2]
  have ey : ∀ w : ℕ → ZMod p, y.felt w = felt q.tpm (limbs w y) := fun w => by
    unfold FpElemVar.felt felt limbs; rw [fy.2]
  simp only [ex, ey] at sp
  refine Exact.of_spec (modAdd_rel _ _ _) (fun _ _ h => h) (fun _ _ _ _ _ h => h) ?_ ?_ ?_ ?_
  · rintro c w w' r hd ha h
    rw [limbs_agree (hd.2.2 x (by simp)) ha, limbs_agree (hd.2.2 y (by simp)) ha]; exact h
  · intro c hc hd
    refine Spec.conseq hc (sp c hc hd) (fun g _ _ => g.2) ?_ ?_
    · rintro v c' _ ⟨g1, g2, g3, ⟨g4, g5⟩, -⟩
      exact ⟨⟨⟨g2, g3⟩, g1⟩, fun _ _ _ => Prod.ext g4 g5⟩
    · rintro v w _ _ h -
      exact addRel_of h
  · rintro c r hc hd - h
    obtain ⟨z, h1, h2⟩ := of_addRel (hd.1 k hd.2.1).2.2 h
    refine ⟨_, modAdd_rel' _ _ _ z (r.1 + q.tpm * r.2) r.1 r.2, ?_⟩
    refine Spec.conseq hc (modAdd2Adv_spec hc hd.1 hd.2.1 x y (hd.2.2 x (by simp)) (hd.2.2 y (by simp)) q z r.1 r.2 h1
      (by rw [ex, ey]; exact h2)) (fun _ _ _ => trivial) ?_ (fun _ _ _ _ _ => trivial)
    rintro v c' _ ⟨g1, g2⟩
    exact Prod.ext g1 g2
  · rintro c hc hd - v c' hm pi hs
    exact ((sp c hc hd).sound v c' hm).2.1.2.2.2.2

/-- **C30**, exact form for `mod_add_constant`. -/
theorem C30_mod_add_constant [Fact p.Prime] {q : FpElem p} {k : ℕ} (hq : AddOK q k) (x : FpElemVar p)
    (fx : Fits x q) (y : FpElem p) (ym : y.m = q.m) (yt : y.tpm = q.tpm) :
    Exact (modAddConstant x y q) (Dom k [x])
      (fun _ => True)
      limbs
      (fun w r => AddRel q k (felt q.tpm (limbs w x) + felt q.tpm (parts y)) r)
      (fun _ => True)
      (fun w => (felt q.tpm (limbs w x) + felt q.tpm (parts y)).val / (felt q.tpm (parts q)).val < 2 ^ k)
      (fun w => addRes q (felt q.tpm (limbs w x) + felt q.tpm (parts y)))
      (Good q) := by
  have sp : ∀ c : Circ p, WF c → Dom k [x] c → _ := fun c hc (hd : Dom k [x] c) =>
    modAddConstant_spec hc hd.1 hd.2.1 x (hd.2.2 x (by simp)) y q fx ⟨ym, yt⟩ hq.params
  have ex : ∀ w : ℕ → ZMod p, x.felt w = felt q.tpm (limbs w x) := fun w => by
    unfold FpElemVar.felt felt limbs; rw [fx.2]
  have ey : y.fieldElem = felt q.tpm (parts y) := by unfold FpElem.fieldElem felt parts; rw [yt]
  simp only [ex, ey] at sp
  refine Exact.of_spec (modAddConstant_rel _ _ _) (fun _ _ h => h) (fun _ _ _ _ _ h => h) ?_ ?_ ?_ ?_
  · rintro c w w' r hd ha h
    rw [limbs_agree (hd.2.2 x (by simp)) ha]; exact h
  · intro c hc hd
    refine Spec.conseq hc (sp c hc hd) (fun g _ _ => g.2) ?_ ?_
    · rintro v c' _ ⟨g1, g2, g3, ⟨g4, g5⟩, -⟩
      exact ⟨⟨⟨g2, g3⟩, g1⟩, fun _ _ _ => Prod.ext g4 g5⟩
    · rintro v w _ _ h -
      exact addRel_of h
  · rintro c r hc hd - h
    obtain ⟨z, h1, h2⟩ := of_addRel (hd.1 k hd.2.1).2.2 h
    refine ⟨_, modAddConstant_rel' _ _ _ z (r.1 + q.tpm * r.2) r.1 r.2, ?_⟩
    refine Spec.conseq hc (modAddConstAdv_spec hc hd.1 hd.2.1 x (hd.2.2 x (by simp)) y q z r.1 r.2 h1
      (by rw [ex, ey]; exact h2)) (fun _ _ _ => trivial) ?_ (fun _ _ _ _ _ => trivial)
    rintro v c' _ ⟨g1, g2⟩
    exact Prod.ext g1 g2
  · rintro c hc hd - v c' hm pi hs
    exact ((sp c hc hd).sound v c' hm).2.1.2.2.2.2

/-- **C30**, exact form for `mod_negate`. -/
theorem C30_mod_negate [Fact p.Prime] (x : FpElemVar p) (q : ZMod p) {k : ℕ} (k0 : 0 < k) (hd : k ∣ x.m)
    (hm : x.m ≤ modulusBits p / 2) (ht : x.tpm = 2 ^ x.m) (hlt : 2 ^ x.m < p) :
    Exact (modNegate x q) (Dom k [x])
      (fun _ => True)
      limbs
      (fun w r => felt x.tpm r = q - felt x.tpm (limbs w x))
      (fun _ => True)
      (fun w => num x.m (limbs w x) < q.val)
      (fun w => split p (2 ^ x.m) (q.val - num x.m (limbs w x)))
      (fun v c => v.m = x.m ∧ v.tpm = x.tpm ∧ v.v0 < c.numVars ∧ v.v1 < c.numVars) := by
  have tv : x.tpm.val = 2 ^ x.m := by
    rw [ht, show ((2 : ZMod p) ^ x.m) = ((2 ^ x.m : ℕ) : ZMod p) by push_cast; rfl]
    exact ZMod.val_natCast_of_lt hlt
  have sp : ∀ c : Circ p, WF c → Dom k [x] c → _ := fun c hc (hd' : Dom k [x] c) =>
    modNegate_spec hc hd'.2.1 k0 x (hd'.2.2 x (by simp)) q (Nat.mod_eq_zero_of_dvd hd) hm (by rw [tv]; positivity)
  simp only [tv] at sp
  refine Exact.of_spec (modNegate_rel _ _) (fun _ _ h => h) (fun _ _ _ _ _ h => h) ?_ ?_ ?_ ?_
  · rintro c w w' r hd ha h
    rw [limbs_agree (hd.2.2 x (by simp)) ha]; exact h
  · intro c hc hd
    refine Spec.conseq hc (sp c hc hd) (fun g _ _ => g.2) ?_ ?_
    · rintro v c' _ ⟨g1, g2, g3, -, g4, g5⟩
      exact ⟨⟨g2, g3, g1⟩, fun _ _ _ => Prod.ext g4 g5⟩
    · rintro v w _ _ h -
      exact h
  · rintro c r hc hd - h
    refine ⟨_, modNegate_rel' _ _ (r.1 + x.tpm * r.2) r.1 r.2, ?_⟩
    refine Spec.conseq hc (modNegAdv_spec hc x (hd.2.2 x (by simp)) q r.1 r.2 h)
      (fun _ _ _ => trivial) ?_ (fun _ _ _ _ _ => trivial)
    rintro v c' _ ⟨g1, g2⟩
    exact Prod.ext g1 g2
  · rintro c hc hd - v c' hm pi hs
    exact ((sp c hc hd).sound v c' hm).2.1.2.2.2.1

/-! ## When the addition is the sum modulo `q` -/

theorem cast_num [NeZero p] (m : ℕ) (a : ZMod p × ZMod p) : ((num m a : ℕ) : ZMod p) = felt (2 ^ m) a := by
  unfold num felt
  push_cast
  simp only [ZMod.natCast_val, ZMod.cast_id', id_eq]

theorem nat_eq_of_field {a b : ℕ} (h : (a : ZMod p) = (b : ZMod p)) (ha : a < p) (hb : b < p) : a = b := by
  have := (ZMod.natCast_eq_natCast_iff a b p).1 h
  exact Nat.ModEq.eq_of_lt_of_lt this ha hb

/-- below the wrap-around bound the field equation of the additions is an integer equation -/
theorem AddRel.sound [Fact p.Prime] {q : FpElem p} (ht : q.tpm = 2 ^ q.m) (hQ : 0 < num q.m (parts q)) {k s : ℕ}
    {r : ZMod p × ZMod p} (h : AddRel q k (s : ZMod p) r) (hs : s < p)
    (hr : num q.m r + 2 ^ k * num q.m (parts q) ≤ p) :
    num q.m r ≡ s [MOD num q.m (parts q)] := by
  obtain ⟨z, hz, he⟩ := h
  rw [ht, ← cast_num, ← cast_num] at he
  have key : num q.m r + num q.m (parts q) * z = s := by
    refine nat_eq_of_field (p := p) (by push_cast; rw [he]; ring) ?_ hs
    have : num q.m (parts q) * z < 2 ^ k * num q.m (parts q) := by
      rw [Nat.mul_comm]; exact Nat.mul_lt_mul_of_pos_right hz hQ
    omega
  rw [← key]
  exact (Nat.add_modulus_mul_modEq_iff.2 (Nat.ModEq.refl _)).symm

/-- **C30, addition, part that holds**: when the sum of the integers is below `p`, and the limbs of the result are
known (from elsewhere) to be so small that `r + 2^k q ≤ p`, the result is the sum modulo `q`. Missing: the gadget
itself does not enforce that bound on the result, see `C30_mod_add_counterexample`. -/
theorem C30_mod_add_sound_partial [Fact p.Prime] {q : FpElem p} {k : ℕ} (hq : AddOK q k) (ht : q.tpm = 2 ^ q.m)
    (hQ : 0 < num q.m (parts q)) {x y : FpElemVar p} (fx : Fits x q) (fy : Fits y q) {c : Circ p} (hc : WF c)
    (hd : Dom k [x, y] c) {v : FpElemVar p} {c' : Circ p} (hm : modAdd x y q c = .ok (v, c')) {pi : List (ZMod p)}
    {w : ℕ → ZMod p} (hs : Sat c' pi w) (hsum : num q.m (limbs w x) + num q.m (limbs w y) < p)
    (hr : num q.m (limbs w v) + 2 ^ k * num q.m (parts q) ≤ p) :
    num q.m (limbs w v) ≡ num q.m (limbs w x) + num q.m (limbs w y) [MOD num q.m (parts q)] := by
  have h := (C30_mod_add hq x y fx fy).sound hc hd hm hs trivial
  have hcast : felt q.tpm (limbs w x) + felt q.tpm (limbs w y) =
      ((num q.m (limbs w x) + num q.m (limbs w y) : ℕ) : ZMod p) := by
    push_cast; rw [cast_num, cast_num, ht]
  rw [hcast] at h
  exact h.sound ht hQ hsum hr

/-- **C30, addition of a constant, part that holds**; missing as in `C30_mod_add_sound_partial` -/
theorem C30_mod_add_constant_sound_partial [Fact p.Prime] {q : FpElem p} {k : ℕ} (hq : AddOK q k)
    (ht : q.tpm = 2 ^ q.m) (hQ : 0 < num q.m (parts q)) {x : FpElemVar p} (fx : Fits x q) {y : FpElem p}
    (ym : y.m = q.m) (yt : y.tpm = q.tpm) {c : Circ p} (hc : WF c)
    (hd : Dom k [x] c) {v : FpElemVar p} {c' : Circ p} (hm : modAddConstant x y q c = .ok (v, c'))
    {pi : List (ZMod p)} {w : ℕ → ZMod p} (hs : Sat c' pi w) (hsum : num q.m (limbs w x) + num q.m (parts y) < p)
    (hr : num q.m (limbs w v) + 2 ^ k * num q.m (parts q) ≤ p) :
    num q.m (limbs w v) ≡ num q.m (limbs w x) + num q.m (parts y) [MOD num q.m (parts q)] := by
  have h := (C30_mod_add_constant hq x fx y ym yt).sound hc hd hm hs trivial
  have hcast : felt q.tpm (limbs w x) + felt q.tpm (parts y) =
      ((num q.m (limbs w x) + num q.m (parts y) : ℕ) : ZMod p) := by
    push_cast; rw [cast_num, cast_num, ht]
  rw [hcast] at h
  exact h.sound ht hQ hsum hr

/-- **C30, addition of many, part that holds**; missing as in `C30_mod_add_sound_partial` -/
theorem C30_mod_add_vec_sound_partial [Fact p.Prime] {q : FpElem p} {k : ℕ} (hq : AddOK q k)
    (ht : q.tpm = 2 ^ q.m) (hQ : 0 < num q.m (parts q)) {xs : List (FpElemVar p)} (fx : ∀ x ∈ xs, Fits x q)
    {c : Circ p} (hc : WF c) (hd : Dom k xs c) {v : FpElemVar p} {c' : Circ p}
    (hm : modAddVec xs q c = .ok (v, c')) {pi : List (ZMod p)} {w : ℕ → ZMod p} (hs : Sat c' pi w)
    (hsum : (xs.map (fun x => num q.m (limbs w x))).sum < p)
    (hr : num q.m (limbs w v) + 2 ^ k * num q.m (parts q) ≤ p) :
    num q.m (limbs w v) ≡ (xs.map (fun x => num q.m (limbs w x))).sum [MOD num q.m (parts q)] := by
  have h := (C30_mod_add_vec hq xs fx).sound hc hd hm hs trivial
  have hcast : (xs.map (fun x => felt q.tpm (limbs w x))).sum =
      (((xs.map (fun x => num q.m (limbs w x))).sum : ℕ) : ZMod p) := by
    rw [Nat.cast_list_sum, List.map_map]
    congr 1
    apply List.map_congr_left
    intro x _
    simp only [Function.comp_def]
    rw [cast_num, ht]
  rw [hcast] at h
  exact h.sound ht hQ hsum hr

/-- **C30, negation, part that holds**: with `x + r < p` the result is `q - x`. Missing: the gadget does not range check
the limbs of the result, see `C30_mod_negate_counterexample`. -/
theorem C30_mod_negate_sound_partial [Fact p.Prime] {x : FpElemVar p} {q : ZMod p} {k : ℕ} (k0 : 0 < k)
    (hd : k ∣ x.m) (hm : x.m ≤ modulusBits p / 2) (ht : x.tpm = 2 ^ x.m) (hlt : 2 ^ x.m < p)
    {c : Circ p} (hc : WF c) (hdom : Dom k [x] c) {v : FpElemVar p} {c' : Circ p}
    (hrun : modNegate x q c = .ok (v, c')) {pi : List (ZMod p)} {w : ℕ → ZMod p} (hs : Sat c' pi w)
    (hr : num x.m (limbs w v) + num x.m (limbs w x) < p) :
    num x.m (limbs w v) + num x.m (limbs w x) = q.val := by
  have h := (C30_mod_negate x q k0 hd hm ht hlt).sound hc hdom hrun hs trivial
  refine nat_eq_of_field (p := p) ?_ hr (ZMod.val_lt q)
  push_cast
  rw [cast_num, cast_num, ZMod.natCast_val, ZMod.cast_id, ← ht, h]
  ring

/-! ## Counterexamples -/

theorem sat_new_ultra (k : ℕ) : checkSat (Circ.new p (some k)) [] = .ok () :=
  (checkSat_ok (wf_new _) []).2 (sat_new _)

/-- two elements made with `FpElemVar::new_from_fp_elem` in a new circuit -/
theorem two_elems [hp : Fact p.Prime] {k : ℕ} (k0 : 0 < k) (k1 : k < 32) (k2 : 2 ^ k < p) {a b : FpElem p} {m : ℕ}
    (hm : 0 < m) (ha : Small m (parts a)) (hb : Small m (parts b)) :
    ∃ x y c1 c, newFromFpElem a m none (Circ.new p (some k)) = .ok (x, c1) ∧ newFromFpElem b m none c1 = .ok (y, c) ∧
      WF c ∧ Dom k [x, y] c ∧ checkSat c [] = .ok () ∧ x.m = m ∧ y.m = m ∧ x.tpm = 2 ^ m ∧ y.tpm = 2 ^ m ∧
      limbs c.val x = parts a ∧ limbs c.val y = parts b := by
  have hr : RangeOK (Circ.new p (some k)) := by
    intro j hj
    simp only [Circ.new, Option.some.injEq] at hj
    subst hj
    exact ⟨k0, k1, k2⟩
  have sp1 := newFromFpElem_spec (wf_new (some k)) hr a m none
  obtain ⟨x, c1, g1, s1⟩ := sp1.complete ⟨rfl, hm, ha⟩ [] (sat_new _)
  obtain ⟨e1, ⟨i1, m1, t1, v1, u1⟩, -⟩ := sp1.sound _ _ g1
  have sp2 := newFromFpElem_spec e1.wf (hr.ext e1) b m none
  obtain ⟨y, c, g2, s2⟩ := sp2.complete ⟨by rw [e1.ultra]; rfl, hm, hb⟩ [] s1
  obtain ⟨e2, ⟨i2, m2, t2, v2, u2⟩, -⟩ := sp2.sound _ _ g2
  refine ⟨x, y, c1, c, g1, g2, e2.wf, ⟨(hr.ext e1).ext e2, by rw [e2.ultra, e1.ultra]; rfl, ?_⟩,
    (checkSat_ok e2.wf []).2 s2, m1, m2, t1, t2, ?_, Prod.ext v2 u2⟩
  · intro z hz
    simp only [List.mem_cons, List.not_mem_nil, or_false] at hz
    rcases hz with rfl | rfl
    · exact ⟨e2.lt i1.1, e2.lt i1.2⟩
    · exact i2
  · exact Prod.ext ((e2.val _ i1.1).trans v1) ((e2.val _ i1.2).trans u1)

/-- **C30, addition, refuted**: `0 + 0` may be `p - q`, for every modulus `q` that does not divide `p`. Both limbs of
the wrong result are below `2^m` if `p ≤ 2^(2m)`. -/
theorem C30_mod_add_counterexample [hp : Fact p.Prime] {q : FpElem p} {k : ℕ} (k0 : 0 < k) (k1 : k < 32)
    (k2 : 2 ^ k < p) (hq : AddOK q k) (hm : 0 < q.m) (ht : q.tpm = 2 ^ q.m) (hQ : num q.m (parts q) < p)
    (hnd : ¬ num q.m (parts q) ∣ p) :
    ∃ x y c1 c v c' w, newFromFpElem ⟨0, 0, q.m, q.tpm⟩ q.m none (Circ.new p (some k)) = .ok (x, c1) ∧
      newFromFpElem ⟨0, 0, q.m, q.tpm⟩ q.m none c1 = .ok (y, c) ∧ modAdd x y q c = .ok (v, c') ∧ Sat c' [] w ∧
      num q.m (limbs w x) = 0 ∧ num q.m (limbs w y) = 0 ∧ num q.m (limbs w v) = p - num q.m (parts q) ∧
      ¬ num q.m (limbs w v) ≡ 0 + 0 [MOD num q.m (parts q)] := by
  have hpp := hp.out.pos
  obtain ⟨x, y, c1, c, g1, g2, hc, hd, hck, mx, my, tx, ty, lx, ly⟩ := two_elems (p := p) k0 k1 k2
    (a := ⟨0, 0, q.m, q.tpm⟩) (b := ⟨0, 0, q.m, q.tpm⟩) hm (by simp [Small, parts]) (by simp [Small, parts])
  have hC := C30_mod_add hq x y ⟨mx, by rw [tx, ht]⟩ ⟨my, by rw [ty, ht]⟩
  have hf0 : felt q.tpm (parts (⟨0, 0, q.m, q.tpm⟩ : FpElem p)) = 0 := by simp [felt, parts]
  obtain ⟨⟨-, hon⟩, -⟩ := hC.honest c hc hd [] hck trivial
  obtain ⟨v, c', hrun, -⟩ := hon (by rw [lx, ly, hf0]; simp)
  have hM : 0 < 2 ^ q.m := by positivity
  have b0 : (p - num q.m (parts q)) % 2 ^ q.m < p := by
    refine (Nat.mod_le _ _).trans_lt ?_
    have : 0 < num q.m (parts q) := by
      rcases Nat.eq_zero_or_pos (num q.m (parts q)) with h0 | h0
      · exfalso
        apply hq.pos
        rw [ht, ← cast_num, h0]; simp
      · exact h0
    omega
  have hQ0 : 0 < num q.m (parts q) := by
    rcases Nat.eq_zero_or_pos (num q.m (parts q)) with h0 | h0
    · exfalso
      apply hq.pos
      rw [ht, ← cast_num, h0]; simp
    · exact h0
  have b1 : (p - num q.m (parts q)) / 2 ^ q.m < p := (Nat.div_le_self _ _).trans_lt (by omega)
  have hnum : num q.m (split p (2 ^ q.m) (p - num q.m (parts q))) = p - num q.m (parts q) := by
    generalize p - num q.m (parts q) = n at b0 b1
    unfold num split
    simp only
    rw [ZMod.val_natCast_of_lt b0, ZMod.val_natCast_of_lt b1, Nat.mod_add_div]
  obtain ⟨w, hag, hsw, hout⟩ := (hC.exact c hc hd v c' hrun [] c.val ((checkSat_ok hc []).1 hck) trivial
    (split p (2 ^ q.m) (p - num q.m (parts q)))).2 (by
      refine ⟨1, Nat.one_lt_two_pow k0.ne', ?_⟩
      rw [lx, ly, hf0, ht, ← cast_num, ← cast_num, hnum, Nat.cast_sub hQ.le]
      simp)
  have hx : num q.m (limbs w x) = 0 := by
    rw [limbs_agree (hd.2.2 x (by simp)) hag, lx]; simp [num, parts]
  have hy : num q.m (limbs w y) = 0 := by
    rw [limbs_agree (hd.2.2 y (by simp)) hag, ly]; simp [num, parts]
  refine ⟨x, y, c1, c, v, c', w, g1, g2, hrun, hsw, hx, hy, by rw [hout, hnum], ?_⟩
  rw [hout, hnum]
  intro hcon
  apply hnd
  have h1 := (Nat.modEq_zero_iff_dvd).1 hcon
  have h2 := Nat.dvd_add h1 (dvd_refl (num q.m (parts q)))
  rwa [Nat.sub_add_cancel hQ.le] at h2

/-- **C30, negation, refuted**: the negation of `1` may be `q - 1 + 2^m p`, since the limbs of the result are not range
checked. -/
theorem C30_mod_negate_counterexample [hp : Fact p.Prime] {q : ZMod p} {k m : ℕ} (k0 : 0 < k) (k1 : k < 32)
    (k2 : 2 ^ k < p) (hm : 0 < m) (hd : k ∣ m) (hh : m ≤ modulusBits p / 2) (hlt : 2 ^ m < p) (hq : 1 < q.val)
    (hqb : q.val + 2 ^ m ≤ p) (hnd : ¬ q.val ∣ 2 ^ m * p) :
    ∃ x c v c' w, newFromFpElem ⟨1, 0, m, 2 ^ m⟩ m none (Circ.new p (some k)) = .ok (x, c) ∧
      modNegate x q c = .ok (v, c') ∧ Sat c' [] w ∧ num m (limbs w x) = 1 ∧
      num m (limbs w v) = q.val - 1 + 2 ^ m * p ∧ ¬ num m (limbs w v) + num m (limbs w x) ≡ 0 [MOD q.val] := by
  have hpp := hp.out.pos
  have h1v : (1 : ZMod p).val = 1 := by
    have : Fact (1 < p) := ⟨hp.out.one_lt⟩
    exact ZMod.val_one p
  have h2m : 1 < 2 ^ m := Nat.one_lt_two_pow hm.ne'
  have hr : RangeOK (Circ.new p (some k)) := by
    intro j hj
    simp only [Circ.new, Option.some.injEq] at hj
    subst hj
    exact ⟨k0, k1, k2⟩
  have sp1 := newFromFpElem_spec (wf_new (some k)) hr (⟨1, 0, m, 2 ^ m⟩ : FpElem p) m none
  obtain ⟨x, c, g1, s1⟩ := sp1.complete ⟨rfl, hm, by rw [h1v]; exact h2m, by simp⟩ [] (sat_new _)
  obtain ⟨e1, ⟨i1, m1, t1, v1, u1⟩, -⟩ := sp1.sound _ _ g1
  rw [Option.getD_none] at t1
  have hdom : Dom k [x] c := ⟨hr.ext e1, by rw [e1.ultra]; rfl, by
    intro z hz
    simp only [List.mem_cons, List.not_mem_nil, or_false] at hz
    subst hz; exact i1⟩
  have lx : limbs c.val x = (1, 0) := Prod.ext v1 u1
  have nx : num m (limbs c.val x) = 1 := by rw [lx]; simp [num, h1v]
  have hC := C30_mod_negate x q k0 (by rw [m1]; exact hd) (by rw [m1]; exact hh) (by rw [t1, m1])
    (by rw [m1]; exact hlt)
  rw [m1, t1] at hC
  have hck : checkSat c [] = .ok () := (checkSat_ok e1.wf []).2 s1
  obtain ⟨⟨-, hon⟩, -⟩ := hC.honest c e1.wf hdom [] hck trivial
  obtain ⟨v, c', hrun, -⟩ := hon (by rw [nx]; exact hq)
  have hqc : ((q.val : ℕ) : ZMod p) = q := by rw [ZMod.natCast_val, ZMod.cast_id]
  obtain ⟨w, hag, hsw, hout⟩ := (hC.exact c e1.wf hdom v c' hrun [] c.val s1 trivial
    (((q.val - 1 + 2 ^ m : ℕ) : ZMod p), ((p - 1 : ℕ) : ZMod p))).2 (by
      rw [lx]
      unfold felt
      simp only
      rw [Nat.cast_add, Nat.cast_sub hq.le, Nat.cast_sub hp.out.one_lt.le, hqc]
      push_cast
      simp only [CharP.cast_eq_zero]
      ring)
  have hnv : num m (limbs w v) = q.val - 1 + 2 ^ m * p := by
    rw [hout]
    unfold num
    simp only
    rw [ZMod.val_natCast_of_lt (by omega), ZMod.val_natCast_of_lt (by omega)]
    obtain ⟨j, rfl⟩ : ∃ j, p = j + 1 := ⟨p - 1, by omega⟩
    rw [Nat.add_sub_cancel]; ring
  have hnx : num m (limbs w x) = 1 := by rw [limbs_agree i1 hag, nx]
  refine ⟨x, c, v, c', w, g1, hrun, hsw, hnx, hnv, ?_⟩
  rw [hnv, hnx]
  intro hcon
  apply hnd
  have h3 := (Nat.modEq_zero_iff_dvd).1 hcon
  rw [show q.val - 1 + 2 ^ m * p + 1 = q.val + 2 ^ m * p by omega] at h3
  exact (Nat.dvd_add_right (dvd_refl _)).1 h3

/-- **C30, multiplication, refuted for `range_bit_len = 1`**: no assignment at all satisfies the circuit with both
arguments zero. -/
theorem C30_mod_mul_small_range_counterexample [Fact p.Prime] {q : FpElem p} (hs : Small q.m (parts q))
    (ht : q.tpm = 2 ^ q.m) (hQ : 0 < num q.m (parts q)) (hm : 0 < q.m) (hfit : 2 ^ (2 * q.m + 2) ≤ p)
    {x y : FpElemVar p} {c : Circ p} (hc : WF c) (hd : Dom 1 [x, y] c) {v : FpElemVar p} {c' : Circ p}
    (hrun : modMul x y q c = .ok (v, c')) {pi : List (ZMod p)} {w : ℕ → ZMod p} (hsat : Sat c' pi w) :
    ¬ (num q.m (limbs w x) = 0 ∧ num q.m (limbs w y) = 0) := by
  rintro ⟨nx, ny⟩
  have hM : 0 < 2 ^ q.m := by positivity
  have zero_of : ∀ a : ZMod p × ZMod p, num q.m a = 0 → a.1 = 0 ∧ a.2 = 0 := by
    intro a ha
    unfold num at ha
    refine ⟨(ZMod.val_eq_zero _).1 (by omega), (ZMod.val_eq_zero _).1 ?_⟩
    rcases Nat.eq_zero_or_pos a.2.val with h | h
    · exact h
    · have := Nat.mul_pos hM h; omega
  obtain ⟨x0, x1⟩ := zero_of _ nx
  obtain ⟨y0, y1⟩ := zero_of _ ny
  simp only [limbs] at x0 x1 y0 y1
  -- the hints of the assignment
  have hr : ∃ h : MulHints p, h.Ranges q.m 1 ∧ h.Eqs q 0 0 0 0 := by
    unfold modMul at hrun
    rw [bind_of_ok (rangeBitLen_eq hd.2.1)] at hrun
    split at hrun
    · cases hrun
    split at hrun
    · cases hrun
    split at hrun
    · cases hrun
    split at hrun
    · cases hrun
    obtain ⟨a1, d1, r1, hrun⟩ := bind_ok hrun
    obtain ⟨a2, d2, r2, hrun⟩ := bind_ok hrun
    obtain ⟨a3, d3, r3, hrun⟩ := bind_ok hrun
    obtain ⟨a4, d4, r4, hrun⟩ := bind_ok hrun
    obtain ⟨h, d5, r5, hlast⟩ := bind_ok hrun
    have wit : ∀ {a : ℕ} {u : ZMod p} {c d : Circ p}, witness a c = .ok (u, d) → d = c := by
      intro a u c d h
      unfold witness at h
      split at h
      · cases h
      · cases h; rfl
    obtain rfl := wit r1
    obtain rfl := wit r2
    obtain rfl := wit r3
    obtain rfl := wit r4
    have : d5 = d4 := by
      cases hx : mulWitness q a1.val a2.val a3.val a4.val with
      | error e => rw [hx] at r5; cases r5
      | ok u => rw [hx] at r5; cases r5; rfl
    subst this
    obtain ⟨-, -, r⟩ := (modMulWith_spec hc hd.1 x y q 1 h).sound v c' hlast
    obtain ⟨h', q1, q2, -, -⟩ := r pi w hsat
    rw [x0, x1, y0, y1] at q2
    exact ⟨h', q1, q2⟩
  obtain ⟨h, q1, q2⟩ := hr
  have hle : 2 ^ (q.m + 1) ≤ 2 ^ (q.m + 2) := Nat.pow_le_pow_right (by norm_num) (by omega)
  have q1' : h.Ranges q.m 2 := ⟨q1.w0, q1.w1, q1.z0, q1.z1, q1.c0.trans_le hle, q1.c1.trans_le hle⟩
  have hfitq : MulFit q 2 := ⟨⟨hs.1, hs.2, ht⟩, hm, le_rfl, hfit⟩
  have z0 : (0 : ZMod p).val < 2 ^ q.m := by rw [ZMod.val_zero]; exact hM
  have key := eqs_sound hfitq z0 z0 z0 z0 q1' q2
  simp only [ZMod.val_zero, mul_zero, add_zero, Nat.add_eq_zero_iff, Nat.mul_eq_zero] at key
  have hw1 : h.w1 = 0 := by
    have hQ' : q.int ≠ 0 := hQ.ne'
    rcases key.2 with ⟨-, h1 | h1⟩ | h1
    · omega
    · exact (ZMod.val_eq_zero _).1 h1
    · exact absurd h1 hQ'
  have e5 := q2.e5
  rw [hw1, ht] at e5
  have hc1 : h.c1 = ((2 ^ (q.m + 1) : ℕ) : ZMod p) := by
    rw [e5]; push_cast; ring
  have := q1.c1
  rw [hc1, ZMod.val_natCast_of_lt ((Nat.pow_le_pow_right (by norm_num) (by omega)).trans_lt
    (lt_of_le_of_ne hfit hfitq.ne))] at this
  omega

/-! ### Wrap-around in the BN254 scalar field

`range_bit_len = 9`, `m = 126`, `q = 2^250 + 1`, `x = y = 2^250`. The code accepts these parameters
(`m ≤ 254 / 2` and `9 ∣ 126`), but `2^(2m + 9) > p`. -/

/-- the modulus `2^250 + 1`, split at 126 bits -/
def wrapQ : FpElem Rescue.p_ed254 := ⟨1, 2 ^ 124, 126, 2 ^ 126⟩
/-- `2^250`, split at 126 bits -/
def wrapX : FpElem Rescue.p_ed254 := ⟨0, 2 ^ 124, 126, 2 ^ 126⟩
/-- what the builder computes -/
def wrapHon : MulHints Rescue.p_ed254 := ⟨85070591730234615865843651857942052863, 21267647932558653966460912964485513215, 1, 0, 85070591730234615865843651857942052865, 191408831393027885698148216680369618944⟩
/-- hints for `z + w * q = x * y - p` -/
def wrapAdv : MulHints Rescue.p_ed254 := ⟨85070591730234615865843651857942052850, 21267647932558653966460912964485513215, 31631953497925087476338759149270597645, 19184364670529793396543638597407514251, 342365650182967324033291881798846210422, 191408831393027885698148216680369618944⟩

/-- do the builder's hints equal these? -/
def hintsAre (a : Except CErr (MulHints p)) (b : MulHints p) : Bool :=
  match a with
  | .ok h => decide (h.w0 = b.w0 ∧ h.w1 = b.w1 ∧ h.z0 = b.z0 ∧ h.z1 = b.z1 ∧ h.c0 = b.c0 ∧ h.c1 = b.c1)
  | .error _ => false

theorem hintsAre_eq {a : Except CErr (MulHints p)} {b : MulHints p} (h : hintsAre a b = true) : a = .ok b := by
  unfold hintsAre at h
  split at h
  · rename_i x
    rw [decide_eq_true_iff] at h
    obtain ⟨h1, h2, h3, h4, h5, h6⟩ := h
    cases x; cases b
    simp only at h1 h2 h3 h4 h5 h6
    subst h1 h2 h3 h4 h5 h6
    rfl
  · cases h

theorem wrapHon_ok : mulWitness wrapQ wrapX.p0.val wrapX.p1.val wrapX.p0.val wrapX.p1.val = .ok wrapHon :=
  hintsAre_eq (by decide +kernel)

/-- **C30, multiplication, refuted for parameters the code accepts**: over the BN254 scalar field with
`range_bit_len = 9`, `m = 126` and `q = 2^250 + 1`, the circuit of `mod_mul` for `x = y = 2^250` accepts a result that
is not the product modulo `q`, although all limbs are in range. -/
theorem C30_mod_mul_wrap_counterexample :
    ∃ x y c1 c v c' w, newFromFpElem wrapX 126 none (Circ.new Rescue.p_ed254 (some 9)) = .ok (x, c1) ∧
      newFromFpElem wrapX 126 none c1 = .ok (y, c) ∧ modMul x y wrapQ c = .ok (v, c') ∧ Sat c' [] w ∧
      num 126 (parts wrapQ) = 2 ^ 250 + 1 ∧ num 126 (limbs w x) = 2 ^ 250 ∧ num 126 (limbs w y) = 2 ^ 250 ∧
      Small 126 (limbs w x) ∧ Small 126 (limbs w y) ∧ Small 126 (limbs w v) ∧
      ¬ num 126 (limbs w v) ≡ 2 ^ 250 * 2 ^ 250 [MOD 2 ^ 250 + 1] := by
  have hsm : Small 126 (parts wrapX) := by constructor <;> decide +kernel
  obtain ⟨x, y, c1, c, g1, g2, hc, hd, hck, mx, my, tx, ty, lx, ly⟩ := two_elems (p := Rescue.p_ed254) (k := 9)
    (by norm_num) (by norm_num) (by decide +kernel) (a := wrapX) (b := wrapX) (m := 126) (by norm_num) hsm hsm
  have hs := (checkSat_ok hc []).1 hck
  have hx := hd.2.2 x (by simp)
  have hy := hd.2.2 y (by simp)
  have x0 : c.val x.v0 = wrapX.p0 := congrArg Prod.fst lx
  have x1 : c.val x.v1 = wrapX.p1 := congrArg Prod.snd lx
  have y0 : c.val y.v0 = wrapX.p0 := congrArg Prod.fst ly
  have y1 : c.val y.v1 = wrapX.p1 := congrArg Prod.snd ly
  -- the honest run
  obtain ⟨v, c', hw, -⟩ := (modMulWith_spec hc hd.1 x y wrapQ 9 wrapHon).complete
    ⟨by rw [hd.2.1]; rfl, hx, hy, by decide, by constructor <;> decide +kernel, by
      rw [x0, x1, y0, y1]; constructor <;> decide +kernel⟩ [] hs
  have wit : ∀ {a : ℕ}, a < c.numVars → witness a c = .ok (c.val a, c) := by
    intro a ha
    unfold witness
    rw [if_neg (by omega)]
  have hrun : modMul x y wrapQ c = .ok (v, c') := by
    unfold modMul
    rw [bind_of_ok (rangeBitLen_eq hd.2.1)]
    rw [if_neg (by rw [mx, my]; decide), if_neg (by rw [tx, ty]; decide +kernel), if_neg (by decide),
      if_neg (by decide), bind_of_ok (wit hx.1), bind_of_ok (wit hx.2), bind_of_ok (wit hy.1), bind_of_ok (wit hy.2),
      x0, x1, y0, y1, wrapHon_ok]
    exact hw
  -- the other assignment
  have hadv := modMulAdv_spec (assign_wf hc c.val) (c := c.assign c.val) hd.1 hd.2.1 x y hx hy wrapQ (by decide) wrapAdv
    (by constructor <;> decide +kernel) (by
      rw [assign_val c c.val hx.1, assign_val c c.val hx.2, assign_val c c.val hy.1, assign_val c c.val hy.2,
        x0, x1, y0, y1]
      constructor <;> decide +kernel)
  obtain ⟨d', -, ⟨b0, b1⟩, -, hag, hsat⟩ := hadv.universal'' (modMul_rel' x y wrapQ wrapAdv) hc trivial hrun hs
  have lv : limbs d'.val v = (wrapAdv.z0, wrapAdv.z1) := Prod.ext b0 b1
  have ex : limbs d'.val x = parts wrapX := by rw [limbs_agree hx hag, lx]
  have ey : limbs d'.val y = parts wrapX := by rw [limbs_agree hy hag, ly]
  refine ⟨x, y, c1, c, v, c', d'.val, g1, g2, hrun, hsat, by decide +kernel, ?_, ?_, ?_, ?_, ?_, ?_⟩
  · rw [ex]; decide +kernel
  · rw [ey]; decide +kernel
  · rw [ex]; exact hsm
  · rw [ey]; exact hsm
  · rw [lv]; constructor <;> decide +kernel
  · rw [lv]; unfold Nat.ModEq; decide +kernel

/-! ## Examples -/

instance : Fact (Nat.Prime Rescue.p_fq377) := ⟨Fields.prime_fq377⟩

/-- the BLS12-377 scalar field modulus over the BLS12-377 base field, split at 128 bits, as the verifier circuit
`plonk/src/circuit/plonk_verifier` uses it -/
def r377 : FpElem Rescue.p_fq377 := ⟨119186395603467824967552807397668945921, 24816042705469851428715921836879622145, 128, 2 ^ 128⟩

theorem r377_num : num 128 (parts r377) = Rescue.p_ed377 := by decide +kernel

/-- The parameters of the verifier circuit (`range_bit_len = 16`) meet `MulOK`, so there `mod_mul` is exact. -/
theorem r377_mulOK : MulOK r377 16 :=
  ⟨by constructor <;> decide +kernel, by decide +kernel, by decide +kernel, by decide, by decide, by decide,
    by decide +kernel⟩

theorem r377_addOK : AddOK r377 16 := ⟨by decide, by decide +kernel, by decide +kernel, by decide +kernel⟩

/-- In the same configuration `0 + 0` may be `p - q`. -/
example : ∃ x y c1 c v c' w, newFromFpElem ⟨0, 0, 128, 2 ^ 128⟩ 128 none (Circ.new Rescue.p_fq377 (some 16)) = .ok (x, c1) ∧
    newFromFpElem ⟨0, 0, 128, 2 ^ 128⟩ 128 none c1 = .ok (y, c) ∧ modAdd x y r377 c = .ok (v, c') ∧ Sat c' [] w ∧
    num 128 (limbs w x) = 0 ∧ num 128 (limbs w y) = 0 ∧
    num 128 (limbs w v) = Rescue.p_fq377 - Rescue.p_ed377 ∧
    ¬ num 128 (limbs w v) ≡ 0 + 0 [MOD Rescue.p_ed377] := by
  have h := C30_mod_add_counterexample (q := r377) (k := 16) (by norm_num) (by norm_num) (by decide +kernel) r377_addOK
    (by decide) (by decide +kernel) (by decide +kernel) (by decide +kernel)
  simpa only [show r377.m = 128 from rfl, show r377.tpm = 2 ^ 128 from rfl, r377_num] using h

/-- In the same configuration the negation of `1` may be wrong. -/
example : ∃ x c v c' w, newFromFpElem ⟨1, 0, 128, 2 ^ 128⟩ 128 none (Circ.new Rescue.p_fq377 (some 16)) = .ok (x, c) ∧
    modNegate x (Rescue.p_ed377 : ZMod Rescue.p_fq377) c = .ok (v, c') ∧ Sat c' [] w ∧ num 128 (limbs w x) = 1 ∧
    ¬ num 128 (limbs w v) + num 128 (limbs w x) ≡ 0 [MOD Rescue.p_ed377] := by
  have hv : (Rescue.p_ed377 : ZMod Rescue.p_fq377).val = Rescue.p_ed377 := by decide +kernel
  obtain ⟨x, c, v, c', w, h1, h2, h3, h4, -, h5⟩ := C30_mod_negate_counterexample (p := Rescue.p_fq377)
    (q := (Rescue.p_ed377 : ZMod Rescue.p_fq377)) (k := 16) (m := 128) (by norm_num) (by norm_num) (by decide +kernel)
    (by norm_num) (by norm_num) (by decide +kernel) (by decide +kernel) (by rw [hv]; decide +kernel)
    (by rw [hv]; decide +kernel) (by rw [hv]; decide +kernel)
  rw [hv] at h5
  exact ⟨x, c, v, c', w, h1, h2, h3, h4, h5⟩

/-- modulus 13 over `ZMod 257`, split at two bits -/
def toyQ : FpElem 257 := ⟨1, 3, 2, 4⟩

theorem toyQ_mulOK : MulOK toyQ 2 :=
  ⟨by constructor <;> decide +kernel, by decide +kernel, by decide +kernel, by decide, by decide, by decide,
    by decide +kernel⟩

theorem toyQ_addOK : AddOK toyQ 2 := ⟨by decide, by decide +kernel, by decide +kernel, by decide +kernel⟩

/-- A run of `mod_mul`, `mod_add` and `mod_negate` meeting all hypotheses: `7 * 9 = 11`, `7 + 9 = 3`, `-7 = 6`
modulo 13. -/
example : ∃ (x y : FpElemVar 257) (c : Circ 257), WF c ∧ Dom 2 [x, y] c ∧ Fits x toyQ ∧ Fits y toyQ ∧
    num 2 (limbs c.val x) = 7 ∧ num 2 (limbs c.val y) = 9 ∧ Small 2 (limbs c.val x) ∧ Small 2 (limbs c.val y) ∧
    (∃ v c', modMul x y toyQ c = .ok (v, c') ∧ Sat c' [] c'.val ∧ num 2 (limbs c'.val v) = 11) ∧
    (∃ v c', modAdd x y toyQ c = .ok (v, c') ∧ Sat c' [] c'.val ∧ num 2 (limbs c'.val v) = 3 ∧
      num 2 (limbs c'.val v) + 2 ^ 2 * num 2 (parts toyQ) ≤ 257) ∧
    (∃ v c', modAddVec [x, y, x] toyQ c = .ok (v, c') ∧ Sat c' [] c'.val ∧ num 2 (limbs c'.val v) = 10) ∧
    (∃ v c', modNegate x 13 c = .ok (v, c') ∧ Sat c' [] c'.val ∧ num 2 (limbs c'.val v) = 6) := by
  obtain ⟨x, y, c1, c, -, -, hc, hd, hck, mx, my, tx, ty, lx, ly⟩ := two_elems (p := 257) (k := 2)
    (by norm_num) (by norm_num) (by norm_num) (a := ⟨3, 1, 2, 4⟩) (b := ⟨1, 2, 2, 4⟩) (m := 2) (by norm_num)
    (by constructor <;> decide +kernel) (by constructor <;> decide +kernel)
  have t4 : (2 : ZMod 257) ^ 2 = toyQ.tpm := by decide +kernel
  have fx : Fits x toyQ := ⟨mx, tx.trans t4⟩
  have fy : Fits y toyQ := ⟨my, ty.trans t4⟩
  have sx : Small 2 (limbs c.val x) := by rw [lx]; constructor <;> decide +kernel
  have sy : Small 2 (limbs c.val y) := by rw [ly]; constructor <;> decide +kernel
  have hd1 : Dom 2 [x] c := ⟨hd.1, hd.2.1, fun z hz => hd.2.2 z (by simp at hz ⊢; exact Or.inl hz)⟩
  have hd3 : Dom 2 [x, y, x] c := ⟨hd.1, hd.2.1, fun z hz => hd.2.2 z (by simpa [or_comm] using hz)⟩
  have hmul := C30_mod_mul toyQ_mulOK x y fx fy
  have hadd := C30_mod_add toyQ_addOK x y fx fy
  have hvec := C30_mod_add_vec toyQ_addOK [x, y, x] (by simp [fx, fy])
  have hneg := C30_mod_negate x (13 : ZMod 257) (k := 2) (by norm_num) (by rw [mx]) (by rw [mx]; decide +kernel)
    (by rw [tx, mx]) (by rw [mx]; norm_num)
  rw [mx, tx] at hneg
  refine ⟨x, y, c, hc, hd, fx, fy, by rw [lx]; decide +kernel, by rw [ly]; decide +kernel, sx, sy, ?_, ?_, ?_, ?_⟩
  · obtain ⟨⟨-, hon⟩, ho⟩ := hmul.honest c hc hd [] hck ⟨sx, sy⟩
    obtain ⟨v, c', h1, h2⟩ := hon (by rw [lx, ly]; decide +kernel)
    refine ⟨v, c', h1, (checkSat_ok (hmul.wf c hc hd v c' h1).1 []).1 h2, ?_⟩
    rw [ho v c' h1, lx, ly]; decide +kernel
  · obtain ⟨⟨-, hon⟩, ho⟩ := hadd.honest c hc hd [] hck trivial
    obtain ⟨v, c', h1, h2⟩ := hon (by rw [lx, ly]; decide +kernel)
    refine ⟨v, c', h1, (checkSat_ok (hadd.wf c hc hd v c' h1).1 []).1 h2, ?_, ?_⟩ <;>
      (rw [ho v c' h1, lx, ly]; decide +kernel)
  · obtain ⟨⟨-, hon⟩, ho⟩ := hvec.honest c hc hd3 [] hck trivial
    obtain ⟨v, c', h1, h2⟩ := hon (by simp only [List.map_cons, List.map_nil, lx, ly]; decide +kernel)
    refine ⟨v, c', h1, (checkSat_ok (hvec.wf c hc hd3 v c' h1).1 []).1 h2, ?_⟩
    rw [ho v c' h1]; simp only [List.map_cons, List.map_nil, lx, ly]; decide +kernel
  · obtain ⟨⟨-, hon⟩, ho⟩ := hneg.honest c hc hd1 [] hck trivial
    obtain ⟨v, c', h1, h2⟩ := hon (by rw [lx]; decide +kernel)
    refine ⟨v, c', h1, (checkSat_ok (hneg.wf c hc hd1 v c' h1).1 []).1 h2, ?_⟩
    rw [ho v c' h1, lx]; decide +kernel

/-- The hypotheses of `C30_mod_mul_small_range_counterexample` are met by modulus 13 over `ZMod 257`. -/
example : Small toyQ.m (parts toyQ) ∧ toyQ.tpm = 2 ^ toyQ.m ∧ 0 < num toyQ.m (parts toyQ) ∧ 0 < toyQ.m ∧
    2 ^ (2 * toyQ.m + 2) ≤ 257 :=
  ⟨toyQ_mulOK.small, toyQ_mulOK.tpm, toyQ_mulOK.pos, by decide, by decide⟩

end Verif.Props.ModArith
