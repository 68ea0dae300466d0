import Verif.Circuit.EmulatedGates

/-! # Specifications of the functions of `emulated.rs` -/

set_option linter.unusedSectionVars false

namespace Verif.Circuit

open Finset Verif.Limbs

variable {p : ℕ} {α β : Type}

theorem Spec.universal'' {m m' : Build p α} (hrel : Rel m m') {c : Circ p} (hc : WF c)
    {w : ℕ → ZMod p} {C : Prop} {B : α → Circ p → Prop} {R : α → (ℕ → ZMod p) → Prop}
    (hs : Spec m' (c.assign w) C B R) (hC : C) {v : α} {c' : Circ p} (hm : m c = .ok (v, c'))
    {pi : List (ZMod p)} (hw : Sat c pi w) :
    ∃ d' : Circ p, Same c' d' ∧ B v d' ∧ R v d'.val ∧ (∀ i, i < c.numVars → d'.val i = w i) ∧
      Sat c' pi d'.val := by
  obtain ⟨v', d', hd, hsat⟩ := hs.complete hC pi (assign_sat hc hw)
  obtain ⟨e, hB, hR⟩ := hs.sound v' d' hd
  obtain ⟨rfl, hsame⟩ := hrel c (c.assign w) (assign_same c w) _ _ _ _ hm hd
  exact ⟨d', hsame, hB, hR _ _ hsat, fun i hi => (e.val i hi).trans (assign_val c w hi), hsame.symm.sat hsat⟩

theorem Spec.of_eq {m : Build p α} {f : α → Build p β} {c : Circ p} {v : α} (hm : m c = .ok (v, c))
    {C : Prop} {B : β → Circ p → Prop} {R : β → (ℕ → ZMod p) → Prop} (h : Spec (f v) c C B R) :
    Spec (m >>= f) c C B R :=
  ⟨fun u c' hu => h.sound u c' (by rwa [bind_of_ok hm] at hu),
    fun hC pi hs => by rw [bind_of_ok hm]; exact h.complete hC pi hs⟩

theorem witnesses_eq {c : Circ p} (vs : List ℕ) (h : InV vs c) :
    (witnesses vs : Build p _) c = .ok (vs.map c.val, c) := by
  induction vs with
  | nil => rfl
  | cons v vs ih =>
    unfold witnesses
    have h1 : (witness v : Build p _) c = .ok (c.val v, c) := by
      unfold witness; rw [if_neg (by have := h v (by simp); omega)]
    rw [bind_of_ok h1, bind_of_ok (ih (fun x hx => h x (by simp [hx])))]
    rfl

theorem limbsNat_eq (w : ℕ → ZMod p) (b : ℕ) (a : List ℕ) :
    limbsNat b ((a.map w).map ZMod.val) = num (2 ^ b) (fun j => (limb w a j).val) a.length := by
  induction a with
  | nil => simp [limbsNat, num]
  | cons x a ih =>
    rw [List.length_cons, num_succ']
    simp only [List.map_cons, limbsNat, limb_zero, limb_succ]
    rw [ih]
    ring

theorem emulatedWitness_eq {E : Emu} {c : Circ p} {a : List ℕ} (ha : InV a c) (hl : a.length = E.n) :
    (emulatedWitness E a : Build p ℕ) c = .ok (nat E (limb c.val a) % E.q, c) := by
  unfold emulatedWitness
  rw [bind_of_ok (witnesses_eq a ha)]
  unfold toEmulated
  rw [if_neg (by simp [hl]), limbsNat_eq, hl]
  rfl

/-- all limbs in range -/
def InR (E : Emu) (w : ℕ → ZMod p) (a : List ℕ) : Prop := ∀ v ∈ a, (w v).val < 2 ^ E.B

theorem InR.get {E : Emu} {w : ℕ → ZMod p} {a : List ℕ} (h : InR E w a) (hl : a.length = E.n) :
    ∀ j, j < E.n → (limb w a j).val < 2 ^ E.B := by
  intro j hj
  unfold limb
  rw [List.getD_eq_getElem _ _ (by omega)]
  exact h _ (List.getElem_mem _)

theorem InR.congr {E : Emu} {w w' : ℕ → ZMod p} {a : List ℕ} (h : InR E w a)
    (he : ∀ v ∈ a, w' v = w v) : InR E w' a := fun v hv => by rw [he v hv]; exact h v hv

theorem nat_lt {E : Emu} (h : E.OK p) {A : ℕ → ZMod p} (hA : ∀ j, j < E.n → (A j).val < 2 ^ E.B) :
    nat E A < 2 ^ E.T := by
  rw [← h.pow]; exact num_lt hA

theorem dig_nat {E : Emu} {A : ℕ → ZMod p} (hA : ∀ j, j < E.n → (A j).val < 2 ^ E.B) {j : ℕ}
    (hj : j < E.n) : dig (2 ^ E.B) (nat E A) j = (A j).val := by
  refine num_inj (r := 2 ^ E.B) (f := dig (2 ^ E.B) (nat E A)) (n := E.n) (fun i _ => dig_lt (by positivity) _ _) hA ?_ j hj
  rw [num_dig]
  exact Nat.mod_eq_of_lt (num_lt hA)

theorem cst_nat [NeZero p] {E : Emu} {A : ℕ → ZMod p} (hA : ∀ j, j < E.n → (A j).val < 2 ^ E.B) {j : ℕ}
    (hj : j < E.n) : cst (toLimbs p (nat E A) E.B E.n) j = A j := by
  rw [cst_toLimbs _ _ _ _ hj, dig_nat hA hj, ZMod.natCast_zmod_val]

theorem nat_cst {E : Emu} (h : E.OK p) {v : ℕ} (hv : v < 2 ^ E.T) :
    nat E (cst (toLimbs p v E.B E.n)) = v := by
  have hrp : 2 ^ E.B < p := by have := h.add_lt; omega
  unfold nat
  rw [num_congr (g := dig (2 ^ E.B) v)]
  · exact num_dig_of_lt (by rw [h.pow]; exact hv)
  · intro j hj
    rw [cst_toLimbs _ _ _ _ hj, ZMod.val_natCast_of_lt ((dig_lt (by positivity) _ _).trans hrp)]

theorem cst_toLimbs_lt (v b n : ℕ) : ∀ j, j < n → (cst (toLimbs p v b n) j).val < 2 ^ b := by
  intro j hj
  unfold cst
  rw [List.getD_eq_getElem _ _ (by rw [toLimbs_length]; exact hj)]
  exact toLimbs_val_lt _ _ _ _ (List.getElem_mem _)

theorem Emu.OK.size_le {E : Emu} (h : E.OK p) : 2 * E.B + Nat.size (2 * E.n) + 1 ≤ bigintBits p := by
  have h1 : 2 * E.B + Nat.size (2 * E.n) + 1 < Nat.size p := Nat.lt_size.2 h.hp
  unfold bigintBits
  omega

theorem Emu.OK.bits {E : Emu} (h : E.OK p) (c : Circ p) : BitsOK E c := by
  intro _
  have := h.size_le
  omega

theorem Emu.OK.bits' {E : Emu} (h : E.OK p) : E.B ≤ bigintBits p := by
  have := h.size_le
  omega

theorem Emu.OK.pow_ne {E : Emu} [Fact p.Prime] (h : E.OK p) : (2 : ZMod p) ^ E.B ≠ 0 := by
  rw [← cast_pow_two]
  intro h0
  rw [ZMod.natCast_eq_zero_iff] at h0
  have h1 := Nat.le_of_dvd (by positivity) h0
  have := h.add_lt
  omega

theorem hintAt_range {e : ℕ → ZMod p} (he : e 0 = 0) {n j : ℕ} (hj : j ≤ n) :
    hintAt 0 ((List.range n).map fun j => e (j + 1)) 0 j = e j := by
  unfold hintAt
  rcases j with _ | j
  · simp [he]
  · rw [Nat.sub_zero, List.getD_cons_succ, List.getD_eq_getElem _ _ (by simpa using hj)]
    simp

theorem MulRel.congr {E : Emu} (hn : 0 < E.n) {N A B A' B' : ℕ → ZMod p} {bn : ZMod p} {C C' K K' e e' : ℕ → ZMod p}
    (hA : ∀ j, j < E.n → A j = A' j) (hB : ∀ j, j < E.n → B j = B' j) (hC : ∀ j, j < E.n → C j = C' j)
    (hK : ∀ j, j < E.n → K j = K' j)
    (h : ∀ j, j ≤ E.n → e j = e' j) (hr : MulRel E N A B bn C K e) : MulRel E N A' B' bn C' K' e' := by
  refine ⟨by rw [← h 0 (by omega)]; exact hr.e0, fun j hj => by rw [← hK j hj]; exact hr.kr j hj,
    by rw [← h 1 (by omega)]; exact hr.first, ?_, ?_⟩
  · intro j hj
    obtain ⟨s1, s2⟩ := hr.step j hj
    rw [← h j (by omega), ← h (j + 1) (by omega)]
    refine ⟨?_, s2⟩
    rw [← hC j hj, ← cv_congr (f := A) (g := B) (fun i hi => hA i (by omega)) (fun i hi => hB i (by omega)),
      ← cv_congr (f := K) (g := N) (fun i hi => hK i (by omega)) (fun i _ => rfl)]
    exact s1
  · rw [← num_congr hA, ← num_congr hC, ← num_congr hK]
    exact hr.native

theorem AddRel.congr {E : Emu} {M A B C : ℕ → ZMod p} {k : ZMod p} {S e f e' f' : ℕ → ZMod p}
    (he : ∀ j, j ≤ E.n → e j = e' j) (hf : ∀ j, j ≤ E.n → f j = f' j)
    (hr : AddRel E M A B C k S e f) : AddRel E M A B C k S e' f' := by
  refine ⟨hr.bit, by rw [← he 0 (by omega)]; exact hr.e0, by rw [← hf 0 (by omega)]; exact hr.f0, hr.sr, ?_, ?_⟩
  · intro j hj
    rw [← he j (by omega), ← he (j + 1) (by omega)]
    exact hr.left j hj
  · intro j hj
    rw [← hf j (by omega), ← hf (j + 1) (by omega)]
    exact hr.right j hj

theorem mulCarries_eq {E : Emu} (h2 : (2 : ZMod p) ^ E.B * (2 ^ E.B)⁻¹ = 1) (a b k neg x : List (ZMod p))
    (e : ℕ → ZMod p) (m : ℕ) : ∀ i, (∀ j, i ≤ j → j < i + m → cv (cst k) (cst neg) j + cv (cst a) (cst b) j + e j
      = cst x j + 2 ^ E.B * e (j + 1)) →
    mulCarries E a b k neg x m i (e i) = (List.range m).map fun j => e (i + j + 1) := by
  induction m with
  | zero => intro i _; rfl
  | succ m ih =>
    intro i h
    have h1 : (conv k neg i + conv a b i + e i - x.getD i 0) * (2 ^ E.B)⁻¹ = e (i + 1) := by
      have := h i (le_refl _) (by omega)
      rw [conv_eq, conv_eq, this]
      show (cst x i + 2 ^ E.B * e (i + 1) - cst x i) * (2 ^ E.B)⁻¹ = e (i + 1)
      linear_combination e (i + 1) * h2
    unfold mulCarries
    simp only
    rw [h1, ih (i + 1) (fun j h3 h4 => h j (by omega) (by omega)), List.range_succ_eq_map, List.map_cons,
      List.map_map]
    refine congrArg₂ List.cons (by simp) ?_
    apply List.map_congr_left
    intro j _
    simp only [Function.comp]
    congr 1
    omega

/-! ## Multiplication -/

/-- what the gates enforce: `a b = k q + c` modulo `2^T p`, for some quotient below `2^T` -/
def MulOK (p : ℕ) (E : Emu) (A B C : ℕ) : Prop :=
  ∃ k : ℕ, k < 2 ^ E.T ∧ ((2 ^ E.T * p : ℕ) : ℤ) ∣ (A : ℤ) * B - k * E.q - C

/-- the hints of the honest prover satisfy the relation -/
theorem mul_honest [hp : Fact p.Prime] {E : Emu} (h : E.OK p) {A B C : ℕ → ZMod p} {bn : ZMod p}
    (hA : ∀ j, j < E.n → (A j).val < 2 ^ E.B) (hB : ∀ j, j < E.n → (B j).val < 2 ^ E.B)
    (hC : ∀ j, j < E.n → (C j).val < 2 ^ E.B) (hbn : bn = num (2 ^ E.B) B E.n)
    (ha : nat E A < E.q) (hb : nat E B < E.q) (hc : nat E C = nat E A * nat E B % E.q) :
    MulRel E (cst (negLimbs p E)) A B bn C
      (cst (fromEmulated p E (nat E A * nat E B / E.q % E.q)))
      (hintAt 0 (mulHints E (negLimbs p E) (nat E A) (nat E B)) 0) := by
  have : NeZero p := ⟨hp.out.ne_zero⟩
  have hk : nat E A * nat E B / E.q < E.q := by
    rw [Nat.div_lt_iff_lt_mul h.hq]
    exact Nat.mul_lt_mul'' ha hb
  have hkT : nat E A * nat E B / E.q % E.q < 2 ^ E.T := (Nat.mod_lt _ h.hq).trans h.hqT
  have hd : ((2 ^ E.T * p : ℕ) : ℤ) ∣ (nat E A : ℤ) * nat E B
      - (nat E A * nat E B / E.q % E.q : ℕ) * E.q - nat E C := by
    rw [Nat.mod_eq_of_lt hk, hc]
    have h1 := Nat.div_add_mod (nat E A * nat E B) E.q
    have h2 : (nat E A : ℤ) * nat E B = E.q * ((nat E A * nat E B / E.q : ℕ) : ℤ)
        + ((nat E A * nat E B % E.q : ℕ) : ℤ) := by exact_mod_cast h1.symm
    rw [h2]
    exact ⟨0, by ring⟩
  have hr := MulRel.of_dvd h hA hB hC hbn hkT hd
  set k := nat E A * nat E B / E.q % E.q with hkdef
  set e : ℕ → ZMod p := fun j => (mulCarry E (fun j => (A j).val) (fun j => (B j).val) k j : ZMod p)
  have he0 : e 0 = 0 := hr.e0
  have hl : mulHints E (negLimbs p E) (nat E A) (nat E B) = (List.range E.n).map fun j => e (j + 1) := by
    have h3 := mulCarries_eq (E := E) (mul_inv_cancel₀ h.pow_ne) (toLimbs p (nat E A) E.B E.n)
      (toLimbs p (nat E B) E.B E.n) (toLimbs p k E.B E.n) (negLimbs p E)
      (toLimbs p (nat E C) E.B E.n) e E.n 0 (by
        intro j _ hj
        rw [Nat.zero_add] at hj
        rw [cst_nat hC hj, ← (hr.step j hj).1]
        congr 2
        exact cv_congr (fun i hi => cst_nat hA (by omega)) (fun i hi => cst_nat hB (by omega)))
    rw [he0] at h3
    simp only [Nat.zero_add] at h3
    rw [← h3, hc]
    rfl
  refine MulRel.congr h.hn (fun _ _ => rfl) (fun _ _ => rfl) (fun _ _ => rfl) (fun _ _ => rfl) ?_ hr
  intro j hj
  rw [hl, hintAt_range he0 hj]

theorem emulatedMulGate_spec [hp : Fact p.Prime] {E : Emu} (h : E.OK p) {a b y : List ℕ} {c : Circ p}
    (hc : WF c) (hr : RangeOK c) (hla : a.length = E.n) (hlb : b.length = E.n) (hly : y.length = E.n)
    (ha : InV a c) (hb : InV b c) (hy : InV y c) :
    Spec (emulatedMulGate E a b y) c
      (InR E c.val a ∧ InR E c.val b ∧ InR E c.val y ∧ nat E (limb c.val a) < E.q ∧
        nat E (limb c.val b) < E.q ∧
        nat E (limb c.val y) = nat E (limb c.val a) * nat E (limb c.val b) % E.q)
      (fun _ _ => True)
      (fun _ w => InR E w a → InR E w b → InR E w y →
        MulOK p E (nat E (limb w a)) (nat E (limb w b)) (nat E (limb w y))) := by
  unfold emulatedMulGate
  refine Spec.of_eq (checkVars_eq ha) (Spec.of_eq (checkVars_eq hb) (Spec.of_eq (checkVars_eq hy) ?_))
  refine Spec.of_eq (emulatedWitness_eq ha hla) (Spec.of_eq (emulatedWitness_eq hb hlb) ?_)
  refine Spec.liftE_bind (negModulus_ok h) ?_
  refine Spec.conseq hc (mulGateWith_spec E a b y _ _ _ hc hr (h.bits c) h.hB h.hn ha hb hy hla hlb hly
    (mulHints_length _ _ _ _)) ?_ (fun _ _ _ _ => trivial) ?_
  · rintro ⟨r1, r2, r3, q1, q2, q3⟩ _ _
    rw [Nat.mod_eq_of_lt q1, Nat.mod_eq_of_lt q2]
    exact mul_honest h (r1.get hla) (r2.get hlb) (r3.get hly) rfl q1 q2 q3
  · rintro _ w _ _ ⟨K, e, hm⟩ r1 r2 r3
    exact hm.sound h (r1.get hla) (r2.get hlb) (r3.get hly) rfl

/-- the carries an adversary chooses -/
def advCarries (p : ℕ) (E : Emu) (A B : ℕ → ℕ) (k : ℕ) : List (ZMod p) :=
  (List.range E.n).map fun j => (mulCarry E A B k (j + 1) : ZMod p)

theorem mul_adv [hp : Fact p.Prime] {E : Emu} (h : E.OK p) {A B C : ℕ → ZMod p} {bn : ZMod p}
    (hA : ∀ j, j < E.n → (A j).val < 2 ^ E.B) (hB : ∀ j, j < E.n → (B j).val < 2 ^ E.B)
    (hC : ∀ j, j < E.n → (C j).val < 2 ^ E.B) (hbn : bn = num (2 ^ E.B) B E.n) {k : ℕ} (hk : k < 2 ^ E.T)
    (hd : ((2 ^ E.T * p : ℕ) : ℤ) ∣ (nat E A : ℤ) * nat E B - k * E.q - nat E C) :
    MulRel E (cst (negLimbs p E)) A B bn C (cst (fromEmulated p E k))
      (hintAt 0 (advCarries p E (fun j => (A j).val) (fun j => (B j).val) k) 0) := by
  have hr := MulRel.of_dvd h hA hB hC hbn hk hd
  refine MulRel.congr h.hn (fun _ _ => rfl) (fun _ _ => rfl) (fun _ _ => rfl) (fun _ _ => rfl) ?_ hr
  intro j hj
  unfold advCarries
  rw [hintAt_range (e := fun j => (mulCarry E (fun j => (A j).val) (fun j => (B j).val) k j : ZMod p)) hr.e0 hj]

theorem mulGateWith_adv [hp : Fact p.Prime] {E : Emu} (h : E.OK p) {a b y : List ℕ} {c : Circ p}
    (hc : WF c) (hr : RangeOK c) (hla : a.length = E.n) (hlb : b.length = E.n) (hly : y.length = E.n)
    (ha : InV a c) (hb : InV b c) (hy : InV y c) (k : ℕ) :
    Spec (mulGateWith E a b y (negLimbs p E) k
        (advCarries p E (fun j => (limb c.val a j).val) (fun j => (limb c.val b j).val) k)) c
      (InR E c.val a ∧ InR E c.val b ∧ InR E c.val y ∧ k < 2 ^ E.T ∧
        ((2 ^ E.T * p : ℕ) : ℤ) ∣ (nat E (limb c.val a) : ℤ) * nat E (limb c.val b) - k * E.q
          - nat E (limb c.val y))
      (fun _ _ => True) (fun _ _ => True) := by
  refine Spec.conseq hc (mulGateWith_spec E a b y _ _ _ hc hr (h.bits c) h.hB h.hn ha hb hy hla hlb hly
    (by simp [advCarries])) ?_ (fun _ _ _ _ => trivial) (fun _ _ _ _ _ => trivial)
  rintro ⟨r1, r2, r3, hk, hd⟩ _ _
  exact mul_adv h (r1.get hla) (r2.get hlb) (r3.get hly) rfl hk hd

theorem emulatedMulConstantGate_spec [hp : Fact p.Prime] {E : Emu} (h : E.OK p) {a y : List ℕ} {vb : ℕ}
    (hvb : vb < E.q) {c : Circ p}
    (hc : WF c) (hr : RangeOK c) (hla : a.length = E.n) (hly : y.length = E.n)
    (ha : InV a c) (hy : InV y c) :
    Spec (emulatedMulConstantGate E a vb y) c
      (InR E c.val a ∧ InR E c.val y ∧ nat E (limb c.val a) < E.q ∧
        nat E (limb c.val y) = nat E (limb c.val a) * vb % E.q)
      (fun _ _ => True)
      (fun _ w => InR E w a → InR E w y → MulOK p E (nat E (limb w a)) vb (nat E (limb w y))) := by
  have : NeZero p := ⟨hp.out.ne_zero⟩
  have hv := nat_cst h (hvb.trans h.hqT)
  have hbn : (vb : ZMod p) = num (2 ^ E.B) (cst (toLimbs p vb E.B E.n)) E.n := by
    rw [← cast_nat, hv]
  unfold emulatedMulConstantGate
  refine Spec.of_eq (checkVars_eq ha) (Spec.of_eq (checkVars_eq hy) ?_)
  refine Spec.of_eq (emulatedWitness_eq ha hla) ?_
  refine Spec.liftE_bind (negModulus_ok h) ?_
  refine Spec.conseq hc (mulConstGateWith_spec E a vb y _ _ _ hc hr (h.bits c) h.hB h.hn ha hy hla hly
    (mulHints_length _ _ _ _)) ?_ (fun _ _ _ _ => trivial) ?_
  · rintro ⟨r1, r3, q1, q3⟩ _ _
    rw [Nat.mod_eq_of_lt q1]
    have := mul_honest h (B := cst (toLimbs p vb E.B E.n)) (r1.get hla) (cst_toLimbs_lt _ _ _) (r3.get hly) hbn q1
      (by rw [hv]; exact hvb) (by rw [hv]; exact q3)
    rwa [hv] at this
  · rintro _ w _ _ ⟨K, e, hm⟩ r1 r3
    have := hm.sound h (r1.get hla) (cst_toLimbs_lt _ _ _) (r3.get hly) hbn
    rwa [hv] at this

theorem mulConstGateWith_adv [hp : Fact p.Prime] {E : Emu} (h : E.OK p) {a y : List ℕ} {vb : ℕ}
    (hvb : vb < E.q) {c : Circ p}
    (hc : WF c) (hr : RangeOK c) (hla : a.length = E.n) (hly : y.length = E.n)
    (ha : InV a c) (hy : InV y c) (k : ℕ) :
    Spec (mulConstGateWith E a vb y (negLimbs p E) k
        (advCarries p E (fun j => (limb c.val a j).val) (fun j => (cst (toLimbs p vb E.B E.n) j).val) k)) c
      (InR E c.val a ∧ InR E c.val y ∧ k < 2 ^ E.T ∧
        ((2 ^ E.T * p : ℕ) : ℤ) ∣ (nat E (limb c.val a) : ℤ) * vb - k * E.q
          - nat E (limb c.val y))
      (fun _ _ => True) (fun _ _ => True) := by
  have : NeZero p := ⟨hp.out.ne_zero⟩
  have hv := nat_cst h (hvb.trans h.hqT)
  have hbn : (vb : ZMod p) = num (2 ^ E.B) (cst (toLimbs p vb E.B E.n)) E.n := by
    rw [← cast_nat, hv]
  refine Spec.conseq hc (mulConstGateWith_spec E a vb y _ _ _ hc hr (h.bits c) h.hB h.hn ha hy hla hly
    (by simp [advCarries])) ?_ (fun _ _ _ _ => trivial) (fun _ _ _ _ _ => trivial)
  rintro ⟨r1, r3, hk, hd⟩ _ _
  exact mul_adv h (r1.get hla) (cst_toLimbs_lt _ _ _) (r3.get hly) hbn hk (by rwa [hv])


/-! ### The functions that create the result -/

theorem limb_of_InV {w w' : ℕ → ZMod p} (h0 : w' 0 = w 0) {a : List ℕ} (h : ∀ v ∈ a, w' v = w v) :
    limb w' a = limb w a := by
  funext i
  unfold limb
  rw [List.getD_eq_getElem?_getD]
  rcases hi : a[i]? with _ | t
  · exact h0
  · exact h t (List.mem_of_getElem? hi)

theorem InR.ext {E : Emu} {a : List ℕ} {c c' : Circ p} (ha : InV a c) (e : Ext c c') (h : InR E c.val a) :
    InR E c'.val a := h.congr (fun v hv => e.val v (ha v hv))

theorem emulatedMul_spec [hp : Fact p.Prime] {E : Emu} (h : E.OK p) {a b : List ℕ} {c : Circ p}
    (hc : WF c) (hr : RangeOK c) (hla : a.length = E.n) (hlb : b.length = E.n) (ha : InV a c)
    (hb : InV b c) :
    Spec (emulatedMul E a b) c
      (InR E c.val a ∧ InR E c.val b ∧ nat E (limb c.val a) < E.q ∧ nat E (limb c.val b) < E.q)
      (fun v c' => v.length = E.n ∧ InV v c' ∧ (nat E (limb c.val a) < E.q → nat E (limb c.val b) < E.q →
        v.map c'.val = fromEmulated p E (nat E (limb c.val a) * nat E (limb c.val b) % E.q)))
      (fun v w => InR E w v ∧ (InR E w a → InR E w b →
        MulOK p E (nat E (limb w a)) (nat E (limb w b)) (nat E (limb w v)))) := by
  unfold emulatedMul
  refine Spec.of_eq (emulatedWitness_eq ha hla) (Spec.of_eq (emulatedWitness_eq hb hlb) ?_)
  refine Spec.bind (createEmulated_spec E _ hc hr) (fun _ _ _ => ⟨h.hB, fun _ => h.bits'⟩) hc ?_
  rintro y c1 e1 ⟨hly, hy, hym⟩
  refine Spec.bind (emulatedMulGate_spec h e1.wf (hr.ext e1) hla hlb hly (ha.ext e1) (hb.ext e1) hy) ?_ e1.wf ?_
  · rintro ⟨⟨r1, r2, q1, q2⟩, r3⟩ h0 _
    rw [limb_congr ha hc e1, limb_congr hb hc e1]
    refine ⟨r1.ext ha e1, r2.ext hb e1, r3, q1, q2, ?_⟩
    rw [limb_of_map h0 hym, Nat.mod_eq_of_lt q1, Nat.mod_eq_of_lt q2]
    exact nat_cst h ((Nat.mod_lt _ h.hq).trans h.hqT)
  rintro _ c2 e2 -
  refine Spec.pure e2.wf ⟨hly, hy.ext e2, ?_⟩ ?_
  · intro q1 q2
    rw [Nat.mod_eq_of_lt q1, Nat.mod_eq_of_lt q2] at hym
    rw [← hym]
    exact List.map_congr_left (fun v hv => e2.val v (hy v hv))
  · intro w _ _ h1 h2
    exact ⟨h2, fun r1 r2 => h1 r1 r2 h2⟩

/-- the run of an adversary who chooses result and quotient -/
def mulAdv (E : Emu) (a b : List ℕ) (y k : ℕ) (cs : List (ZMod p)) : Build p (List ℕ) := do
  let v ← createEmulated E y
  mulGateWith E a b v (negLimbs p E) k cs
  pure v

theorem emulatedMul_rel' {E : Emu} (h : E.OK p) (a b : List ℕ) (y k : ℕ) (cs : List (ZMod p))
    (hl : cs.length = E.n) : Rel (emulatedMul E a b) (mulAdv E a b y k cs) := by
  unfold emulatedMul mulAdv
  refine Rel.emulatedWitness_bindL (fun _ => Rel.emulatedWitness_bindL (fun _ => ?_))
  refine Rel.bind (createEmulated_rel _ _ _) (fun v => ?_)
  exact Rel.bind (emulatedMulGate_rel' h _ _ _ _ _ hl) (fun _ => Rel.pure _)

theorem emulatedMul_rel (E : Emu) (a b : List ℕ) :
    Rel (emulatedMul E a b : Build p (List ℕ)) (emulatedMul E a b) := by
  unfold emulatedMul
  refine Rel.emulatedWitness_bind (fun _ _ => Rel.emulatedWitness_bind (fun _ _ => ?_))
  refine Rel.bind (createEmulated_rel _ _ _) (fun v => ?_)
  exact Rel.bind (emulatedMulGate_rel _ _ _ _) (fun _ => Rel.pure _)

theorem mulAdv_spec [hp : Fact p.Prime] {E : Emu} (h : E.OK p) {a b : List ℕ} {c : Circ p}
    (hc : WF c) (hr : RangeOK c) (hla : a.length = E.n) (hlb : b.length = E.n) (ha : InV a c)
    (hb : InV b c) (y k : ℕ) :
    Spec (mulAdv E a b y k
        (advCarries p E (fun j => (limb c.val a j).val) (fun j => (limb c.val b j).val) k)) c
      (InR E c.val a ∧ InR E c.val b ∧ y < 2 ^ E.T ∧ k < 2 ^ E.T ∧
        ((2 ^ E.T * p : ℕ) : ℤ) ∣ (nat E (limb c.val a) : ℤ) * nat E (limb c.val b) - k * E.q - y)
      (fun v c' => v.map c'.val = fromEmulated p E y) (fun _ _ => True) := by
  unfold mulAdv
  refine Spec.bind (createEmulated_spec E _ hc hr) (fun _ _ _ => ⟨h.hB, fun _ => h.bits'⟩) hc ?_
  rintro v c1 e1 ⟨hlv, hv, hvm⟩
  have := mulGateWith_adv h e1.wf (hr.ext e1) hla hlb hlv (ha.ext e1) (hb.ext e1) hv k
  rw [limb_congr ha hc e1, limb_congr hb hc e1] at this
  refine Spec.bind this ?_ e1.wf ?_
  · rintro ⟨⟨r1, r2, hyT, hk, hd⟩, r3⟩ h0 _
    refine ⟨r1.ext ha e1, r2.ext hb e1, r3, hk, ?_⟩
    rw [limb_of_map h0 hvm, show nat E (cst (fromEmulated p E y)) = y from nat_cst h hyT]
    exact hd
  rintro _ c2 e2 -
  refine Spec.pure e2.wf ?_ (fun _ _ _ _ _ => trivial)
  rw [← hvm]
  exact List.map_congr_left (fun v' hv' => e2.val v' (hv v' hv'))

theorem emulatedMulConstant_spec [hp : Fact p.Prime] {E : Emu} (h : E.OK p) {a : List ℕ} {vb : ℕ}
    (hvb : vb < E.q) {c : Circ p} (hc : WF c) (hr : RangeOK c) (hla : a.length = E.n) (ha : InV a c) :
    Spec (emulatedMulConstant E a vb) c
      (InR E c.val a ∧ nat E (limb c.val a) < E.q)
      (fun v c' => v.length = E.n ∧ InV v c' ∧ (nat E (limb c.val a) < E.q →
        v.map c'.val = fromEmulated p E (nat E (limb c.val a) * vb % E.q)))
      (fun v w => InR E w v ∧ (InR E w a → MulOK p E (nat E (limb w a)) vb (nat E (limb w v)))) := by
  unfold emulatedMulConstant
  refine Spec.of_eq (emulatedWitness_eq ha hla) ?_
  refine Spec.bind (createEmulated_spec E _ hc hr) (fun _ _ _ => ⟨h.hB, fun _ => h.bits'⟩) hc ?_
  rintro y c1 e1 ⟨hly, hy, hym⟩
  refine Spec.bind (emulatedMulConstantGate_spec h hvb e1.wf (hr.ext e1) hla hly (ha.ext e1) hy) ?_ e1.wf ?_
  · rintro ⟨⟨r1, q1⟩, r3⟩ h0 _
    rw [limb_congr ha hc e1]
    refine ⟨r1.ext ha e1, r3, q1, ?_⟩
    rw [limb_of_map h0 hym, Nat.mod_eq_of_lt q1]
    exact nat_cst h ((Nat.mod_lt _ h.hq).trans h.hqT)
  rintro _ c2 e2 -
  refine Spec.pure e2.wf ⟨hly, hy.ext e2, ?_⟩ ?_
  · intro q1
    rw [Nat.mod_eq_of_lt q1] at hym
    rw [← hym]
    exact List.map_congr_left (fun v hv => e2.val v (hy v hv))
  · intro w _ _ h1 h2
    exact ⟨h2, fun r1 => h1 r1 h2⟩

def mulConstAdv (E : Emu) (a : List ℕ) (vb y k : ℕ) (cs : List (ZMod p)) : Build p (List ℕ) := do
  let v ← createEmulated E y
  mulConstGateWith E a vb v (negLimbs p E) k cs
  pure v

theorem emulatedMulConstant_rel' {E : Emu} (h : E.OK p) (a : List ℕ) (vb y k : ℕ) (cs : List (ZMod p))
    (hl : cs.length = E.n) : Rel (emulatedMulConstant E a vb) (mulConstAdv E a vb y k cs) := by
  unfold emulatedMulConstant mulConstAdv
  refine Rel.emulatedWitness_bindL (fun _ => ?_)
  refine Rel.bind (createEmulated_rel _ _ _) (fun v => ?_)
  exact Rel.bind (emulatedMulConstantGate_rel' h _ _ _ _ _ hl) (fun _ => Rel.pure _)

theorem emulatedMulConstant_rel (E : Emu) (a : List ℕ) (vb : ℕ) :
    Rel (emulatedMulConstant E a vb : Build p (List ℕ)) (emulatedMulConstant E a vb) := by
  unfold emulatedMulConstant
  refine Rel.emulatedWitness_bind (fun _ _ => ?_)
  refine Rel.bind (createEmulated_rel _ _ _) (fun v => ?_)
  exact Rel.bind (emulatedMulConstantGate_rel _ _ _ _) (fun _ => Rel.pure _)

theorem mulConstAdv_spec [hp : Fact p.Prime] {E : Emu} (h : E.OK p) {a : List ℕ} {vb : ℕ} (hvb : vb < E.q)
    {c : Circ p} (hc : WF c) (hr : RangeOK c) (hla : a.length = E.n) (ha : InV a c) (y k : ℕ) :
    Spec (mulConstAdv E a vb y k
        (advCarries p E (fun j => (limb c.val a j).val) (fun j => (cst (toLimbs p vb E.B E.n) j).val) k)) c
      (InR E c.val a ∧ y < 2 ^ E.T ∧ k < 2 ^ E.T ∧
        ((2 ^ E.T * p : ℕ) : ℤ) ∣ (nat E (limb c.val a) : ℤ) * vb - k * E.q - y)
      (fun v c' => v.map c'.val = fromEmulated p E y) (fun _ _ => True) := by
  unfold mulConstAdv
  refine Spec.bind (createEmulated_spec E _ hc hr) (fun _ _ _ => ⟨h.hB, fun _ => h.bits'⟩) hc ?_
  rintro v c1 e1 ⟨hlv, hv, hvm⟩
  have := mulConstGateWith_adv h hvb e1.wf (hr.ext e1) hla hlv (ha.ext e1) hv k
  rw [limb_congr ha hc e1] at this
  refine Spec.bind this ?_ e1.wf ?_
  · rintro ⟨⟨r1, hyT, hk, hd⟩, r3⟩ h0 _
    refine ⟨r1.ext ha e1, r3, hk, ?_⟩
    rw [limb_of_map h0 hvm, show nat E (cst (fromEmulated p E y)) = y from nat_cst h hyT]
    exact hd
  rintro _ c2 e2 -
  refine Spec.pure e2.wf ?_ (fun _ _ _ _ _ => trivial)
  rw [← hvm]
  exact List.map_congr_left (fun v' hv' => e2.val v' (hv v' hv'))

end Verif.Circuit
