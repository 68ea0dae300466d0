import Verif.Circuit.EmulatedFns

/-! # Emulated addition and subtraction: specifications, and when the honest hints are right -/

set_option linter.unusedSectionVars false

namespace Verif.Circuit

open Finset Verif.Limbs

variable {p : ℕ} {α β : Type}

/-- the stored witness of one limb -/
theorem step_nec [Fact p.Prime] {E : Emu} {h : ZMod p} {x1 x2 cr s : ℕ} {q1 q2 : ZMod p}
    {f : ℕ → Build p α} {c c' : Circ p} {v : α} (hc : WF c)
    (hm : (do let next ← createVariable h
              enforceBool next
              lcGate x1 x2 cr next s q1 q2 1 (-((2 ^ E.B : ℕ) : ZMod p))
              f next : Build p α) c = .ok (v, c')) :
    ∃ next c3, Ext c c3 ∧ next < c3.numVars ∧ c3.val next = h ∧ f next c3 = .ok (v, c') ∧
      ∀ pi w, Sat c3 pi w → AddStep E (q1 * w x1 + q2 * w x2) (w s) (w cr) (w next) := by
  obtain ⟨next, c1, h1, hm⟩ := bind_ok hm
  obtain ⟨e1, ⟨b1, b2⟩, -⟩ := (createVariable_spec hc h True).sound _ _ h1
  obtain ⟨u, c2, h2, hm⟩ := bind_ok hm
  obtain ⟨e2, -, r2⟩ := (enforceBool_spec e1.wf next).sound _ _ h2
  obtain ⟨u', c3, h3, hm⟩ := bind_ok hm
  obtain ⟨e3, -, r3⟩ := (lcGate_spec e2.wf _ _ _ _ _ _ _ _ _).sound _ _ h3
  refine ⟨next, c3, (e1.trans e2).trans e3, (e2.trans e3).lt b1, by rw [(e2.trans e3).val _ b1, b2], hm, ?_⟩
  intro pi w hs
  have g3 := r3 pi w hs
  have g2 := r2 pi w (e3.sat pi w hs)
  rw [cast_pow_two] at g3
  exact ⟨g2, by linear_combination -g3⟩

theorem addLoop_nec [Fact p.Prime] (E : Emu) (hs : List (ZMod p)) : ∀ (as bs ss : List ℕ) (carry : ℕ)
    {c c' : Circ p} {u : Unit} (_ : WF c), RangeOK c → InV as c → InV bs c → InV ss c → carry < c.numVars →
    as.length = hs.length → bs.length = hs.length → ss.length = hs.length →
    addLoop E hs as bs ss carry c = .ok (u, c') → ∀ {pi}, Sat c' pi c'.val →
    ∀ j, j < hs.length → AddStep E (limb c.val as j + limb c.val bs j) (limb c.val ss j)
      (hintAt (c.val carry) hs 0 j) (hintAt (c.val carry) hs 0 (j + 1)) := by
  induction hs with
  | nil => intro as bs ss carry c c' u _ _ _ _ _ _ _ _ _ _ pi _ j hj; simp at hj
  | cons h hs ih =>
    intro as bs ss carry c c' u hc hr ha hb hsv hcar h1 h2 h3 hm pi hsat
    rcases as with _ | ⟨a, as⟩
    · simp at h1
    rcases bs with _ | ⟨b, bs⟩
    · simp at h2
    rcases ss with _ | ⟨s, ss⟩
    · simp at h3
    simp only [List.length_cons, Nat.add_right_cancel_iff] at h1 h2 h3
    have has : InV as c := fun x hx => ha x (by simp [hx])
    have hbs : InV bs c := fun x hx => hb x (by simp [hx])
    have hss : InV ss c := fun x hx => hsv x (by simp [hx])
    unfold addLoop addLimb at hm
    obtain ⟨next', c4, h4, hm⟩ := bind_ok hm
    obtain ⟨next, c3, e3, b1, b2, h5, hst⟩ := step_nec hc h4
    obtain ⟨u', c5, h6, h7⟩ := bind_ok h5
    obtain ⟨e4, -, -⟩ := (enforceInRange_spec e3.wf (hr.ext e3) s E.B).sound _ _ h6
    obtain ⟨rfl, rfl⟩ : next = next' ∧ c5 = c4 := by
      have h8 : (Except.ok (next, c5) : Except CErr (ℕ × Circ p)) = .ok (next', c4) := h7
      simpa using h8
    have e04 := e3.trans e4
    obtain ⟨e5, -, -⟩ := (addLoop_spec E hs as bs ss next e4.wf (hr.ext e04) (has.ext e04) (hbs.ext e04)
      (hss.ext e04) (e4.lt b1) h1 h2 h3).sound _ _ hm
    have e05 := e04.trans e5
    have e35 := e4.trans e5
    have hs3 := hst pi c'.val (e35.sat _ _ hsat)
    rw [e05.val a (ha a (by simp)), e05.val b (hb b (by simp)), e05.val s (hsv s (by simp)),
      e05.val carry hcar, e35.val next b1, b2, one_mul, one_mul] at hs3
    intro j hj
    rcases j with _ | j
    · exact hs3
    · have := ih as bs ss next e4.wf (hr.ext e04) (has.ext e04) (hbs.ext e04)
        (hss.ext e04) (e4.lt b1) h1 h2 h3 hm hsat j (by simpa using hj)
      rw [limb_congr has hc e04, limb_congr hbs hc e04, limb_congr hss hc e04, e4.val next b1, b2] at this
      exact this

theorem addConstLoop_nec [Fact p.Prime] (E : Emu) (hs : List (ZMod p)) : ∀ (as : List ℕ)
    (bs : List (ZMod p)) (ss : List ℕ) (carry : ℕ)
    {c c' : Circ p} {u : Unit} (_ : WF c), RangeOK c → InV as c → InV ss c → carry < c.numVars →
    as.length = hs.length → bs.length = hs.length → ss.length = hs.length →
    addConstLoop E hs as bs ss carry c = .ok (u, c') → ∀ {pi}, Sat c' pi c'.val →
    ∀ j, j < hs.length → AddStep E (limb c.val as j + cst bs j) (limb c.val ss j)
      (hintAt (c.val carry) hs 0 j) (hintAt (c.val carry) hs 0 (j + 1)) := by
  induction hs with
  | nil => intro as bs ss carry c c' u _ _ _ _ _ _ _ _ _ pi _ j hj; simp at hj
  | cons h hs ih =>
    intro as bs ss carry c c' u hc hr ha hsv hcar h1 h2 h3 hm pi hsat
    rcases as with _ | ⟨a, as⟩
    · simp at h1
    rcases bs with _ | ⟨b, bs⟩
    · simp at h2
    rcases ss with _ | ⟨s, ss⟩
    · simp at h3
    simp only [List.length_cons, Nat.add_right_cancel_iff] at h1 h2 h3
    have has : InV as c := fun x hx => ha x (by simp [hx])
    have hss : InV ss c := fun x hx => hsv x (by simp [hx])
    unfold addConstLoop at hm
    obtain ⟨next, c3, e3, b1, b2, h5, hst⟩ := step_nec hc hm
    obtain ⟨u', c4, h6, h7⟩ := bind_ok h5
    obtain ⟨e4, -, -⟩ := (enforceInRange_spec e3.wf (hr.ext e3) s E.B).sound _ _ h6
    have e04 := e3.trans e4
    obtain ⟨e5, -, -⟩ := (addConstLoop_spec E hs as bs ss next e4.wf (hr.ext e04) (has.ext e04)
      (hss.ext e04) (e4.lt b1) h1 h2 h3).sound _ _ h7
    have e05 := e04.trans e5
    have e35 := e4.trans e5
    have hs3 := hst pi c'.val (e35.sat _ _ hsat)
    have h11 : c'.val 1 = 1 := hsat.one e5.wf
    rw [e05.val a (ha a (by simp)), h11, e05.val s (hsv s (by simp)),
      e05.val carry hcar, e35.val next b1, b2, one_mul, mul_one] at hs3
    intro j hj
    rcases j with _ | j
    · exact hs3
    · have := ih as bs ss next e4.wf (hr.ext e04) (has.ext e04)
        (hss.ext e04) (e4.lt b1) h1 h2 h3 h7 hsat j (by simpa using hj)
      rw [limb_congr has hc e04, limb_congr hss hc e04, e4.val next b1, b2] at this
      exact this

theorem subLoop_nec [Fact p.Prime] (E : Emu) (k : ℕ) (hs : List (ZMod p)) : ∀ (ms : List (ZMod p))
    (cs ss : List ℕ) (carry : ℕ)
    {c c' : Circ p} {u : Unit} (_ : WF c), k < c.numVars → InV cs c → InV ss c → carry < c.numVars →
    ms.length = hs.length → cs.length = hs.length → ss.length = hs.length →
    subLoop E k hs ms cs ss carry c = .ok (u, c') → ∀ {pi}, Sat c' pi c'.val →
    ∀ j, j < hs.length → AddStep E (cst ms j * c.val k + limb c.val cs j) (limb c.val ss j)
      (hintAt (c.val carry) hs 0 j) (hintAt (c.val carry) hs 0 (j + 1)) := by
  induction hs with
  | nil => intro as bs ss carry c c' u _ _ _ _ _ _ _ _ _ pi _ j hj; simp at hj
  | cons h hs ih =>
    intro ms cs ss carry c c' u hc hk hcv hsv hcar h1 h2 h3 hm pi hsat
    rcases ms with _ | ⟨a, ms⟩
    · simp at h1
    rcases cs with _ | ⟨b, cs⟩
    · simp at h2
    rcases ss with _ | ⟨s, ss⟩
    · simp at h3
    simp only [List.length_cons, Nat.add_right_cancel_iff] at h1 h2 h3
    have hcs : InV cs c := fun x hx => hcv x (by simp [hx])
    have hss : InV ss c := fun x hx => hsv x (by simp [hx])
    unfold subLoop at hm
    obtain ⟨next, c3, e3, b1, b2, h5, hst⟩ := step_nec hc hm
    obtain ⟨e5, -, -⟩ := (subLoop_spec E k hs ms cs ss next e3.wf (e3.lt hk) (hcs.ext e3)
      (hss.ext e3) b1 h1 h2 h3).sound _ _ h5
    have e05 := e3.trans e5
    have hs3 := hst pi c'.val (e5.sat _ _ hsat)
    rw [e05.val k hk, e05.val b (hcv b (by simp)), e05.val s (hsv s (by simp)),
      e05.val carry hcar, e5.val next b1, b2, one_mul] at hs3
    intro j hj
    rcases j with _ | j
    · exact hs3
    · have := ih ms cs ss next e3.wf (e3.lt hk) (hcs.ext e3)
        (hss.ext e3) b1 h1 h2 h3 h5 hsat j (by simpa using hj)
      rw [e3.val k hk, limb_congr hcs hc e3, limb_congr hss hc e3, b2] at this
      exact this

theorem addGateWith_nec [Fact p.Prime] (E : Emu) (a b y : List ℕ) (k : Bool) (sum : ℕ)
    (h1 h2 : List (ZMod p)) {c c' : Circ p} {u : Unit} (hc : WF c) (hr : RangeOK c)
    (ha : InV a c) (hb : InV b c) (hy : InV y c) (hla : a.length = E.n) (hlb : b.length = E.n)
    (hly : y.length = E.n) (hl1 : h1.length = E.n) (hl2 : h2.length = E.n)
    (hm : addGateWith E a b y k sum h1 h2 c = .ok (u, c')) {pi} (hsat : Sat c' pi c'.val) :
    (∀ j, j < E.n → AddStep E (limb c.val a j + limb c.val b j) (cst (toLimbs p sum E.B E.n) j)
      (hintAt 0 h1 0 j) (hintAt 0 h1 0 (j + 1))) ∧
    (∀ j, j < E.n → AddStep E (cst (toLimbs p E.q E.B E.n) j * boolF k + limb c.val y j)
      (cst (toLimbs p sum E.B E.n) j) (hintAt 0 h2 0 j) (hintAt 0 h2 0 (j + 1))) := by
  unfold addGateWith at hm
  obtain ⟨vk, c1, g1, hm⟩ := bind_ok hm
  obtain ⟨e1, ⟨hvk, hkv⟩, -⟩ := (createBooleanVariable_spec hc k).sound _ _ g1
  obtain ⟨s, c2, g2, hm⟩ := bind_ok hm
  obtain ⟨e2, ⟨hls, hs, hsm⟩, -⟩ := (createVars_spec _ e1.wf).sound _ _ g2
  rw [toLimbs_length] at hls
  have hs2 : InV s c2 := hs
  have e02 := e1.trans e2
  obtain ⟨u1, c3, g3, hm⟩ := bind_ok hm
  obtain ⟨e3, -, -⟩ := (addLoop_spec E h1 a b s 0 e2.wf (hr.ext e02) (ha.ext e02) (hb.ext e02) hs2
    e2.wf.z (by omega) (by omega) (by omega)).sound _ _ g3
  have e03 := e02.trans e3
  obtain ⟨e4, -, -⟩ := (subLoop_spec E vk h2 _ y s 0 e3.wf ((e2.trans e3).lt hvk) (hy.ext e03)
    (hs2.ext e3) e3.wf.z (by rw [toLimbs_length]; omega) (by omega) (by omega)).sound _ _ hm
  have h0 : c'.val 0 = 0 := hsat.zero e4.wf
  have h03 : c3.val 0 = 0 := by rw [← e4.val 0 e3.wf.z]; exact h0
  have h02 : c2.val 0 = 0 := by rw [← e3.val 0 e2.wf.z]; exact h03
  have hsat3 : Sat c3 pi c3.val := Sat.congr e3.wf (fun i hi => e4.val i hi) (e4.sat _ _ hsat)
  have n1 := addLoop_nec E h1 a b s 0 e2.wf (hr.ext e02) (ha.ext e02) (hb.ext e02) hs2
    e2.wf.z (by omega) (by omega) (by omega) g3 hsat3
  have n2 := subLoop_nec E vk h2 _ y s 0 e3.wf ((e2.trans e3).lt hvk) (hy.ext e03)
    (hs2.ext e3) e3.wf.z (by rw [toLimbs_length]; omega) (by omega) (by omega) hm hsat
  rw [limb_congr ha hc e02, limb_congr hb hc e02, limb_of_map h02 hsm, h02, hl1] at n1
  rw [(e2.trans e3).val _ hvk, hkv, limb_congr hy hc e03, limb_congr hs2 e2.wf e3, limb_of_map h02 hsm, h03,
    hl2] at n2
  exact ⟨n1, n2⟩

theorem addConstGateWith_nec [Fact p.Prime] (E : Emu) (a : List ℕ) (vb : ℕ) (y : List ℕ) (k : Bool) (sum : ℕ)
    (h1 h2 : List (ZMod p)) {c c' : Circ p} {u : Unit} (hc : WF c) (hr : RangeOK c)
    (ha : InV a c) (hy : InV y c) (hla : a.length = E.n)
    (hly : y.length = E.n) (hl1 : h1.length = E.n) (hl2 : h2.length = E.n)
    (hm : addConstGateWith E a vb y k sum h1 h2 c = .ok (u, c')) {pi} (hsat : Sat c' pi c'.val) :
    (∀ j, j < E.n → AddStep E (limb c.val a j + cst (toLimbs p vb E.B E.n) j) (cst (toLimbs p sum E.B E.n) j)
      (hintAt 0 h1 0 j) (hintAt 0 h1 0 (j + 1))) ∧
    (∀ j, j < E.n → AddStep E (cst (toLimbs p E.q E.B E.n) j * boolF k + limb c.val y j)
      (cst (toLimbs p sum E.B E.n) j) (hintAt 0 h2 0 j) (hintAt 0 h2 0 (j + 1))) := by
  unfold addConstGateWith at hm
  obtain ⟨vk, c1, g1, hm⟩ := bind_ok hm
  obtain ⟨e1, ⟨hvk, hkv⟩, -⟩ := (createBooleanVariable_spec hc k).sound _ _ g1
  obtain ⟨s, c2, g2, hm⟩ := bind_ok hm
  obtain ⟨e2, ⟨hls, hs, hsm⟩, -⟩ := (createVars_spec _ e1.wf).sound _ _ g2
  rw [toLimbs_length] at hls
  have hs2 : InV s c2 := hs
  have e02 := e1.trans e2
  obtain ⟨u1, c3, g3, hm⟩ := bind_ok hm
  obtain ⟨e3, -, -⟩ := (addConstLoop_spec E h1 a _ s 0 e2.wf (hr.ext e02) (ha.ext e02) hs2
    e2.wf.z (by omega) (by rw [toLimbs_length]; omega) (by omega)).sound _ _ g3
  have e03 := e02.trans e3
  obtain ⟨e4, -, -⟩ := (subLoop_spec E vk h2 _ y s 0 e3.wf ((e2.trans e3).lt hvk) (hy.ext e03)
    (hs2.ext e3) e3.wf.z (by rw [toLimbs_length]; omega) (by omega) (by omega)).sound _ _ hm
  have h0 : c'.val 0 = 0 := hsat.zero e4.wf
  have h03 : c3.val 0 = 0 := by rw [← e4.val 0 e3.wf.z]; exact h0
  have h02 : c2.val 0 = 0 := by rw [← e3.val 0 e2.wf.z]; exact h03
  have hsat3 : Sat c3 pi c3.val := Sat.congr e3.wf (fun i hi => e4.val i hi) (e4.sat _ _ hsat)
  have n1 := addConstLoop_nec E h1 a _ s 0 e2.wf (hr.ext e02) (ha.ext e02) hs2
    e2.wf.z (by omega) (by rw [toLimbs_length]; omega) (by omega) g3 hsat3
  have n2 := subLoop_nec E vk h2 _ y s 0 e3.wf ((e2.trans e3).lt hvk) (hy.ext e03)
    (hs2.ext e3) e3.wf.z (by rw [toLimbs_length]; omega) (by omega) (by omega) hm hsat
  rw [limb_congr ha hc e02, limb_of_map h02 hsm, h02, hl1] at n1
  rw [(e2.trans e3).val _ hvk, hkv, limb_congr hy hc e03, limb_congr hs2 e2.wf e3, limb_of_map h02 hsm, h03,
    hl2] at n2
  exact ⟨n1, n2⟩

/-! ## The hints -/

/-- the hint `x_j / 2^B` is the carry out of limb `j` -/
def CarryOK (E : Emu) (x : ℕ → ℕ) : Prop := ∀ j, j < E.n → x j / 2 ^ E.B = carry (2 ^ E.B) x (j + 1)

theorem carry_eq_div {r : ℕ} (hr : 0 < r) (x : ℕ → ℕ) (i : ℕ) : carry r x i = num r x i / r ^ i := by
  have h := chain_sum (r := r) (x := x) (c := fun j => (x j + carry r x j) % r) (e := carry r x) (n := i) rfl
    (fun j _ => (Nat.mod_add_div _ _).symm)
  have h2 := num_lt (r := r) (f := fun j => (x j + carry r x j) % r) (n := i) (fun j _ => Nat.mod_lt _ hr)
  rw [h, Nat.add_mul_div_left _ _ (by positivity), Nat.div_eq_of_lt h2, Nat.zero_add]

/-- hints in the circuit are right exactly when the integers are -/
theorem hint_iff [Fact p.Prime] {E : Emu} (h : E.OK p) {X S : ℕ → ZMod p} {x : ℕ → ℕ} {hs : List (ZMod p)}
    (hX : ∀ j, j < E.n → (x j : ZMod p) = X j) (hx : ∀ j, j < E.n → x j + 1 < 2 * 2 ^ E.B)
    (hS : ∀ j, j < E.n → (S j).val < 2 ^ E.B)
    (hh : ∀ j, j < E.n → hs.getD j 0 = ((x j / 2 ^ E.B : ℕ) : ZMod p)) :
    (∀ j, j < E.n → AddStep E (X j) (S j) (hintAt 0 hs 0 j) (hintAt 0 hs 0 (j + 1))) ↔
    (∀ j, j < E.n → AddStep E (X j) (S j) (carry (2 ^ E.B) x j : ZMod p) (carry (2 ^ E.B) x (j + 1) : ZMod p)) ∧
      CarryOK E x := by
  have hp : p.Prime := Fact.out
  have hr0 : 0 < 2 ^ E.B := by positivity
  have hd1 : ∀ j, j < E.n → x j / 2 ^ E.B ≤ 1 := by
    intro j hj
    have : x j / 2 ^ E.B < 2 := by rw [Nat.div_lt_iff_lt_mul hr0]; have := hx j hj; omega
    omega
  have hs1 : ∀ j, j < E.n → hintAt 0 hs 0 (j + 1) = ((x j / 2 ^ E.B : ℕ) : ZMod p) := by
    intro j hj
    rw [← hh j hj]
    rfl
  have hv : ∀ {m : ℕ}, m ≤ 1 → ((m : ℕ) : ZMod p).val = m := by
    intro m hm
    exact ZMod.val_natCast_of_lt (lt_of_le_of_lt hm hp.one_lt)
  have heq : CarryOK E x → ∀ j, j ≤ E.n → hintAt 0 hs 0 j = (carry (2 ^ E.B) x j : ZMod p) := by
    intro hk j hj
    rcases j with _ | j
    · simp [hintAt, carry]
    · rw [hs1 j (by omega), hk j (by omega)]
  constructor
  · intro hst
    have hbit := bit_cases (e := hintAt 0 hs 0) (n := E.n) (by simp [hintAt]) (fun j hj => (hst j hj).1)
    have hch : ∀ j, j < E.n → x j + (hintAt 0 hs 0 j).val = (S j).val + 2 ^ E.B * (hintAt 0 hs 0 (j + 1)).val :=
      fun j hj => (hst j hj).nat h.add_lt (hX j hj) (hx j hj) (hS j hj) (hbit j (by omega))
    have hu := chain_unique (e := fun j => (hintAt 0 hs 0 j).val) hS (by simp [hintAt]) hch
    have hok : CarryOK E x := by
      intro j hj
      rw [← hu (j + 1) (by omega)]
      rw [hs1 j hj, hv (hd1 j hj)]
    refine ⟨fun j hj => ?_, hok⟩
    rw [← heq hok j (by omega), ← heq hok (j + 1) (by omega)]
    exact hst j hj
  · rintro ⟨hst, hok⟩ j hj
    rw [heq hok j (by omega), heq hok (j + 1) (by omega)]
    exact hst j hj

theorem addHints1_getD {E : Emu} [NeZero p] (h : 2 * 2 ^ E.B < p) {x y : List (ZMod p)} {A B : ℕ → ZMod p}
    {n : ℕ} (hx : x.length = n) (hy : y.length = n) (hA : ∀ j, j < n → cst x j = A j)
    (hB : ∀ j, j < n → cst y j = B j) (rA : ∀ j, j < n → (A j).val < 2 ^ E.B)
    (rB : ∀ j, j < n → (B j).val < 2 ^ E.B) :
    ∀ j, j < n → (addHints1 E x y).getD j 0 = ((((A j).val + (B j).val) / 2 ^ E.B : ℕ) : ZMod p) := by
  intro j hj
  have e1 := hA j hj
  have e2 := hB j hj
  unfold cst at e1 e2
  rw [List.getD_eq_getElem _ _ (by omega)] at e1 e2
  unfold addHints1
  rw [List.getD_eq_getElem _ _ (by simp; omega), List.getElem_zipWith, e1, e2,
    ZMod.val_add_of_lt (by have := rA j hj; have := rB j hj; omega)]

theorem addHints2_getD {E : Emu} [Fact p.Prime] (h : E.OK p) {y : List (ZMod p)} {C : ℕ → ZMod p}
    (k : Bool) (hy : y.length = E.n) (hC : ∀ j, j < E.n → cst y j = C j)
    (rC : ∀ j, j < E.n → (C j).val < 2 ^ E.B) :
    ∀ j, j < E.n → (addHints2 E k y).getD j 0
      = ((qs E k.toNat (fun j => (C j).val) j / 2 ^ E.B : ℕ) : ZMod p) := by
  intro j hj
  have : NeZero p := ⟨(Fact.out : p.Prime).ne_zero⟩
  have e2 := hC j hj
  unfold cst at e2
  rw [List.getD_eq_getElem _ _ (by omega)] at e2
  have e1 := cst_toLimbs (p := p) E.q E.B E.n j hj
  unfold cst at e1
  rw [List.getD_eq_getElem _ _ (by rw [toLimbs_length]; omega)] at e1
  have hq := qs_lt (E := E) (k := k.toNat) (by cases k <;> simp) (C := fun j => (C j).val) (rC j hj)
  unfold addHints2
  rw [List.getD_eq_getElem _ _ (by simp [toLimbs_length]; omega), List.getElem_zipWith, e1, e2]
  congr 2
  have hcast : ((dig (2 ^ E.B) E.q j : ℕ) : ZMod p) * boolF k + C j
      = ((qs E k.toNat (fun j => (C j).val) j : ℕ) : ZMod p) := by
    unfold qs
    push_cast
    rw [ZMod.natCast_zmod_val]
    cases k <;> simp [boolF]
  rw [hcast]
  apply ZMod.val_natCast_of_lt
  have := h.add_lt
  omega

/-! ## The gate -/

def AddOK (E : Emu) (A B C : ℕ) : Prop := ∃ k : Bool, A + B ≡ k.toNat * E.q + C [MOD 2 ^ E.T]

/-- the hints of the honest prover are right -/
def AddHon (E : Emu) (A B : ℕ) : Prop :=
  CarryOK E (fun j => dig (2 ^ E.B) A j + dig (2 ^ E.B) B j) ∧
  CarryOK E (qs E (decide (E.q ≤ A + B)).toNat (dig (2 ^ E.B) ((A + B) % E.q)))

theorem carry_congr {r : ℕ} {x y : ℕ → ℕ} {n : ℕ} (h : ∀ j, j < n → x j = y j) :
    ∀ j, j ≤ n → carry r x j = carry r y j := by
  intro j
  induction j with
  | zero => intro _; rfl
  | succ j ih => intro hj; simp only [carry]; rw [h j (by omega), ih (by omega)]

theorem CarryOK.congr {E : Emu} {x y : ℕ → ℕ} (h : ∀ j, j < E.n → x j = y j) : CarryOK E x ↔ CarryOK E y := by
  unfold CarryOK
  refine forall_congr' (fun j => forall_congr' (fun hj => ?_))
  rw [h j hj, carry_congr h (j + 1) hj]

theorem add_modEq {E : Emu} {A B C : ℕ} (ha : A < E.q) (hb : B < E.q)
    (hc : C = (A + B) % E.q) : A + B ≡ (decide (E.q ≤ A + B)).toNat * E.q + C [MOD 2 ^ E.T] := by
  have : A + B = (decide (E.q ≤ A + B)).toNat * E.q + C := by
    by_cases h : E.q ≤ A + B
    · simp only [h, decide_true, Bool.toNat_true, one_mul]
      rw [hc, Nat.mod_eq_sub_mod h, Nat.mod_eq_of_lt (by omega)]
      omega
    · simp only [h, decide_false, Bool.toNat_false, zero_mul, zero_add]
      rw [hc, Nat.mod_eq_of_lt (by omega)]
  exact congrArg (· % 2 ^ E.T) this

/-- the relation with the hints of the code holds exactly when the hints are right -/
theorem add_honest_iff [hp : Fact p.Prime] {E : Emu} (h : E.OK p) {A B C : ℕ → ZMod p} {k : Bool}
    {x y z : List (ZMod p)}
    (hA : ∀ j, j < E.n → (A j).val < 2 ^ E.B) (hB : ∀ j, j < E.n → (B j).val < 2 ^ E.B)
    (hC : ∀ j, j < E.n → (C j).val < 2 ^ E.B)
    (lx : x.length = E.n) (ly : y.length = E.n) (lz : z.length = E.n)
    (ex : ∀ j, j < E.n → cst x j = A j) (ey : ∀ j, j < E.n → cst y j = B j) (ez : ∀ j, j < E.n → cst z j = C j)
    (q1 : nat E A < E.q) (q2 : nat E B < E.q) (q3 : nat E C = (nat E A + nat E B) % E.q)
    (hk : k = decide (E.q ≤ nat E A + nat E B)) :
    ((∀ j, j < E.n → AddStep E (A j + B j) (cst (toLimbs p (nat E A + nat E B) E.B E.n) j)
      (hintAt 0 (addHints1 E x y) 0 j) (hintAt 0 (addHints1 E x y) 0 (j + 1))) ∧
    (∀ j, j < E.n → AddStep E (cst (toLimbs p E.q E.B E.n) j * boolF k + C j)
      (cst (toLimbs p (nat E A + nat E B) E.B E.n) j) (hintAt 0 (addHints2 E k z) 0 j)
      (hintAt 0 (addHints2 E k z) 0 (j + 1)))) ↔
    AddHon E (nat E A) (nat E B) := by
  have : NeZero p := ⟨hp.out.ne_zero⟩
  have hm : nat E A + nat E B ≡ k.toNat * E.q + nat E C [MOD 2 ^ E.T] := by
    rw [hk]; exact add_modEq q1 q2 q3
  have t1 : CarryOK E (fun j => dig (2 ^ E.B) (nat E A) j + dig (2 ^ E.B) (nat E B) j) ↔
      CarryOK E (fun j => (A j).val + (B j).val) :=
    CarryOK.congr (fun j hj => by rw [dig_nat hA hj, dig_nat hB hj])
  have t2 : CarryOK E (qs E k.toNat (dig (2 ^ E.B) (nat E C))) ↔
      CarryOK E (qs E k.toNat (fun j => (C j).val)) :=
    CarryOK.congr (fun j hj => by unfold qs; rw [dig_nat hC hj])
  unfold AddHon
  rw [← hk, ← q3, t1, t2]
  have hr := AddRel.of_modEq h k hA hB hC hm
  have i1 := hint_iff h (X := fun j => A j + B j) (S := cst (toLimbs p (nat E A + nat E B) E.B E.n))
    (x := fun j => (A j).val + (B j).val) (hs := addHints1 E x y)
    (fun j hj => by push_cast; simp)
    (fun j hj => by have := hA j hj; have := hB j hj; omega) hr.sr
    (addHints1_getD h.add_lt lx ly ex ey hA hB)
  have i2 := hint_iff h (X := fun j => cst (toLimbs p E.q E.B E.n) j * boolF k + C j)
    (S := cst (toLimbs p (nat E A + nat E B) E.B E.n))
    (x := qs E k.toNat (fun j => (C j).val)) (hs := addHints2 E k z)
    (fun j hj => by
      unfold qs
      push_cast
      rw [cst_toLimbs _ _ _ _ hj, ZMod.natCast_zmod_val]
      cases k <;> simp [boolF])
    (fun j hj => qs_lt (by cases k <;> simp) (hC j hj)) hr.sr
    (addHints2_getD h k lz ez hC)
  constructor
  · rintro ⟨g1, g2⟩
    exact ⟨(i1.1 g1).2, (i2.1 g2).2⟩
  · rintro ⟨g1, g2⟩
    exact ⟨i1.2 ⟨hr.left, g1⟩, i2.2 ⟨hr.right, g2⟩⟩

theorem cst_map {w : ℕ → ZMod p} {a : List ℕ} {n : ℕ} (hl : a.length = n) :
    ∀ j, j < n → cst (a.map w) j = limb w a j := by
  intro j hj
  unfold cst limb
  rw [List.getD_eq_getElem _ _ (by simp; omega), List.getD_eq_getElem _ _ (by omega), List.getElem_map]

theorem boolF_bit (k : Bool) : (boolF k : ZMod p) = 0 ∨ (boolF k : ZMod p) = 1 := by
  cases k <;> simp [boolF]

theorem AddRel.of_hints {E : Emu} {M A B C S : ℕ → ZMod p} {k : Bool} {h1 h2 : List (ZMod p)}
    (hs : ∀ j, j < E.n → (S j).val < 2 ^ E.B)
    (g : (∀ j, j < E.n → AddStep E (A j + B j) (S j) (hintAt 0 h1 0 j) (hintAt 0 h1 0 (j + 1))) ∧
      (∀ j, j < E.n → AddStep E (M j * boolF k + C j) (S j) (hintAt 0 h2 0 j) (hintAt 0 h2 0 (j + 1)))) :
    AddRel E M A B C (boolF k) S (hintAt 0 h1 0) (hintAt 0 h2 0) :=
  ⟨boolF_bit k, by simp [hintAt], by simp [hintAt], hs, g.1, g.2⟩


theorem addOK_of [hp : Fact p.Prime] {E : Emu} (h : E.OK p) {A B C S e f : ℕ → ZMod p} {k : ZMod p}
    (hA : ∀ j, j < E.n → (A j).val < 2 ^ E.B) (hB : ∀ j, j < E.n → (B j).val < 2 ^ E.B)
    (hC : ∀ j, j < E.n → (C j).val < 2 ^ E.B)
    (hm : AddRel E (cst (toLimbs p E.q E.B E.n)) A B C k S e f) : AddOK E (nat E A) (nat E B) (nat E C) := by
  have := hm.sound h hA hB hC
  rcases hm.bit with rfl | rfl
  · exact ⟨false, by simpa using this⟩
  · have h1 : Fact (1 < p) := ⟨hp.out.one_lt⟩
    rw [ZMod.val_one] at this
    exact ⟨true, by simpa using this⟩

theorem emulatedAddGate_spec [hp : Fact p.Prime] {E : Emu} (h : E.OK p) {a b y : List ℕ} {c : Circ p}
    (hc : WF c) (hr : RangeOK c) (hla : a.length = E.n) (hlb : b.length = E.n) (hly : y.length = E.n)
    (ha : InV a c) (hb : InV b c) (hy : InV y c) :
    Spec (emulatedAddGate E a b y) c
      (InR E c.val a ∧ InR E c.val b ∧ InR E c.val y ∧ nat E (limb c.val a) < E.q ∧
        nat E (limb c.val b) < E.q ∧
        nat E (limb c.val y) = (nat E (limb c.val a) + nat E (limb c.val b)) % E.q ∧
        AddHon E (nat E (limb c.val a)) (nat E (limb c.val b)))
      (fun _ _ => True)
      (fun _ w => InR E w a → InR E w b → InR E w y →
        AddOK E (nat E (limb w a)) (nat E (limb w b)) (nat E (limb w y))) := by
  unfold emulatedAddGate
  refine Spec.of_eq (checkVars_eq ha) (Spec.of_eq (checkVars_eq hb) (Spec.of_eq (checkVars_eq hy) ?_))
  refine Spec.of_eq (emulatedWitness_eq ha hla) (Spec.of_eq (emulatedWitness_eq hb hlb) ?_)
  refine Spec.of_eq (witnesses_eq a ha) (Spec.of_eq (witnesses_eq b hb) (Spec.of_eq (witnesses_eq y hy) ?_))
  refine Spec.conseq hc (addGateWith_spec E a b y _ _ _ _ hc hr h.hB (fun _ => h.bits') ha hb hy hla hlb hly
    (addHints1_length (by simp [hla]) (by simp [hlb])) (addHints2_length (by simp [hly]))) ?_
    (fun _ _ _ _ => trivial) ?_
  · rintro ⟨r1, r2, r3, q1, q2, q3, q4⟩ _ _
    rw [Nat.mod_eq_of_lt q1, Nat.mod_eq_of_lt q2]
    exact AddRel.of_hints (cst_toLimbs_lt _ _ _) ((add_honest_iff h (r1.get hla) (r2.get hlb) (r3.get hly)
      (by simp [hla]) (by simp [hlb]) (by simp [hly]) (cst_map hla) (cst_map hlb) (cst_map hly)
      q1 q2 q3 rfl).2 q4)
  · rintro _ w _ _ ⟨k, S, e, f, hm⟩ r1 r2 r3
    exact addOK_of h (r1.get hla) (r2.get hlb) (r3.get hly) hm

/-- If the check accepts the stored witness, the hints were right. -/
theorem emulatedAddGate_nec [hp : Fact p.Prime] {E : Emu} (h : E.OK p) {a b y : List ℕ} {c c' : Circ p}
    {u : Unit} (hc : WF c) (hr : RangeOK c) (hla : a.length = E.n) (hlb : b.length = E.n)
    (hly : y.length = E.n) (ha : InV a c) (hb : InV b c) (hy : InV y c)
    (r1 : InR E c.val a) (r2 : InR E c.val b) (r3 : InR E c.val y) (q1 : nat E (limb c.val a) < E.q)
    (q2 : nat E (limb c.val b) < E.q)
    (q3 : nat E (limb c.val y) = (nat E (limb c.val a) + nat E (limb c.val b)) % E.q)
    (hm : emulatedAddGate E a b y c = .ok (u, c')) {pi} (hsat : Sat c' pi c'.val) :
    AddHon E (nat E (limb c.val a)) (nat E (limb c.val b)) := by
  unfold emulatedAddGate at hm
  rw [bind_of_ok (checkVars_eq ha), bind_of_ok (checkVars_eq hb), bind_of_ok (checkVars_eq hy),
    bind_of_ok (emulatedWitness_eq ha hla), bind_of_ok (emulatedWitness_eq hb hlb),
    bind_of_ok (witnesses_eq a ha), bind_of_ok (witnesses_eq b hb), bind_of_ok (witnesses_eq y hy),
    Nat.mod_eq_of_lt q1, Nat.mod_eq_of_lt q2] at hm
  have := addGateWith_nec E a b y _ _ _ _ hc hr ha hb hy hla hlb hly
    (addHints1_length (by simp [hla]) (by simp [hlb])) (addHints2_length (by simp [hly])) hm hsat
  exact (add_honest_iff h (r1.get hla) (r2.get hlb) (r3.get hly)
      (by simp [hla]) (by simp [hlb]) (by simp [hly]) (cst_map hla) (cst_map hlb) (cst_map hly)
      q1 q2 q3 rfl).1 this

theorem emulatedAddConstantGate_spec [hp : Fact p.Prime] {E : Emu} (h : E.OK p) {a y : List ℕ} {vb : ℕ}
    (hvb : vb < E.q) {c : Circ p}
    (hc : WF c) (hr : RangeOK c) (hla : a.length = E.n) (hly : y.length = E.n)
    (ha : InV a c) (hy : InV y c) :
    Spec (emulatedAddConstantGate E a vb y) c
      (InR E c.val a ∧ InR E c.val y ∧ nat E (limb c.val a) < E.q ∧
        nat E (limb c.val y) = (nat E (limb c.val a) + vb) % E.q ∧
        AddHon E (nat E (limb c.val a)) vb)
      (fun _ _ => True)
      (fun _ w => InR E w a → InR E w y → AddOK E (nat E (limb w a)) vb (nat E (limb w y))) := by
  have hv := nat_cst h (hvb.trans h.hqT)
  unfold emulatedAddConstantGate
  refine Spec.of_eq (checkVars_eq ha) (Spec.of_eq (checkVars_eq hy) ?_)
  refine Spec.of_eq (emulatedWitness_eq ha hla) ?_
  refine Spec.of_eq (witnesses_eq a ha) (Spec.of_eq (witnesses_eq y hy) ?_)
  refine Spec.conseq hc (addConstGateWith_spec E a vb y _ _ _ _ hc hr h.hB (fun _ => h.bits') ha hy hla hly
    (addHints1_length (by simp [hla]) (by simp [toLimbs_length])) (addHints2_length (by simp [hly]))) ?_
    (fun _ _ _ _ => trivial) ?_
  · rintro ⟨r1, r3, q1, q3, q4⟩ _ _
    rw [Nat.mod_eq_of_lt q1]
    have := add_honest_iff h (r1.get hla) (cst_toLimbs_lt vb E.B E.n) (r3.get hly)
      (k := decide (E.q ≤ nat E (limb c.val a) + vb))
      (x := a.map c.val) (y := toLimbs p vb E.B E.n) (z := y.map c.val)
      (by simp [hla]) (by simp [toLimbs_length]) (by simp [hly]) (cst_map hla) (fun _ _ => rfl) (cst_map hly)
      q1 (by rw [hv]; exact hvb) (by rw [hv]; exact q3) (by rw [hv])
    rw [hv] at this
    exact AddRel.of_hints (cst_toLimbs_lt _ _ _) (this.2 q4)
  · rintro _ w _ _ ⟨k, S, e, f, hm⟩ r1 r3
    have := addOK_of h (r1.get hla) (cst_toLimbs_lt _ _ _) (r3.get hly) hm
    rwa [hv] at this

theorem emulatedAddConstantGate_nec [hp : Fact p.Prime] {E : Emu} (h : E.OK p) {a y : List ℕ} {vb : ℕ}
    (hvb : vb < E.q) {c c' : Circ p} {u : Unit} (hc : WF c) (hr : RangeOK c) (hla : a.length = E.n)
    (hly : y.length = E.n) (ha : InV a c) (hy : InV y c)
    (r1 : InR E c.val a) (r3 : InR E c.val y) (q1 : nat E (limb c.val a) < E.q)
    (q3 : nat E (limb c.val y) = (nat E (limb c.val a) + vb) % E.q)
    (hm : emulatedAddConstantGate E a vb y c = .ok (u, c')) {pi} (hsat : Sat c' pi c'.val) :
    AddHon E (nat E (limb c.val a)) vb := by
  have hv := nat_cst h (hvb.trans h.hqT)
  unfold emulatedAddConstantGate at hm
  rw [bind_of_ok (checkVars_eq ha), bind_of_ok (checkVars_eq hy),
    bind_of_ok (emulatedWitness_eq ha hla),
    bind_of_ok (witnesses_eq a ha), bind_of_ok (witnesses_eq y hy),
    Nat.mod_eq_of_lt q1] at hm
  have h1 := addConstGateWith_nec E a vb y _ _ _ _ hc hr ha hy hla hly
    (addHints1_length (by simp [hla]) (by simp [toLimbs_length])) (addHints2_length (by simp [hly])) hm hsat
  have := add_honest_iff h (r1.get hla) (cst_toLimbs_lt vb E.B E.n) (r3.get hly)
      (k := decide (E.q ≤ nat E (limb c.val a) + vb))
      (x := a.map c.val) (y := toLimbs p vb E.B E.n) (z := y.map c.val)
      (by simp [hla]) (by simp [toLimbs_length]) (by simp [hly]) (cst_map hla) (fun _ _ => rfl) (cst_map hly)
      q1 (by rw [hv]; exact hvb) (by rw [hv]; exact q3) (by rw [hv])
  rw [hv] at this
  exact this.1 h1

/-! ## What an adversary can do -/

/-- the true carries, left and right -/
def advL (p : ℕ) (E : Emu) (A B : ℕ) : List (ZMod p) :=
  (List.range E.n).map fun j => (addCarry E (dig (2 ^ E.B) A) (dig (2 ^ E.B) B) (j + 1) : ZMod p)
def advR (p : ℕ) (E : Emu) (k : Bool) (C : ℕ) : List (ZMod p) :=
  (List.range E.n).map fun j => (subCarry E k.toNat (dig (2 ^ E.B) C) (j + 1) : ZMod p)

theorem advL_length (E : Emu) (A B : ℕ) : (advL p E A B).length = E.n := by simp [advL]
theorem advR_length (E : Emu) (k : Bool) (C : ℕ) : (advR p E k C).length = E.n := by simp [advR]

theorem add_adv [hp : Fact p.Prime] {E : Emu} (h : E.OK p) {A B C : ℕ → ZMod p} {k : Bool}
    (hA : ∀ j, j < E.n → (A j).val < 2 ^ E.B) (hB : ∀ j, j < E.n → (B j).val < 2 ^ E.B)
    (hC : ∀ j, j < E.n → (C j).val < 2 ^ E.B)
    (hm : nat E A + nat E B ≡ k.toNat * E.q + nat E C [MOD 2 ^ E.T]) :
    AddRel E (cst (toLimbs p E.q E.B E.n)) A B C (boolF k) (cst (toLimbs p (nat E A + nat E B) E.B E.n))
      (hintAt 0 (advL p E (nat E A) (nat E B)) 0) (hintAt 0 (advR p E k (nat E C)) 0) := by
  refine AddRel.congr ?_ ?_ (AddRel.of_modEq h k hA hB hC hm)
  · intro j hj
    unfold advL
    rw [hintAt_range (e := fun j => (addCarry E (dig (2 ^ E.B) (nat E A)) (dig (2 ^ E.B) (nat E B)) j : ZMod p))
      (by simp [addCarry, carry]) hj]
    unfold addCarry
    rw [carry_congr (n := E.n) _ j hj]
    intro i hi
    rw [dig_nat hA hi, dig_nat hB hi]
  · intro j hj
    unfold advR
    rw [hintAt_range (e := fun j => (subCarry E k.toNat (dig (2 ^ E.B) (nat E C)) j : ZMod p))
      (by simp [subCarry, carry]) hj]
    unfold subCarry
    rw [carry_congr (n := E.n) _ j hj]
    intro i hi
    unfold qs
    rw [dig_nat hC hi]

theorem addGateWith_adv [hp : Fact p.Prime] {E : Emu} (h : E.OK p) {a b y : List ℕ} {c : Circ p}
    (hc : WF c) (hr : RangeOK c) (hla : a.length = E.n) (hlb : b.length = E.n) (hly : y.length = E.n)
    (ha : InV a c) (hb : InV b c) (hy : InV y c) (k : Bool) {A B C : ℕ} :
    Spec (addGateWith E a b y k (A + B) (advL p E A B) (advR p E k C)) c
      (InR E c.val a ∧ InR E c.val b ∧ InR E c.val y ∧ nat E (limb c.val a) = A ∧ nat E (limb c.val b) = B ∧
        nat E (limb c.val y) = C ∧ A + B ≡ k.toNat * E.q + C [MOD 2 ^ E.T])
      (fun _ _ => True) (fun _ _ => True) := by
  refine Spec.conseq hc (addGateWith_spec E a b y _ _ _ _ hc hr h.hB (fun _ => h.bits') ha hb hy hla hlb hly
    (advL_length _ _ _) (advR_length _ _ _)) ?_ (fun _ _ _ _ => trivial) (fun _ _ _ _ _ => trivial)
  rintro ⟨r1, r2, r3, rfl, rfl, rfl, hd⟩ _ _
  exact add_adv h (r1.get hla) (r2.get hlb) (r3.get hly) hd

theorem addConstGateWith_adv [hp : Fact p.Prime] {E : Emu} (h : E.OK p) {a y : List ℕ} {vb : ℕ}
    (hvb : vb < E.q) {c : Circ p}
    (hc : WF c) (hr : RangeOK c) (hla : a.length = E.n) (hly : y.length = E.n)
    (ha : InV a c) (hy : InV y c) (k : Bool) {A C : ℕ} :
    Spec (addConstGateWith E a vb y k (A + vb) (advL p E A vb) (advR p E k C)) c
      (InR E c.val a ∧ InR E c.val y ∧ nat E (limb c.val a) = A ∧
        nat E (limb c.val y) = C ∧ A + vb ≡ k.toNat * E.q + C [MOD 2 ^ E.T])
      (fun _ _ => True) (fun _ _ => True) := by
  have hv := nat_cst h (hvb.trans h.hqT)
  refine Spec.conseq hc (addConstGateWith_spec E a vb y _ _ _ _ hc hr h.hB (fun _ => h.bits') ha hy hla hly
    (advL_length _ _ _) (advR_length _ _ _)) ?_ (fun _ _ _ _ => trivial) (fun _ _ _ _ _ => trivial)
  rintro ⟨r1, r3, rfl, rfl, hd⟩ _ _
  have := add_adv h (r1.get hla) (cst_toLimbs_lt vb E.B E.n) (r3.get hly) (k := k) (by rw [hv]; exact hd)
  rwa [hv] at this

/-! ## The functions that create the result -/

theorem sub_eq {q A B : ℕ} (hA : A < q) (hB : B < q) : ((A + (q - B)) % q + B) % q = A := by
  rw [Nat.mod_add_mod, show A + (q - B) + B = A + q by omega, Nat.add_mod_right, Nat.mod_eq_of_lt hA]

theorem emulatedAdd_spec [hp : Fact p.Prime] {E : Emu} (h : E.OK p) {a b : List ℕ} {c : Circ p}
    (hc : WF c) (hr : RangeOK c) (hla : a.length = E.n) (hlb : b.length = E.n) (ha : InV a c)
    (hb : InV b c) :
    Spec (emulatedAdd E a b) c
      (InR E c.val a ∧ InR E c.val b ∧ nat E (limb c.val a) < E.q ∧ nat E (limb c.val b) < E.q ∧
        AddHon E (nat E (limb c.val a)) (nat E (limb c.val b)))
      (fun v c' => v.length = E.n ∧ InV v c' ∧ (nat E (limb c.val a) < E.q → nat E (limb c.val b) < E.q →
        v.map c'.val = fromEmulated p E ((nat E (limb c.val a) + nat E (limb c.val b)) % E.q)))
      (fun v w => InR E w v ∧ (InR E w a → InR E w b →
        AddOK E (nat E (limb w a)) (nat E (limb w b)) (nat E (limb w v)))) := by
  unfold emulatedAdd
  refine Spec.of_eq (emulatedWitness_eq ha hla) (Spec.of_eq (emulatedWitness_eq hb hlb) ?_)
  refine Spec.bind (createEmulated_spec E _ hc hr) (fun _ _ _ => ⟨h.hB, fun _ => h.bits'⟩) hc ?_
  rintro y c1 e1 ⟨hly, hy, hym⟩
  refine Spec.bind (emulatedAddGate_spec h e1.wf (hr.ext e1) hla hlb hly (ha.ext e1) (hb.ext e1) hy) ?_ e1.wf ?_
  · rintro ⟨⟨r1, r2, q1, q2, q3⟩, r3⟩ h0 _
    rw [limb_congr ha hc e1, limb_congr hb hc e1]
    refine ⟨r1.ext ha e1, r2.ext hb e1, r3, q1, q2, ?_, q3⟩
    rw [limb_of_map h0 hym, Nat.mod_eq_of_lt q1, Nat.mod_eq_of_lt q2]
    exact nat_cst h ((Nat.mod_lt _ h.hq).trans h.hqT)
  rintro _ c2 e2 -
  refine Spec.pure e2.wf ⟨hly, hy.ext e2, ?_⟩ ?_
  · intro q1 q2
    rw [Nat.mod_eq_of_lt q1, Nat.mod_eq_of_lt q2] at hym
    rw [← hym]
    exact List.map_congr_left (fun v hv => e2.val v (hy v hv))
  · intro w _ _ h1 h2
    exact ⟨h2, fun r1 r2 => h1 r1 r2 h2⟩

theorem emulatedSub_spec [hp : Fact p.Prime] {E : Emu} (h : E.OK p) {a b : List ℕ} {c : Circ p}
    (hc : WF c) (hr : RangeOK c) (hla : a.length = E.n) (hlb : b.length = E.n) (ha : InV a c)
    (hb : InV b c) :
    Spec (emulatedSub E a b) c
      (InR E c.val a ∧ InR E c.val b ∧ nat E (limb c.val a) < E.q ∧ nat E (limb c.val b) < E.q ∧
        AddHon E ((nat E (limb c.val a) + (E.q - nat E (limb c.val b))) % E.q) (nat E (limb c.val b)))
      (fun v c' => v.length = E.n ∧ InV v c' ∧ (nat E (limb c.val a) < E.q → nat E (limb c.val b) < E.q →
        v.map c'.val = fromEmulated p E ((nat E (limb c.val a) + (E.q - nat E (limb c.val b))) % E.q)))
      (fun v w => InR E w v ∧ (InR E w a → InR E w b →
        AddOK E (nat E (limb w v)) (nat E (limb w b)) (nat E (limb w a)))) := by
  unfold emulatedSub
  refine Spec.of_eq (emulatedWitness_eq ha hla) (Spec.of_eq (emulatedWitness_eq hb hlb) ?_)
  refine Spec.bind (createEmulated_spec E _ hc hr) (fun _ _ _ => ⟨h.hB, fun _ => h.bits'⟩) hc ?_
  rintro y c1 e1 ⟨hly, hy, hym⟩
  refine Spec.bind (emulatedAddGate_spec h e1.wf (hr.ext e1) hly hlb hla hy (hb.ext e1) (ha.ext e1)) ?_ e1.wf ?_
  · rintro ⟨⟨r1, r2, q1, q2, q3⟩, r3⟩ h0 _
    rw [limb_congr ha hc e1, limb_congr hb hc e1]
    rw [Nat.mod_eq_of_lt q1, Nat.mod_eq_of_lt q2] at hym
    have hn : nat E (limb c1.val y) = (nat E (limb c.val a) + (E.q - nat E (limb c.val b))) % E.q := by
      rw [limb_of_map h0 hym]
      exact nat_cst h ((Nat.mod_lt _ h.hq).trans h.hqT)
    refine ⟨r3, r2.ext hb e1, r1.ext ha e1, by rw [hn]; exact Nat.mod_lt _ h.hq, q2, ?_, by rw [hn]; exact q3⟩
    rw [hn, sub_eq q1 q2]
  rintro _ c2 e2 -
  refine Spec.pure e2.wf ⟨hly, hy.ext e2, ?_⟩ ?_
  · intro q1 q2
    rw [Nat.mod_eq_of_lt q1, Nat.mod_eq_of_lt q2] at hym
    rw [← hym]
    exact List.map_congr_left (fun v hv => e2.val v (hy v hv))
  · intro w _ _ h1 h2
    exact ⟨h2, fun r1 r2 => h1 h2 r2 r1⟩

theorem emulatedAddConstant_spec [hp : Fact p.Prime] {E : Emu} (h : E.OK p) {a : List ℕ} {vb : ℕ}
    (hvb : vb < E.q) {c : Circ p} (hc : WF c) (hr : RangeOK c) (hla : a.length = E.n) (ha : InV a c) :
    Spec (emulatedAddConstant E a vb) c
      (InR E c.val a ∧ nat E (limb c.val a) < E.q ∧ AddHon E (nat E (limb c.val a)) vb)
      (fun v c' => v.length = E.n ∧ InV v c' ∧ (nat E (limb c.val a) < E.q →
        v.map c'.val = fromEmulated p E ((nat E (limb c.val a) + vb) % E.q)))
      (fun v w => InR E w v ∧ (InR E w a → AddOK E (nat E (limb w a)) vb (nat E (limb w v)))) := by
  unfold emulatedAddConstant
  refine Spec.of_eq (emulatedWitness_eq ha hla) ?_
  refine Spec.bind (createEmulated_spec E _ hc hr) (fun _ _ _ => ⟨h.hB, fun _ => h.bits'⟩) hc ?_
  rintro y c1 e1 ⟨hly, hy, hym⟩
  refine Spec.bind (emulatedAddConstantGate_spec h hvb e1.wf (hr.ext e1) hla hly (ha.ext e1) hy) ?_ e1.wf ?_
  · rintro ⟨⟨r1, q1, q3⟩, r3⟩ h0 _
    rw [limb_congr ha hc e1]
    refine ⟨r1.ext ha e1, r3, q1, ?_, q3⟩
    rw [limb_of_map h0 hym, Nat.mod_eq_of_lt q1]
    exact nat_cst h ((Nat.mod_lt _ h.hq).trans h.hqT)
  rintro _ c2 e2 -
  refine Spec.pure e2.wf ⟨hly, hy.ext e2, ?_⟩ ?_
  · intro q1
    rw [Nat.mod_eq_of_lt q1] at hym
    rw [← hym]
    exact List.map_congr_left (fun v hv => e2.val v (hy v hv))
  · intro w _ _ h1 h2
    exact ⟨h2, fun r1 => h1 r1 h2⟩

theorem emulatedSubConstant_spec [hp : Fact p.Prime] {E : Emu} (h : E.OK p) {a : List ℕ} {vb : ℕ}
    (hvb : vb < E.q) {c : Circ p} (hc : WF c) (hr : RangeOK c) (hla : a.length = E.n) (ha : InV a c) :
    Spec (emulatedSubConstant E a vb) c
      (InR E c.val a ∧ nat E (limb c.val a) < E.q ∧ AddHon E ((nat E (limb c.val a) + (E.q - vb)) % E.q) vb)
      (fun v c' => v.length = E.n ∧ InV v c' ∧ (nat E (limb c.val a) < E.q →
        v.map c'.val = fromEmulated p E ((nat E (limb c.val a) + (E.q - vb)) % E.q)))
      (fun v w => InR E w v ∧ (InR E w a → AddOK E (nat E (limb w v)) vb (nat E (limb w a)))) := by
  unfold emulatedSubConstant
  refine Spec.of_eq (emulatedWitness_eq ha hla) ?_
  refine Spec.bind (createEmulated_spec E _ hc hr) (fun _ _ _ => ⟨h.hB, fun _ => h.bits'⟩) hc ?_
  rintro y c1 e1 ⟨hly, hy, hym⟩
  refine Spec.bind (emulatedAddConstantGate_spec h hvb e1.wf (hr.ext e1) hly hla hy (ha.ext e1)) ?_ e1.wf ?_
  · rintro ⟨⟨r1, q1, q3⟩, r3⟩ h0 _
    rw [limb_congr ha hc e1]
    rw [Nat.mod_eq_of_lt q1] at hym
    have hn : nat E (limb c1.val y) = (nat E (limb c.val a) + (E.q - vb)) % E.q := by
      rw [limb_of_map h0 hym]
      exact nat_cst h ((Nat.mod_lt _ h.hq).trans h.hqT)
    refine ⟨r3, r1.ext ha e1, by rw [hn]; exact Nat.mod_lt _ h.hq, ?_, by rw [hn]; exact q3⟩
    rw [hn, sub_eq q1 hvb]
  rintro _ c2 e2 -
  refine Spec.pure e2.wf ⟨hly, hy.ext e2, ?_⟩ ?_
  · intro q1
    rw [Nat.mod_eq_of_lt q1] at hym
    rw [← hym]
    exact List.map_congr_left (fun v hv => e2.val v (hy v hv))
  · intro w _ _ h1 h2
    exact ⟨h2, fun r1 => h1 h2 r1⟩

/-- the run of an adversary who chooses the result -/
def addAdv (p : ℕ) (E : Emu) (a b : List ℕ) (y : ℕ) (k : Bool) (A B : ℕ) : Build p (List ℕ) := do
  let v ← createEmulated E y
  addGateWith E a b v k (A + B) (advL p E A B) (advR p E k y)
  pure v

def subAdv (p : ℕ) (E : Emu) (a b : List ℕ) (y : ℕ) (k : Bool) (A B : ℕ) : Build p (List ℕ) := do
  let v ← createEmulated E y
  addGateWith E v b a k (y + B) (advL p E y B) (advR p E k A)
  pure v

def addConstAdv (p : ℕ) (E : Emu) (a : List ℕ) (vb y : ℕ) (k : Bool) (A : ℕ) : Build p (List ℕ) := do
  let v ← createEmulated E y
  addConstGateWith E a vb v k (A + vb) (advL p E A vb) (advR p E k y)
  pure v

def subConstAdv (p : ℕ) (E : Emu) (a : List ℕ) (vb y : ℕ) (k : Bool) (A : ℕ) : Build p (List ℕ) := do
  let v ← createEmulated E y
  addConstGateWith E v vb a k (y + vb) (advL p E y vb) (advR p E k A)
  pure v

theorem Rel.bindP {m m' : Build p α} {f f' : α → Build p β} {P : α → Prop} (h : Rel m m')
    (hP : ∀ c v c', m c = .ok (v, c') → P v) (hf : ∀ v, P v → Rel (f v) (f' v)) :
    Rel (m >>= f) (m' >>= f') := by
  intro c d hs v c' v' d' h1 h2
  obtain ⟨x, c1, g1, h1⟩ := bind_ok h1
  obtain ⟨x', d1, g2, h2⟩ := bind_ok h2
  obtain ⟨rfl, hs1⟩ := h c d hs _ _ _ _ g1 g2
  exact hf x (hP _ _ _ g1) _ _ hs1 _ _ _ _ h1 h2

theorem createVars_length (vs : List (ZMod p)) : ∀ {c c' : Circ p} {xs : List ℕ},
    createVars vs c = .ok (xs, c') → xs.length = vs.length := by
  induction vs with
  | nil => intro c c' xs h; cases h; rfl
  | cons v vs ih =>
    intro c c' xs h
    unfold createVars at h
    obtain ⟨x, c1, g1, h⟩ := bind_ok h
    obtain ⟨ys, c2, g2, h⟩ := bind_ok h
    cases h
    simp [ih g2]

theorem createEmulated_length (E : Emu) (x : ℕ) (c : Circ p) (v : List ℕ) (c' : Circ p)
    (h : createEmulated E x c = .ok (v, c')) : v.length = E.n := by
  unfold createEmulated at h
  obtain ⟨y, c1, g1, h⟩ := bind_ok h
  obtain ⟨_, c2, g2, h⟩ := bind_ok h
  cases h
  rw [createVars_length _ g1, fromEmulated, toLimbs_length]

theorem emulatedAdd_rel' (E : Emu) (a b : List ℕ) (hla : a.length = E.n) (hlb : b.length = E.n) (y : ℕ)
    (k : Bool) (A B : ℕ) : Rel (emulatedAdd E a b) (addAdv p E a b y k A B) := by
  unfold emulatedAdd addAdv
  refine Rel.emulatedWitness_bindL (fun _ => Rel.emulatedWitness_bindL (fun _ => ?_))
  refine Rel.bindP (createEmulated_rel _ _ _) (createEmulated_length E _) (fun v hv => ?_)
  exact Rel.bind (emulatedAddGate_rel' E _ _ _ _ _ _ _ hla hlb hv (advL_length _ _ _) (advR_length _ _ _))
    (fun _ => Rel.pure _)

theorem emulatedSub_rel' (E : Emu) (a b : List ℕ) (hla : a.length = E.n) (hlb : b.length = E.n) (y : ℕ)
    (k : Bool) (A B : ℕ) : Rel (emulatedSub E a b) (subAdv p E a b y k A B) := by
  unfold emulatedSub subAdv
  refine Rel.emulatedWitness_bindL (fun _ => Rel.emulatedWitness_bindL (fun _ => ?_))
  refine Rel.bindP (createEmulated_rel _ _ _) (createEmulated_length E _) (fun v hv => ?_)
  exact Rel.bind (emulatedAddGate_rel' E _ _ _ _ _ _ _ hv hlb hla (advL_length _ _ _) (advR_length _ _ _))
    (fun _ => Rel.pure _)

theorem emulatedAddConstant_rel' (E : Emu) (a : List ℕ) (vb : ℕ) (hla : a.length = E.n) (y : ℕ)
    (k : Bool) (A : ℕ) : Rel (emulatedAddConstant E a vb) (addConstAdv p E a vb y k A) := by
  unfold emulatedAddConstant addConstAdv
  refine Rel.emulatedWitness_bindL (fun _ => ?_)
  refine Rel.bindP (createEmulated_rel _ _ _) (createEmulated_length E _) (fun v hv => ?_)
  exact Rel.bind (emulatedAddConstantGate_rel' E _ _ _ _ _ _ _ hla hv (advL_length _ _ _) (advR_length _ _ _))
    (fun _ => Rel.pure _)

theorem emulatedSubConstant_rel' (E : Emu) (a : List ℕ) (vb : ℕ) (hla : a.length = E.n) (y : ℕ)
    (k : Bool) (A : ℕ) : Rel (emulatedSubConstant E a vb) (subConstAdv p E a vb y k A) := by
  unfold emulatedSubConstant subConstAdv
  refine Rel.emulatedWitness_bindL (fun _ => ?_)
  refine Rel.bindP (createEmulated_rel _ _ _) (createEmulated_length E _) (fun v hv => ?_)
  exact Rel.bind (emulatedAddConstantGate_rel' E _ _ _ _ _ _ _ hv hla (advL_length _ _ _) (advR_length _ _ _))
    (fun _ => Rel.pure _)

theorem emulatedAdd_rel (E : Emu) (a b : List ℕ) :
    Rel (emulatedAdd E a b : Build p (List ℕ)) (emulatedAdd E a b) := by
  unfold emulatedAdd
  refine Rel.emulatedWitness_bind (fun _ _ => Rel.emulatedWitness_bind (fun _ _ => ?_))
  refine Rel.bind (createEmulated_rel _ _ _) (fun v => ?_)
  exact Rel.bind (emulatedAddGate_rel _ _ _ _) (fun _ => Rel.pure _)

theorem emulatedSub_rel (E : Emu) (a b : List ℕ) :
    Rel (emulatedSub E a b : Build p (List ℕ)) (emulatedSub E a b) := by
  unfold emulatedSub
  refine Rel.emulatedWitness_bind (fun _ _ => Rel.emulatedWitness_bind (fun _ _ => ?_))
  refine Rel.bind (createEmulated_rel _ _ _) (fun v => ?_)
  exact Rel.bind (emulatedAddGate_rel _ _ _ _) (fun _ => Rel.pure _)

theorem emulatedAddConstant_rel (E : Emu) (a : List ℕ) (vb : ℕ) :
    Rel (emulatedAddConstant E a vb : Build p (List ℕ)) (emulatedAddConstant E a vb) := by
  unfold emulatedAddConstant
  refine Rel.emulatedWitness_bind (fun _ _ => ?_)
  refine Rel.bind (createEmulated_rel _ _ _) (fun v => ?_)
  exact Rel.bind (emulatedAddConstantGate_rel _ _ _ _) (fun _ => Rel.pure _)

theorem emulatedSubConstant_rel (E : Emu) (a : List ℕ) (vb : ℕ) :
    Rel (emulatedSubConstant E a vb : Build p (List ℕ)) (emulatedSubConstant E a vb) := by
  unfold emulatedSubConstant
  refine Rel.emulatedWitness_bind (fun _ _ => ?_)
  refine Rel.bind (createEmulated_rel _ _ _) (fun v => ?_)
  exact Rel.bind (emulatedAddConstantGate_rel _ _ _ _) (fun _ => Rel.pure _)

theorem nat_of_map [Fact p.Prime] {E : Emu} (h : E.OK p) {w : ℕ → ZMod p} (h0 : w 0 = 0) {v : List ℕ}
    {y : ℕ} (hy : y < 2 ^ E.T) (hv : v.map w = fromEmulated p E y) : nat E (limb w v) = y := by
  rw [limb_of_map h0 hv]
  exact nat_cst h hy

theorem addAdv_spec [hp : Fact p.Prime] {E : Emu} (h : E.OK p) {a b : List ℕ} {c : Circ p}
    (hc : WF c) (hr : RangeOK c) (hla : a.length = E.n) (hlb : b.length = E.n) (ha : InV a c)
    (hb : InV b c) (y : ℕ) (k : Bool) :
    Spec (addAdv p E a b y k (nat E (limb c.val a)) (nat E (limb c.val b))) c
      (InR E c.val a ∧ InR E c.val b ∧ y < 2 ^ E.T ∧
        nat E (limb c.val a) + nat E (limb c.val b) ≡ k.toNat * E.q + y [MOD 2 ^ E.T])
      (fun v c' => v.map c'.val = fromEmulated p E y) (fun _ _ => True) := by
  unfold addAdv
  refine Spec.bind (createEmulated_spec E _ hc hr) (fun _ _ _ => ⟨h.hB, fun _ => h.bits'⟩) hc ?_
  rintro v c1 e1 ⟨hlv, hv, hvm⟩
  refine Spec.bind (addGateWith_adv h e1.wf (hr.ext e1) hla hlb hlv (ha.ext e1) (hb.ext e1) hv k) ?_ e1.wf ?_
  · rintro ⟨⟨r1, r2, hyT, hd⟩, r3⟩ h0 _
    refine ⟨r1.ext ha e1, r2.ext hb e1, r3, by rw [limb_congr ha hc e1], by rw [limb_congr hb hc e1],
      nat_of_map h h0 hyT hvm, hd⟩
  rintro _ c2 e2 -
  refine Spec.pure e2.wf ?_ (fun _ _ _ _ _ => trivial)
  rw [← hvm]
  exact List.map_congr_left (fun v' hv' => e2.val v' (hv v' hv'))

theorem subAdv_spec [hp : Fact p.Prime] {E : Emu} (h : E.OK p) {a b : List ℕ} {c : Circ p}
    (hc : WF c) (hr : RangeOK c) (hla : a.length = E.n) (hlb : b.length = E.n) (ha : InV a c)
    (hb : InV b c) (y : ℕ) (k : Bool) :
    Spec (subAdv p E a b y k (nat E (limb c.val a)) (nat E (limb c.val b))) c
      (InR E c.val a ∧ InR E c.val b ∧ y < 2 ^ E.T ∧
        y + nat E (limb c.val b) ≡ k.toNat * E.q + nat E (limb c.val a) [MOD 2 ^ E.T])
      (fun v c' => v.map c'.val = fromEmulated p E y) (fun _ _ => True) := by
  unfold subAdv
  refine Spec.bind (createEmulated_spec E _ hc hr) (fun _ _ _ => ⟨h.hB, fun _ => h.bits'⟩) hc ?_
  rintro v c1 e1 ⟨hlv, hv, hvm⟩
  refine Spec.bind (addGateWith_adv h e1.wf (hr.ext e1) hlv hlb hla hv (hb.ext e1) (ha.ext e1) k) ?_ e1.wf ?_
  · rintro ⟨⟨r1, r2, hyT, hd⟩, r3⟩ h0 _
    refine ⟨r3, r2.ext hb e1, r1.ext ha e1, nat_of_map h h0 hyT hvm, by rw [limb_congr hb hc e1],
      by rw [limb_congr ha hc e1], hd⟩
  rintro _ c2 e2 -
  refine Spec.pure e2.wf ?_ (fun _ _ _ _ _ => trivial)
  rw [← hvm]
  exact List.map_congr_left (fun v' hv' => e2.val v' (hv v' hv'))

theorem addConstAdv_spec [hp : Fact p.Prime] {E : Emu} (h : E.OK p) {a : List ℕ} {vb : ℕ} (hvb : vb < E.q)
    {c : Circ p} (hc : WF c) (hr : RangeOK c) (hla : a.length = E.n) (ha : InV a c) (y : ℕ) (k : Bool) :
    Spec (addConstAdv p E a vb y k (nat E (limb c.val a))) c
      (InR E c.val a ∧ y < 2 ^ E.T ∧ nat E (limb c.val a) + vb ≡ k.toNat * E.q + y [MOD 2 ^ E.T])
      (fun v c' => v.map c'.val = fromEmulated p E y) (fun _ _ => True) := by
  unfold addConstAdv
  refine Spec.bind (createEmulated_spec E _ hc hr) (fun _ _ _ => ⟨h.hB, fun _ => h.bits'⟩) hc ?_
  rintro v c1 e1 ⟨hlv, hv, hvm⟩
  refine Spec.bind (addConstGateWith_adv h hvb e1.wf (hr.ext e1) hla hlv (ha.ext e1) hv k) ?_ e1.wf ?_
  · rintro ⟨⟨r1, hyT, hd⟩, r3⟩ h0 _
    refine ⟨r1.ext ha e1, r3, by rw [limb_congr ha hc e1], nat_of_map h h0 hyT hvm, hd⟩
  rintro _ c2 e2 -
  refine Spec.pure e2.wf ?_ (fun _ _ _ _ _ => trivial)
  rw [← hvm]
  exact List.map_congr_left (fun v' hv' => e2.val v' (hv v' hv'))

theorem subConstAdv_spec [hp : Fact p.Prime] {E : Emu} (h : E.OK p) {a : List ℕ} {vb : ℕ} (hvb : vb < E.q)
    {c : Circ p} (hc : WF c) (hr : RangeOK c) (hla : a.length = E.n) (ha : InV a c) (y : ℕ) (k : Bool) :
    Spec (subConstAdv p E a vb y k (nat E (limb c.val a))) c
      (InR E c.val a ∧ y < 2 ^ E.T ∧ y + vb ≡ k.toNat * E.q + nat E (limb c.val a) [MOD 2 ^ E.T])
      (fun v c' => v.map c'.val = fromEmulated p E y) (fun _ _ => True) := by
  unfold subConstAdv
  refine Spec.bind (createEmulated_spec E _ hc hr) (fun _ _ _ => ⟨h.hB, fun _ => h.bits'⟩) hc ?_
  rintro v c1 e1 ⟨hlv, hv, hvm⟩
  refine Spec.bind (addConstGateWith_adv h hvb e1.wf (hr.ext e1) hlv hla hv (ha.ext e1) k) ?_ e1.wf ?_
  · rintro ⟨⟨r1, hyT, hd⟩, r3⟩ h0 _
    refine ⟨r3, r1.ext ha e1, nat_of_map h h0 hyT hvm, by rw [limb_congr ha hc e1], hd⟩
  rintro _ c2 e2 -
  refine Spec.pure e2.wf ?_ (fun _ _ _ _ _ => trivial)
  rw [← hvm]
  exact List.map_congr_left (fun v' hv' => e2.val v' (hv v' hv'))

end Verif.Circuit
