import Verif.Circuit.Emulated
import Verif.Circuit.Indep
import Verif.Circuit.Limbs
import Mathlib.Data.List.GetD

/-! # Specifications of the emulated arithmetic gadgets: the builder level -/

set_option linter.unusedSectionVars false

namespace Verif.Circuit

open Finset Verif.Limbs

variable {p : ℕ} {α β : Type}

/-- Any satisfying assignment of the circuit before a builder call, that meets the
precondition of a builder with the same gates, extends to the circuit after the call. -/
theorem Spec.universal' {m m' : Build p α} (hrel : Rel m m') {c : Circ p} (hc : WF c)
    {w : ℕ → ZMod p} {C : Prop} {B : α → Circ p → Prop} {R : α → (ℕ → ZMod p) → Prop}
    (hs : Spec m' (c.assign w) C B R) (hC : C) {v : α} {c' : Circ p} (hm : m c = .ok (v, c'))
    {pi : List (ZMod p)} (hw : Sat c pi w) :
    ∃ w' : ℕ → ZMod p, (∀ i, i < c.numVars → w' i = w i) ∧ Sat c' pi w' := by
  obtain ⟨v', d', hd, hsat⟩ := hs.complete hC pi (assign_sat hc hw)
  obtain ⟨e, _, _⟩ := hs.sound v' d' hd
  obtain ⟨_, hsame⟩ := hrel c (c.assign w) (assign_same c w) _ _ _ _ hm hd
  exact ⟨d'.val, fun i hi => (e.val i hi).trans (assign_val c w hi), hsame.symm.sat hsat⟩

/-- value of a linear combination -/
def lin (w : ℕ → ZMod p) (s : List (ℕ × ZMod p)) : ZMod p := (s.map fun t => t.2 * w t.1).sum

/-- all variables of a stack exist -/
def InSt (s : List (ℕ × ZMod p)) (c : Circ p) : Prop := ∀ t ∈ s, t.1 < c.numVars

theorem InSt.ext {s : List (ℕ × ZMod p)} {c c' : Circ p} (h : InSt s c) (e : Ext c c') : InSt s c' :=
  fun t ht => e.lt (h t ht)

theorem InSt.cons {v : ℕ} {x : ZMod p} {s : List (ℕ × ZMod p)} {c : Circ p} (hv : v < c.numVars)
    (h : InSt s c) : InSt ((v, x) :: s) c := by
  intro t ht
  rcases List.mem_cons.1 ht with rfl | ht
  · exact hv
  · exact h t ht

theorem lin_congr {s : List (ℕ × ZMod p)} {c c' : Circ p} (h : InSt s c) (e : Ext c c') :
    lin c'.val s = lin c.val s := by
  unfold lin
  congr 1
  apply List.map_congr_left
  intro t ht
  rw [e.val _ (h t ht)]

theorem reduceStack_spec (fuel : ℕ) : ∀ (s : List (ℕ × ZMod p)) {c : Circ p} (_ : WF c), InSt s c →
    s.length ≤ fuel + 4 →
    Spec (reduceStack fuel s) c True (fun s' c' => InSt s' c' ∧ s'.length ≤ 4)
      (fun s' w => lin w s' = lin w s) := by
  induction fuel with
  | zero =>
    intro s c hc hs hl
    exact Spec.pure hc ⟨hs, by omega⟩ (fun w _ _ => rfl)
  | succ fuel ih =>
    intro s c hc hs hl
    unfold reduceStack
    split
    · rename_i t1 t2 t3 t4 t5 rest
      have hv : ∀ v ∈ [t1.1, t2.1, t3.1, t4.1], v < c.numVars := by
        intro v hv
        simp only [List.mem_cons, List.not_mem_nil, or_false] at hv
        rcases hv with rfl | rfl | rfl | rfl
        · exact hs t1 (by simp)
        · exact hs t2 (by simp)
        · exact hs t3 (by simp)
        · exact hs t4 (by simp)
      refine Spec.bind (lc_spec hc t1.1 t2.1 t3.1 t4.1 t1.2 t2.2 t3.2 t4.2) (fun _ _ _ => hv) hc ?_
      rintro v c1 e1 hv1
      have hr : InSt ((v, 1) :: t5 :: rest) c1 :=
        InSt.cons hv1 (fun t ht => e1.lt (hs t (by
          rcases List.mem_cons.1 ht with rfl | ht
          · simp
          · simp [ht])))
      refine Spec.conseq e1.wf (ih _ e1.wf hr (by simp at hl ⊢; omega)) (fun _ _ _ => trivial)
        (fun _ _ _ h => h) ?_
      intro s' w _ _ h hv
      rw [h]
      simp only [lin, List.map_cons, List.sum_cons, hv]
      ring
    · rename_i h
      refine Spec.pure hc ⟨hs, ?_⟩ (fun w _ _ => rfl)
      rcases s with _ | ⟨t1, _ | ⟨t2, _ | ⟨t3, _ | ⟨t4, _ | ⟨t5, rest⟩⟩⟩⟩⟩ <;> simp
      exact absurd rfl (h t1 t2 t3 t4 t5 rest)

theorem stackLc_spec {c : Circ p} (hc : WF c) (s : List (ℕ × ZMod p)) (y : ℕ) (hs : InSt s c)
    (hy : y < c.numVars) :
    Spec (stackLc s y) c (c.val y = lin c.val s) (fun _ _ => True) (fun _ w => w y = lin w s) := by
  unfold stackLc
  refine Spec.bind (reduceStack_spec s.length s hc hs (by omega)) (fun _ _ _ => trivial) hc ?_
  rintro s' c1 e1 ⟨hs', hl⟩
  have hin : ∀ i, (s'.getD i (0, 0)).1 < c1.numVars := by
    intro i
    rw [List.getD_eq_getElem?_getD]
    rcases hi : s'[i]? with _ | t
    · exact e1.wf.z
    · exact hs' t (List.mem_of_getElem? hi)
  have key : ∀ w : ℕ → ZMod p, lin w s' = (s'.getD 0 (0, 0)).2 * w (s'.getD 0 (0, 0)).1
      + (s'.getD 1 (0, 0)).2 * w (s'.getD 1 (0, 0)).1 + (s'.getD 2 (0, 0)).2 * w (s'.getD 2 (0, 0)).1
      + (s'.getD 3 (0, 0)).2 * w (s'.getD 3 (0, 0)).1 := by
    intro w
    rcases s' with _ | ⟨t1, _ | ⟨t2, _ | ⟨t3, _ | ⟨t4, _ | ⟨t5, rest⟩⟩⟩⟩⟩
    · simp [lin]
    · simp [lin]
    · simp [lin]
    · simp [lin]; ring
    · simp [lin]; ring
    · simp at hl; omega
  refine Spec.conseq e1.wf (lcGate_spec e1.wf _ _ _ _ y _ _ _ _) ?_ (fun _ _ _ h => h) ?_
  · rintro ⟨h, hr⟩ - -
    refine ⟨?_, ?_⟩
    · intro v hv
      simp only [List.mem_cons, List.not_mem_nil, or_false] at hv
      rcases hv with rfl | rfl | rfl | rfl | rfl
      · exact hin 0
      · exact hin 1
      · exact hin 2
      · exact hin 3
      · exact e1.lt hy
    · rw [e1.val y hy, h, ← lin_congr hs e1, ← hr, key]
  · intro _ w _ _ h hr
    rw [h, ← hr, key]

/-! ## Reading limbs -/

/-- all variables of a list exist -/
def InV (a : List ℕ) (c : Circ p) : Prop := ∀ v ∈ a, v < c.numVars

theorem InV.ext {a : List ℕ} {c c' : Circ p} (h : InV a c) (e : Ext c c') : InV a c' :=
  fun v hv => e.lt (h v hv)

theorem InV.get {a : List ℕ} {c : Circ p} (h : InV a c) (hc : WF c) (i : ℕ) :
    a.getD i 0 < c.numVars := by
  rw [List.getD_eq_getElem?_getD]
  rcases hi : a[i]? with _ | t
  · exact hc.z
  · exact h t (List.mem_of_getElem? hi)

/-- limb `i` of a list of variables -/
def limb (w : ℕ → ZMod p) (a : List ℕ) (i : ℕ) : ZMod p := w (a.getD i 0)

theorem limb_congr {a : List ℕ} {c c' : Circ p} (h : InV a c) (hc : WF c) (e : Ext c c') :
    limb c'.val a = limb c.val a := by
  funext i
  exact e.val _ (h.get hc i)

theorem limb_ge {w : ℕ → ZMod p} (h0 : w 0 = 0) {a : List ℕ} {i : ℕ} (hi : a.length ≤ i) :
    limb w a i = 0 := by
  unfold limb
  rw [List.getD_eq_default _ _ hi, h0]

/-! ## Reduction modulo the native modulus -/

theorem four_mem {c : Circ p} {a0 a1 a2 a3 : ℕ} (h0 : a0 < c.numVars) (h1 : a1 < c.numVars)
    (h2 : a2 < c.numVars) (h3 : a3 < c.numVars) : ∀ v ∈ [a0, a1, a2, a3], v < c.numVars := by
  intro v hv
  simp only [List.mem_cons, List.not_mem_nil, or_false] at hv
  rcases hv with rfl | rfl | rfl | rfl <;> assumption

theorem modNativeLoop_spec (a : List ℕ) (r : ZMod p) (m : ℕ) : ∀ (i : ℕ) (cur : ZMod p) (res : ℕ)
    {c : Circ p} (_ : WF c), InV a c → res < c.numVars →
    Spec (modNativeLoop a r m i cur res) c True (fun v c' => v < c'.numVars)
      (fun v w => w v = w res + ∑ j ∈ range (3 * m), limb w a (i + j) * (cur * r ^ j)) := by
  induction m with
  | zero =>
    intro i cur res c hc ha hr
    exact Spec.pure hc hr (fun w _ _ => by simp)
  | succ m ih =>
    intro i cur res c hc ha hr
    unfold modNativeLoop
    refine Spec.bind (lc_spec hc res _ _ _ _ _ _ _)
      (fun _ _ _ => four_mem hr (ha.get hc _) (ha.get hc _) (ha.get hc _)) hc ?_
    rintro v c1 e1 hv
    refine Spec.conseq e1.wf (ih (i + 3) _ v e1.wf (ha.ext e1) hv) (fun _ _ _ => trivial)
      (fun _ _ _ h => h) ?_
    intro u w _ _ h hl
    rw [h, hl, show 3 * (m + 1) = 3 + 3 * m by ring, sum_range_add]
    simp only [sum_range_succ, sum_range_zero, limb]
    have : ∑ j ∈ range (3 * m), w (a.getD (i + 3 + j) 0) * (cur * (r * r * r) * r ^ j)
        = ∑ j ∈ range (3 * m), w (a.getD (i + (3 + j)) 0) * (cur * r ^ (3 + j)) := by
      apply sum_congr rfl
      intro j _
      rw [add_assoc]; ring
    rw [this]
    simp only [add_zero]
    ring

theorem modToNative_spec {c : Circ p} (hc : WF c) (E : Emu) (a : List ℕ) (ha : InV a c)
    (hl : a.length = E.n) :
    Spec (modToNative E a) c True (fun v c' => v < c'.numVars)
      (fun v w => w v = num (2 ^ E.B) (limb w a) E.n) := by
  have tail : ∀ (w : ℕ → ZMod p) (N : ℕ), w 0 = 0 → E.n ≤ N →
      num (2 ^ E.B) (limb w a) N = num (2 ^ E.B) (limb w a) E.n := by
    intro w N h0 hN
    unfold num
    symm
    apply sum_subset
    · intro x hx; rw [mem_range] at *; omega
    · intro x _ hx
      rw [mem_range] at hx
      rw [limb_ge h0 (by omega), zero_mul]
  unfold modToNative
  refine Spec.bind (lc_spec hc _ _ _ _ _ _ _ _)
    (fun _ _ _ => four_mem (ha.get hc _) (ha.get hc _) (ha.get hc _) (ha.get hc _)) hc ?_
  rintro v c1 e1 hv
  have four : ∀ w : ℕ → ZMod p, 1 * w (a.getD 0 0) + 2 ^ E.B * w (a.getD 1 0)
      + 2 ^ E.B * 2 ^ E.B * w (a.getD 2 0) + 2 ^ E.B * 2 ^ E.B * 2 ^ E.B * w (a.getD 3 0)
      = num (2 ^ E.B) (limb w a) 4 := by
    intro w
    simp only [num, sum_range_succ, sum_range_zero, limb]
    ring
  split
  · rename_i hn
    refine Spec.conseq e1.wf (modNativeLoop_spec a _ _ 4 _ v e1.wf (ha.ext e1) hv)
      (fun _ _ _ => trivial) (fun _ _ _ h => h) ?_
    intro u w h0 _ h hv
    rw [h, hv, four, ← tail w (4 + 3 * ((E.n - 4 + 2) / 3)) h0 (by omega)]
    unfold num
    rw [sum_range_add]
    congr 1
    apply sum_congr rfl
    intro j _
    rw [pow_add]; ring
  · rename_i hn
    refine Spec.pure e1.wf hv ?_
    intro w h0 _ hv
    rw [hv, four, tail w 4 h0 (by omega)]

/-! ## Multiplication -/

/-- element `i` of a list of constants -/
def cst (x : List (ZMod p)) (i : ℕ) : ZMod p := x.getD i 0

theorem sum_map_range {R : Type} [AddCommMonoid R] (f : ℕ → R) (n : ℕ) :
    ((List.range n).map f).sum = ∑ j ∈ range n, f j := by
  induction n with
  | zero => simp
  | succ n ih => rw [List.range_succ, List.map_append, List.sum_append, ih, sum_range_succ]; simp

theorem conv_eq (x y : List (ZMod p)) (i : ℕ) : conv x y i = cv (cst x) (cst y) i :=
  sum_map_range _ _

theorem lin_append (w : ℕ → ZMod p) (s t : List (ℕ × ZMod p)) : lin w (s ++ t) = lin w s + lin w t := by
  simp [lin]

theorem lin_cons (w : ℕ → ZMod p) (v : ℕ) (x : ZMod p) (s : List (ℕ × ZMod p)) :
    lin w ((v, x) :: s) = x * w v + lin w s := by
  simp [lin]

theorem lin_kTerms (w : ℕ → ZMod p) (k : List ℕ) (neg : List (ZMod p)) (i : ℕ) :
    lin w (kTerms k neg i) = cv (limb w k) (cst neg) i := by
  unfold lin kTerms
  rw [List.map_reverse, List.sum_reverse, List.map_map, sum_map_range]
  unfold cv
  apply sum_congr rfl
  intro j _
  simp [limb, cst, mul_comm]

theorem inSt_kTerms {k : List ℕ} (neg : List (ZMod p)) (i : ℕ) {c : Circ p} (hc : WF c)
    (hk : InV k c) : InSt (kTerms k neg i) c := by
  intro t ht
  unfold kTerms at ht
  rw [List.mem_reverse, List.mem_map] at ht
  obtain ⟨j, _, rfl⟩ := ht
  exact hk.get hc j

theorem InSt.append {s t : List (ℕ × ZMod p)} {c : Circ p} (hs : InSt s c) (ht : InSt t c) :
    InSt (s ++ t) c := by
  intro x hx
  rcases List.mem_append.1 hx with h | h
  · exact hs x h
  · exact ht x h

theorem mulPairs_spec (a b : List ℕ) (i : ℕ) (js : List ℕ) : ∀ (s : List (ℕ × ZMod p)) {c : Circ p}
    (_ : WF c), InSt s c → InV a c → InV b c →
    Spec (mulPairs a b i js s) c True
      (fun s' c' => InSt s' c' ∧ s'.length = s.length + js.length)
      (fun s' w => lin w s' = lin w s + (js.map fun j => limb w a j * limb w b (i - j)
        + limb w a (j + 1) * limb w b (i - j - 1)).sum) := by
  induction js with
  | nil =>
    intro s c hc hs _ _
    exact Spec.pure hc ⟨hs, by simp⟩ (fun w _ _ => by simp)
  | cons j js ih =>
    intro s c hc hs ha hb
    unfold mulPairs
    refine Spec.bind (mulAdd_spec hc _ _ _ _ _ _)
      (fun _ _ _ => four_mem (ha.get hc _) (hb.get hc _) (ha.get hc _) (hb.get hc _)) hc ?_
    rintro v c1 e1 hv
    refine Spec.conseq e1.wf (ih _ e1.wf (InSt.cons hv (hs.ext e1)) (ha.ext e1) (hb.ext e1))
      (fun _ _ _ => trivial) (fun _ _ _ h => ⟨h.1, by rw [h.2]; simp; omega⟩) ?_
    intro s' w _ _ h hm
    rw [h, lin_cons, hm, List.map_cons, List.sum_cons]
    simp only [limb]
    ring

theorem mulLast_spec (a b : List ℕ) (i : ℕ) (s : List (ℕ × ZMod p)) {c : Circ p} (hc : WF c)
    (hs : InSt s c) (ha : InV a c) (hb : InV b c) (hl : 2 ≤ s.length) :
    Spec (mulLast a b i s) c True (fun s' c' => InSt s' c')
      (fun s' w => lin w s' = lin w s + if i % 2 = 0 then limb w a i * limb w b 0 else 0) := by
  unfold mulLast
  split
  · rcases s with _ | ⟨t1, _ | ⟨t2, rest⟩⟩
    · simp at hl
    · simp at hl
    · simp only
      refine Spec.bind (genQuadPoly_spec hc _ _ _ _ _ _ _ _ _ _ _)
        (fun _ _ _ => four_mem (ha.get hc _) (hb.get hc _) (hs t1 (by simp)) (hs t2 (by simp))) hc ?_
      rintro v c1 e1 hv
      refine Spec.pure e1.wf (InSt.cons hv (fun t ht => e1.lt (hs t (by simp [ht])))) ?_
      intro w _ _ h
      rw [lin_cons, h]
      simp only [lin, List.map_cons, List.sum_cons, limb]
      ring
  · exact Spec.pure hc hs (fun w _ _ => by simp)

/-- one limb of the multiplication: the carry `e` goes in, `e'` goes out -/
def StepOK (E : Emu) (N A B C K : ℕ → ZMod p) (j : ℕ) (e e' : ZMod p) : Prop :=
  cv K N j + cv A B j + e = C j + 2 ^ E.B * e' ∧ e'.val < 2 ^ carryBits E j

theorem carryBits_pos (E : Emu) (i : ℕ) : 0 < carryBits E i := by
  unfold carryBits
  have : 0 < Nat.size (2 * i + 2) := Nat.size_pos.2 (by omega)
  omega

theorem cv_pairs (f g : ℕ → ZMod p) (i : ℕ) :
    (((List.range ((i + 1) / 2)).map (2 * ·)).map fun j => f j * g (i - j)
      + f (j + 1) * g (i - j - 1)).sum + (if i % 2 = 0 then f i * g 0 else 0) = cv f g i := by
  rw [List.map_map, sum_map_range]
  have := sum_pairs_last (fun j => f j * g (i - j)) i
  simp only [Nat.sub_self] at this
  unfold cv
  rw [← this]
  congr 1

/-- the bit lengths in the gate are allowed by the range gate -/
def BitsOK (E : Emu) (c : Circ p) : Prop :=
  c.ultra = none → E.B + Nat.size (2 * E.n) ≤ bigintBits p

theorem BitsOK.ext {E : Emu} {c c' : Circ p} (h : BitsOK E c) (e : Ext c c') : BitsOK E c' := by
  unfold BitsOK; rw [e.ultra]; exact h

theorem BitsOK.carry {E : Emu} {c : Circ p} (h : BitsOK E c) {i : ℕ} (hi : i < E.n) :
    c.ultra = none → carryBits E i ≤ bigintBits p := by
  intro hu
  refine le_trans ?_ (h hu)
  unfold carryBits
  have : Nat.size (2 * i + 2) ≤ Nat.size (2 * E.n) := Nat.size_le_size (by omega)
  omega

/-- the hints of a loop that starts with a carry -/
def hintAt (carry : ZMod p) (xs : List (ZMod p)) (i j : ℕ) : ZMod p := (carry :: xs).getD (j - i) 0

theorem hintAt_self (carry : ZMod p) (xs : List (ZMod p)) (i : ℕ) : hintAt carry xs i i = carry := by
  simp [hintAt]

theorem hintAt_cons (carry x : ZMod p) (xs : List (ZMod p)) {i j : ℕ} (h : i + 1 ≤ j) :
    hintAt carry (x :: xs) i j = hintAt x xs (i + 1) j := by
  unfold hintAt
  rw [show j - i = (j - (i + 1)) + 1 by omega]
  rfl

/-- the two loops differ only in the middle of their body -/
theorem loop_glue {S : (ℕ → ZMod p) → ℕ → ZMod p → ZMod p → Prop} {w : ℕ → ZMod p} {i len : ℕ}
    {cr nx : ZMod p} (h1 : S w i cr nx)
    (h2 : ∃ e : ℕ → ZMod p, e (i + 1) = nx ∧ ∀ j, i + 1 ≤ j → j < i + 1 + len → S w j (e j) (e (j + 1))) :
    ∃ e : ℕ → ZMod p, e i = cr ∧ (∀ j, i ≤ j → j < i + (len + 1) → S w j (e j) (e (j + 1))) ∧
      e (i + 1) = nx := by
  obtain ⟨e, he, hs⟩ := h2
  refine ⟨Function.update e i cr, by simp, ?_, by rw [Function.update_of_ne (by omega), he]⟩
  intro j h3 h4
  rcases Nat.eq_or_lt_of_le h3 with rfl | h5
  · rw [Function.update_self, Function.update_of_ne (by omega), he]; exact h1
  · rw [Function.update_of_ne (by omega), Function.update_of_ne (by omega)]
    exact hs j h5 (by omega)

theorem mulLoop_spec [Fact p.Prime] (E : Emu) (a b y k : List ℕ) (neg : List (ZMod p))
    (xs : List (ZMod p)) : ∀ (i carry : ℕ) {c : Circ p} (_ : WF c), RangeOK c → BitsOK E c →
    InV a c → InV b c → InV y c → InV k c → carry < c.numVars → i + xs.length ≤ E.n →
    Spec (mulLoop E a b y k neg xs i carry) c
      (∀ j, i ≤ j → j < i + xs.length → StepOK E (cst neg) (limb c.val a) (limb c.val b)
        (limb c.val y) (limb c.val k) j (hintAt (c.val carry) xs i j) (hintAt (c.val carry) xs i (j + 1)))
      (fun _ _ => True)
      (fun _ w => ∃ e : ℕ → ZMod p, e i = w carry ∧ ∀ j, i ≤ j → j < i + xs.length →
        StepOK E (cst neg) (limb w a) (limb w b) (limb w y) (limb w k) j (e j) (e (j + 1))) := by
  induction xs with
  | nil =>
    intro i carry c hc hr hb ha hbv hy hk hcar hlen
    refine Spec.pure hc trivial (fun w _ _ => ⟨fun _ => w carry, rfl, ?_⟩)
    intro j h1 h2
    simp at h2; omega
  | cons x xs ih =>
    intro i carry c hc hr hb ha hbv hy hk hcar hlen
    simp only [List.length_cons] at hlen
    unfold mulLoop
    refine Spec.bind (createVariable_spec hc x True) (fun _ _ _ => trivial) hc ?_
    rintro next c1 e1 ⟨hn1, hx⟩
    refine Spec.bind (enforceInRange_spec e1.wf (hr.ext e1) next (carryBits E i)) ?_ e1.wf ?_
    · rintro ⟨h, -⟩ - -
      refine ⟨hn1, carryBits_pos E i, (hb.ext e1).carry (by omega), ?_⟩
      have := (h i (le_refl _) (by simp)).2
      rw [hintAt_cons _ _ _ (le_refl _), hintAt_self] at this
      rw [hx]; exact this
    rintro _ c2 e2 -
    have e02 := e1.trans e2
    have hs0 : InSt ((next, -2 ^ E.B) :: (carry, 1) :: kTerms k neg i) c2 :=
      InSt.cons (e2.lt hn1) (InSt.cons (e02.lt hcar) (inSt_kTerms neg i e2.wf (hk.ext e02)))
    refine Spec.bind (mulPairs_spec a b i _ _ e2.wf hs0 (ha.ext e02) (hbv.ext e02))
      (fun _ _ _ => trivial) e2.wf ?_
    rintro s1 c3 e3 ⟨hs1, hl1⟩
    have e03 := e02.trans e3
    refine Spec.bind (mulLast_spec a b i s1 e3.wf hs1 (ha.ext e03) (hbv.ext e03)
      (by rw [hl1]; simp; omega)) (fun _ _ _ => trivial) e3.wf ?_
    rintro s2 c4 e4 hs2
    have e04 := e03.trans e4
    have lin2 : ∀ w : ℕ → ZMod p, (lin w s2 = lin w s1 + if i % 2 = 0 then limb w a i * limb w b 0 else 0) →
        (lin w s1 = lin w ((next, -2 ^ E.B) :: (carry, 1) :: kTerms k neg i)
          + (((List.range ((i + 1) / 2)).map (2 * ·)).map fun j => limb w a j * limb w b (i - j)
        + limb w a (j + 1) * limb w b (i - j - 1)).sum) →
        lin w s2 = cv (limb w k) (cst neg) i + cv (limb w a) (limb w b) i + w carry
          - 2 ^ E.B * w next := by
      intro w h2 h1
      rw [h2, h1, add_assoc, cv_pairs, lin_cons, lin_cons, lin_kTerms]
      ring
    refine Spec.bind (stackLc_spec e4.wf s2 _ hs2 ((hy.ext e04).get e4.wf i)) ?_ e4.wf ?_
    · rintro ⟨⟨⟨⟨h, -⟩, -⟩, h1⟩, h2⟩ - -
      have h1' : lin c4.val s1 = lin c4.val ((next, -2 ^ E.B) :: (carry, 1) :: kTerms k neg i)
          + (((List.range ((i + 1) / 2)).map (2 * ·)).map fun j => limb c4.val a j * limb c4.val b (i - j)
        + limb c4.val a (j + 1) * limb c4.val b (i - j - 1)).sum := by
        rw [lin_congr hs1 e4, lin_congr (hs0.ext e3) e4, limb_congr (ha.ext e03) e3.wf e4,
          limb_congr (hbv.ext e03) e3.wf e4]
        exact h1
      rw [lin2 c4.val h2 h1']
      have h3 := (h i (le_refl _) (by simp)).1
      rw [hintAt_self, hintAt_cons _ _ _ (le_refl _), hintAt_self] at h3
      have hnv : c4.val next = x := by
        rw [(e2.trans (e3.trans e4)).val next hn1, hx]
      rw [limb_congr hk hc e04, limb_congr ha hc e04, limb_congr hbv hc e04, e04.val _ hcar, hnv]
      rw [e04.val _ (hy.get hc i), h3]
      simp [limb]
    rintro _ c5 e5 -
    have e05 := e04.trans e5
    have e25 := (e2.trans (e3.trans e4)).trans e5
    refine Spec.conseq e5.wf (ih (i + 1) next e5.wf (hr.ext e05) (hb.ext e05) (ha.ext e05)
      (hbv.ext e05) (hy.ext e05) (hk.ext e05) (e25.lt hn1) (by omega)) ?_ (fun _ _ _ h => h) ?_
    · rintro ⟨⟨⟨⟨⟨h, -⟩, -⟩, -⟩, -⟩, -⟩ - -
      intro j h1 h2
      have h3 := h j (by omega) (by simp; omega)
      rw [hintAt_cons _ _ _ h1, hintAt_cons _ _ _ (by omega)] at h3
      rw [limb_congr hk hc e05, limb_congr ha hc e05, limb_congr hbv hc e05, limb_congr hy hc e05,
        e25.val next hn1, hx]
      exact h3
    · intro _ w _ _ h hst h2 h1 hrange _
      have hstep : StepOK E (cst neg) (limb w a) (limb w b) (limb w y) (limb w k) i (w carry)
          (w next) := by
        refine ⟨?_, hrange⟩
        rw [lin2 w h2 h1] at hst
        show _ = w (y.getD i 0) + _
        rw [hst]; ring
      obtain ⟨e, e1, e2, _⟩ := loop_glue (S := fun w j e e' => StepOK E (cst neg) (limb w a)
        (limb w b) (limb w y) (limb w k) j e e') hstep h
      exact ⟨e, e1, e2⟩

theorem mulConstLoop_spec [Fact p.Prime] (E : Emu) (a y k : List ℕ) (b neg : List (ZMod p))
    (xs : List (ZMod p)) : ∀ (i carry : ℕ) {c : Circ p} (_ : WF c), RangeOK c → BitsOK E c →
    InV a c → InV y c → InV k c → carry < c.numVars → i + xs.length ≤ E.n →
    Spec (mulConstLoop E a y k b neg xs i carry) c
      (∀ j, i ≤ j → j < i + xs.length → StepOK E (cst neg) (limb c.val a) (cst b)
        (limb c.val y) (limb c.val k) j (hintAt (c.val carry) xs i j) (hintAt (c.val carry) xs i (j + 1)))
      (fun _ _ => True)
      (fun _ w => ∃ e : ℕ → ZMod p, e i = w carry ∧ ∀ j, i ≤ j → j < i + xs.length →
        StepOK E (cst neg) (limb w a) (cst b) (limb w y) (limb w k) j (e j) (e (j + 1))) := by
  induction xs with
  | nil =>
    intro i carry c hc hr hb ha hy hk hcar hlen
    refine Spec.pure hc trivial (fun w _ _ => ⟨fun _ => w carry, rfl, ?_⟩)
    intro j h1 h2
    simp at h2; omega
  | cons x xs ih =>
    intro i carry c hc hr hb ha hy hk hcar hlen
    simp only [List.length_cons] at hlen
    unfold mulConstLoop
    refine Spec.bind (createVariable_spec hc x True) (fun _ _ _ => trivial) hc ?_
    rintro next c1 e1 ⟨hn1, hx⟩
    refine Spec.bind (enforceInRange_spec e1.wf (hr.ext e1) next (carryBits E i)) ?_ e1.wf ?_
    · rintro ⟨h, -⟩ - -
      refine ⟨hn1, carryBits_pos E i, (hb.ext e1).carry (by omega), ?_⟩
      have := (h i (le_refl _) (by simp)).2
      rw [hintAt_cons _ _ _ (le_refl _), hintAt_self] at this
      rw [hx]; exact this
    rintro _ c2 e2 -
    have e02 := e1.trans e2
    have hs0 : InSt ((next, -2 ^ E.B) :: (carry, 1) :: (kTerms a b i ++ kTerms k neg i)) c2 :=
      InSt.cons (e2.lt hn1) (InSt.cons (e02.lt hcar)
        ((inSt_kTerms b i e2.wf (ha.ext e02)).append (inSt_kTerms neg i e2.wf (hk.ext e02))))
    have lin2 : ∀ w : ℕ → ZMod p,
        lin w ((next, -2 ^ E.B) :: (carry, 1) :: (kTerms a b i ++ kTerms k neg i))
          = cv (limb w k) (cst neg) i + cv (limb w a) (cst b) i + w carry - 2 ^ E.B * w next := by
      intro w
      rw [lin_cons, lin_cons, lin_append, lin_kTerms, lin_kTerms]
      ring
    refine Spec.bind (stackLc_spec e2.wf _ _ hs0 ((hy.ext e02).get e2.wf i)) ?_ e2.wf ?_
    · rintro ⟨⟨h, -⟩, -⟩ - -
      rw [lin2]
      have h3 := (h i (le_refl _) (by simp)).1
      rw [hintAt_self, hintAt_cons _ _ _ (le_refl _), hintAt_self] at h3
      have hnv : c2.val next = x := by rw [e2.val next hn1, hx]
      rw [limb_congr hk hc e02, limb_congr ha hc e02, e02.val _ hcar, hnv]
      rw [e02.val _ (hy.get hc i), h3]
      simp [limb]
    rintro _ c5 e5 -
    have e05 := e02.trans e5
    have e25 := e2.trans e5
    refine Spec.conseq e5.wf (ih (i + 1) next e5.wf (hr.ext e05) (hb.ext e05) (ha.ext e05)
      (hy.ext e05) (hk.ext e05) (e25.lt hn1) (by omega)) ?_ (fun _ _ _ h => h) ?_
    · rintro ⟨⟨⟨h, -⟩, -⟩, -⟩ - -
      intro j h1 h2
      have h3 := h j (by omega) (by simp; omega)
      rw [hintAt_cons _ _ _ h1, hintAt_cons _ _ _ (by omega)] at h3
      rw [limb_congr hk hc e05, limb_congr ha hc e05, limb_congr hy hc e05,
        e25.val next hn1, hx]
      exact h3
    · intro _ w _ _ h hst hrange _
      have hstep : StepOK E (cst neg) (limb w a) (cst b) (limb w y) (limb w k) i (w carry)
          (w next) := by
        refine ⟨?_, hrange⟩
        rw [lin2 w] at hst
        show _ = w (y.getD i 0) + _
        rw [hst]; ring
      obtain ⟨e, e1, e2, _⟩ := loop_glue (S := fun w j e e' => StepOK E (cst neg) (limb w a)
        (cst b) (limb w y) (limb w k) j e e') hstep h
      exact ⟨e, e1, e2⟩

/-! ## Creating emulated variables -/

theorem enforceInRangeAll_spec [Fact p.Prime] (b : ℕ) (vs : List ℕ) : ∀ {c : Circ p} (_ : WF c),
    RangeOK c → InV vs c →
    Spec (enforceInRangeAll b vs) c
      (0 < b ∧ (c.ultra = none → b ≤ bigintBits p) ∧ ∀ v ∈ vs, (c.val v).val < 2 ^ b)
      (fun _ _ => True) (fun _ w => ∀ v ∈ vs, (w v).val < 2 ^ b) := by
  induction vs with
  | nil =>
    intro c hc hr hv
    exact Spec.pure hc trivial (fun w _ _ => by simp)
  | cons v vs ih =>
    intro c hc hr hv
    unfold enforceInRangeAll
    have hv0 : v < c.numVars := hv v (by simp)
    have hvs : InV vs c := fun x hx => hv x (by simp [hx])
    refine Spec.bind (enforceInRange_spec hc hr v b)
      (fun h _ _ => ⟨hv0, h.1, h.2.1, h.2.2 v (by simp)⟩) hc ?_
    rintro _ c1 e1 -
    refine Spec.conseq e1.wf (ih e1.wf (hr.ext e1) (hvs.ext e1)) ?_ (fun _ _ _ h => h) ?_
    · rintro ⟨⟨h1, h2, h3⟩, -⟩ - -
      refine ⟨h1, by rw [e1.ultra]; exact h2, ?_⟩
      intro x hx
      rw [e1.val x (hvs x hx)]
      exact h3 x (by simp [hx])
    · intro _ w _ _ h h1 x hx
      rcases List.mem_cons.1 hx with rfl | hx
      · exact h1
      · exact h x hx

theorem natLimbs_length (v b n : ℕ) : (natLimbs v b n).length = n := by
  induction n generalizing v with
  | zero => rfl
  | succ n ih => simp [natLimbs, ih]

theorem natLimbs_getD (v b n i : ℕ) (hi : i < n) : (natLimbs v b n).getD i 0 = dig (2 ^ b) v i := by
  induction n generalizing v i with
  | zero => omega
  | succ n ih =>
    unfold natLimbs
    rcases i with _ | i
    · simp [dig]
    · rw [List.getD_cons_succ, ih _ _ (by omega)]
      unfold dig
      rw [Nat.div_div_eq_div_mul, pow_succ, mul_comm]

theorem toLimbs_length (v b n : ℕ) : (toLimbs p v b n).length = n := by
  simp [toLimbs, natLimbs_length]

theorem cst_toLimbs (v b n i : ℕ) (hi : i < n) :
    cst (toLimbs p v b n) i = ((dig (2 ^ b) v i : ℕ) : ZMod p) := by
  unfold cst toLimbs
  rw [← natLimbs_getD v b n i hi]
  have hl : i < (natLimbs v b n).length := by rw [natLimbs_length]; exact hi
  rw [List.getD_eq_getElem _ _ (by simpa using hl), List.getD_eq_getElem _ _ hl]
  simp

theorem cst_toLimbs_ge (v b n i : ℕ) (hi : n ≤ i) : cst (toLimbs p v b n) i = 0 := by
  unfold cst
  rw [List.getD_eq_default _ _ (by rw [toLimbs_length]; exact hi)]

theorem toLimbs_val_lt (v b n : ℕ) : ∀ x ∈ toLimbs p v b n, x.val < 2 ^ b := by
  intro x hx
  unfold toLimbs at hx
  obtain ⟨y, hy, rfl⟩ := List.mem_map.1 hx
  have h : ∀ (n v : ℕ), ∀ y ∈ natLimbs v b n, y < 2 ^ b := by
    intro n
    induction n with
    | zero => intro v y hy; simp [natLimbs] at hy
    | succ n ih =>
      intro v y hy
      unfold natLimbs at hy
      rcases List.mem_cons.1 hy with rfl | hy
      · exact Nat.mod_lt _ (by positivity)
      · exact ih _ y hy
  rw [ZMod.val_natCast]
  exact lt_of_le_of_lt (Nat.mod_le _ _) (h n v y hy)

/-- limbs of a list of variables with known values -/
theorem limb_of_map {w : ℕ → ZMod p} (h0 : w 0 = 0) {k : List ℕ} {xs : List (ZMod p)}
    (h : k.map w = xs) : limb w k = cst xs := by
  funext i
  unfold limb cst
  rw [← h, List.getD_eq_getElem?_getD, List.getD_eq_getElem?_getD, List.getElem?_map]
  rcases k[i]? with _ | v
  · simpa using h0
  · rfl

theorem createEmulated_spec [Fact p.Prime] (E : Emu) (val : ℕ) {c : Circ p} (hc : WF c)
    (hr : RangeOK c) :
    Spec (createEmulated E val) c (0 < E.B ∧ (c.ultra = none → E.B ≤ bigintBits p))
      (fun k c' => k.length = E.n ∧ InV k c' ∧ k.map c'.val = fromEmulated p E val)
      (fun k w => ∀ v ∈ k, (w v).val < 2 ^ E.B) := by
  unfold createEmulated
  refine Spec.bind (createVars_spec _ hc) (fun _ _ _ => trivial) hc ?_
  rintro vs c1 e1 ⟨hl, hv, hm⟩
  refine Spec.bind (enforceInRangeAll_spec E.B vs e1.wf (hr.ext e1) hv) ?_ e1.wf ?_
  · rintro ⟨⟨h1, h2⟩, -⟩ - -
    refine ⟨h1, by rw [e1.ultra]; exact h2, ?_⟩
    intro v hv
    have : c1.val v ∈ vs.map c1.val := List.mem_map_of_mem hv
    rw [hm] at this
    exact toLimbs_val_lt _ _ _ _ this
  · rintro _ c2 e2 -
    refine Spec.pure e2.wf ⟨by rw [hl]; exact toLimbs_length _ _ _, InV.ext hv e2, ?_⟩
      (fun w _ _ h _ => h)
    rw [← hm]
    apply List.map_congr_left
    intro v hx
    exact e2.val v (hv v hx)

/-! ## The multiplication gates -/

/-- what the gates of a multiplication say about limbs `A`, `B`, `C` (`bn` is the second factor in the
native field) with quotient `K` and carries `e` -/
structure MulRel (E : Emu) (N A B : ℕ → ZMod p) (bn : ZMod p) (C K e : ℕ → ZMod p) : Prop where
  e0 : e 0 = 0
  kr : ∀ j, j < E.n → (K j).val < 2 ^ E.B
  first : (e 1).val < 2 ^ (E.B + 1)
  step : ∀ j, j < E.n → StepOK E N A B C K j (e j) (e (j + 1))
  native : num (2 ^ E.B) A E.n * bn - E.q * num (2 ^ E.B) K E.n = num (2 ^ E.B) C E.n

theorem size_two : Nat.size 2 = 2 := by decide

theorem cv_zero (f g : ℕ → ZMod p) : cv f g 0 = f 0 * g 0 := by simp [cv]

theorem size_ge_two {n : ℕ} (hn : 0 < n) : 2 ≤ Nat.size (2 * n) := by
  calc 2 = Nat.size 2 := size_two.symm
    _ ≤ _ := Nat.size_le_size (by omega)

theorem mulGateWith_spec [Fact p.Prime] (E : Emu) (a b y : List ℕ) (neg : List (ZMod p)) (valK : ℕ)
    (carries : List (ZMod p)) {c : Circ p} (hc : WF c) (hr : RangeOK c) (hb : BitsOK E c)
    (hB : 0 < E.B) (hn : 0 < E.n) (ha : InV a c) (hbv : InV b c) (hy : InV y c)
    (hla : a.length = E.n) (hlb : b.length = E.n) (hly : y.length = E.n)
    (hlc : carries.length = E.n) :
    Spec (mulGateWith E a b y neg valK carries) c
      (MulRel E (cst neg) (limb c.val a) (limb c.val b) (num (2 ^ E.B) (limb c.val b) E.n)
        (limb c.val y) (cst (fromEmulated p E valK)) (hintAt 0 carries 0))
      (fun _ _ => True)
      (fun _ w => ∃ K e, MulRel E (cst neg) (limb w a) (limb w b) (num (2 ^ E.B) (limb w b) E.n)
        (limb w y) K e) := by
  have hbits : c.ultra = none → E.B + 1 ≤ bigintBits p := fun hu => by
    have := hb hu; have := size_ge_two hn; omega
  unfold mulGateWith
  refine Spec.bind (createEmulated_spec E valK hc hr)
    (fun _ _ _ => ⟨hB, fun hu => by have := hbits hu; omega⟩) hc ?_
  rintro k c1 e1 ⟨hlk, hk, hkm⟩
  rcases carries with _ | ⟨x, xs⟩
  · simp at hlc; omega
  simp only [List.length_cons] at hlc
  simp only
  refine Spec.bind (createVariable_spec e1.wf x True) (fun _ _ _ => trivial) e1.wf ?_
  rintro carry c2 e2 ⟨hcar, hx⟩
  have e02 := e1.trans e2
  refine Spec.bind (enforceInRange_spec e2.wf (hr.ext e02) carry (E.B + 1)) ?_ e2.wf ?_
  · rintro ⟨⟨h, -⟩, -⟩ - -
    exact ⟨hcar, by omega, by rw [e02.ultra]; exact hbits, by rw [hx]; exact h.first⟩
  rintro _ c3 e3 -
  have e03 := e02.trans e3
  have e13 := e2.trans e3
  have step0 : ∀ w : ℕ → ZMod p, (1 * w (y.getD 0 0) = 0 * w (a.getD 0 0) + 0 * w (b.getD 0 0)
      + neg.getD 0 0 * w (k.getD 0 0) + -2 ^ E.B * w carry + 1 * w (a.getD 0 0) * w (b.getD 0 0)
      + 0 * w (k.getD 0 0) * w carry + 0) ↔
      cv (limb w k) (cst neg) 0 + cv (limb w a) (limb w b) 0 + 0 = limb w y 0 + 2 ^ E.B * w carry := by
    intro w
    simp only [cv_zero, limb, cst]
    constructor <;> intro h <;> linear_combination -h
  have hk0 : ∀ {cc : Circ p} (_ : Ext c1 cc), cc.val 0 = 0 →
      limb cc.val k = cst (fromEmulated p E valK) := by
    intro cc e h0
    refine limb_of_map h0 ?_
    rw [← hkm]
    exact List.map_congr_left (fun v hv => e.val v (hk v hv))
  refine Spec.bind (quadPolyGate_spec e3.wf _ _ _ _ _ _ _ _ _ _ _ _ _) ?_ e3.wf ?_
  · rintro ⟨⟨⟨h, -⟩, -⟩, -⟩ h0 -
    refine ⟨?_, ?_⟩
    · intro v hv
      simp only [List.mem_cons, List.not_mem_nil, or_false] at hv
      rcases hv with rfl | rfl | rfl | rfl | rfl
      · exact (ha.ext e03).get e3.wf 0
      · exact (hbv.ext e03).get e3.wf 0
      · exact (hk.ext e13).get e3.wf 0
      · exact e3.lt hcar
      · exact (hy.ext e03).get e3.wf 0
    · rw [step0, hk0 e13 h0, limb_congr ha hc e03, limb_congr hbv hc e03, limb_congr hy hc e03,
        e3.val _ hcar, hx]
      have := (h.step 0 hn).1
      rw [h.e0] at this
      exact this
  rintro _ c4 e4 -
  have e04 := e03.trans e4
  have e14 := e13.trans e4
  have e24 := e3.trans e4
  refine Spec.bind (mulLoop_spec E a b y k neg xs 1 carry e4.wf (hr.ext e04) (hb.ext e04)
    (ha.ext e04) (hbv.ext e04) (hy.ext e04) (hk.ext e14) (e24.lt hcar) (by omega)) ?_ e4.wf ?_
  · rintro ⟨⟨⟨⟨h, -⟩, -⟩, -⟩, -⟩ h0 -
    intro j h1 h2
    have h3 := h.step j (by omega)
    rw [hintAt_cons _ _ _ h1, hintAt_cons _ _ _ (by omega)] at h3
    rw [hk0 e14 h0, limb_congr ha hc e04, limb_congr hbv hc e04, limb_congr hy hc e04,
        e24.val _ hcar, hx]
    exact h3
  rintro _ c5 e5 -
  have e05 := e04.trans e5
  have e15 := e14.trans e5
  refine Spec.bind (modToNative_spec e5.wf E a (ha.ext e05) hla) (fun _ _ _ => trivial) e5.wf ?_
  rintro am c6 e6 ham
  refine Spec.bind (modToNative_spec e6.wf E b (hbv.ext (e05.trans e6)) hlb)
    (fun _ _ _ => trivial) e6.wf ?_
  rintro bm c7 e7 hbm
  refine Spec.bind (modToNative_spec e7.wf E k (hk.ext ((e15.trans e6).trans e7)) hlk)
    (fun _ _ _ => trivial) e7.wf ?_
  rintro km c8 e8 hkm8
  have e08 := ((e05.trans e6).trans e7).trans e8
  have e18 := ((e15.trans e6).trans e7).trans e8
  refine Spec.bind (modToNative_spec e8.wf E y (hy.ext e08) hly) (fun _ _ _ => trivial) e8.wf ?_
  rintro ym c9 e9 hym
  have e09 := e08.trans e9
  have e19 := e18.trans e9
  refine Spec.conseq e9.wf (quadPolyGate_spec e9.wf _ _ _ _ _ _ _ _ _ _ _ _ _) ?_
    (fun _ _ _ h => h) ?_
  · rintro ⟨⟨⟨⟨⟨⟨⟨⟨⟨h, -⟩, -⟩, -⟩, -⟩, -⟩, h6⟩, h7⟩, h8⟩, h9⟩ h0 -
    refine ⟨?_, ?_⟩
    · intro v hv
      simp only [List.mem_cons, List.not_mem_nil, or_false] at hv
      rcases hv with rfl | rfl | rfl | rfl | rfl
      · exact e9.lt (e8.lt (e7.lt ham))
      · exact e9.lt (e8.lt hbm)
      · exact e9.lt hkm8
      · exact e9.wf.z
      · exact hym
    · have a1 : c9.val am = num (2 ^ E.B) (limb c.val a) E.n := by
        rw [((e7.trans e8).trans e9).val _ ham, h6, limb_congr ha hc (e05.trans e6)]
      have a2 : c9.val bm = num (2 ^ E.B) (limb c.val b) E.n := by
        rw [(e8.trans e9).val _ hbm, h7, limb_congr hbv hc ((e05.trans e6).trans e7)]
      have a3 : c9.val km = num (2 ^ E.B) (cst (fromEmulated p E valK)) E.n := by
        rw [← hk0 e19 h0, e9.val _ hkm8, h8, limb_congr (hk.ext e18) e8.wf e9]
      have a4 : c9.val ym = num (2 ^ E.B) (limb c.val y) E.n := by
        rw [h9, limb_congr hy hc e09]
      rw [a1, a2, a3, a4, ← h.native]
      ring
  · intro _ w h0 _ hq h9 h8 h7 h6 hloop hfirst hrange _ hkr
    obtain ⟨e, he, hst, he1⟩ := loop_glue (i := 0) (cr := 0) (nx := w carry) (len := xs.length) (w := w)
      (S := fun w j e e' => StepOK E (cst neg) (limb w a) (limb w b) (limb w y)
        (limb w k) j e e') ⟨(step0 w).1 hfirst, lt_of_lt_of_le hrange (Nat.pow_le_pow_right (by omega)
          (by unfold carryBits; rw [show 2 * 0 + 2 = 2 by rfl, size_two]; omega))⟩
      hloop
    refine ⟨limb w k, e, ⟨he, ?_, ?_, fun j hj => hst j (by omega) (by omega), ?_⟩⟩
    · intro j hj
      apply hkr
      rw [List.getD_eq_getElem _ _ (by omega)]
      exact List.getElem_mem _
    · rw [zero_add] at he1; rw [he1]; exact hrange
    · rw [← h6, ← h7, ← h8, ← h9]
      linear_combination -hq

theorem mulConstGateWith_spec [Fact p.Prime] (E : Emu) (a : List ℕ) (valB : ℕ) (y : List ℕ)
    (neg : List (ZMod p)) (valK : ℕ)
    (carries : List (ZMod p)) {c : Circ p} (hc : WF c) (hr : RangeOK c) (hb : BitsOK E c)
    (hB : 0 < E.B) (hn : 0 < E.n) (ha : InV a c) (hy : InV y c)
    (hla : a.length = E.n) (hly : y.length = E.n)
    (hlc : carries.length = E.n) :
    Spec (mulConstGateWith E a valB y neg valK carries) c
      (MulRel E (cst neg) (limb c.val a) (cst (toLimbs p valB E.B E.n)) (valB : ZMod p)
        (limb c.val y) (cst (fromEmulated p E valK)) (hintAt 0 carries 0))
      (fun _ _ => True)
      (fun _ w => ∃ K e, MulRel E (cst neg) (limb w a) (cst (toLimbs p valB E.B E.n)) (valB : ZMod p)
        (limb w y) K e) := by
  have hbits : c.ultra = none → E.B + 1 ≤ bigintBits p := fun hu => by
    have := hb hu; have := size_ge_two hn; omega
  simp only [mulConstGateWith]
  refine Spec.bind (createEmulated_spec E valK hc hr)
    (fun _ _ _ => ⟨hB, fun hu => by have := hbits hu; omega⟩) hc ?_
  rintro k c1 e1 ⟨hlk, hk, hkm⟩
  rcases carries with _ | ⟨x, xs⟩
  · simp at hlc; omega
  simp only [List.length_cons] at hlc
  simp only
  refine Spec.bind (createVariable_spec e1.wf x True) (fun _ _ _ => trivial) e1.wf ?_
  rintro carry c2 e2 ⟨hcar, hx⟩
  have e02 := e1.trans e2
  refine Spec.bind (enforceInRange_spec e2.wf (hr.ext e02) carry (E.B + 1)) ?_ e2.wf ?_
  · rintro ⟨⟨h, -⟩, -⟩ - -
    exact ⟨hcar, by omega, by rw [e02.ultra]; exact hbits, by rw [hx]; exact h.first⟩
  rintro _ c3 e3 -
  have e03 := e02.trans e3
  have e13 := e2.trans e3
  have step0 : ∀ w : ℕ → ZMod p, (w (y.getD 0 0) = (toLimbs p valB E.B E.n).getD 0 0 * w (a.getD 0 0)
      + neg.getD 0 0 * w (k.getD 0 0) + -2 ^ E.B * w carry + 0 * w 0) ↔
      cv (limb w k) (cst neg) 0 + cv (limb w a) (cst (toLimbs p valB E.B E.n)) 0 + 0
        = limb w y 0 + 2 ^ E.B * w carry := by
    intro w
    simp only [cv_zero, limb, cst]
    constructor <;> intro h <;> linear_combination -h
  have hk0 : ∀ {cc : Circ p} (_ : Ext c1 cc), cc.val 0 = 0 →
      limb cc.val k = cst (fromEmulated p E valK) := by
    intro cc e h0
    refine limb_of_map h0 ?_
    rw [← hkm]
    exact List.map_congr_left (fun v hv => e.val v (hk v hv))
  refine Spec.bind (lcGate_spec e3.wf _ _ _ _ _ _ _ _ _) ?_ e3.wf ?_
  · rintro ⟨⟨⟨h, -⟩, -⟩, -⟩ h0 -
    refine ⟨?_, ?_⟩
    · intro v hv
      simp only [List.mem_cons, List.not_mem_nil, or_false] at hv
      rcases hv with rfl | rfl | rfl | rfl | rfl
      · exact (ha.ext e03).get e3.wf 0
      · exact (hk.ext e13).get e3.wf 0
      · exact e3.lt hcar
      · exact e3.wf.z
      · exact (hy.ext e03).get e3.wf 0
    · rw [step0, hk0 e13 h0, limb_congr ha hc e03, limb_congr hy hc e03, e3.val _ hcar, hx]
      have := (h.step 0 hn).1
      rw [h.e0] at this
      exact this
  rintro _ c4 e4 -
  have e04 := e03.trans e4
  have e14 := e13.trans e4
  have e24 := e3.trans e4
  refine Spec.bind (mulConstLoop_spec E a y k _ neg xs 1 carry e4.wf (hr.ext e04) (hb.ext e04)
    (ha.ext e04) (hy.ext e04) (hk.ext e14) (e24.lt hcar) (by omega)) ?_ e4.wf ?_
  · rintro ⟨⟨⟨⟨h, -⟩, -⟩, -⟩, -⟩ h0 -
    intro j h1 h2
    have h3 := h.step j (by omega)
    rw [hintAt_cons _ _ _ h1, hintAt_cons _ _ _ (by omega)] at h3
    rw [hk0 e14 h0, limb_congr ha hc e04, limb_congr hy hc e04, e24.val _ hcar, hx]
    exact h3
  rintro _ c5 e5 -
  have e05 := e04.trans e5
  have e15 := e14.trans e5
  refine Spec.bind (modToNative_spec e5.wf E a (ha.ext e05) hla) (fun _ _ _ => trivial) e5.wf ?_
  rintro am c6 e6 ham
  refine Spec.bind (modToNative_spec e6.wf E k (hk.ext (e15.trans e6)) hlk)
    (fun _ _ _ => trivial) e6.wf ?_
  rintro km c8 e8 hkm8
  have e08 := (e05.trans e6).trans e8
  have e18 := (e15.trans e6).trans e8
  refine Spec.bind (modToNative_spec e8.wf E y (hy.ext e08) hly) (fun _ _ _ => trivial) e8.wf ?_
  rintro ym c9 e9 hym
  have e09 := e08.trans e9
  have e19 := e18.trans e9
  refine Spec.conseq e9.wf (lcGate_spec e9.wf _ _ _ _ _ _ _ _ _) ?_
    (fun _ _ _ h => h) ?_
  · rintro ⟨⟨⟨⟨⟨⟨⟨⟨h, -⟩, -⟩, -⟩, -⟩, -⟩, h6⟩, h8⟩, h9⟩ h0 -
    refine ⟨?_, ?_⟩
    · intro v hv
      simp only [List.mem_cons, List.not_mem_nil, or_false] at hv
      rcases hv with rfl | rfl | rfl | rfl | rfl
      · exact e9.lt (e8.lt ham)
      · exact e9.lt hkm8
      · exact e9.wf.z
      · exact e9.wf.z
      · exact hym
    · have a1 : c9.val am = num (2 ^ E.B) (limb c.val a) E.n := by
        rw [(e8.trans e9).val _ ham, h6, limb_congr ha hc (e05.trans e6)]
      have a3 : c9.val km = num (2 ^ E.B) (cst (fromEmulated p E valK)) E.n := by
        rw [← hk0 e19 h0, e9.val _ hkm8, h8, limb_congr (hk.ext e18) e8.wf e9]
      have a4 : c9.val ym = num (2 ^ E.B) (limb c.val y) E.n := by
        rw [h9, limb_congr hy hc e09]
      rw [a1, a3, a4, ← h.native]
      ring
  · intro _ w h0 _ hq h9 h8 h6 hloop hfirst hrange _ hkr
    obtain ⟨e, he, hst, he1⟩ := loop_glue (i := 0) (cr := 0) (nx := w carry) (len := xs.length) (w := w)
      (S := fun w j e e' => StepOK E (cst neg) (limb w a) (cst (toLimbs p valB E.B E.n)) (limb w y)
        (limb w k) j e e') ⟨(step0 w).1 hfirst, lt_of_lt_of_le hrange (Nat.pow_le_pow_right (by omega)
          (by unfold carryBits; rw [show 2 * 0 + 2 = 2 by rfl, size_two]; omega))⟩
      hloop
    refine ⟨limb w k, e, ⟨he, ?_, ?_, fun j hj => hst j (by omega) (by omega), ?_⟩⟩
    · intro j hj
      apply hkr
      rw [List.getD_eq_getElem _ _ (by omega)]
      exact List.getElem_mem _
    · rw [zero_add] at he1; rw [he1]; exact hrange
    · rw [← h6, ← h8, ← h9]
      linear_combination -hq

/-! ## The addition gates -/

/-- one limb of `x + carry = s`, with carries -/
def AddStep (E : Emu) (x s e e' : ZMod p) : Prop := (e' = 0 ∨ e' = 1) ∧ x + e = s + 2 ^ E.B * e'

theorem cast_pow_two (b : ℕ) : ((2 ^ b : ℕ) : ZMod p) = 2 ^ b := by push_cast; rfl

theorem limb_zero (w : ℕ → ZMod p) (a : ℕ) (as : List ℕ) : limb w (a :: as) 0 = w a := rfl
theorem limb_succ (w : ℕ → ZMod p) (a : ℕ) (as : List ℕ) (i : ℕ) :
    limb w (a :: as) (i + 1) = limb w as i := rfl
theorem cst_succ (a : ZMod p) (as : List (ZMod p)) (i : ℕ) : cst (a :: as) (i + 1) = cst as i := rfl

/-- chains indexed from zero -/
theorem glue0 {S : ℕ → ZMod p → ZMod p → Prop} {len : ℕ} {cr nx : ZMod p} (h1 : S 0 cr nx)
    (h2 : ∃ e : ℕ → ZMod p, e 0 = nx ∧ ∀ j, j < len → S (j + 1) (e j) (e (j + 1))) :
    ∃ e : ℕ → ZMod p, e 0 = cr ∧ ∀ j, j < len + 1 → S j (e j) (e (j + 1)) := by
  obtain ⟨e, he, hs⟩ := h2
  refine ⟨fun i => match i with | 0 => cr | i + 1 => e i, rfl, ?_⟩
  intro j hj
  rcases j with _ | j
  · show S 0 cr (e 0); rw [he]; exact h1
  · exact hs j (by omega)

theorem hintAt_zero_succ (cr x : ZMod p) (xs : List (ZMod p)) (j : ℕ) :
    hintAt cr (x :: xs) 0 (j + 1) = hintAt x xs 0 j := rfl

theorem addLoop_spec [Fact p.Prime] (E : Emu) (hs : List (ZMod p)) : ∀ (as bs ss : List ℕ) (carry : ℕ)
    {c : Circ p} (_ : WF c), RangeOK c → InV as c → InV bs c → InV ss c → carry < c.numVars →
    as.length = hs.length → bs.length = hs.length → ss.length = hs.length →
    Spec (addLoop E hs as bs ss carry) c
      (0 < E.B ∧ (c.ultra = none → E.B ≤ bigintBits p) ∧ ∀ j, j < hs.length →
        AddStep E (limb c.val as j + limb c.val bs j) (limb c.val ss j)
          (hintAt (c.val carry) hs 0 j) (hintAt (c.val carry) hs 0 (j + 1)) ∧
        (limb c.val ss j).val < 2 ^ E.B)
      (fun _ _ => True)
      (fun _ w => ∃ e : ℕ → ZMod p, e 0 = w carry ∧ ∀ j, j < hs.length →
        AddStep E (limb w as j + limb w bs j) (limb w ss j) (e j) (e (j + 1)) ∧
        (limb w ss j).val < 2 ^ E.B) := by
  induction hs with
  | nil =>
    intro as bs ss carry c hc hr ha hb hs hcar h1 h2 h3
    unfold addLoop
    exact Spec.pure hc trivial (fun w _ _ => ⟨fun _ => w carry, rfl, fun j hj => by simp at hj⟩)
  | cons h hs ih =>
    intro as bs ss carry c hc hr ha hb hsv hcar h1 h2 h3
    rcases as with _ | ⟨a, as⟩
    · simp at h1
    rcases bs with _ | ⟨b, bs⟩
    · simp at h2
    rcases ss with _ | ⟨s, ss⟩
    · simp at h3
    simp only [List.length_cons, Nat.add_right_cancel_iff] at h1 h2 h3
    have ha0 : a < c.numVars := ha a (by simp)
    have hb0 : b < c.numVars := hb b (by simp)
    have hs0 : s < c.numVars := hsv s (by simp)
    have has : InV as c := fun x hx => ha x (by simp [hx])
    have hbs : InV bs c := fun x hx => hb x (by simp [hx])
    have hss : InV ss c := fun x hx => hsv x (by simp [hx])
    unfold addLoop
    have hlimb : Spec (addLimb E h a b carry s) c
        (0 < E.B ∧ (c.ultra = none → E.B ≤ bigintBits p) ∧
          AddStep E (c.val a + c.val b) (c.val s) (c.val carry) h ∧ (c.val s).val < 2 ^ E.B)
        (fun v c' => v < c'.numVars ∧ c'.val v = h)
        (fun v w => AddStep E (w a + w b) (w s) (w carry) (w v) ∧ (w s).val < 2 ^ E.B) := by
      unfold addLimb
      refine Spec.bind (createVariable_spec hc h True) (fun _ _ _ => trivial) hc ?_
      rintro next c1 e1 ⟨hn1, hx⟩
      refine Spec.bind (enforceBool_spec e1.wf next)
        (fun h _ _ => ⟨hn1, by rw [hx]; exact h.1.2.2.1.1⟩) e1.wf ?_
      rintro _ c2 e2 -
      have e02 := e1.trans e2
      refine Spec.bind (lcGate_spec e2.wf a b carry next s _ _ _ _) ?_ e2.wf ?_
      · rintro ⟨⟨h, -⟩, -⟩ - -
        refine ⟨?_, ?_⟩
        · intro v hv
          simp only [List.mem_cons, List.not_mem_nil, or_false] at hv
          rcases hv with rfl | rfl | rfl | rfl | rfl
          · exact e02.lt ha0
          · exact e02.lt hb0
          · exact e02.lt hcar
          · exact e2.lt hn1
          · exact e02.lt hs0
        · rw [e02.val _ ha0, e02.val _ hb0, e02.val _ hcar, e02.val _ hs0, e2.val _ hn1, hx,
            cast_pow_two]
          linear_combination -h.2.2.1.2
      rintro _ c3 e3 -
      have e03 := e02.trans e3
      refine Spec.bind (enforceInRange_spec e3.wf (hr.ext e03) s E.B) ?_ e3.wf ?_
      · rintro ⟨⟨⟨h, -⟩, -⟩, -⟩ - -
        exact ⟨e03.lt hs0, h.1, by rw [e03.ultra]; exact h.2.1, by rw [e03.val _ hs0]; exact h.2.2.2⟩
      rintro _ c4 e4 -
      refine Spec.pure e4.wf ⟨e4.lt (e3.lt (e2.lt hn1)), ?_⟩ ?_
      · rw [((e2.trans e3).trans e4).val _ hn1, hx]
      · intro w _ _ h4 h3 h2 _
        rw [cast_pow_two] at h3
        exact ⟨⟨h2, by linear_combination -h3⟩, h4⟩
    refine Spec.bind hlimb ?_ hc ?_
    · rintro ⟨g1, g2, g3⟩ - -
      exact ⟨g1, g2, (g3 0 (by simp)).1, (g3 0 (by simp)).2⟩
    rintro next c1 e1 ⟨hn1, hx⟩
    refine Spec.conseq e1.wf (ih as bs ss next e1.wf (hr.ext e1) (has.ext e1) (hbs.ext e1)
      (hss.ext e1) hn1 h1 h2 h3) ?_ (fun _ _ _ h => h) ?_
    · rintro ⟨⟨g1, g2, g3⟩, -⟩ - -
      refine ⟨g1, by rw [e1.ultra]; exact g2, ?_⟩
      intro j hj
      have := g3 (j + 1) (by simpa using hj)
      rw [limb_congr has hc e1, limb_congr hbs hc e1, limb_congr hss hc e1, hx]
      exact this
    · intro _ w _ _ h hl
      exact glue0 (S := fun j e e' => AddStep E (limb w (a :: as) j + limb w (b :: bs) j)
        (limb w (s :: ss) j) e e' ∧ (limb w (s :: ss) j).val < 2 ^ E.B) hl h

theorem addConstLoop_spec [Fact p.Prime] (E : Emu) (hs : List (ZMod p)) : ∀ (as : List ℕ)
    (bs : List (ZMod p)) (ss : List ℕ) (carry : ℕ)
    {c : Circ p} (_ : WF c), RangeOK c → InV as c → InV ss c → carry < c.numVars →
    as.length = hs.length → bs.length = hs.length → ss.length = hs.length →
    Spec (addConstLoop E hs as bs ss carry) c
      (0 < E.B ∧ (c.ultra = none → E.B ≤ bigintBits p) ∧ ∀ j, j < hs.length →
        AddStep E (limb c.val as j + cst bs j) (limb c.val ss j)
          (hintAt (c.val carry) hs 0 j) (hintAt (c.val carry) hs 0 (j + 1)) ∧
        (limb c.val ss j).val < 2 ^ E.B)
      (fun _ _ => True)
      (fun _ w => ∃ e : ℕ → ZMod p, e 0 = w carry ∧ ∀ j, j < hs.length →
        AddStep E (limb w as j + cst bs j) (limb w ss j) (e j) (e (j + 1)) ∧
        (limb w ss j).val < 2 ^ E.B) := by
  induction hs with
  | nil =>
    intro as bs ss carry c hc hr ha hs hcar h1 h2 h3
    unfold addConstLoop
    exact Spec.pure hc trivial (fun w _ _ => ⟨fun _ => w carry, rfl, fun j hj => by simp at hj⟩)
  | cons h hs ih =>
    intro as bs ss carry c hc hr ha hsv hcar h1 h2 h3
    rcases as with _ | ⟨a, as⟩
    · simp at h1
    rcases bs with _ | ⟨b, bs⟩
    · simp at h2
    rcases ss with _ | ⟨s, ss⟩
    · simp at h3
    simp only [List.length_cons, Nat.add_right_cancel_iff] at h1 h2 h3
    have ha0 : a < c.numVars := ha a (by simp)
    have hs0 : s < c.numVars := hsv s (by simp)
    have has : InV as c := fun x hx => ha x (by simp [hx])
    have hss : InV ss c := fun x hx => hsv x (by simp [hx])
    unfold addConstLoop
    refine Spec.bind (createVariable_spec hc h True) (fun _ _ _ => trivial) hc ?_
    rintro next c1 e1 ⟨hn1, hx⟩
    refine Spec.bind (enforceBool_spec e1.wf next)
      (fun h _ _ => ⟨hn1, by rw [hx]; exact (h.1.2.2 0 (by simp)).1.1⟩) e1.wf ?_
    rintro _ c2 e2 -
    have e02 := e1.trans e2
    refine Spec.bind (lcGate_spec e2.wf a 1 carry next s _ _ _ _) ?_ e2.wf ?_
    · rintro ⟨⟨h, -⟩, -⟩ - hone
      refine ⟨?_, ?_⟩
      · intro v hv
        simp only [List.mem_cons, List.not_mem_nil, or_false] at hv
        rcases hv with rfl | rfl | rfl | rfl | rfl
        · exact e02.lt ha0
        · exact e2.wf.o
        · exact e02.lt hcar
        · exact e2.lt hn1
        · exact e02.lt hs0
      · rw [hone, e02.val _ ha0, e02.val _ hcar, e02.val _ hs0, e2.val _ hn1, hx,
          cast_pow_two]
        have := (h.2.2 0 (by simp)).1.2
        simp only [limb_zero, cst, List.getD_cons_zero, hintAt_self, hintAt_zero_succ] at this
        linear_combination -this
    rintro _ c3 e3 -
    have e03 := e02.trans e3
    refine Spec.bind (enforceInRange_spec e3.wf (hr.ext e03) s E.B) ?_ e3.wf ?_
    · rintro ⟨⟨⟨h, -⟩, -⟩, -⟩ - -
      exact ⟨e03.lt hs0, h.1, by rw [e03.ultra]; exact h.2.1,
        by rw [e03.val _ hs0]; exact (h.2.2 0 (by simp)).2⟩
    rintro _ c4 e4 -
    have e04 := e03.trans e4
    have e14 := (e2.trans e3).trans e4
    refine Spec.conseq e4.wf (ih as bs ss next e4.wf (hr.ext e04) (has.ext e04)
      (hss.ext e04) (e14.lt hn1) h1 h2 h3) ?_ (fun _ _ _ h => h) ?_
    · rintro ⟨⟨⟨⟨⟨g1, g2, g3⟩, -⟩, -⟩, -⟩, -⟩ - -
      refine ⟨g1, by rw [e04.ultra]; exact g2, ?_⟩
      intro j hj
      have := g3 (j + 1) (by simpa using hj)
      rw [limb_congr has hc e04, limb_congr hss hc e04, e14.val _ hn1, hx]
      exact this
    · intro _ w _ hone h h4 h3 h2 _
      refine glue0 (S := fun j e e' => AddStep E (limb w (a :: as) j + cst (b :: bs) j)
        (limb w (s :: ss) j) e e' ∧ (limb w (s :: ss) j).val < 2 ^ E.B) ⟨⟨h2, ?_⟩, h4⟩ h
      rw [cast_pow_two, hone] at h3
      simp only [limb_zero, cst, List.getD_cons_zero]
      linear_combination -h3

theorem subLoop_spec [Fact p.Prime] (E : Emu) (k : ℕ) (hs : List (ZMod p)) : ∀ (ms : List (ZMod p))
    (cs ss : List ℕ) (carry : ℕ)
    {c : Circ p} (_ : WF c), k < c.numVars → InV cs c → InV ss c → carry < c.numVars →
    ms.length = hs.length → cs.length = hs.length → ss.length = hs.length →
    Spec (subLoop E k hs ms cs ss carry) c
      (∀ j, j < hs.length →
        AddStep E (cst ms j * c.val k + limb c.val cs j) (limb c.val ss j)
          (hintAt (c.val carry) hs 0 j) (hintAt (c.val carry) hs 0 (j + 1)))
      (fun _ _ => True)
      (fun _ w => ∃ e : ℕ → ZMod p, e 0 = w carry ∧ ∀ j, j < hs.length →
        AddStep E (cst ms j * w k + limb w cs j) (limb w ss j) (e j) (e (j + 1))) := by
  induction hs with
  | nil =>
    intro ms cs ss carry c hc hk ha hs hcar h1 h2 h3
    unfold subLoop
    exact Spec.pure hc trivial (fun w _ _ => ⟨fun _ => w carry, rfl, fun j hj => by simp at hj⟩)
  | cons h hs ih =>
    intro ms cs ss carry c hc hk ha hsv hcar h1 h2 h3
    rcases ms with _ | ⟨m, ms⟩
    · simp at h1
    rcases cs with _ | ⟨a, cs⟩
    · simp at h2
    rcases ss with _ | ⟨s, ss⟩
    · simp at h3
    simp only [List.length_cons, Nat.add_right_cancel_iff] at h1 h2 h3
    have ha0 : a < c.numVars := ha a (by simp)
    have hs0 : s < c.numVars := hsv s (by simp)
    have has : InV cs c := fun x hx => ha x (by simp [hx])
    have hss : InV ss c := fun x hx => hsv x (by simp [hx])
    unfold subLoop
    refine Spec.bind (createVariable_spec hc h True) (fun _ _ _ => trivial) hc ?_
    rintro next c1 e1 ⟨hn1, hx⟩
    refine Spec.bind (enforceBool_spec e1.wf next)
      (fun h _ _ => ⟨hn1, by rw [hx]; exact (h.1 0 (by simp)).1⟩) e1.wf ?_
    rintro _ c2 e2 -
    have e02 := e1.trans e2
    refine Spec.bind (lcGate_spec e2.wf k a carry next s _ _ _ _) ?_ e2.wf ?_
    · rintro ⟨⟨h, -⟩, -⟩ - -
      refine ⟨?_, ?_⟩
      · intro v hv
        simp only [List.mem_cons, List.not_mem_nil, or_false] at hv
        rcases hv with rfl | rfl | rfl | rfl | rfl
        · exact e02.lt hk
        · exact e02.lt ha0
        · exact e02.lt hcar
        · exact e2.lt hn1
        · exact e02.lt hs0
      · rw [e02.val _ hk, e02.val _ ha0, e02.val _ hcar, e02.val _ hs0, e2.val _ hn1, hx,
          cast_pow_two]
        have := (h 0 (by simp)).2
        simp only [limb_zero, cst, List.getD_cons_zero, hintAt_self, hintAt_zero_succ] at this
        linear_combination -this
    rintro _ c4 e4 -
    have e04 := e02.trans e4
    have e14 := e2.trans e4
    refine Spec.conseq e4.wf (ih ms cs ss next e4.wf (e04.lt hk) (has.ext e04)
      (hss.ext e04) (e14.lt hn1) h1 h2 h3) ?_ (fun _ _ _ h => h) ?_
    · rintro ⟨⟨⟨g3, -⟩, -⟩, -⟩ - -
      intro j hj
      have := g3 (j + 1) (by simpa using hj)
      rw [limb_congr has hc e04, limb_congr hss hc e04, e14.val _ hn1, hx, e04.val _ hk]
      exact this
    · intro _ w _ hone h h3 h2 _
      refine glue0 (S := fun j e e' => AddStep E (cst (m :: ms) j * w k + limb w (a :: cs) j)
        (limb w (s :: ss) j) e e') ⟨h2, ?_⟩ h
      rw [cast_pow_two] at h3
      simp only [limb_zero, cst, List.getD_cons_zero]
      linear_combination -h3

/-- what the gates of an addition say about limbs `A`, `B`, `C` with the modulus limbs `M`, the bit `k`,
the sum `S` and the carries `e`, `f` -/
structure AddRel (E : Emu) (M A B C : ℕ → ZMod p) (k : ZMod p) (S e f : ℕ → ZMod p) : Prop where
  bit : k = 0 ∨ k = 1
  e0 : e 0 = 0
  f0 : f 0 = 0
  sr : ∀ j, j < E.n → (S j).val < 2 ^ E.B
  left : ∀ j, j < E.n → AddStep E (A j + B j) (S j) (e j) (e (j + 1))
  right : ∀ j, j < E.n → AddStep E (M j * k + C j) (S j) (f j) (f (j + 1))

theorem addGateWith_spec [Fact p.Prime] (E : Emu) (a b y : List ℕ) (k : Bool) (sum : ℕ)
    (h1 h2 : List (ZMod p)) {c : Circ p} (hc : WF c) (hr : RangeOK c) (hB : 0 < E.B)
    (hbits : c.ultra = none → E.B ≤ bigintBits p)
    (ha : InV a c) (hb : InV b c) (hy : InV y c) (hla : a.length = E.n) (hlb : b.length = E.n)
    (hly : y.length = E.n) (hl1 : h1.length = E.n) (hl2 : h2.length = E.n) :
    Spec (addGateWith E a b y k sum h1 h2) c
      (AddRel E (cst (toLimbs p E.q E.B E.n)) (limb c.val a) (limb c.val b) (limb c.val y) (boolF k)
        (cst (toLimbs p sum E.B E.n)) (hintAt 0 h1 0) (hintAt 0 h2 0))
      (fun _ _ => True)
      (fun _ w => ∃ k S e f, AddRel E (cst (toLimbs p E.q E.B E.n)) (limb w a) (limb w b) (limb w y) k
        S e f) := by
  unfold addGateWith
  refine Spec.bind (createBooleanVariable_spec hc k) (fun _ _ _ => trivial) hc ?_
  rintro vk c1 e1 ⟨hvk, hkv⟩
  refine Spec.bind (createVars_spec _ e1.wf) (fun _ _ _ => trivial) e1.wf ?_
  rintro s c2 e2 ⟨hls, hs, hsm⟩
  rw [toLimbs_length] at hls
  have e02 := e1.trans e2
  have hs2 : InV s c2 := hs
  have hsv : ∀ {cc : Circ p} (_ : Ext c2 cc), cc.val 0 = 0 →
      limb cc.val s = cst (toLimbs p sum E.B E.n) := by
    intro cc e h0
    refine limb_of_map h0 ?_
    rw [← hsm]
    exact List.map_congr_left (fun v hv => e.val v (hs v hv))
  refine Spec.bind (addLoop_spec E h1 a b s 0 e2.wf (hr.ext e02) (ha.ext e02) (hb.ext e02) hs2
    e2.wf.z (by omega) (by omega) (by omega)) ?_ e2.wf ?_
  · rintro ⟨⟨h, -⟩, -⟩ h0 -
    refine ⟨hB, by rw [e02.ultra]; exact hbits, ?_⟩
    intro j hj
    rw [hsv (Ext.refl e2.wf) h0, limb_congr ha hc e02, limb_congr hb hc e02, h0]
    exact ⟨h.left j (by omega), h.sr j (by omega)⟩
  rintro _ c3 e3 -
  have e03 := e02.trans e3
  refine Spec.conseq e3.wf (subLoop_spec E vk h2 _ y s 0 e3.wf ((e2.trans e3).lt hvk) (hy.ext e03)
    (hs2.ext e3) e3.wf.z (by rw [toLimbs_length]; omega) (by omega) (by omega)) ?_
    (fun _ _ _ h => h) ?_
  · rintro ⟨⟨⟨h, -⟩, -⟩, -⟩ h0 -
    intro j hj
    rw [hsv e3 h0, limb_congr hy hc e03, h0, (e2.trans e3).val _ hvk, hkv]
    exact h.right j (by omega)
  · rintro _ w h0 - ⟨f, hf0, hf⟩ ⟨e, he0, he⟩ - hbit
    exact ⟨w vk, limb w s, e, f, hbit, by rw [he0, h0], by rw [hf0, h0],
      fun j hj => (he j (by omega)).2, fun j hj => (he j (by omega)).1, fun j hj => hf j (by omega)⟩

theorem addConstGateWith_spec [Fact p.Prime] (E : Emu) (a : List ℕ) (valB : ℕ) (y : List ℕ) (k : Bool)
    (sum : ℕ) (h1 h2 : List (ZMod p)) {c : Circ p} (hc : WF c) (hr : RangeOK c) (hB : 0 < E.B)
    (hbits : c.ultra = none → E.B ≤ bigintBits p)
    (ha : InV a c) (hy : InV y c) (hla : a.length = E.n)
    (hly : y.length = E.n) (hl1 : h1.length = E.n) (hl2 : h2.length = E.n) :
    Spec (addConstGateWith E a valB y k sum h1 h2) c
      (AddRel E (cst (toLimbs p E.q E.B E.n)) (limb c.val a) (cst (toLimbs p valB E.B E.n))
        (limb c.val y) (boolF k)
        (cst (toLimbs p sum E.B E.n)) (hintAt 0 h1 0) (hintAt 0 h2 0))
      (fun _ _ => True)
      (fun _ w => ∃ k S e f, AddRel E (cst (toLimbs p E.q E.B E.n)) (limb w a)
        (cst (toLimbs p valB E.B E.n)) (limb w y) k S e f) := by
  unfold addConstGateWith
  refine Spec.bind (createBooleanVariable_spec hc k) (fun _ _ _ => trivial) hc ?_
  rintro vk c1 e1 ⟨hvk, hkv⟩
  refine Spec.bind (createVars_spec _ e1.wf) (fun _ _ _ => trivial) e1.wf ?_
  rintro s c2 e2 ⟨hls, hs, hsm⟩
  rw [toLimbs_length] at hls
  have e02 := e1.trans e2
  have hs2 : InV s c2 := hs
  have hsv : ∀ {cc : Circ p} (_ : Ext c2 cc), cc.val 0 = 0 →
      limb cc.val s = cst (toLimbs p sum E.B E.n) := by
    intro cc e h0
    refine limb_of_map h0 ?_
    rw [← hsm]
    exact List.map_congr_left (fun v hv => e.val v (hs v hv))
  refine Spec.bind (addConstLoop_spec E h1 a _ s 0 e2.wf (hr.ext e02) (ha.ext e02) hs2
    e2.wf.z (by omega) (by rw [toLimbs_length]; omega) (by omega)) ?_ e2.wf ?_
  · rintro ⟨⟨h, -⟩, -⟩ h0 -
    refine ⟨hB, by rw [e02.ultra]; exact hbits, ?_⟩
    intro j hj
    rw [hsv (Ext.refl e2.wf) h0, limb_congr ha hc e02, h0]
    exact ⟨h.left j (by omega), h.sr j (by omega)⟩
  rintro _ c3 e3 -
  have e03 := e02.trans e3
  refine Spec.conseq e3.wf (subLoop_spec E vk h2 _ y s 0 e3.wf ((e2.trans e3).lt hvk) (hy.ext e03)
    (hs2.ext e3) e3.wf.z (by rw [toLimbs_length]; omega) (by omega) (by omega)) ?_
    (fun _ _ _ h => h) ?_
  · rintro ⟨⟨⟨h, -⟩, -⟩, -⟩ h0 -
    intro j hj
    rw [hsv e3 h0, limb_congr hy hc e03, h0, (e2.trans e3).val _ hvk, hkv]
    exact h.right j (by omega)
  · rintro _ w h0 - ⟨f, hf0, hf⟩ ⟨e, he0, he⟩ - hbit
    exact ⟨w vk, limb w s, e, f, hbit, by rw [he0, h0], by rw [hf0, h0],
      fun j hj => (he j (by omega)).2, fun j hj => (he j (by omega)).1, fun j hj => hf j (by omega)⟩

end Verif.Circuit
