import Verif.Circuit.RescueNonNative
import Verif.Circuit.RescueSpec
import Verif.Circuit.VerifierAggSpec

/-!
# Specifications of the non-native Rescue gadgets

`Un I k n N w a x`: the number the limbs of `x` stand for is, up to at most `n · 2^k` times `Q` and modulo `p`, a number below
`N · 2^(2m)` standing for `a`. Outputs of `mod_add`, `mod_add_constant` have this form; nothing bounds their limbs. A gate that
sets them equal to limbs in range makes them stand for `a` (`Un.ew`).
-/

set_option linter.unusedSectionVars false

namespace Verif.Circuit.RescueNN

open Verif.Circuit Verif.Circuit.VerifierPoly Verif.Circuit.VerifierAgg
open Verif.Rescue (Vec Mat Consts PRP Good)
open Verif.Conv (fieldSwitching)

section

variable {p : ℕ} [hp : Fact p.Prime] {α β γ : Type} {H : Prop}

theorem get_zip (f : α → β → γ) (v : Vec α) (w : Vec β) (i : Fin 4) :
    (Vec.zipWith f v w).get i = f (v.get i) (w.get i) := by
  fin_cases i <;> rfl

theorem vecM_spec {f : α → Build p β} {v : Vec α} {c : Circ p} {B : Fin 4 → β → Circ p → Prop}
    {R : Fin 4 → β → (ℕ → ZMod p) → Prop} (hc : WF c)
    (hB : ∀ i u c1 c2, Ext c1 c2 → B i u c1 → B i u c2)
    (h : ∀ i c1, Ext c c1 → Spec (f (v.get i)) c1 H (B i) (R i)) :
    Spec (vecM f v) c H (fun u c' => ∀ i, B i (u.get i) c') (fun u w => ∀ i, R i (u.get i) w) := by
  unfold vecM
  refine hbind hc (h 0 c (Ext.refl hc)) ?_
  intro u0 c0 e0 b0
  refine hbind e0.wf (h 1 c0 e0) ?_
  intro u1 c1 e1 b1
  have x1 := e0.trans e1
  refine hbind e1.wf (h 2 c1 x1) ?_
  intro u2 c2 e2 b2
  have x2 := x1.trans e2
  refine hbind e2.wf (h 3 c2 x2) ?_
  intro u3 c3 e3 b3
  refine Spec.pure e3.wf ?_ ?_
  · intro i
    fin_cases i
    · exact hB _ _ _ _ ((e1.trans e2).trans e3) b0
    · exact hB _ _ _ _ (e2.trans e3) b1
    · exact hB _ _ _ _ e3 b2
    · exact b3
  · intro w _ _ r3 r2 r1 r0 i
    fin_cases i
    exacts [r0, r1, r2, r3]

/-- a loop whose turns leave the circuit as it is -/
theorem vecM_pure {f : α → Build p β} {v : Vec α} {c : Circ p} {u : Vec β}
    (h : ∀ i, f (v.get i) c = .ok (u.get i, c)) : vecM f v c = .ok (u, c) := by
  have h0 : f v.a c = .ok (u.a, c) := h 0
  have h1 : f v.b c = .ok (u.b, c) := h 1
  have h2 : f v.c c = .ok (u.c, c) := h 2
  have h3 : f v.d c = .ok (u.d, c) := h 3
  unfold vecM
  rw [bind_of_ok h0, bind_of_ok h1, bind_of_ok h2, bind_of_ok h3, pure_eq]

/-- a choice for each entry -/
theorem vec_choice {P : Fin 4 → β → Prop} (h : ∀ i, ∃ u, P i u) : ∃ u : Vec β, ∀ i, P i (u.get i) := by
  obtain ⟨u0, h0⟩ := h 0
  obtain ⟨u1, h1⟩ := h 1
  obtain ⟨u2, h2⟩ := h 2
  obtain ⟨u3, h3⟩ := h 3
  refine ⟨⟨u0, u1, u2, u3⟩, fun i => ?_⟩
  fin_cases i
  exacts [h0, h1, h2, h3]

theorem spec_pureM {m : Build p α} {c : Circ p} {B : α → Circ p → Prop} {R : α → (ℕ → ZMod p) → Prop}
    (h : Spec (m >>= fun x => pure x) c H B R) : Spec m c H B R := by
  rwa [build_bind_pure] at h

end

variable {p : ℕ} [hp : Fact p.Prime] {Q : ℕ} [hQ : Fact Q.Prime] {I : Info p} {k : ℕ} {H : Prop} {β : Type}

/-! ## Sums -/

/-- see the file header -/
def Un (I : Info p) (k n N : ℕ) (w : ℕ → ZMod p) (a : ZMod Q) (x : FpElemVar p) : Prop :=
  ∃ d ≤ n * 2 ^ k, ∃ V < N * 2 ^ (2 * I.mod.m),
    ((x.num I.mod w + d * Q : ℕ) : ZMod p) = ((V : ℕ) : ZMod p) ∧ ((V : ℕ) : ZMod Q) = a

theorem Un.of_ew {w : ℕ → ZMod p} {a : ZMod Q} {x : FpElemVar p} (h : Ew I.mod w a x) : Un I k 0 1 w a x :=
  ⟨0, by simp, x.num I.mod w, by rw [one_mul]; exact num_lt h.1, by simp, h.2⟩

theorem Un.mono {n n' N N' : ℕ} {w : ℕ → ZMod p} {a : ZMod Q} {x : FpElemVar p} (h : Un I k n N w a x) (hn : n ≤ n')
    (hN : N ≤ N') : Un I k n' N' w a x := by
  obtain ⟨d, hd, V, hV, e⟩ := h
  exact ⟨d, hd.trans (Nat.mul_le_mul_right _ hn), V, hV.trans_le (Nat.mul_le_mul_right _ hN), e⟩

theorem Un.ew (h : Par I Q k) {n N : ℕ} {w : ℕ → ZMod p} {a : ZMod Q} {x : FpElemVar p} (hu : Un I k n N w a x)
    (hn : n ≤ 3) (hN : N ≤ 16) (hs : x.Small I.mod w) : Ew I.mod w a x := by
  obtain ⟨d, hd, V, hV, e, rfl⟩ := hu
  refine ⟨hs, ?_⟩
  have h4 := two_pow_k h
  have hx := num_lt hs
  have hq := h.q_lt
  have hw' : 4 * (2 ^ k * 2 ^ (2 * I.mod.m)) ≤ p := by
    refine le_trans (le_of_eq ?_) h.wide
    rw [pow_add, pow_add]; ring
  generalize 2 ^ (2 * I.mod.m) = M at *
  generalize 2 ^ k = K at *
  have hd3 : d ≤ 3 * K := hd.trans (Nat.mul_le_mul_right _ hn)
  have hdq : d * Q ≤ 3 * K * M := Nat.mul_le_mul hd3 hq.le
  have hKM : 4 * M ≤ K * M := Nat.mul_le_mul_right _ h4
  have hNM : N * M ≤ 16 * M := Nat.mul_le_mul_right _ hN
  have h3 : 3 * K * M = 3 * (K * M) := by ring
  have hM : 0 < M := by omega
  have hlt : x.num I.mod w + d * Q < p := by rw [h3] at hdq; omega
  have hVp : V < p := by omega
  have e' := congrArg ZMod.val e
  rw [ZMod.val_natCast_of_lt hlt, ZMod.val_natCast_of_lt hVp] at e'
  unfold El
  rw [← e']
  push_cast
  rw [ZMod.natCast_self, mul_zero, add_zero]

theorem Un.add_cst {n N d : ℕ} {w : ℕ → ZMod p} {a b : ZMod Q} {x v : FpElemVar p} (h : Par I Q k) (hx : Un I k n N w a x)
    (hd : d < 2 ^ k) (hh : ((v.num I.mod w + d * Q : ℕ) : ZMod p) = ((x.num I.mod w + b.val : ℕ) : ZMod p)) :
    Un I k (n + 1) (N + 1) w (a + b) v := by
  obtain ⟨d', hd', V, hV, e, rfl⟩ := hx
  refine ⟨d + d', ?_, V + b.val, ?_, ?_, ?_⟩
  · rw [add_mul]; omega
  · have := (ZMod.val_lt b).trans h.q_lt
    rw [add_mul]; omega
  · push_cast at hh e ⊢
    linear_combination hh + e
  · push_cast
    rw [ZMod.natCast_val, ZMod.cast_id]

theorem Un.add {n N n' N' d : ℕ} {w : ℕ → ZMod p} {a b : ZMod Q} {x y v : FpElemVar p} (hx : Un I k n N w a x)
    (hy : Un I k n' N' w b y)
    (hd : d < 2 ^ k) (hh : ((v.num I.mod w + d * Q : ℕ) : ZMod p) = ((x.num I.mod w + y.num I.mod w : ℕ) : ZMod p)) :
    Un I k (n + n' + 1) (N + N') w (a + b) v := by
  obtain ⟨d', hd', V, hV, e, rfl⟩ := hx
  obtain ⟨d'', hd'', V', hV', e', rfl⟩ := hy
  refine ⟨d + d' + d'', ?_, V + V', ?_, ?_, ?_⟩
  · rw [add_mul, add_mul]; omega
  · rw [add_mul]; omega
  · push_cast at hh e e' ⊢
    linear_combination hh + e + e'
  · push_cast; rfl

theorem addConst_un (h : Par I Q k) {c : Circ p} (hc : Ctx H k c) {x : FpElemVar p} {y : FpElem p} {a b : ZMod Q}
    (hx : Hol H I.mod a x c) (hy : Cst I b y) :
    Spec (modAddConstant x y I.mod) c H (fun v c' => Hol H I.mod (a + b) v c')
      (fun v w => ∀ (n N : ℕ) (a : ZMod Q), Un I k n N w a x → Un I k (n + 1) (N + 1) w (a + b) v) :=
  Spec.conseq hc.wf (addConst_spec h hc hx hy) (fun h _ _ => h) (fun _ _ _ h => h)
    (fun v w _ _ ⟨d, hd, hh⟩ n N a hu => hu.add_cst h hd hh)

theorem add_un (h : Par I Q k) {c : Circ p} (hc : Ctx H k c) {x y : FpElemVar p} {a b : ZMod Q}
    (hx : Hol H I.mod a x c) (hy : Hol H I.mod b y c) :
    Spec (modAdd x y I.mod) c H (fun v c' => Hol H I.mod (a + b) v c')
      (fun v w => ∀ (n N n' N' : ℕ) (a b : ZMod Q), Un I k n N w a x → Un I k n' N' w b y →
        Un I k (n + n' + 1) (N + N') w (a + b) v) :=
  Spec.conseq hc.wf (VerifierPoly.add_spec h hc hx hy) (fun h _ _ => h) (fun _ _ _ h => h)
    (fun v w _ _ ⟨d, hd, hh⟩ n N n' N' a b hu hv => hu.add hv hd hh)

theorem sum_lt_len {M : ℕ} (l : List ℕ) (h : ∀ x ∈ l, x < M) : l.sum ≤ l.length * M := by
  induction l with
  | nil => simp
  | cons x l ih =>
    have := ih fun y hy => h y (List.mem_cons_of_mem _ hy)
    have hx := h x List.mem_cons_self
    rw [List.sum_cons, List.length_cons, add_mul]
    omega

theorem addVec_un (h : Par I Q k) {c : Circ p} (hc : Ctx H k c) {xs : List (FpElemVar p)} {as : List (ZMod Q)}
    (hx : List.Forall₂ (fun x a => Hol H I.mod a x c) xs as) (hl : as.length ≤ 2 ^ k) :
    Spec (modAddVec xs I.mod) c H (fun v c' => Hol H I.mod as.sum v c')
      (fun v w => ∀ as : List (ZMod Q), List.Forall₂ (fun x a => Ew I.mod w a x) xs as →
        Un I k 1 (xs.length + 1) w as.sum v) :=
  Spec.conseq hc.wf (addVec_spec h hc hx hl) (fun h _ _ => h) (fun _ _ _ h => h) (fun v w _ _ g bs hb => by
    obtain ⟨s, e⟩ := el_map hb
    obtain ⟨d, hd, hh⟩ := g
    refine ⟨d, by omega, _, ?_, hh, ?_⟩
    · have := sum_lt_len (M := 2 ^ (2 * I.mod.m)) (xs.map fun x => x.num I.mod w) (by
        intro y hy
        obtain ⟨x, hx, rfl⟩ := List.mem_map.1 hy
        exact num_lt (s x hx))
      rw [List.length_map] at this
      rw [add_mul, one_mul]
      have : 0 < 2 ^ (2 * I.mod.m) := by positivity
      omega
    · rw [← e]
      unfold El
      clear hb e hh s hx
      induction xs with
      | nil => simp
      | cons x xs ih => simp [ih])

/-! ## Constants, reading, new elements -/

theorem elemAt_eq (h : Par I Q k) {x : FpElemVar p} (hx : x.Match I.mod) (y : ZMod p) :
    elemAt x.m x.tpm y = const I y := by
  unfold elemAt const
  rw [hx.1, hx.2, h.m, h.tpm]

theorem newAt_eq (h : Par I Q k) {x : FpElemVar p} (hx : x.Match I.mod) (y : ZMod Q) :
    newAt x.m x.tpm y = newElem I y := by
  unfold newAt newElem
  rw [hx.1, hx.2, h.m, h.tpm]

theorem constAt_eq (h : Par I Q k) {x : FpElemVar p} (hx : x.Match I.mod) (b : ZMod Q) (c : Circ p) :
    ∃ y, constAt x.m x.tpm b c = .ok (y, c) ∧ Cst I b y := by
  have hl : b.val < p := (ZMod.val_lt b).trans h.q_lt_p
  obtain ⟨y, hy, hk⟩ := cst_new (Q := Q) h (x := ((b.val : ℕ) : ZMod p)) (by rw [ZMod.val_natCast_of_lt hl])
  refine ⟨y, ?_, hk⟩
  unfold constAt
  have e1 : (switch p b : Build p _) c = .ok (((b.val : ℕ) : ZMod p), c) := by
    unfold switch; rw [switch_of_lt _ hl]; rfl
  rw [bind_of_ok e1, elemAt_eq h hx]
  unfold const
  rw [hy]
  rfl

/-- the constants of a row -/
theorem consts_bind (h : Par I Q k) {x : FpElemVar p} (hx : x.Match I.mod) {b : Vec (ZMod Q)} {c : Circ p}
    {f : Vec (FpElem p) → Build p β} {B : β → Circ p → Prop} {R : β → (ℕ → ZMod p) → Prop}
    (h2 : ∀ e : Vec (FpElem p), (∀ i, Cst I (b.get i) (e.get i)) → Spec (f e) c H B R) :
    Spec (vecM (constAt x.m x.tpm) b >>= f) c H B R := by
  obtain ⟨u, hu⟩ := vec_choice fun i => constAt_eq h hx (b.get i) c
  exact Spec.of_eq (vecM_pure fun i => (hu i).1) (h2 u fun i => (hu i).2)

/-- the constants of `add_constant_state`: first all conversions, then all splits -/
theorem consts_bind' (h : Par I Q k) {x : FpElemVar p} (hx : x.Match I.mod) {b : Vec (ZMod Q)} {c : Circ p}
    {f : Vec (FpElem p) → Build p β} {B : β → Circ p → Prop} {R : β → (ℕ → ZMod p) → Prop}
    (h2 : ∀ e : Vec (FpElem p), (∀ i, Cst I (b.get i) (e.get i)) → Spec (f e) c H B R) :
    Spec (vecM (switch p) b >>= fun y => vecM (elemAt x.m x.tpm) y >>= f) c H B R := by
  have h1 : ∀ i, ∃ y : ZMod p, (switch p (b.get i) : Build p _) c = .ok (y, c) ∧ y.val = (b.get i).val := fun i => by
    have hl : (b.get i).val < p := (ZMod.val_lt (b.get i)).trans h.q_lt_p
    refine ⟨(((b.get i).val : ℕ) : ZMod p), ?_, ZMod.val_natCast_of_lt hl⟩
    unfold switch; rw [switch_of_lt _ hl]; rfl
  obtain ⟨y, hy⟩ := vec_choice h1
  refine Spec.of_eq (vecM_pure fun i => (hy i).1) ?_
  have h3 : ∀ i, ∃ e : FpElem p, elemAt x.m x.tpm (y.get i) c = .ok (e, c) ∧ Cst I (b.get i) e := fun i => by
    obtain ⟨e, he, hk⟩ := cst_new (Q := Q) h (hy i).2
    refine ⟨e, ?_, hk⟩
    rw [elemAt_eq h hx]
    unfold const
    rw [he]
    rfl
  obtain ⟨e, he⟩ := vec_choice h3
  exact Spec.of_eq (vecM_pure fun i => (he i).1) (h2 e fun i => (he i).2)

/-- the value of a variable -/
theorem wit_eq {c : Circ p} {x : FpElemVar p} (hx : x.In c) :
    (wit x : Build p _) c = .ok (c.val x.v0 + c.val x.v1 * x.tpm, c) := by
  have w0 : (witness x.v0 : Build p _) c = .ok (c.val x.v0, c) := by
    unfold witness; rw [if_neg (by have := hx.1; omega)]
  have w1 : (witness x.v1 : Build p _) c = .ok (c.val x.v1, c) := by
    unfold witness; rw [if_neg (by have := hx.2; omega)]
  unfold wit
  rw [bind_of_ok w0, bind_of_ok w1, pure_eq]

theorem wit_val (h : Par I Q k) {c : Circ p} {x : FpElemVar p} {a : ZMod Q} (hx : Hol H I.mod a x c) (hH : H) :
    (c.val x.v0 + c.val x.v1 * x.tpm).val = a.val := by
  have e : c.val x.v0 + c.val x.v1 * x.tpm = x.felt c.val := by
    unfold FpElemVar.felt; ring
  rw [e, (hx.2.2 hH).felt h hx.2.1, ZMod.val_natCast_of_lt ((ZMod.val_lt a).trans h.q_lt_p)]

/-- the values of the state -/
theorem reads_bind (h : Par I Q k) {c : Circ p} {s : Vec (FpElemVar p)} {a : Vec (ZMod Q)}
    (hs : ∀ i, Hol H I.mod (a.get i) (s.get i) c) {f : Vec (ZMod Q) → Build p β} {B : β → Circ p → Prop}
    {R : β → (ℕ → ZMod p) → Prop} (hc : Ctx H k c)
    (h2 : ∀ r : Vec (ZMod Q), (H → r = a) → Spec (f r) c H B R) :
    Spec (vecM wit s >>= fun y => vecM (switch Q) y >>= f) c H B R := by
  obtain ⟨y, hy⟩ := vec_choice (P := fun i u => (wit (s.get i) : Build p _) c = .ok (u, c) ∧ (H → u.val = (a.get i).val))
    fun i => ⟨_, wit_eq (hs i).1, wit_val h (hs i)⟩
  refine Spec.of_eq (vecM_pure fun i => (hy i).1) ?_
  by_cases hall : ∀ i, ∃ r : ZMod Q, fieldSwitching Q (y.get i) = .ok r
  · obtain ⟨r, hr⟩ := vec_choice hall
    refine Spec.of_eq (vecM_pure (u := r) fun i => by unfold switch; rw [hr i]; rfl) (h2 r fun hH => ?_)
    apply Rescue.Vec.get_injective
    funext i
    have hl : (y.get i).val < Q := by rw [(hy i).2 hH]; exact ZMod.val_lt _
    have := hr i
    rw [switch_of_lt _ hl] at this
    rw [← Except.ok.inj this, (hy i).2 hH, ZMod.natCast_val, ZMod.cast_id]
  · constructor
    · intro u c' hu
      exfalso
      obtain ⟨r, c1, e, _⟩ := bind_ok hu
      apply hall
      unfold vecM at e
      have key : ∀ {z : ZMod p} {c c1 : Circ p} {v : ZMod Q}, (switch Q z : Build p _) c = .ok (v, c1) →
          ∃ r : ZMod Q, fieldSwitching Q z = .ok r := by
        intro z c c1 v hz
        unfold switch at hz
        rcases hx : fieldSwitching Q z with _ | r
        · rw [hx] at hz; cases hz
        · exact ⟨r, rfl⟩
      obtain ⟨_, _, e0, e⟩ := bind_ok e
      obtain ⟨_, _, e1, e⟩ := bind_ok e
      obtain ⟨_, _, e2, e⟩ := bind_ok e
      obtain ⟨_, _, e3, e⟩ := bind_ok e
      intro i
      fin_cases i
      exacts [key e0, key e1, key e2, key e3]
    · intro hH
      exact absurd (fun i => ⟨_, switch_of_lt (y.get i) (by rw [(hy i).2 hH]; exact ZMod.val_lt _)⟩) hall

theorem newAt_spec (h : Par I Q k) {c : Circ p} (hc : Ctx H k c) {x : FpElemVar p} (hx : x.Match I.mod) {y a : ZMod Q}
    (hy : H → y = a) :
    Spec (newAt x.m x.tpm y) c H (fun v c' => Hol H I.mod a v c') (fun v w => v.Small I.mod w) := by
  rw [newAt_eq h hx]
  exact newElem_spec h hc hy

/-- two equal elements -/
theorem eq2_spec {c : Circ p} (hc : Ctx H k c) {x y : FpElemVar p} {a b : ZMod Q}
    (hx : Hol H I.mod a x c) (hy : Hol H I.mod b y c) (hab : H → a = b) :
    Spec (enforceEqual x.v0 y.v0 >>= fun _ => enforceEqual x.v1 y.v1) c H (fun _ _ => True)
      (fun _ w => w x.v0 = w y.v0 ∧ w x.v1 = w y.v1) := by
  have := eq_spec hc hx hy hab
  unfold FpElemVar.enforceEqual at this
  rwa [if_neg (by rw [hx.2.1.1, hx.2.1.2, hy.2.1.1, hy.2.1.2]; simp)] at this

theorem ew_congr {w : ℕ → ZMod p} {a : ZMod Q} {x y : FpElemVar p} (h : w x.v0 = w y.v0 ∧ w x.v1 = w y.v1)
    (hy : Ew I.mod w a y) : Ew I.mod w a x := by
  refine ⟨⟨?_, ?_⟩, ?_⟩
  · rw [h.1]; exact hy.1.1
  · rw [h.2]; exact hy.1.2
  · unfold El; rw [num_congr h]; exact hy.2

/-! ## The gates -/

theorem power11Gen_spec (h : Par I Q k) {c : Circ p} (hc : Ctx H k c) {x : FpElemVar p} {a : ZMod Q}
    (hx : Hol H I.mod a x c) :
    Spec (power11Gen Q x) c H (fun v c' => Hol H I.mod (a ^ 11) v c')
      (fun v w => ∀ a : ZMod Q, Ew I.mod w a x → Ew I.mod w (a ^ 11) v) := by
  unfold power11Gen
  refine Spec.liftE_bind (modulus_new h hx.2.1) ?_
  refine hbind hc.wf (mul_ew h hc hx hx) ?_
  intro x2 c1 e1 h2
  have hc1 := hc.ext e1
  refine hbind e1.wf (mul_ew h hc1 h2 (hx.ext e1)) ?_
  intro x3 c2 e2 h3
  have hc2 := hc1.ext e2
  refine hbind e2.wf (mul_ew h hc2 (h2.ext e2) (h2.ext e2)) ?_
  intro x4 c3 e3 h4
  have hc3 := hc2.ext e3
  refine hbind e3.wf (mul_ew h hc3 h4 h4) ?_
  intro x8 c4 e4 h8
  have hc4 := hc3.ext e4
  have key : ∀ a : ZMod Q, a ^ 11 = a * a * a * (a * a * (a * a) * (a * a * (a * a))) := fun a => by ring
  refine Spec.conseq e4.wf (mul_ew h hc4 ((h3.ext e3).ext e4) h8) (fun h _ _ => h) ?_ ?_
  · intro v c' _ hv
    rwa [key]
  · intro v w _ _ q q8 q4 q3 q2 a ha
    rw [key]
    have g2 := q2 _ _ ha ha
    have g4 := q4 _ _ g2 g2
    exact q _ _ (q3 _ _ g2 ha) (q8 _ _ g4 g4)

theorem power11Gate_spec (h : Par I Q k) {c : Circ p} (hc : Ctx H k c) {x y : FpElemVar p} {a b : ZMod Q}
    (hx : Hol H I.mod a x c) (hy : Hol H I.mod b y c) (hab : H → b = a ^ 11) :
    Spec (power11GateNN Q x y) c H (fun _ _ => True)
      (fun _ w => ∀ a : ZMod Q, Ew I.mod w a x → Ew I.mod w (a ^ 11) y) := by
  unfold power11GateNN
  have hin : ∀ v ∈ [x.v0, x.v1, y.v0, y.v1], v < c.numVars := by
    simp only [List.mem_cons, List.not_mem_nil, or_false]
    rintro v (rfl | rfl | rfl | rfl)
    exacts [hx.1.1, hx.1.2, hy.1.1, hy.1.2]
  refine Spec.checkVars_bind (fun _ => hin) fun _ => ?_
  rw [if_neg (by have := bits_lt h; omega)]
  refine hbind hc.wf (power11Gen_spec h hc hx) ?_
  intro z c1 e1 hz
  refine Spec.conseq e1.wf (eq2_spec (hc.ext e1) (hy.ext e1) hz hab) (fun h _ _ => h) (fun _ _ _ _ => trivial) ?_
  intro _ w _ _ e q a ha
  exact ew_congr e (q a ha)

theorem mulConsts_spec (h : Par I Q k) (l : List (FpElemVar p × FpElem p)) :
    ∀ {c : Circ p} (_ : Ctx H k c) {as bs : List (ZMod Q)}, List.Forall₂ (fun x a => Hol H I.mod a x.1 c) l as →
    List.Forall₂ (fun x b => Cst I b x.2) l bs →
    Spec (mulConsts I.mod l) c H (fun r c' => List.Forall₂ (fun x a => Hol H I.mod a x c') r (List.zipWith (· * ·) as bs))
      (fun r w => ∀ as : List (ZMod Q), List.Forall₂ (fun x a => Ew I.mod w a x.1) l as →
        List.Forall₂ (fun x a => Ew I.mod w a x) r (List.zipWith (· * ·) as bs)) := by
  induction l with
  | nil =>
    intro c hc as bs ha hb
    cases ha; cases hb
    exact Spec.pure hc.wf .nil (fun w _ _ as h => by cases h; exact .nil)
  | cons x l ih =>
    intro c hc as bs ha hb
    obtain ⟨x, y⟩ := x
    cases ha with
    | cons hx ha =>
    cases hb with
    | cons hy hb =>
    rw [mulConsts]
    refine hbind hc.wf (mulConst_ew h hc hx hy) ?_
    intro v c1 e1 hv
    refine hbind e1.wf (ih (hc.ext e1) (ha.imp fun _ _ g => g.ext e1) hb) ?_
    intro r c2 e2 hr
    refine Spec.pure e2.wf ?_ ?_
    · exact .cons (hv.ext e2) hr
    · intro w _ _ q2 q1 as has
      cases has with
      | cons h1 h2 => exact .cons (q1 _ h1) (q2 _ h2)

/-- the dot product with a constant row, and a constant -/
theorem linearGen_spec (h : Par I Q k) {c : Circ p} (hc : Ctx H k c) {s : Vec (FpElemVar p)} {r : Vec (FpElem p)}
    {e : FpElem p} {a row : Vec (ZMod Q)} {b : ZMod Q} (hs : ∀ i, Hol H I.mod (a.get i) (s.get i) c)
    (hr : ∀ i, Cst I (row.get i) (r.get i)) (he : Cst I b e) :
    Spec (linearGen Q s.elems r.elems e) c H (fun v c' => Hol H I.mod (Rescue.dotProduct row a + b) v c')
      (fun v w => ∀ a : Vec (ZMod Q), (∀ i, Ew I.mod w (a.get i) (s.get i)) →
        Un I k 2 6 w (Rescue.dotProduct row a + b) v) := by
  have hm : ∀ x ∈ s.elems, x.m = I.mod.m := by
    simp only [Vec.elems, List.mem_cons, List.not_mem_nil, or_false]
    rintro x (rfl | rfl | rfl | rfl)
    exacts [(hs 0).2.1.1, (hs 1).2.1.1, (hs 2).2.1.1, (hs 3).2.1.1]
  have hm' : ∀ x ∈ r.elems, x.m = I.mod.m := by
    simp only [Vec.elems, List.mem_cons, List.not_mem_nil, or_false]
    rintro x (rfl | rfl | rfl | rfl)
    exacts [(hr 0).m, (hr 1).m, (hr 2).m, (hr 3).m]
  have hsum : ∀ a : Vec (ZMod Q), (List.zipWith (· * ·) a.elems row.elems).sum = Rescue.dotProduct row a := by
    intro a
    simp only [Vec.elems, List.zipWith, List.sum_cons, List.sum_nil, Rescue.dotProduct]
    ring
  unfold linearGen
  rw [if_neg (by have := bits_lt h; omega), if_neg (by simp [Vec.elems]),
    if_neg (by rintro ⟨x, hx, hne⟩; exact hne (by rw [he.m, hm x hx])),
    if_neg (by rintro ⟨x, hx, hne⟩; exact hne (by rw [he.m, hm' x hx]))]
  refine Spec.liftE_bind (v := I.mod) ?_ ?_
  · have := modulus_new h (hs 0).2.1
    rw [(hs 0).2.1.1, (hs 0).2.1.2] at this
    rw [he.m, he.tpm h]; exact this
  refine hbind hc.wf (mulConsts_spec h _ hc (as := a.elems) (bs := row.elems)
    (.cons (hs 0) (.cons (hs 1) (.cons (hs 2) (.cons (hs 3) .nil))))
    (.cons (hr 0) (.cons (hr 1) (.cons (hr 2) (.cons (hr 3) .nil))))) ?_
  intro xy c1 e1 hxy
  have h4 := two_pow_k h
  refine hbind e1.wf (addVec_un h (hc.ext e1) hxy (by simpa [Vec.elems] using h4)) ?_
  intro u c2 e2 hu
  have hc2 := (hc.ext e1).ext e2
  refine Spec.conseq e2.wf (addConst_un h hc2 hu he) (fun h _ _ => h) ?_ ?_
  · intro v c' _ hv
    rwa [hsum] at hv
  · intro v w _ _ q3 q2 q1 a ha
    have g1 := q1 a.elems (.cons (ha 0) (.cons (ha 1) (.cons (ha 2) (.cons (ha 3) .nil))))
    have g2 := q2 _ g1
    have hlen : xy.length = 4 := by rw [hxy.length_eq]; rfl
    rw [hlen, hsum] at g2
    exact q3 _ _ _ g2

/-! ## The rounds -/

/-- the state `S` exists, has the parameters of `I`, and the builder stores `a` in it if `H` -/
structure HolN (H : Prop) (I : Info p) (a : Vec (ZMod Q)) (S : NState p) (c : Circ p) : Prop where
  s : ∀ i, Hol H I.mod (a.get i) (S.s.get i) c
  mod : S.mod = I.mod

theorem HolN.ext {a : Vec (ZMod Q)} {S : NState p} {c c' : Circ p} (h : HolN H I a S c) (e : Ext c c') :
    HolN H I a S c' := ⟨fun i => (h.s i).ext e, h.mod⟩

/-- the state stands for `a` -/
def EwS (I : Info p) (w : ℕ → ZMod p) (a : Vec (ZMod Q)) (S : NState p) : Prop := ∀ i, Ew I.mod w (a.get i) (S.s.get i)

/-- the state is made of sums that stand for `a` -/
def UnS (I : Info p) (k n N : ℕ) (w : ℕ → ZMod p) (a : Vec (ZMod Q)) (S : NState p) : Prop :=
  ∀ i, Un I k n N w (a.get i) (S.s.get i)

theorem EwS.un {w : ℕ → ZMod p} {a : Vec (ZMod Q)} {S : NState p} (h : EwS I w a S) : UnS I k 0 1 w a S :=
  fun i => Un.of_ew (h i)

theorem checkN_bind {a : Vec (ZMod Q)} {s : Vec (FpElemVar p)} {c : Circ p} (hs : ∀ i, Hol H I.mod (a.get i) (s.get i) c)
    {f : Unit → Build p β} {B : β → Circ p → Prop} {R : β → (ℕ → ZMod p) → Prop} (h : Spec (f ()) c H B R) :
    Spec (checkNState s >>= f) c H B R := by
  refine Spec.checkVars_bind (fun _ => ?_) fun _ => h
  simp only [List.mem_cons, List.not_mem_nil, or_false]
  rintro v (rfl | rfl | rfl | rfl | rfl | rfl | rfl | rfl)
  exacts [(hs 0).1.1, (hs 0).1.2, (hs 1).1.1, (hs 1).1.2, (hs 2).1.1, (hs 2).1.2, (hs 3).1.1, (hs 3).1.2]

theorem addVec_get (a b : Vec (ZMod Q)) (i : Fin 4) : (Rescue.addVec a b).get i = a.get i + b.get i := get_zip _ _ _ _

theorem addConstState_spec (h : Par I Q k) {c : Circ p} (hc : Ctx H k c) {S : NState p} {a : Vec (ZMod Q)}
    (hS : HolN H I a S c) (b : Vec (ZMod Q)) :
    Spec (addConstState S b) c H (fun T c' => HolN H I (Rescue.addVec a b) T c')
      (fun T w => ∀ (n N : ℕ) (a : Vec (ZMod Q)), UnS I k n N w a S → UnS I k (n + 1) (N + 1) w (Rescue.addVec a b) T) := by
  unfold addConstState
  refine checkN_bind hS.s ?_
  refine consts_bind' (x := S.s.a) h (hS.s 0).2.1 ?_
  intro e he
  rw [hS.mod]
  refine hbind hc.wf (vecM_spec (B := fun i v c' => Hol H I.mod ((Rescue.addVec a b).get i) v c')
    (R := fun i v w => ∀ (n N : ℕ) (a : ZMod Q), Un I k n N w a (S.s.get i) → Un I k (n + 1) (N + 1) w (a + b.get i) v)
    hc.wf (fun _ _ _ _ e g => g.ext e) ?_) ?_
  · intro i c1 e1
    rw [get_zip, addVec_get]
    exact addConst_un h (hc.ext e1) ((hS.s i).ext e1) (he i)
  · intro s c1 e1 hs
    refine Spec.pure e1.wf ⟨hs, rfl⟩ ?_
    intro w _ _ q n N a hu i
    rw [addVec_get]
    exact q i n N _ (hu i)

theorem modNe_self (a : FpElem p) : ¬ modNe a a := by
  unfold modNe; simp

theorem addStateNN_spec (h : Par I Q k) {c : Circ p} (hc : Ctx H k c) {S T : NState p} {a b : Vec (ZMod Q)}
    (hS : HolN H I a S c) (hT : HolN H I b T c) :
    Spec (addStateNN S T) c H (fun U c' => HolN H I (Rescue.addVec a b) U c')
      (fun U w => ∀ (n N n' N' : ℕ) (a b : Vec (ZMod Q)), UnS I k n N w a S → UnS I k n' N' w b T →
        UnS I k (n + n' + 1) (N + N') w (Rescue.addVec a b) U) := by
  unfold addStateNN
  refine checkN_bind hS.s (checkN_bind hT.s ?_)
  rw [if_neg (by rw [hS.mod, hT.mod]; exact modNe_self _), hS.mod]
  refine hbind hc.wf (vecM_spec (B := fun i v c' => Hol H I.mod ((Rescue.addVec a b).get i) v c')
    (R := fun i v w => ∀ (n N n' N' : ℕ) (a b : ZMod Q), Un I k n N w a (S.s.get i) → Un I k n' N' w b (T.s.get i) →
      Un I k (n + n' + 1) (N + N') w (a + b) v)
    hc.wf (fun _ _ _ _ e g => g.ext e) ?_) ?_
  · intro i c1 e1
    rw [get_zip, addVec_get]
    exact add_un h (hc.ext e1) ((hS.s i).ext e1) ((hT.s i).ext e1)
  · intro s c1 e1 hs
    refine Spec.pure e1.wf ⟨hs, rfl⟩ ?_
    intro w _ _ q n N n' N' a b hu hv i
    rw [addVec_get]
    exact q i n N n' N' _ _ (hu i) (hv i)

theorem powAlphaInvNN_spec (h : Par I Q k) {c : Circ p} (hc : Ctx H k c) {K : Consts} (hA : K.A = 11) (hg : Good Q K)
    {x : FpElemVar p} {a : ZMod Q} (hx : Hol H I.mod a x c) :
    Spec (powAlphaInvNN Q K x) c H (fun v c' => Hol H I.mod (a ^ Rescue.limbsVal K.aInv) v c')
      (fun v w => ∀ (n N : ℕ) (a : ZMod Q), n ≤ 3 → N ≤ 16 → Un I k n N w a x →
        Ew I.mod w (a ^ Rescue.limbsVal K.aInv) v) := by
  have hinv : ∀ y : ZMod Q, (y ^ 11) ^ Rescue.limbsVal K.aInv = y := by
    rw [← hA]; exact Rescue.pow_mul_eq hg.exps hg.pos
  have hinv' : ∀ y : ZMod Q, (y ^ Rescue.limbsVal K.aInv) ^ 11 = y := by
    rw [← hA]; exact Rescue.pow_mul_eq (by rw [mul_comm]; exact hg.exps) (by rw [mul_comm]; exact hg.pos)
  unfold powAlphaInvNN
  refine Spec.checkVars_bind (fun _ => ?_) fun _ => ?_
  · simp only [List.mem_cons, List.not_mem_nil, or_false]
    rintro v (rfl | rfl)
    exacts [hx.1.1, hx.1.2]
  rw [if_pos hA]
  refine read_bind h hx ?_
  intro r hr
  refine hbind hc.wf (newAt_spec h hc hx.2.1 (a := a ^ Rescue.limbsVal K.aInv) (fun hH => by rw [hr hH])) ?_
  intro o c1 e1 ho
  have hc1 := hc.ext e1
  refine hbind e1.wf (power11Gate_spec h hc1 ho (hx.ext e1) (fun _ => (hinv' a).symm)) ?_
  intro _ c2 e2 _
  refine Spec.pure e2.wf (ho.ext e2) ?_
  intro w _ _ q2 so n N a hn hN hu
  have g := q2 (El Q I.mod w o) ⟨so, rfl⟩
  have g' := hu.ew h hn hN g.1
  refine ⟨so, ?_⟩
  rw [← g'.2, g.2, hinv]

theorem powVec_get (a : Vec (ZMod Q)) (e : List ℕ) (i : Fin 4) : (Rescue.powVec a e).get i = a.get i ^ Rescue.limbsVal e :=
  Rescue.get_map _ _ _

theorem powAlphaInvStateNN_spec (h : Par I Q k) {c : Circ p} (hc : Ctx H k c) {K : Consts} (hA : K.A = 11) (hg : Good Q K)
    {S : NState p} {a : Vec (ZMod Q)} (hS : HolN H I a S c) :
    Spec (powAlphaInvStateNN Q K S) c H (fun T c' => HolN H I (Rescue.powVec a K.aInv) T c')
      (fun T w => ∀ (n N : ℕ) (a : Vec (ZMod Q)), n ≤ 3 → N ≤ 16 → UnS I k n N w a S →
        EwS I w (Rescue.powVec a K.aInv) T) := by
  unfold powAlphaInvStateNN
  refine checkN_bind hS.s ?_
  refine hbind hc.wf (vecM_spec (B := fun i v c' => Hol H I.mod ((Rescue.powVec a K.aInv).get i) v c')
    (R := fun i v w => ∀ (n N : ℕ) (a : ZMod Q), n ≤ 3 → N ≤ 16 → Un I k n N w a (S.s.get i) →
      Ew I.mod w (a ^ Rescue.limbsVal K.aInv) v)
    hc.wf (fun _ _ _ _ e g => g.ext e) ?_) ?_
  · intro i c1 e1
    rw [powVec_get]
    exact powAlphaInvNN_spec h (hc.ext e1) hA hg ((hS.s i).ext e1)
  · intro s c1 e1 hs
    refine Spec.pure e1.wf ⟨hs, hS.mod⟩ ?_
    intro w _ _ q n N a hn hN hu i
    rw [powVec_get]
    exact q i n N _ hn hN (hu i)

theorem linear_get (a : Vec (ZMod Q)) (M : Mat (ZMod Q)) (b : Vec (ZMod Q)) (i : Fin 4) :
    (Rescue.linear a M b).get i = Rescue.dotProduct (M.get i) a + b.get i := by
  unfold Rescue.linear
  rw [addVec_get, Rescue.mulVec, Rescue.get_map]

theorem affineRow_spec (h : Par I Q k) {c : Circ p} (hc : Ctx H k c) {s : Vec (FpElemVar p)} {a row : Vec (ZMod Q)}
    {e : FpElem p} {b o : ZMod Q} {y : FpElemVar p} (hs : ∀ i, Hol H I.mod (a.get i) (s.get i) c) (he : Cst I b e)
    (hy : Hol H I.mod o y c) (ho : H → o = Rescue.dotProduct row a + b) :
    Spec (affineRow s s.a.m s.a.tpm (row, e, y)) c H (fun _ _ => True)
      (fun _ w => ∀ a : Vec (ZMod Q), (∀ i, Ew I.mod w (a.get i) (s.get i)) → y.Small I.mod w →
        Ew I.mod w (Rescue.dotProduct row a + b) y) := by
  unfold affineRow
  refine consts_bind (x := s.a) h (hs 0).2.1 ?_
  intro r hr
  refine hbind hc.wf (linearGen_spec h hc hs hr he) ?_
  intro z c1 e1 hz
  refine Spec.conseq e1.wf (eq2_spec (hc.ext e1) (hy.ext e1) hz ho) (fun h _ _ => h) (fun _ _ _ _ => trivial) ?_
  intro _ w _ _ g q a ha sy
  have sz : z.Small I.mod w := ⟨by rw [← g.1]; exact sy.1, by rw [← g.2]; exact sy.2⟩
  exact ew_congr g ((q a ha).ew h (by omega) (by omega) sz)

theorem affineNN_spec (h : Par I Q k) {c : Circ p} (hc : Ctx H k c) {S : NState p} {a : Vec (ZMod Q)}
    (hS : HolN H I a S c) (M : Mat (ZMod Q)) (b : Vec (ZMod Q)) :
    Spec (affineNN S M b) c H (fun T c' => HolN H I (Rescue.linear a M b) T c')
      (fun T w => ∀ a : Vec (ZMod Q), EwS I w a S → EwS I w (Rescue.linear a M b) T) := by
  unfold affineNN
  refine checkN_bind hS.s ?_
  refine reads_bind h hS.s hc ?_
  intro r hr
  refine consts_bind (x := S.s.a) h (hS.s 0).2.1 ?_
  intro e he
  refine hbind hc.wf (vecM_spec (B := fun i v c' => Hol H I.mod ((Rescue.linear a M b).get i) v c')
    (R := fun i v w => v.Small I.mod w) hc.wf (fun _ _ _ _ e g => g.ext e)
    (fun i c1 e1 => newAt_spec h (hc.ext e1) (x := S.s.a) (hS.s 0).2.1 (fun hH => by rw [hr hH]))) ?_
  intro o c1 e1 ho
  have hc1 := hc.ext e1
  refine hbind e1.wf (vecM_spec (B := fun _ _ _ => True)
    (R := fun i _ w => ∀ a : Vec (ZMod Q), (∀ i, Ew I.mod w (a.get i) (S.s.get i)) → (o.get i).Small I.mod w →
        Ew I.mod w (Rescue.dotProduct (M.get i) a + b.get i) (o.get i)) e1.wf (fun _ _ _ _ _ g => g) ?_) ?_
  · intro i c2 e2
    rw [get_zip, get_zip]
    exact affineRow_spec h (hc1.ext e2) (fun j => (hS.s j).ext (e1.trans e2)) (he i) ((ho i).ext e2)
      (fun _ => linear_get a M b i)
  · intro _ c2 e2 _
    refine Spec.pure e2.wf ⟨fun i => (ho i).ext e2, hS.mod⟩ ?_
    intro w _ _ q1 q2 a ha i
    rw [linear_get]
    exact q1 i a ha (q2 i)

theorem power11RowNN_spec (h : Par I Q k) {c : Circ p} (hc : Ctx H k c) {x z : FpElemVar p} {a r : ZMod Q}
    (hx : Hol H I.mod a x c) (hz : z.Match I.mod) (hr : H → r = a) :
    Spec (power11RowNN 11 z.m z.tpm (x, r)) c H (fun v c' => Hol H I.mod (a ^ 11) v c')
      (fun v w => ∀ a : ZMod Q, Ew I.mod w a x → Ew I.mod w (a ^ 11) v) := by
  unfold power11RowNN
  refine hbind hc.wf (newAt_spec h hc hz (a := a ^ 11) (fun hH => by rw [hr hH])) ?_
  intro y c1 e1 hy
  refine hbind e1.wf (power11Gate_spec h (hc.ext e1) (hx.ext e1) hy (fun _ => rfl)) ?_
  intro _ c2 e2 _
  exact Spec.pure e2.wf (hy.ext e2) fun w _ _ q _ a ha => q a ha

theorem nonLinearNN_spec (h : Par I Q k) {c : Circ p} (hc : Ctx H k c) {K : Consts} (hA : K.A = 11)
    {S : NState p} {a : Vec (ZMod Q)} (hS : HolN H I a S c) (M : Mat (ZMod Q)) (b : Vec (ZMod Q)) :
    Spec (nonLinearNN K S M b) c H (fun T c' => HolN H I (Rescue.linear (Rescue.powVec a [K.A]) M b) T c')
      (fun T w => ∀ a : Vec (ZMod Q), EwS I w a S → EwS I w (Rescue.linear (Rescue.powVec a [K.A]) M b) T) := by
  unfold nonLinearNN
  refine checkN_bind hS.s ?_
  refine reads_bind h hS.s hc ?_
  intro r hr
  rw [if_pos hA, hS.mod, hA, ← (hS.s 0).2.1.1]
  refine hbind hc.wf (vecM_spec (B := fun i v c' => Hol H I.mod ((Rescue.powVec a [11]).get i) v c')
    (R := fun i v w => ∀ a : ZMod Q, Ew I.mod w a (S.s.get i) → Ew I.mod w (a ^ 11) v) hc.wf
    (fun _ _ _ _ e g => g.ext e) ?_) ?_
  · intro i c1 e1
    rw [get_zip, powVec_get, Rescue.limbsVal_single]
    exact power11RowNN_spec h (hc.ext e1) ((hS.s i).ext e1) (z := S.s.a) (hS.s 0).2.1 (fun hH => by rw [hr hH])
  · intro y c1 e1 hy
    refine Spec.conseq e1.wf (affineNN_spec h (hc.ext e1) (S := ⟨y, I.mod⟩) ⟨hy, rfl⟩ M b) (fun h _ _ => h)
      (fun _ _ _ g => g) ?_
    intro T w _ _ q1 q2 a ha
    refine q1 _ fun i => ?_
    rw [powVec_get, Rescue.limbsVal_single]
    exact q2 i _ (ha i)

/-- a round: for even rounds the input may be made of sums -/
theorem roundNN_spec (h : Par I Q k) {c : Circ p} (hc : Ctx H k c) {K : Consts} (hA : K.A = 11) (hg : Good Q K)
    {S : NState p} {a : Vec (ZMod Q)} (hS : HolN H I a S c) (M : Mat (ZMod Q)) (r : ℕ) (b : Vec (ZMod Q)) :
    Spec (roundNN K M r S b) c H (fun T c' => HolN H I (Rescue.linear (Rescue.powVec a (Rescue.expOf K r)) M b) T c')
      (fun T w => ∀ (n N : ℕ) (a : Vec (ZMod Q)), n ≤ 3 → N ≤ 16 → UnS I k n N w a S →
        (r % 2 = 0 ∨ ∀ i, (S.s.get i).Small I.mod w) →
        EwS I w (Rescue.linear (Rescue.powVec a (Rescue.expOf K r)) M b) T) := by
  unfold roundNN Rescue.expOf
  by_cases hr : r % 2 = 0
  · rw [if_pos hr, if_pos hr]
    refine hbind hc.wf (powAlphaInvStateNN_spec h hc hA hg hS) ?_
    intro T c1 e1 hT
    refine Spec.conseq e1.wf (affineNN_spec h (hc.ext e1) hT M b) (fun h _ _ => h) (fun _ _ _ g => g) ?_
    intro U w _ _ q1 q2 n N a hn hN hu _
    exact q1 _ (q2 n N a hn hN hu)
  · rw [if_neg hr, if_neg hr]
    refine Spec.conseq hc.wf (nonLinearNN_spec h hc hA hS M b) (fun h _ _ => h) (fun _ _ _ g => g) ?_
    intro U w _ _ q n N a hn hN hu hs
    exact q a fun i => (hu i).ew h hn hN (hs.resolve_left hr i)

theorem EwS.small {w : ℕ → ZMod p} {a : Vec (ZMod Q)} {S : NState p} (h : EwS I w a S) (i : Fin 4) :
    (S.s.get i).Small I.mod w := (h i).1

theorem constKeysNN_spec (h : Par I Q k) {K : Consts} (hA : K.A = 11) (hg : Good Q K) (M : Mat (ZMod Q))
    (ks : List (Vec (ZMod Q))) : ∀ {c : Circ p} (_ : Ctx H k c) (r : ℕ) {S : NState p} {a : Vec (ZMod Q)}, HolN H I a S c →
    Spec (constKeysNN K M r ks S) c H (fun T c' => HolN H I (Rescue.roundLoop K M r ks a) T c')
      (fun T w => (∀ a : Vec (ZMod Q), EwS I w a S → EwS I w (Rescue.roundLoop K M r ks a) T) ∧
        ∀ (n N : ℕ) (a : Vec (ZMod Q)), r % 2 = 0 → ks ≠ [] → n ≤ 3 → N ≤ 16 → UnS I k n N w a S →
        EwS I w (Rescue.roundLoop K M r ks a) T) := by
  induction ks with
  | nil =>
    intro c hc r S a hS
    exact Spec.pure hc.wf hS (fun w _ _ => ⟨fun a ha => ha, fun n N a _ h => absurd rfl h⟩)
  | cons b ks ih =>
    intro c hc r S a hS
    unfold constKeysNN
    refine hbind hc.wf (roundNN_spec h hc hA hg hS M r b) ?_
    intro T c1 e1 hT
    refine Spec.conseq e1.wf (ih (hc.ext e1) (r + 1) hT) (fun h _ _ => h) (fun _ _ _ g => g) ?_
    intro U w _ _ q1 q2
    refine ⟨fun a ha => ?_, fun n N a hr _ hn hN hu => ?_⟩
    · exact q1.1 _ (q2 0 1 a (by omega) (by omega) ha.un (Or.inr ha.small))
    · exact q1.1 _ (q2 n N a hn hN hu (Or.inl hr))

theorem permNN_spec (h : Par I Q k) {c : Circ p} (hc : Ctx H k c) {K : Consts} {f : Vec (ZMod Q) → Vec (ZMod Q)}
    (hA : K.A = 11) (hf : HashOk K f) {S : NState p} {a : Vec (ZMod Q)} (hS : HolN H I a S c) :
    Spec (permNN Q K S) c H (fun T c' => HolN H I (f a) T c')
      (fun T w => ∀ (n N : ℕ) (a : Vec (ZMod Q)), n ≤ 2 → N ≤ 15 → UnS I k n N w a S → EwS I w (f a) T) := by
  unfold permNN permWithKeysNN
  have hev := hf.eval
  have hk : (Rescue.Permutation.default K : Rescue.Permutation (ZMod Q)).roundKeys.length = 2 * Rescue.rounds + 1 := by
    simpa [Rescue.Permutation.default] using hf.keys
  simp only [Rescue.Permutation.eval, Rescue.prpWithRoundKeys] at hev
  rw [if_neg (by simpa using hk)]
  simp only [if_neg (show ¬ ((Rescue.Permutation.default K : Rescue.Permutation (ZMod Q)).roundKeys.length ≠
    2 * Rescue.rounds + 1) by simpa using hk)] at hev
  generalize (Rescue.Permutation.default K : Rescue.Permutation (ZMod Q)).roundKeys = keys at *
  cases keys with
  | nil => simp [Rescue.rounds] at hk
  | cons k0 ks =>
    have hne : ks ≠ [] := by rintro rfl; simp [Rescue.rounds] at hk
    have hev' : ∀ s, Rescue.roundLoop K (Rescue.Permutation.default K : Rescue.Permutation (ZMod Q)).rescuePrp.mds 0 ks
        (Rescue.addVec s k0) = f s := fun s => Option.some.inj (hev s)
    refine hbind hc.wf (addConstState_spec h hc hS k0) ?_
    intro T c1 e1 hT
    refine Spec.conseq e1.wf (constKeysNN_spec h hA hf.good _ ks (hc.ext e1) 0 hT) (fun h _ _ => h) ?_ ?_
    · intro U c' _ hU
      rwa [hev'] at hU
    · intro U w _ _ q1 q2 n N a hn hN hu
      have := q1.2 _ _ _ rfl hne (by omega) (by omega) (q2 n N a hu)
      rwa [hev'] at this

/-! ## The cipher -/

theorem linear_add (a k : Vec (ZMod Q)) (M : Mat (ZMod Q)) :
    Rescue.addVec (Rescue.linear a M Rescue.zeroVec) k = Rescue.linear a M k := by
  simp [Rescue.addVec, Rescue.linear, Rescue.zeroVec, Vec.zipWith]

theorem varKeysNN_spec (h : Par I Q k) {K : Consts} (hA : K.A = 11) (hg : Good Q K) (M : Mat (ZMod Q))
    (ks : List (NState p)) : ∀ {c : Circ p} (_ : Ctx H k c) (r : ℕ) {S : NState p} {a : Vec (ZMod Q)}
    {bs : List (Vec (ZMod Q))}, HolN H I a S c → List.Forall₂ (fun x b => HolN H I b x c) ks bs →
    Spec (varKeysNN K M r ks S) c H (fun R c' => HolN H I (Rescue.roundLoop K M r bs a) R.1 c')
      (fun R w => ∀ (n N : ℕ) (a : Vec (ZMod Q)) (bs : List (Vec (ZMod Q))), n ≤ 3 → N ≤ 16 → UnS I k n N w a S →
        List.Forall₂ (fun x b => EwS I w b x) ks bs → (∀ s ∈ R.2, ∀ i, (s.get i).Small I.mod w) →
        UnS I k 3 16 w (Rescue.roundLoop K M r bs a) R.1) := by
  induction ks with
  | nil =>
    intro c hc r S a bs hS hb
    cases hb
    exact Spec.pure hc.wf hS (fun w _ _ n N a bs hn hN hu hb _ => by cases hb; exact fun i => (hu i).mono hn hN)
  | cons x ks ih =>
    intro c hc r S a bs hS hb
    cases hb with
    | cons hx hb =>
    rename_i b bs
    unfold varKeysNN
    refine hbind hc.wf (roundNN_spec h hc hA hg hS M r Rescue.zeroVec) ?_
    intro T c1 e1 hT
    have hc1 := hc.ext e1
    refine hbind e1.wf (addStateNN_spec h hc1 hT (hx.ext e1)) ?_
    intro U c2 e2 hU
    rw [linear_add] at hU
    refine hbind e2.wf (ih (hc1.ext e2) (r + 1) hU (hb.imp fun _ _ g => (g.ext e1).ext e2)) ?_
    intro R c3 e3 hR
    refine Spec.pure e3.wf hR ?_
    intro w _ _ q3 q2 q1 n N a bs hn hN hu hb hs
    cases hb with
    | cons h1 hb =>
    have g1 := q1 n N a hn hN hu (by
      by_cases hr : r % 2 = 0
      · exact Or.inl hr
      · rw [if_neg hr] at hs
        exact Or.inr (hs S.s List.mem_cons_self))
    have g2 := q2 0 1 0 1 _ _ g1.un h1.un
    rw [linear_add] at g2
    exact q3 _ _ _ _ (by omega) (by omega) g2 hb (fun s hm => hs s (by split_ifs; exacts [hm, List.mem_cons_of_mem _ hm]))

theorem scheduleNN_spec (h : Par I Q k) {K : Consts} (hA : K.A = 11) (hg : Good Q K) (M : Mat (ZMod Q))
    (ks : List (Vec (ZMod Q))) : ∀ {c : Circ p} (_ : Ctx H k c) (r : ℕ) {S : NState p} {a : Vec (ZMod Q)}, HolN H I a S c →
    Spec (scheduleNN K M r ks S) c H
      (fun R c' => List.Forall₂ (fun x b => HolN H I b x c') R (Rescue.scheduleLoop K M r ks a))
      (fun R w => (∀ a : Vec (ZMod Q), EwS I w a S →
          List.Forall₂ (fun x b => EwS I w b x) R (Rescue.scheduleLoop K M r ks a)) ∧
        ∀ (n N : ℕ) (a : Vec (ZMod Q)), r % 2 = 0 → n ≤ 3 → N ≤ 16 → UnS I k n N w a S →
          List.Forall₂ (fun x b => EwS I w b x) R (Rescue.scheduleLoop K M r ks a)) := by
  induction ks with
  | nil =>
    intro c hc r S a hS
    exact Spec.pure hc.wf .nil (fun w _ _ => ⟨fun a _ => .nil, fun n N a _ _ _ _ => .nil⟩)
  | cons b ks ih =>
    intro c hc r S a hS
    unfold scheduleNN
    refine hbind hc.wf (roundNN_spec h hc hA hg hS M r b) ?_
    intro T c1 e1 hT
    refine hbind e1.wf (ih (hc.ext e1) (r + 1) hT) ?_
    intro R c2 e2 hR
    refine Spec.pure e2.wf (.cons (hT.ext e2) hR) ?_
    intro w _ _ q2 q1
    have key : ∀ a, EwS I w (Rescue.linear (Rescue.powVec a (Rescue.expOf K r)) M b) T →
        List.Forall₂ (fun x b => EwS I w b x) (T :: R) (Rescue.scheduleLoop K M r (b :: ks) a) :=
      fun a g => .cons g (q2.1 _ g)
    exact ⟨fun a ha => key a (q1 0 1 a (by omega) (by omega) ha.un (Or.inr ha.small)),
      fun n N a hr hn hN hu => key a (q1 n N a hn hN hu (Or.inl hr))⟩

/-- the cipher; `R.2`: the states that enter odd rounds -/
theorem prpNN_spec (h : Par I Q k) {c : Circ p} (hc : Ctx H k c) {K : Consts} (hA : K.A = 11) (hg : Good Q K)
    (hk : K.keyInjection.length = 2 * Rescue.rounds) {key S : NState p} {a b : Vec (ZMod Q)} (hK : HolN H I b key c)
    (hS : HolN H I a S c) :
    Spec (prpNN Q K key S) c H (fun R c' => ∃ v, Rescue.prp K (PRP.default K) b a = some v ∧ HolN H I v R.1 c')
      (fun R w => ∀ b a : Vec (ZMod Q), EwS I w b key → EwS I w a S → (∀ s ∈ R.2, ∀ i, (s.get i).Small I.mod w) →
        ∃ v, Rescue.prp K (PRP.default K) b a = some v ∧ UnS I k 3 16 w v R.1) := by
  have hk' : (PRP.default K : PRP (ZMod Q)).keyInjection.length = 2 * Rescue.rounds := by
    simpa [PRP.default] using hk
  have hsl : ∀ (M : Mat (ZMod Q)) (ks : List (Vec (ZMod Q))) (r : ℕ) (a : Vec (ZMod Q)),
      (Rescue.scheduleLoop K M r ks a).length = ks.length := by
    intro M ks
    induction ks with
    | nil => intro r a; rfl
    | cons b ks ih => intro r a; simp [Rescue.scheduleLoop, ih]
  have hev : ∀ b a : Vec (ZMod Q), Rescue.prp K (PRP.default K) b a = some (Rescue.roundLoop K (PRP.default K).mds 0
      (Rescue.scheduleLoop K (PRP.default K).mds 0 (PRP.default K).keyInjection (Rescue.addVec b (PRP.default K).initVec))
      (Rescue.addVec a (Rescue.addVec b (PRP.default K).initVec))) := by
    intro b a
    simp only [Rescue.prp, Rescue.keySchedule, hk', lt_irrefl, if_false]
    rw [List.take_of_length_le (le_of_eq hk')]
    unfold Rescue.prpWithRoundKeys
    rw [if_neg (by simp [hsl, hk'])]
  unfold prpNN keyScheduleNN
  rw [build_bind_assoc]
  refine hbind hc.wf (addConstState_spec h hc hK (PRP.default K).initVec) ?_
  intro T c1 e1 hT
  have hc1 := hc.ext e1
  rw [build_bind_assoc]
  refine hbind e1.wf (scheduleNN_spec h hA hg _ _ hc1 0 hT) ?_
  intro R c2 e2 hR
  have hc2 := hc1.ext e2
  rw [build_pure_bind]
  unfold prpWithKeysNN
  rw [if_neg (by simp [hR.length_eq, hsl, hk'])]
  refine hbind e2.wf (addStateNN_spec h hc2 (hS.ext (e1.trans e2)) (hT.ext e2)) ?_
  intro U c3 e3 hU
  refine Spec.conseq e3.wf (varKeysNN_spec h hA hg _ R (hc2.ext e3) 0 hU (hR.imp fun _ _ g => g.ext e3))
    (fun h _ _ => h) ?_ ?_
  · intro V c' _ hV
    exact ⟨_, hev b a, hV⟩
  · intro V w _ _ q4 q3 q2 q1 b a hb ha hs
    refine ⟨_, hev b a, ?_⟩
    have g1 := q1 0 1 b hb.un
    have g2 := q2.2 _ _ _ rfl (by omega) (by omega) g1
    have g3 := q3 _ _ _ _ a _ ha.un g1
    exact q4 _ _ _ _ (by omega) (by omega) g3 g2 hs

/-! ## The sponges -/

theorem zeroAt_hol (h : Par I Q k) {c : Circ p} (hc : Ctx H k c) : Hol H I.mod (0 : ZMod Q) (zeroAt I.mod.m I.mod.tpm) c := by
  have h2 := hc.wf.two
  refine ⟨⟨by show 0 < c.numVars; omega, by show 0 < c.numVars; omega⟩, ⟨rfl, rfl⟩, fun hH => ?_⟩
  have := (hc.zo hH).1
  refine ⟨?_, ?_⟩
  · show (c.val 0).val = _
    rw [this]; simp
  · show (c.val 0).val = _
    rw [this]; simp

theorem zeroAt_ew (h : Par I Q k) {w : ℕ → ZMod p} (hz : w 0 = 0) : Ew I.mod w (0 : ZMod Q) (zeroAt I.mod.m I.mod.tpm) := by
  refine ⟨⟨?_, ?_⟩, ?_⟩
  · show (w 0).val < _
    rw [hz]; simp
  · show (w 0).val < _
    rw [hz]; simp
  · unfold El FpElemVar.num
    show (((w 0).val + 2 ^ I.mod.m * (w 0).val : ℕ) : ZMod Q) = 0
    rw [hz]; simp

theorem oneAt_eq (h : Par I Q k) : oneAt I.mod.m I.mod.tpm = oneElem I := by
  unfold oneAt oneElem
  rw [h.m, h.tpm]
  rfl

theorem get_mk {α : Type} {P : Fin 4 → α → Prop} {a b c d : α} (h0 : P 0 a) (h1 : P 1 b) (h2 : P 2 c) (h3 : P 3 d) (i : Fin 4) :
    P i ((⟨a, b, c, d⟩ : Vec α).get i) := by
  fin_cases i
  exacts [h0, h1, h2, h3]

theorem holN_mk {a b c d : ZMod Q} {x y z t : FpElemVar p} {C : Circ p} (h0 : Hol H I.mod a x C) (h1 : Hol H I.mod b y C)
    (h2 : Hol H I.mod c z C) (h3 : Hol H I.mod d t C) : HolN H I ⟨a, b, c, d⟩ ⟨⟨x, y, z, t⟩, I.mod⟩ C := by
  refine ⟨fun i => ?_, rfl⟩
  fin_cases i
  exacts [h0, h1, h2, h3]

theorem ewS_mk {a b c d : ZMod Q} {x y z t : FpElemVar p} {q : FpElem p} {w : ℕ → ZMod p} (h0 : Ew I.mod w a x)
    (h1 : Ew I.mod w b y) (h2 : Ew I.mod w c z) (h3 : Ew I.mod w d t) : EwS I w ⟨a, b, c, d⟩ ⟨⟨x, y, z, t⟩, q⟩ := by
  intro i
  fin_cases i
  exacts [h0, h1, h2, h3]

section hash

variable {K : Consts} {f : Vec (ZMod Q) → Vec (ZMod Q)}

/-- add a block, then the permutation -/
theorem step_spec (h : Par I Q k) {c : Circ p} (hc : Ctx H k c) (hA : K.A = 11) (hf : HashOk K f) {S T : NState p}
    {a b : Vec (ZMod Q)} (hS : HolN H I a S c) (hT : HolN H I b T c) {g : NState p → Build p β}
    {B : β → Circ p → Prop} {R : β → (ℕ → ZMod p) → Prop}
    (h2 : ∀ U c1, Ext c c1 → HolN H I (f (Rescue.addVec a b)) U c1 → Spec (g U) c1 H B (fun u w =>
      (∀ a b : Vec (ZMod Q), EwS I w a S → EwS I w b T → EwS I w (f (Rescue.addVec a b)) U) → R u w)) :
    Spec (addStateNN S T >>= fun V => permNN Q K V >>= g) c H B R := by
  refine hbind hc.wf (addStateNN_spec h hc hS hT) ?_
  intro V c1 e1 hV
  refine hbind e1.wf (permNN_spec h (hc.ext e1) hA hf hV) ?_
  intro U c2 e2 hU
  refine Spec.conseq e2.wf (h2 U c2 (e1.trans e2) hU) (fun h _ _ => h) (fun _ _ _ g => g) ?_
  intro u w _ _ q q2 q1
  exact q fun a b ha hb => q2 _ _ _ (by omega) (by omega) (q1 0 1 0 1 a b ha.un hb.un)

theorem absorbNN_spec (h : Par I Q k) (hA : K.A = 11) (hf : HashOk K f) : ∀ (n : ℕ) (data : List (FpElemVar p)),
    data.length = n * 3 → ∀ {c : Circ p} (_ : Ctx H k c) {S : NState p} {a : Vec (ZMod Q)} {as : List (ZMod Q)},
    HolN H I a S c → List.Forall₂ (fun x a => Hol H I.mod a x c) data as →
    Spec (absorbNN Q K I.mod (zeroAt I.mod.m I.mod.tpm) data S) c H
      (fun T c' => HolN H I (Rescue.absorb f 3 a as) T c')
      (fun T w => ∀ (a : Vec (ZMod Q)) (as : List (ZMod Q)), EwS I w a S →
        List.Forall₂ (fun x a => Ew I.mod w a x) data as → EwS I w (Rescue.absorb f 3 a as) T) := by
  intro n
  induction n with
  | zero =>
    intro data hd c hc S a as hS hda
    have : data = [] := List.length_eq_zero_iff.1 (by omega)
    subst this
    cases hda
    exact Spec.pure hc.wf hS (fun w _ _ a as ha h => by cases h; exact ha)
  | succ n ih =>
    intro data hd c hc S a as hS hda
    obtain _ | ⟨x, _ | ⟨y, _ | ⟨z, rest⟩⟩⟩ := data <;> simp only [List.length_cons, List.length_nil] at hd
    · omega
    · omega
    · omega
    cases hda with
    | cons hx hda =>
    cases hda with
    | cons hy hda =>
    cases hda with
    | cons hz hda =>
    have hstep : ∀ (a : Vec (ZMod Q)) (a1 a2 a3 : ZMod Q) (as : List (ZMod Q)), rest.length = as.length →
        Rescue.absorb f 3 a (a1 :: a2 :: a3 :: as) = Rescue.absorb f 3 (f (Rescue.addVec a ⟨a1, a2, a3, 0⟩)) as := by
      intro a a1 a2 a3 as hl
      rw [Rescue.absorb_step f (by norm_num) a (by simp)]
      simp [Rescue.addVec, Vec.zipWith, Rescue.addElems]
    unfold absorbNN
    refine step_spec h hc hA hf hS (holN_mk hx hy hz (zeroAt_hol h hc)) ?_
    intro U c1 e1 hU
    refine Spec.conseq e1.wf (ih rest (by omega) (hc.ext e1) hU (hda.imp fun _ _ g => g.ext e1)) (fun h _ _ => h) ?_ ?_
    · intro T c' _ hT
      rwa [hstep _ _ _ _ _ hda.length_eq]
    · intro T w h0 _ q q1 a as ha has
      cases has with
      | cons gx has =>
      cases has with
      | cons gy has =>
      cases has with
      | cons gz has =>
      rw [hstep _ _ _ _ _ has.length_eq]
      exact q _ _ (q1 _ _ ha (ewS_mk gx gy gz (zeroAt_ew h h0))) has

theorem elems_take {P : FpElemVar p → ZMod Q → Prop} {s : Vec (FpElemVar p)} {a : Vec (ZMod Q)}
    (h : ∀ i, P (s.get i) (a.get i)) (j : ℕ) : List.Forall₂ P (s.elems.take j) (a.elems.take j) := by
  have : List.Forall₂ P s.elems a.elems := .cons (h 0) (.cons (h 1) (.cons (h 2) (.cons (h 3) .nil)))
  exact List.forall₂_take j this

theorem squeezeNN_spec (h : Par I Q k) (hA : K.A = 11) (hf : HashOk K f) : ∀ (fuel : ℕ) {c : Circ p} (_ : Ctx H k c)
    {S : NState p} {a : Vec (ZMod Q)} (_ : HolN H I a S c) (n : ℕ),
    Spec (squeezeNN Q K fuel S n) c H
      (fun R c' => List.Forall₂ (fun x b => Hol H I.mod b x c') R (Rescue.squeezeAux f 3 fuel a n).1)
      (fun R w => ∀ a : Vec (ZMod Q), EwS I w a S →
        List.Forall₂ (fun x b => Ew I.mod w b x) R (Rescue.squeezeAux f 3 fuel a n).1) := by
  intro fuel
  induction fuel with
  | zero =>
    intro c hc S a hS n
    exact Spec.pure hc.wf .nil (fun w _ _ a _ => .nil)
  | succ fuel ih =>
    intro c hc S a hS n
    unfold squeezeNN
    by_cases hn : n - min n 3 = 0
    · simp only [hn, if_true, Rescue.squeezeAux]
      exact Spec.pure hc.wf (elems_take hS.s _) (fun w _ _ a ha => elems_take (P := fun x b => Ew I.mod w b x) ha _)
    · simp only [hn, if_false, Rescue.squeezeAux]
      refine hbind hc.wf (permNN_spec h hc hA hf hS) ?_
      intro T c1 e1 hT
      refine hbind e1.wf (ih (hc.ext e1) hT (n - min n 3)) ?_
      intro R c2 e2 hR
      refine Spec.pure e2.wf ?_ ?_
      · exact List.rel_append (elems_take (fun i => (hS.s i).ext (e1.trans e2)) _) hR
      · intro w _ _ q2 q1 a ha
        exact List.rel_append (elems_take (P := fun x b => Ew I.mod w b x) ha _) (q2 _ (q1 0 1 a (by omega) (by omega) ha.un))

theorem spongeNN_spec (h : Par I Q k) {c : Circ p} (hc : Ctx H k c) (hA : K.A = 11) (hf : HashOk K f)
    {data : List (FpElemVar p)} {as : List (ZMod Q)} (hd : List.Forall₂ (fun x a => Hol H I.mod a x c) data as) (num : ℕ)
    (hl : H → data ≠ [] ∧ data.length % 3 = 0) :
    Spec (spongeNN Q K data num) c H
      (fun R c' => ∃ r, Rescue.spongeNoPadding f as num = .ok r ∧ List.Forall₂ (fun x b => Hol H I.mod b x c') R r)
      (fun R w => ∀ as : List (ZMod Q), List.Forall₂ (fun x a => Ew I.mod w a x) data as →
        ∃ r, Rescue.spongeNoPadding f as num = .ok r ∧ List.Forall₂ (fun x b => Ew I.mod w b x) R r) := by
  have hfail : data.length < 3 → ¬ H := by
    intro hlt hH
    have h1 := hl hH
    have : 0 < data.length := List.length_pos_iff.2 h1.1
    omega
  obtain _ | ⟨x, _ | ⟨y, _ | ⟨z, rest⟩⟩⟩ := data
  · exact Spec.fail (hfail (by simp))
  · exact Spec.fail (hfail (by simp))
  · exact Spec.fail (hfail (by simp))
  simp only [spongeNN]
  refine Spec.guard (fun hH => ?_) fun hr => ?_
  · have := (hl hH).2
    simp only [List.length_cons] at this
    omega
  have hr' : rest.length % 3 = 0 := by omega
  cases hd with
  | cons hx hd =>
  cases hd with
  | cons hy hd =>
  cases hd with
  | cons hz hd =>
  refine Spec.liftE_bind (modulus_new h hx.2.1) ?_
  rw [hx.2.1.1, hx.2.1.2]
  have hev : ∀ (a1 a2 a3 : ZMod Q) (as : List (ZMod Q)), rest.length = as.length →
      Rescue.spongeNoPadding f (a1 :: a2 :: a3 :: as) num =
        .ok (Rescue.squeezeAux f 3 (num + 1) (Rescue.absorb f 3 (f ⟨a1, a2, a3, 0⟩) as) num).1 := by
    intro a1 a2 a3 as hl
    unfold Rescue.spongeNoPadding Rescue.squeeze Rescue.crhfRate
    rw [if_neg (by simp; omega), Rescue.absorb_step f (by norm_num) Rescue.zeroVec (by simp)]
    simp [Rescue.addElems, Rescue.zeroVec]
  refine hbind hc.wf (permNN_spec h hc hA hf (holN_mk hx hy hz (zeroAt_hol h hc))) ?_
  intro T c1 e1 hT
  have hc1 := hc.ext e1
  refine hbind e1.wf (absorbNN_spec h hA hf (rest.length / 3) rest (by omega) hc1 hT (hd.imp fun _ _ g => g.ext e1)) ?_
  intro U c2 e2 hU
  refine Spec.conseq e2.wf (squeezeNN_spec h hA hf (num + 1) (hc1.ext e2) hU num) (fun h _ _ => h) ?_ ?_
  · intro R c' _ hR
    exact ⟨_, hev _ _ _ _ hd.length_eq, hR⟩
  · intro R w h0 _ q3 q2 q1 as has
    cases has with
    | cons gx has =>
    cases has with
    | cons gy has =>
    cases has with
    | cons gz has =>
    refine ⟨_, hev _ _ _ _ has.length_eq, ?_⟩
    exact q3 _ (q2 _ _ (q1 0 1 _ (by omega) (by omega) (ewS_mk gx gy gz (zeroAt_ew h h0)).un) has)

theorem forall₂_replicate {α β : Type} {P : α → β → Prop} {x : α} {y : β} (h : P x y) (n : ℕ) :
    List.Forall₂ P (List.replicate n x) (List.replicate n y) := by
  induction n with
  | zero => exact .nil
  | succ n ih => exact .cons h ih

theorem spongePadNN_spec (h : Par I Q k) {c : Circ p} (hc : Ctx H k c) (hA : K.A = 11) (hf : HashOk K f)
    {data : List (FpElemVar p)} {as : List (ZMod Q)} (hd : List.Forall₂ (fun x a => Hol H I.mod a x c) data as) (num : ℕ)
    (hl : H → data ≠ []) :
    Spec (spongePadNN Q K data num) c H
      (fun R c' => ∃ r, Rescue.spongeWithBitPadding f as num = .ok r ∧ List.Forall₂ (fun x b => Hol H I.mod b x c') R r)
      (fun R w => ∀ as : List (ZMod Q), List.Forall₂ (fun x a => Ew I.mod w a x) data as →
        ∃ r, Rescue.spongeWithBitPadding f as num = .ok r ∧ List.Forall₂ (fun x b => Ew I.mod w b x) R r) := by
  cases data with
  | nil => exact Spec.fail fun hH => hl hH rfl
  | cons x rest =>
  have hx : ∃ a : ZMod Q, Hol H I.mod a x c := by
    cases hd with
    | cons hx _ => exact ⟨_, hx⟩
  obtain ⟨a0, hx⟩ := hx
  simp only [spongePadNN]
  rw [hx.2.1.1, hx.2.1.2]
  generalize hdata : x :: rest = data at *
  have hlen := Rescue.lenToNextMultiple_mod (data.length + 1) 3 (by norm_num)
  have hle := Rescue.le_lenToNextMultiple (data.length + 1) 3 (by norm_num)
  have hpad : ∀ as : List (ZMod Q), data.length = as.length → Rescue.bitPad as = as ++ [1] ++ List.replicate
        (Rescue.lenToNextMultiple (data.length + 1) 3 - data.length - 1) 0 := by
    intro as hl
    rw [Rescue.bitPad, Rescue.padWithZeros_eq _ (by norm_num [Rescue.crhfRate])]
    simp [Rescue.crhfRate, Nat.sub_sub, hl]
  have hd' := List.rel_append (List.rel_append hd (List.Forall₂.cons (by rw [oneAt_eq h]; exact one_hol h hc) .nil :
    List.Forall₂ (fun x a => Hol H I.mod a x c) [oneAt I.mod.m I.mod.tpm] [(1 : ZMod Q)]))
    (forall₂_replicate (P := fun x a => Hol H I.mod a x c) (zeroAt_hol (Q := Q) h hc)
      (Rescue.lenToNextMultiple (data.length + 1) 3 - data.length - 1))
  refine Spec.conseq hc.wf (spongeNN_spec h hc hA hf hd' num (fun hH => ⟨by simp, ?_⟩)) (fun h _ _ => h) ?_ ?_
  · simp only [List.length_append, List.length_cons, List.length_nil, List.length_replicate]
    omega
  · rintro R c' _ ⟨r, hr, hR⟩
    refine ⟨r, ?_, hR⟩
    rw [Rescue.spongeWithBitPadding, hpad _ hd.length_eq, hr, Rescue.expect]
  · intro R w h0 h1 q as has
    obtain ⟨r, hr, hR⟩ := q _ (List.rel_append (List.rel_append has
      (List.Forall₂.cons (by rw [oneAt_eq h]; exact one_ew h h0 h1) .nil :
        List.Forall₂ (fun x a => Ew I.mod w a x) [oneAt I.mod.m I.mod.tpm] [(1 : ZMod Q)]))
      (forall₂_replicate (P := fun x a => Ew I.mod w a x) (zeroAt_ew (Q := Q) h h0)
        (Rescue.lenToNextMultiple (data.length + 1) 3 - data.length - 1)))
    refine ⟨r, ?_, hR⟩
    rw [Rescue.spongeWithBitPadding, hpad _ has.length_eq, hr, Rescue.expect]

theorem keyedLoopNN_spec (h : Par I Q k) (hA : K.A = 11) (hf : HashOk K f) : ∀ (n : ℕ) (data : List (FpElemVar p)),
    data.length = n * 4 → ∀ {c : Circ p} (_ : Ctx H k c) {S : NState p} {a : Vec (ZMod Q)} {as : List (ZMod Q)},
    HolN H I a S c → List.Forall₂ (fun x a => Hol H I.mod a x c) data as →
    Spec (keyedLoopNN Q K I.mod data S) c H
      (fun T c' => HolN H I (Rescue.absorb f 4 a as) T c')
      (fun T w => ∀ (a : Vec (ZMod Q)) (as : List (ZMod Q)), EwS I w a S →
        List.Forall₂ (fun x a => Ew I.mod w a x) data as → EwS I w (Rescue.absorb f 4 a as) T) := by
  intro n
  induction n with
  | zero =>
    intro data hd c hc S a as hS hda
    have : data = [] := List.length_eq_zero_iff.1 (by omega)
    subst this
    cases hda
    exact Spec.pure hc.wf hS (fun w _ _ a as ha h => by cases h; exact ha)
  | succ n ih =>
    intro data hd c hc S a as hS hda
    obtain _ | ⟨x, _ | ⟨y, _ | ⟨z, _ | ⟨t, rest⟩⟩⟩⟩ := data <;> simp only [List.length_cons, List.length_nil] at hd
    · omega
    · omega
    · omega
    · omega
    cases hda with
    | cons hx hda =>
    cases hda with
    | cons hy hda =>
    cases hda with
    | cons hz hda =>
    cases hda with
    | cons ht hda =>
    have hstep : ∀ (a : Vec (ZMod Q)) (a1 a2 a3 a4 : ZMod Q) (as : List (ZMod Q)), rest.length = as.length →
        Rescue.absorb f 4 a (a1 :: a2 :: a3 :: a4 :: as) =
          Rescue.absorb f 4 (f (Rescue.addVec a ⟨a1, a2, a3, a4⟩)) as := by
      intro a a1 a2 a3 a4 as hl
      rw [Rescue.absorb_step f (by norm_num) a (by simp)]
      simp [Rescue.addVec, Vec.zipWith, Rescue.addElems]
    unfold keyedLoopNN
    refine step_spec h hc hA hf hS (holN_mk hx hy hz ht) ?_
    intro U c1 e1 hU
    refine Spec.conseq e1.wf (ih rest (by omega) (hc.ext e1) hU (hda.imp fun _ _ g => g.ext e1)) (fun h _ _ => h) ?_ ?_
    · intro T c' _ hT
      rwa [hstep _ _ _ _ _ _ hda.length_eq]
    · intro T w h0 _ q q1 a as ha has
      cases has with
      | cons gx has =>
      cases has with
      | cons gy has =>
      cases has with
      | cons gz has =>
      cases has with
      | cons gt has =>
      rw [hstep _ _ _ _ _ _ has.length_eq]
      exact q _ _ (q1 _ _ ha (ewS_mk gx gy gz gt)) has

theorem keyedNN_spec (h : Par I Q k) {c : Circ p} (hc : Ctx H k c) (hA : K.A = 11) (hf : HashOk K f)
    {key : FpElemVar p} {b : ZMod Q} (hk : Hol H I.mod b key c)
    {data : List (FpElemVar p)} {as : List (ZMod Q)} (hd : List.Forall₂ (fun x a => Hol H I.mod a x c) data as)
    (hl : H → data ≠ [] ∧ data.length % 4 = 0) :
    Spec (keyedNN Q K key data) c H
      (fun v c' => ∃ r, Rescue.fsksNoPadding f b as 1 = .ok [r] ∧ Hol H I.mod r v c')
      (fun v w => ∀ (b : ZMod Q) (as : List (ZMod Q)), Ew I.mod w b key → List.Forall₂ (fun x a => Ew I.mod w a x) data as →
        ∃ r, Rescue.fsksNoPadding f b as 1 = .ok [r] ∧ Ew I.mod w r v) := by
  cases data with
  | nil => exact Spec.fail fun hH => (hl hH).1 rfl
  | cons x rest =>
  have hx : ∃ a : ZMod Q, Hol H I.mod a x c := by
    cases hd with
    | cons hx _ => exact ⟨_, hx⟩
  obtain ⟨a0, hx⟩ := hx
  simp only [keyedNN]
  refine Spec.guard (fun hH => by simpa using (hl hH).2) fun hr => ?_
  have hr' : (x :: rest).length % 4 = 0 := by omega
  refine Spec.liftE_bind (modulus_new h hx.2.1) ?_
  rw [hx.2.1.1, hx.2.1.2]
  generalize x :: rest = data at *
  have hev : ∀ (b : ZMod Q) (as : List (ZMod Q)), data.length = as.length →
      Rescue.fsksNoPadding f b as 1 = .ok [(Rescue.absorb f 4 ⟨0, 0, 0, b⟩ as).a] := by
    intro b as hl
    unfold Rescue.fsksNoPadding Rescue.squeeze Rescue.stateSize
    rw [if_neg (by rw [← hl]; simpa using hr')]
    rfl
  have hz := zeroAt_hol (Q := Q) h hc
  refine hbind hc.wf (keyedLoopNN_spec h hA hf (data.length / 4) data (by omega) hc (holN_mk hz hz hz hk) hd) ?_
  intro T c1 e1 hT
  refine Spec.pure e1.wf ⟨_, hev _ _ hd.length_eq, hT.s 0⟩ ?_
  intro w h0 _ q b as hb has
  have gz := zeroAt_ew (Q := Q) h h0
  exact ⟨_, hev _ _ has.length_eq, q _ _ (ewS_mk gz gz gz hb) has 0⟩

theorem keyedPadNN_spec (h : Par I Q k) {c : Circ p} (hc : Ctx H k c) (hA : K.A = 11) (hf : HashOk K f)
    {key : FpElemVar p} {b : ZMod Q} (hk : Hol H I.mod b key c)
    {data : List (FpElemVar p)} {as : List (ZMod Q)} (hd : List.Forall₂ (fun x a => Hol H I.mod a x c) data as)
    (hl : H → data ≠ []) :
    Spec (keyedPadNN Q K key data) c H
      (fun v c' => ∃ r, Rescue.fsksZeroPadding f b as 1 = .ok [r] ∧ Hol H I.mod r v c')
      (fun v w => ∀ (b : ZMod Q) (as : List (ZMod Q)), Ew I.mod w b key → List.Forall₂ (fun x a => Ew I.mod w a x) data as →
        ∃ r, Rescue.fsksZeroPadding f b as 1 = .ok [r] ∧ Ew I.mod w r v) := by
  cases data with
  | nil => exact Spec.fail fun hH => hl hH rfl
  | cons x rest =>
  have hx : ∃ a : ZMod Q, Hol H I.mod a x c := by
    cases hd with
    | cons hx _ => exact ⟨_, hx⟩
  obtain ⟨a0, hx⟩ := hx
  simp only [keyedPadNN]
  rw [hx.2.1.1, hx.2.1.2]
  generalize hdata : x :: rest = data at *
  have hlen := Rescue.lenToNextMultiple_mod data.length 4 (by norm_num)
  have hle := Rescue.le_lenToNextMultiple data.length 4 (by norm_num)
  have hpad : ∀ as : List (ZMod Q), data.length = as.length → Rescue.padWithZeros as Rescue.stateSize = as ++ List.replicate
        (Rescue.lenToNextMultiple data.length 4 - data.length) 0 := by
    intro as hl
    rw [Rescue.padWithZeros_eq _ (by norm_num [Rescue.stateSize])]
    simp [Rescue.stateSize, hl]
  have hd' := List.rel_append hd (forall₂_replicate (P := fun x a => Hol H I.mod a x c) (zeroAt_hol (Q := Q) h hc)
      (Rescue.lenToNextMultiple data.length 4 - data.length))
  refine Spec.conseq hc.wf (keyedNN_spec h hc hA hf hk hd' (fun hH => ⟨?_, ?_⟩)) (fun h _ _ => h) ?_ ?_
  · rw [← hdata]; simp
  · simp only [List.length_append, List.length_replicate]
    omega
  · rintro v c' _ ⟨r, hr, hv⟩
    refine ⟨r, ?_, hv⟩
    rw [Rescue.fsksZeroPadding, hpad _ hd.length_eq, hr]
  · intro v w h0 h1 q b as hb has
    obtain ⟨r, hr, hv⟩ := q b _ hb (List.rel_append has
      (forall₂_replicate (P := fun x a => Ew I.mod w a x) (zeroAt_ew (Q := Q) h h0)
        (Rescue.lenToNextMultiple data.length 4 - data.length)))
    refine ⟨r, ?_, hv⟩
    rw [Rescue.fsksZeroPadding, hpad _ has.length_eq, hr]

end hash

end Verif.Circuit.RescueNN
